import Verif.Bem.SelfProps
import Verif.Post.VtkProps

/-!
# C131: the coefficients under rotation and scaling; C132: the system of boundary elements
-/

set_option linter.unusedSectionVars false
set_option autoImplicit false

namespace ENigMA
namespace Bem
open Quality

/-! ### Specification -/

/-- A rotation of space: linear, and it keeps scalar and vector products. -/
structure Rotation (R : Vec3 ℝ → Vec3 ℝ) : Prop where
  add : ∀ u v, R (u + v) = R u + R v
  smul : ∀ (k : ℝ) v, R (k • v) = k • R v
  dot : ∀ u v, (R u).dot (R v) = u.dot v
  cross : ∀ u v, Vec3.cross (R u) (R v) = R (Vec3.cross u v)

/-- A triangle after a rotation and a scaling. -/
noncomputable def moved (R : Vec3 ℝ → Vec3 ℝ) (s : ℝ) (t : Tri ℝ) : Tri ℝ := ⟨s • R t.v0, s • R t.v1, s • R t.v2⟩

/-- The left hand side minus the right hand side of the equation of element `i`, for triangles `T 0`, ..., `T (n - 1)` with the values `x`, of which those in `fixed` are held at a given value by a layer: the double layer with half of the
value at `i` taken off, and the single layer with the flux of the layer. -/
noncomputable def residual (h g : Nat → Nat → ℝ) (area : Nat → ℝ) (fixed : Nat → Option ℝ) (n : Nat) (x : Nat → ℝ) (i : Nat) : ℝ :=
  ((List.range n).map fun j => h i j * x j).sum - x i / 2 -
    ((List.range n).map fun j => match fixed j with
      | some v => g i j / area j * (x j - v)
      | none => 0).sum

/-! ### Rotation and scaling -/

theorem Rotation.sub {R : Vec3 ℝ → Vec3 ℝ} (h : Rotation R) (u v : Vec3 ℝ) : R (u - v) = R u - R v := by
  have h1 : u - v = u + (-1 : ℝ) • v := by ext <;> simp <;> ring
  have h2 : R u - R v = R u + (-1 : ℝ) • R v := by ext <;> simp <;> ring
  rw [h1, h2, h.add, h.smul]

theorem Rotation.normSq {R : Vec3 ℝ → Vec3 ℝ} (h : Rotation R) (v : Vec3 ℝ) : (R v).normSq = v.normSq := h.dot v v

theorem Rotation.norm {R : Vec3 ℝ → Vec3 ℝ} (h : Rotation R) (v : Vec3 ℝ) : realNorm (R v) = realNorm v := by unfold realNorm; rw [h.normSq]

theorem smul_sub' (s : ℝ) (u v : Vec3 ℝ) : s • u - s • v = s • (u - v) := by ext <;> simp <;> ring

theorem cross_smul (s k : ℝ) (u v : Vec3 ℝ) : Vec3.cross (s • u) (k • v) = (s * k) • Vec3.cross u v := by ext <;> simp <;> ring

theorem smul_smul' (s k : ℝ) (u : Vec3 ℝ) : s • k • u = (s * k) • u := by ext <;> simp <;> ring

theorem dot_smul (s : ℝ) (u v : Vec3 ℝ) : (s • u).dot v = s * u.dot v := by simp [Vec3.dot]; ring

theorem normSq_smul (s : ℝ) (u : Vec3 ℝ) : (s • u).normSq = s ^ 2 * u.normSq := by simp [Vec3.normSq, Vec3.dot]; ring

variable {R : Vec3 ℝ → Vec3 ℝ} {s : ℝ}

theorem moved_raw (h : Rotation R) (t : Tri ℝ) : (moved R s t).rawNormal = (s * s) • R t.rawNormal := by
  simp only [Tri.rawNormal, moved, smul_sub', cross_smul, ← h.sub, h.cross]

theorem moved_area (h : Rotation R) (hs : 0 < s) (t : Tri ℝ) : ((moved R s t).normalArea realNorm).2 = s ^ 2 * (t.normalArea realNorm).2 := by
  simp only [Tri.normalArea, moved_raw h, realNorm_smul, h.norm, abs_of_pos (mul_pos hs hs)]; ring

theorem moved_normal (h : Rotation R) (hs : 0 < s) (t : Tri ℝ) (hne : 0 < realNorm t.rawNormal) : (moved R s t).normal realNorm = R (t.normal realNorm) := by
  have hss := mul_pos hs hs
  simp only [Tri.normal, Tri.normalArea, moved_raw h, realNorm_smul, h.norm, abs_of_pos hss]
  rw [if_pos (by positivity), if_pos (by positivity), smul_smul', h.smul]
  congr 1
  field_simp

theorem moved_centroid (h : Rotation R) (t : Tri ℝ) : (moved R s t).centroid = s • R t.centroid := by
  simp only [Tri.centroid, moved, h.smul, h.add]
  ext <;> simp <;> ring

theorem moved_points (h : Rotation R) (n : Nat) (t : Tri ℝ) :
    Gauss.bemPoints n (moved R s t).v0 (moved R s t).v1 (moved R s t).v2 = (Gauss.bemPoints n t.v0 t.v1 t.v2).map fun p => (s • R p.1, p.2) := by
  simp only [Gauss.bemPoints, List.map_map]
  refine List.map_congr_left fun r _ => ?_
  simp only [Function.comp, Prod.mk.injEq, and_true]
  have e : (⟨(r.1 : ℝ) * t.v0.x + (r.2.1 : ℝ) * t.v1.x + (r.2.2.1 : ℝ) * t.v2.x, (r.1 : ℝ) * t.v0.y + (r.2.1 : ℝ) * t.v1.y + (r.2.2.1 : ℝ) * t.v2.y,
      (r.1 : ℝ) * t.v0.z + (r.2.1 : ℝ) * t.v1.z + (r.2.2.1 : ℝ) * t.v2.z⟩ : Vec3 ℝ) = (r.1 : ℝ) • t.v0 + (r.2.1 : ℝ) • t.v1 + (r.2.2.1 : ℝ) • t.v2 := by ext <;> simp
  rw [e, h.add, h.add, h.smul, h.smul, h.smul]
  ext <;> simp [moved] <;> ring

theorem sum_map_mul (k : ℝ) (l : List (Vec3 ℝ × ℝ)) (f : Vec3 ℝ × ℝ → ℝ) : (l.map fun p => k * f p).sum = k * (l.map f).sum := List.sum_map_mul_left ..

theorem potential_moved (h : Rotation R) (hs : 0 < s) (c p q : Vec3 ℝ) : potential (s • R c) (s • R p) (s • R q) = s * potential c p q := by
  simp only [potential_eq, smul_sub', cross_smul, ← h.sub, h.cross, realNorm_smul, h.norm, abs_of_pos (mul_pos hs hs), abs_of_pos hs, normSq_smul, h.normSq]
  have : ∀ t : ℝ, 1 / √(s ^ 2 * (p - c).normSq + 2 * (s • R (p - c)).dot (s • R (q - p)) * t + (s * realNorm (q - p)) ^ 2 * t ^ 2) =
      s⁻¹ * (1 / √((p - c).normSq + 2 * (p - c).dot (q - p) * t + realNorm (q - p) ^ 2 * t ^ 2)) := fun t => by
    have e : s ^ 2 * (p - c).normSq + 2 * (s • R (p - c)).dot (s • R (q - p)) * t + (s * realNorm (q - p)) ^ 2 * t ^ 2 =
        s ^ 2 * ((p - c).normSq + 2 * (p - c).dot (q - p) * t + realNorm (q - p) ^ 2 * t ^ 2) := by
      have : (s • R (p - c)).dot (s • R (q - p)) = s ^ 2 * (p - c).dot (q - p) := by
        rw [dot_smul, ← h.dot (p - c)]; simp [Vec3.dot]; ring
      rw [this]; ring
    rw [e, Real.sqrt_mul (sq_nonneg s), Real.sqrt_sq hs.le]
    rw [one_div, mul_inv, one_div]
  simp only [this]
  rw [intervalIntegral.integral_const_mul]
  generalize (∫ t in (0 : ℝ)..1, 1 / √((p - c).normSq + 2 * (p - c).dot (q - p) * t + realNorm (q - p) ^ 2 * t ^ 2)) = I
  field_simp

end Bem

open Bem

/-- **C131, two triangles.** Rotating both triangles and scaling them by `s` about the origin keeps `h` and multiplies `g` by `s`. -/
theorem C131_scaling (eps : ℝ) (i j : Int) (hij : i ≠ j) (ti tj : Tri ℝ) (hj : tj.rawNormal ≠ 0) (R : Vec3 ℝ → Vec3 ℝ) (hR : Rotation R) (s : ℝ) (hs : 0 < s) :
    (coeffs eps i j (moved R s ti) (moved R s tj)).1 = (coeffs eps i j ti tj).1 ∧ (coeffs eps i j (moved R s ti) (moved R s tj)).2 = s * (coeffs eps i j ti tj).2 := by
  have hN : 0 < realNorm tj.rawNormal := by
    refine lt_of_le_of_ne (Real.sqrt_nonneg _) fun h => hj ?_
    have := isNorm_real.sq tj.rawNormal
    rw [← h, mul_zero] at this
    simp only [Vec3.normSq, Vec3.dot] at this
    have hx := mul_self_nonneg tj.rawNormal.x; have hy := mul_self_nonneg tj.rawNormal.y; have hz := mul_self_nonneg tj.rawNormal.z
    ext
    · exact mul_self_eq_zero.1 (by linarith)
    · exact mul_self_eq_zero.1 (by linarith)
    · exact mul_self_eq_zero.1 (by linarith)
  simp only [coeffs, sums, if_neg hij, moved_points hR, moved_centroid hR, moved_area hR hs, moved_normal hR hs tj hN, List.map_map]
  constructor
  · congr 2
    refine List.map_congr_left fun p _ => ?_
    simp only [Function.comp, hTerm, smul_sub', ← hR.sub, dot_smul, hR.dot, normSq_smul, hR.normSq]
    rw [Real.mul_rpow (sq_nonneg s) (Vec3.normSq_nonneg _), ← Real.rpow_natCast, ← Real.rpow_mul hs.le]
    norm_num
    rw [show 2 * (s ^ 2 * (tj.normalArea realNorm).2) * p.2 * (s * (p.1 - ti.centroid).dot (tj.normal realNorm)) =
      s ^ 3 * (2 * (tj.normalArea realNorm).2 * p.2 * (p.1 - ti.centroid).dot (tj.normal realNorm)) by ring]
    exact mul_div_mul_left _ _ (pow_ne_zero 3 hs.ne')
  · rw [mul_left_comm s, ← sum_map_mul s]
    congr 2
    refine List.map_congr_left fun p _ => ?_
    simp only [Function.comp, gTerm, smul_sub', ← hR.sub, realNorm_smul, hR.norm, abs_of_pos hs]
    rw [show 2 * (s ^ 2 * (tj.normalArea realNorm).2) * p.2 = s * (s * (2 * (tj.normalArea realNorm).2 * p.2)) by ring, mul_div_mul_left _ _ hs.ne', mul_div_assoc]

/-- **C131, a triangle with itself, scaled.** Rotating the triangle and scaling it by `s` multiplies `g` by `s`. -/
theorem C131_self_scaling (eps : ℝ) (h0 : 0 ≤ eps) (i : Int) (t : Tri ℝ) (R : Vec3 ℝ → Vec3 ℝ) (hR : Rotation R) (s : ℝ) (hs : 0 < s) (hg : Good eps t) (hg' : Good eps (moved R s t)) :
    (coeffs eps i i (moved R s t) (moved R s t)).2 = s * (coeffs eps i i t t).2 := by
  rw [(C131_self eps h0 i t hg).2, (C131_self eps h0 i _ hg').2, moved_centroid hR]
  change _ * (potential _ (s • R t.v0) (s • R t.v1) + potential _ (s • R t.v1) (s • R t.v2) + potential _ (s • R t.v2) (s • R t.v0)) = _
  rw [potential_moved hR hs, potential_moved hR hs, potential_moved hR hs]
  ring

/-- **C131, the single layer is positive.** `g` is positive for two different triangles, the second not degenerate, if none of the integration points is the centroid of the first. -/
theorem C131_positive (eps : ℝ) (i j : Int) (hij : i ≠ j) (ti tj : Tri ℝ) (hj : 0 < realNorm tj.rawNormal) (hd : ∀ p ∈ Gauss.bemPoints 20 tj.v0 tj.v1 tj.v2, 0 < (p.1 - ti.centroid).normSq) :
    0 < (coeffs eps i j ti tj).2 := by
  have hw : ∀ r ∈ Gauss.triangle 20, (0 : ℚ) < r.2.2.2 := by decide +kernel
  have hlen : Gauss.triangle 20 ≠ [] := by decide +kernel
  simp only [coeffs, sums, if_neg hij]
  have hp : ∀ x ∈ (Gauss.bemPoints 20 tj.v0 tj.v1 tj.v2).map (gTerm ti.centroid (tj.normalArea realNorm).2), 0 < x := fun x hx => by
    obtain ⟨p, hp, rfl⟩ := List.mem_map.1 hx
    have h1 := hd p hp
    obtain ⟨r, hr, rfl⟩ := List.mem_map.1 hp
    have h2 : (0 : ℝ) < (r.2.2.2 : ℝ) := by exact_mod_cast hw r hr
    refine div_pos (mul_pos (mul_pos two_pos ?_) h2) (realNorm_pos h1)
    simp only [Tri.normalArea]; positivity
  refine mul_pos (by positivity) (List.sum_pos _ hp ?_)
  simpa [Gauss.bemPoints] using hlen

/-! ### The system -/

namespace Bem

theorem sum_range_sub (n : Nat) (f g : Nat → ℝ) : ((List.range n).map f).sum - ((List.range n).map g).sum = ((List.range n).map fun j => f j - g j).sum := by
  induction n with
  | zero => simp
  | succ n ih => simp only [List.range_succ, List.map_append, List.map_cons, List.map_nil, List.sum_append, List.sum_cons, List.sum_nil, add_zero]; linarith

theorem sum_range_one (n i : Nat) (hi : i < n) (y : ℝ) : ((List.range n).map fun j => if i = j then y else 0).sum = y := by
  induction n with
  | zero => omega
  | succ n ih =>
    simp only [List.range_succ, List.map_append, List.map_cons, List.map_nil, List.sum_append, List.sum_cons, List.sum_nil, add_zero]
    rcases Nat.lt_succ_iff_lt_or_eq.1 hi with h | rfl
    · rw [ih h, if_neg (by omega), add_zero]
    · have : ((List.range i).map fun j => if i = j then y else 0) = (List.range i).map fun _ => (0 : ℝ) :=
        List.map_congr_left fun j hj => if_neg (by have := List.mem_range.1 hj; omega)
      rw [this]; simp

theorem sum_range_congr (n : Nat) (f g : Nat → ℝ) (h : ∀ j, j < n → f j = g j) : ((List.range n).map f).sum = ((List.range n).map g).sum := by
  rw [List.map_congr_left fun j hj => h j (List.mem_range.1 hj)]

/-- The elements with the ids `0`, ..., `n - 1` are triangles, `n` the number of elements, and `T i` is the triangle of element `i`. -/
def Triangles (m : Mesh ℝ) (T : Nat → Tri ℝ) : Prop :=
  ∀ i : Nat, i < m.elements.count → ∃ e a b c, m.elements.get? (i : Int) = some e ∧ e.elementType = .triangle ∧ e.nodeIds = [a, b, c] ∧
    m.nodes.get? a = some (T i).v0 ∧ m.nodes.get? b = some (T i).v1 ∧ m.nodes.get? c = some (T i).v2

end Bem

/-- **C132, the equations.** On a mesh of triangles whose ids are the numbers below their number, with fixed values at some of them, the system of the operator is the one of the boundary element method: the row of element `i` times any vector of values, minus the right hand side, is
the double layer minus half the value at `i` minus the single layer of the fluxes that hold the fixed values. -/
theorem C132_equations (eps : ℝ) (m : Mesh ℝ) (T : Nat → Tri ℝ) (hT : Triangles m T) (uFixed : SMap Int ℝ) (hf : ∀ k v, uFixed.find? k = some v → 0 ≤ k ∧ k < m.elements.count) :
    ∃ A b, laplacian eps m uFixed = some (A, b) ∧ ∀ (x : Nat → ℝ) (i : Nat), i < m.elements.count →
      ((List.range m.elements.count).map fun j => A i j * x j).sum - b i =
        Bem.residual (fun i j => (coeffs eps i j (T i) (T j)).1) (fun i j => (coeffs eps i j (T i) (T j)).2) (fun j => ((T j).normalArea realNorm).2) (fun j => uFixed.find? (j : Int)) m.elements.count x i := by
  have h1 := Vtk.mapM_range (triangleOf m) m.elements.count (fun i => some (T i)) fun i hi => by
    obtain ⟨e, a, b, c, h1, h2, h3, h4, h5, h6⟩ := hT i hi
    simp [triangleOf, h1, h2, h3, h4, h5, h6]
  have h2 : (uFixed.entries.all fun p => decide (0 ≤ p.1) && decide (p.1 < m.elements.count)) = true := by
    rw [List.all_eq_true]
    rintro ⟨k, v⟩ hp
    obtain ⟨h, h'⟩ := hf k v ((uFixed.find?_eq_some_iff k v).2 hp)
    simp [h, h']
  refine ⟨_, _, by rw [laplacian, if_pos h2, h1]; rfl, fun x i hi => ?_⟩
  have hat : ∀ j, j < m.elements.count → (((List.range m.elements.count).map fun i => some (T i))[j]?).join = some (T j) := fun j hj => by simp [hj]
  rw [sum_range_sub]
  unfold Bem.residual
  rw [← sum_range_one m.elements.count i hi (x i / 2), sum_range_sub, sum_range_sub]
  refine sum_range_congr _ _ _ fun j hj => ?_
  rw [hat i hi, hat j hj]
  simp only [entry, rhsEntry]
  have hhalf : (if i = j then (coeffs eps i j (T i) (T j)).1 - 0.5 else (coeffs eps i j (T i) (T j)).1) * x j = (coeffs eps i j (T i) (T j)).1 * x j - if i = j then x i / 2 else 0 := by
    split_ifs with h
    · subst h; norm_num; ring
    · ring
  cases hu : uFixed.find? (j : Int) with
  | none => simp only [Option.isSome_none, Bool.false_eq_true, if_false, add_zero, sub_zero]; exact hhalf
  | some v => simp only [Option.isSome_some, if_true, add_mul]; rw [hhalf]; ring

/-- **C132, constant temperature.** If all fixed values are the same value `c`, the constant `c` misses the equation of element `i` by `c` times the sum of the double layer coefficients of its row minus one half. It is a solution for every `c` exactly if these
sums are one half, which is the solid angle of a closed surface seen from one of its points when the normals point inward. -/
theorem C132_constant (eps : ℝ) (m : Mesh ℝ) (T : Nat → Tri ℝ) (hT : Triangles m T) (uFixed : SMap Int ℝ) (hf : ∀ k v, uFixed.find? k = some v → 0 ≤ k ∧ k < m.elements.count)
    (c : ℝ) (hc : ∀ k v, uFixed.find? k = some v → v = c) :
    ∃ A b, laplacian eps m uFixed = some (A, b) ∧ ∀ i : Nat, i < m.elements.count →
      ((List.range m.elements.count).map fun j => A i j * c).sum - b i = c * (((List.range m.elements.count).map fun j : Nat => (coeffs eps i j (T i) (T j)).1).sum - 1 / 2) := by
  obtain ⟨A, b, h1, h2⟩ := C132_equations eps m T hT uFixed hf
  refine ⟨A, b, h1, fun i hi => ?_⟩
  rw [h2 (fun _ => c) i hi]
  unfold Bem.residual
  have e2 : ((List.range m.elements.count).map fun j : Nat => match uFixed.find? (j : Int) with
      | some v => (coeffs eps i j (T i) (T j)).2 / ((T j).normalArea realNorm).2 * (c - v)
      | none => 0).sum = ((List.range m.elements.count).map fun _ => (0 : ℝ)).sum := by
    refine sum_range_congr _ _ _ fun j _ => ?_
    cases hu : uFixed.find? (j : Int) with
    | none => rfl
    | some v => simp [hc _ v hu]
  rw [List.sum_map_mul_right, e2]; simp; ring

/-- **C132 needs its ids.** If one of the numbers below the number of elements is not the id of an element, the operator throws. -/
theorem C132_ids (eps : ℝ) (m : Mesh ℝ) (uFixed : SMap Int ℝ) (i : Nat) (hi : i < m.elements.count) (h : m.elements.get? (i : Int) = none) : laplacian eps m uFixed = none := by
  unfold laplacian
  split_ifs
  · cases hm : (List.range m.elements.count).mapM (triangleOf m) with
    | none => rfl
    | some ts =>
      obtain ⟨b, hb⟩ := Vtk.mapM_inv hm i (List.mem_range.2 hi)
      simp [triangleOf, h] at hb
  · rfl

/-- **C132 needs triangles.** An element of another type has the equation `0 = 0`, and its value occurs in no equation: the system has no solution or infinitely many. -/
theorem C132_other_types (eps : ℝ) (m : Mesh ℝ) (uFixed : SMap Int ℝ) {A : Nat → Nat → ℝ} {b : Nat → ℝ} (hA : laplacian eps m uFixed = some (A, b)) (k : Nat) (e : Elem)
    (he : m.elements.get? (k : Int) = some e) (ht : e.elementType ≠ .triangle) : b k = 0 ∧ ∀ j, A k j = 0 ∧ A j k = 0 := by
  unfold laplacian at hA
  split_ifs at hA
  simp only [Option.bind_eq_bind, Option.bind_eq_some_iff, Option.pure_def, Option.some.injEq, Prod.mk.injEq] at hA
  obtain ⟨ts, h1, rfl, rfl⟩ := hA
  have hk : ts[k]?.join = none := by
    cases hk : ts[k]? with
    | none => rfl
    | some x =>
      by_cases hkn : k < m.elements.count
      · have h0 : ∀ i, ∃ t, i < m.elements.count → triangleOf m i = some t := fun i => by
          by_cases hi : i < m.elements.count
          · obtain ⟨t, ht⟩ := Vtk.mapM_inv h1 i (List.mem_range.2 hi); exact ⟨t, fun _ => ht⟩
          · exact ⟨none, fun h => absurd h hi⟩
        choose t0 ht0 using h0
        have h2 := Vtk.mapM_range (triangleOf m) m.elements.count t0 ht0
        rw [h1] at h2
        rw [Option.some.inj h2] at hk
        simp only [List.getElem?_map, List.getElem?_range hkn, Option.map_some, Option.some.injEq] at hk
        have h3 := ht0 k hkn
        simp only [triangleOf, he, Option.bind_eq_bind, Option.bind_some, if_neg ht, Option.pure_def, Option.some.injEq] at h3
        rw [← hk, ← h3]; rfl
      · have h0 : ∀ i, ∃ t, i < m.elements.count → triangleOf m i = some t := fun i => by
          by_cases hi : i < m.elements.count
          · obtain ⟨t, ht⟩ := Vtk.mapM_inv h1 i (List.mem_range.2 hi); exact ⟨t, fun _ => ht⟩
          · exact ⟨none, fun h => absurd h hi⟩
        choose t0 ht0 using h0
        have h2 := Vtk.mapM_range (triangleOf m) m.elements.count t0 ht0
        rw [h1] at h2
        rw [Option.some.inj h2] at hk
        simp [hkn] at hk
  refine ⟨?_, fun j => ⟨by simp only [hk], ?_⟩⟩
  · simp only [hk]; simp
  · simp only [hk]; cases ts[j]?.join <;> rfl

/-! ### Examples -/

namespace Bem

/-- The identity and the quarter turn about the z axis are rotations. -/
example : Rotation (fun v => v) ∧ Rotation (fun v => ⟨-v.y, v.x, v.z⟩) := by
  refine ⟨⟨fun _ _ => rfl, fun _ _ => rfl, fun _ _ => rfl, fun _ _ => rfl⟩, ⟨fun u v => ?_, fun k v => ?_, fun u v => ?_, fun u v => ?_⟩⟩
  · ext <;> simp; ring
  · ext <;> simp
  · simp [Vec3.dot]; ring
  · ext <;> simp <;> ring

/-- Two triangles with the ids 0 and 1, a value fixed at the first. -/
def pair : Mesh ℝ :=
  { (Mesh.empty : Mesh ℝ) with
    nodes := ((((Cont.empty.add 0 ⟨0, 0, 0⟩).add 1 ⟨1, 0, 0⟩).add 2 ⟨0, 1, 0⟩).add 3 ⟨0, 0, 1⟩)
    elements := (Cont.empty.add 0 { elementType := .triangle, nodeIds := [0, 1, 2] }).add 1 { elementType := .triangle, nodeIds := [0, 2, 3] } }

example : Triangles pair (fun i => if i = 0 then ⟨⟨0, 0, 0⟩, ⟨1, 0, 0⟩, ⟨0, 1, 0⟩⟩ else ⟨⟨0, 0, 0⟩, ⟨0, 1, 0⟩, ⟨0, 0, 1⟩⟩) ∧
    ∀ k v, (SMap.empty.insert (0 : Int) (5 : ℝ)).find? k = some v → 0 ≤ k ∧ k < pair.elements.count := by
  constructor
  · intro i hi
    have : i = 0 ∨ i = 1 := by
      have : pair.elements.count = 2 := rfl
      omega
    rcases this with rfl | rfl
    · exact ⟨{ elementType := .triangle, nodeIds := [0, 1, 2] }, 0, 1, 2, rfl, rfl, rfl, rfl, rfl, rfl⟩
    · exact ⟨{ elementType := .triangle, nodeIds := [0, 2, 3] }, 0, 2, 3, rfl, rfl, rfl, rfl, rfl, rfl⟩
  · intro k v h
    rw [SMap.find?_insert] at h
    split_ifs at h with hk
    · subst hk; exact ⟨le_refl _, by show (0 : Int) < 2; norm_num⟩
    · simp at h

end Bem
end ENigMA
