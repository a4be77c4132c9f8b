import Verif.Fem.Isoparametric
import Verif.Fem.ElementsProps
import Verif.Geometry.SolidsProps

/-!
# Properties of the isoparametric finite elements

C25 and C26 for the quadrilateral, C62 for prisms and hexahedra.
-/

set_option linter.unusedSectionVars false

namespace ENigMA
open Matrix

variable {K : Type} [Field K] [LinearOrder K] [IsStrictOrderedRing K]

namespace Fem

variable {d n : Nat}

/-! ### The loop -/

/-- The measure the rule gives to the element. -/
def isoMeasure (l : List (GaussPoint K d n)) (X : Matrix (Fin n) (Fin d) K) : K := (l.map fun p => p.w * |(p.J X).det|).sum

theorem B_mul_X (p : GaussPoint K d n) (X : Matrix (Fin n) (Fin d) K) (h : (p.J X).det ≠ 0) : p.B X * X = 1 := by
  rw [GaussPoint.B, Matrix.mul_assoc, Matrix.smul_mul]
  show (p.J X).det⁻¹ • ((p.J X).adjugate * p.J X) = 1
  rw [adjugate_mul, smul_smul, inv_mul_cancel₀ h, one_smul]

theorem J_mul_B (p : GaussPoint K d n) (X : Matrix (Fin n) (Fin d) K) (h : (p.J X).det ≠ 0) : p.J X * p.B X = p.G := by
  rw [GaussPoint.B, ← Matrix.mul_assoc, Matrix.mul_smul, mul_adjugate, smul_smul, inv_mul_cancel₀ h, one_smul, Matrix.one_mul]

/-- The gradient operator is exact on linear fields. -/
theorem B_linear (p : GaussPoint K d n) (X : Matrix (Fin n) (Fin d) K) (h : (p.J X).det ≠ 0) (hG : p.G *ᵥ (fun _ => 1) = 0) (c : K)
    (g : Fin d → K) : p.B X *ᵥ (fun i => c + (X *ᵥ g) i) = g := by
  have e : (fun i => c + (X *ᵥ g) i) = c • (fun _ => (1 : K)) + X *ᵥ g := by funext i; simp
  rw [e, mulVec_add, mulVec_smul, mulVec_mulVec, B_mul_X p X h, one_mulVec, GaussPoint.B, ← mulVec_mulVec, hG, mulVec_zero, smul_zero, zero_add]

theorem isoLaplacian_isSome (l : List (GaussPoint K d n)) (X : Matrix (Fin n) (Fin d) K) (h : ∀ p ∈ l, (p.J X).det ≠ 0) :
    ∃ L, isoLaplacian l X = some L := by
  induction l with
  | nil => exact ⟨0, rfl⟩
  | cons p l ih =>
    obtain ⟨L, hL⟩ := ih fun q hq => h q (List.mem_cons_of_mem _ hq)
    exact ⟨_, by rw [isoLaplacian, if_neg (h p (List.mem_cons_self ..)), hL]; rfl⟩

theorem isoLaplacian_det (l : List (GaussPoint K d n)) (X : Matrix (Fin n) (Fin d) K) (L) (hL : isoLaplacian l X = some L) :
    ∀ p ∈ l, (p.J X).det ≠ 0 := by
  induction l generalizing L with
  | nil => intro p hp; cases hp
  | cons p l ih =>
    rw [isoLaplacian] at hL
    by_cases h : (p.J X).det = 0
    · rw [if_pos h] at hL; cases hL
    · rw [if_neg h] at hL
      obtain ⟨r, hr, -⟩ := Option.map_eq_some_iff.1 hL
      intro q hq
      rcases List.mem_cons.1 hq with rfl | hq
      · exact h
      · exact ih r hr q hq

theorem isoLaplacian_form (l : List (GaussPoint K d n)) (X : Matrix (Fin n) (Fin d) K) (L) (hL : isoLaplacian l X = some L)
    (w u : Fin n → K) :
    w ⬝ᵥ (L *ᵥ u) = -(l.map fun p => p.w * |(p.J X).det| * ((p.B X *ᵥ w) ⬝ᵥ (p.B X *ᵥ u))).sum := by
  induction l generalizing L with
  | nil => rw [isoLaplacian] at hL; cases hL; simp
  | cons p l ih =>
    rw [isoLaplacian] at hL
    by_cases h : (p.J X).det = 0
    · rw [if_pos h] at hL; cases hL
    · rw [if_neg h] at hL
      obtain ⟨r, hr, rfl⟩ := Option.map_eq_some_iff.1 hL
      rw [add_mulVec, dotProduct_add, ih r hr, smul_mulVec, dotProduct_smul, Matrix.neg_mul, neg_mulVec, dotProduct_neg, form_btb,
        List.map_cons, List.sum_cons, smul_eq_mul]
      ring

theorem isoLaplacian_symm (l : List (GaussPoint K d n)) (X : Matrix (Fin n) (Fin d) K) (L) (hL : isoLaplacian l X = some L) :
    Lᵀ = L := by
  induction l generalizing L with
  | nil => rw [isoLaplacian] at hL; cases hL; simp
  | cons p l ih =>
    rw [isoLaplacian] at hL
    by_cases h : (p.J X).det = 0
    · rw [if_pos h] at hL; cases hL
    · rw [if_neg h] at hL
      obtain ⟨r, hr, rfl⟩ := Option.map_eq_some_iff.1 hL
      rw [transpose_add, ih r hr, transpose_smul, transpose_mul, transpose_neg, transpose_transpose, Matrix.mul_neg, Matrix.neg_mul]

/-- On linear fields the loop gives the product of the gradients times the measure of the rule. -/
theorem isoLaplacian_linear (l : List (GaussPoint K d n)) (X : Matrix (Fin n) (Fin d) K) (L) (hL : isoLaplacian l X = some L)
    (hG : ∀ p ∈ l, p.G *ᵥ (fun _ => 1) = 0) (c e : K) (g h : Fin d → K) :
    (fun i => e + (X *ᵥ h) i) ⬝ᵥ (L *ᵥ fun i => c + (X *ᵥ g) i) = -(isoMeasure l X * (h ⬝ᵥ g)) := by
  have hd := isoLaplacian_det l X L hL
  rw [isoLaplacian_form l X L hL, isoMeasure, neg_inj]
  clear hL
  induction l with
  | nil => simp
  | cons p l ih =>
    have h1 := hd p (List.mem_cons_self ..)
    have h2 := hG p (List.mem_cons_self ..)
    simp only [List.map_cons, List.sum_cons]
    rw [ih (fun q hq => hG q (List.mem_cons_of_mem _ hq)) (fun q hq => hd q (List.mem_cons_of_mem _ hq)), B_linear p X h1 h2, B_linear p X h1 h2]
    ring

theorem isoLaplacian_const (l : List (GaussPoint K d n)) (X : Matrix (Fin n) (Fin d) K) (L) (hL : isoLaplacian l X = some L)
    (hG : ∀ p ∈ l, p.G *ᵥ (fun _ => 1) = 0) (c : K) : (L *ᵥ fun _ => c) = 0 := by
  funext i
  have := isoLaplacian_form l X L hL (Pi.single i 1) (fun _ => c)
  rw [single_one_dotProduct] at this
  rw [this]
  have hz : ∀ p ∈ l, p.B X *ᵥ (fun _ => c) = 0 := by
    intro p hp
    have e : (fun _ : Fin n => c) = c • (fun _ => (1 : K)) := by funext i; simp
    rw [e, mulVec_smul, GaussPoint.B, ← mulVec_mulVec, hG p hp, mulVec_zero, smul_zero]
  rw [List.map_congr_left (g := fun _ => (0 : K)) (fun p hp => by rw [hz p hp, dotProduct_zero, mul_zero])]
  simp

theorem sum_nonneg_zero (l : List (GaussPoint K d n)) (f : GaussPoint K d n → K) (hf : ∀ p ∈ l, 0 ≤ f p) :
    0 ≤ (l.map f).sum ∧ ((l.map f).sum = 0 → ∀ p ∈ l, f p = 0) := by
  induction l with
  | nil => simp
  | cons p l ih =>
    have := ih fun q hq => hf q (List.mem_cons_of_mem _ hq)
    have h0 := hf p (List.mem_cons_self ..)
    simp only [List.map_cons, List.sum_cons]
    refine ⟨add_nonneg h0 this.1, fun hs => ?_⟩
    have a : f p = 0 := by linarith [this.1]
    have b : (l.map f).sum = 0 := by linarith
    intro q hq
    rcases List.mem_cons.1 hq with rfl | hq
    · exact a
    · exact this.2 b q hq

theorem dot_self_nonneg {m : Nat} (v : Fin m → K) : 0 ≤ v ⬝ᵥ v := Finset.sum_nonneg fun i _ => mul_self_nonneg (v i)

theorem dot_self_zero {m : Nat} (v : Fin m → K) (h : v ⬝ᵥ v = 0) : v = 0 := by
  funext i
  have := (Finset.sum_eq_zero_iff_of_nonneg (fun i _ => mul_self_nonneg (v i))).1 h i (Finset.mem_univ i)
  exact mul_self_eq_zero.1 this

/-- With positive weights the form is never positive, and zero only when every `G u` is zero. -/
theorem isoLaplacian_nonpos (l : List (GaussPoint K d n)) (X : Matrix (Fin n) (Fin d) K) (L) (hL : isoLaplacian l X = some L)
    (hw : ∀ p ∈ l, 0 < p.w) (u : Fin n → K) :
    u ⬝ᵥ (L *ᵥ u) ≤ 0 ∧ (u ⬝ᵥ (L *ᵥ u) = 0 → ∀ p ∈ l, p.G *ᵥ u = 0) := by
  have hd := isoLaplacian_det l X L hL
  rw [isoLaplacian_form l X L hL]
  obtain ⟨a, b⟩ := sum_nonneg_zero l (fun p => p.w * |(p.J X).det| * ((p.B X *ᵥ u) ⬝ᵥ (p.B X *ᵥ u)))
    (fun p hp => mul_nonneg (mul_nonneg (hw p hp).le (abs_nonneg _)) (dot_self_nonneg _))
  refine ⟨by linarith, fun h p hp => ?_⟩
  have := b (by linarith) p hp
  have hne : p.w * |(p.J X).det| ≠ 0 := mul_ne_zero (hw p hp).ne' (abs_ne_zero.2 (hd p hp))
  rw [← J_mul_B p X (hd p hp), ← mulVec_mulVec, dot_self_zero _ ((mul_eq_zero.1 this).resolve_left hne), mulVec_zero]

theorem isoMass_symm (l : List (GaussPoint K d n)) (X : Matrix (Fin n) (Fin d) K) : (isoMass l X)ᵀ = isoMass l X := by
  induction l with
  | nil => simp [isoMass]
  | cons p l ih =>
    rw [isoMass, transpose_add, ih, transpose_smul]
    congr 2
    ext i j
    simp [mul_comm]

theorem isoMass_form (l : List (GaussPoint K d n)) (X : Matrix (Fin n) (Fin d) K) (u : Fin n → K) :
    u ⬝ᵥ (isoMass l X *ᵥ u) = (l.map fun p => p.w * |(p.J X).det| * ((p.N ⬝ᵥ u) * (p.N ⬝ᵥ u))).sum := by
  induction l with
  | nil => simp [isoMass]
  | cons p l ih =>
    rw [isoMass, add_mulVec, dotProduct_add, ih, smul_mulVec, dotProduct_smul, List.map_cons, List.sum_cons, smul_eq_mul]
    congr 2
    have : (Matrix.of fun i j => p.N i * p.N j : Matrix (Fin n) (Fin n) K) = vecMulVec p.N p.N := rfl
    rw [this, vecMulVec_mulVec, dotProduct_smul, dotProduct_comm u]
    simp

theorem isoMass_sum (l : List (GaussPoint K d n)) (X : Matrix (Fin n) (Fin d) K) (hN : ∀ p ∈ l, ∑ i, p.N i = 1) :
    ∑ i, ∑ j, isoMass l X i j = isoMeasure l X := by
  have e : ∑ i, ∑ j, isoMass l X i j = (fun _ => 1) ⬝ᵥ (isoMass l X *ᵥ fun _ => 1) := by simp [dotProduct, mulVec]
  rw [e, isoMass_form, isoMeasure]
  congr 1
  apply List.map_congr_left
  intro p hp
  have : p.N ⬝ᵥ (fun _ => 1) = 1 := by simpa [dotProduct] using hN p hp
  rw [this]; ring

/-! ### Quadrilateral -/

theorem gp_pos : (0 : K) < gp := by unfold gp; positivity

theorem gp_lt : (gp : K) < 1 := by unfold gp; rw [div_lt_one (by norm_num)]; norm_num

/-- The double areas of the four corners of a plane quadrilateral. -/
def corner (X : Matrix (Fin 4) (Fin 2) K) (i : Fin 4) : K :=
  (X (i + 1) 0 - X i 0) * (X (i - 1) 1 - X i 1) - (X (i + 1) 1 - X i 1) * (X (i - 1) 0 - X i 0)

theorem quad_det (xi eta w : K) (X : Matrix (Fin 4) (Fin 2) K) :
    ((quadPoint xi eta w).J X).det = 1 / 16 * ((1 - xi) * (1 - eta) * corner X 0 + (1 - xi) * (1 + eta) * corner X 1 +
      (1 + xi) * (1 + eta) * corner X 2 + (1 + xi) * (1 - eta) * corner X 3) := by
  have e1 : (1 : Fin 4) - 1 = 0 := rfl
  have e2 : (2 : Fin 4) - 1 = 1 := rfl
  have e3 : (3 : Fin 4) - 1 = 2 := rfl
  have e0 : (0 : Fin 4) - 1 = 3 := rfl
  have f1 : (1 : Fin 4) + 1 = 2 := rfl
  have f2 : (2 : Fin 4) + 1 = 3 := rfl
  have f3 : (3 : Fin 4) + 1 = 0 := rfl
  have f0 : (0 : Fin 4) + 1 = 1 := rfl
  simp only [corner, e0, e1, e2, e3, f0, f1, f2, f3, GaussPoint.J, quadPoint, det_fin_two, mul_apply, Fin.sum_univ_four, Matrix.smul_apply, smul_eq_mul]
  simp
  ring

theorem quad_G_one : ∀ p ∈ (quadPoints : List (GaussPoint K 2 4)), p.G *ᵥ (fun _ => 1) = 0 := by
  have : ∀ xi eta w : K, (quadPoint xi eta w).G *ᵥ (fun _ => 1) = 0 := by
    intro xi eta w
    funext i
    fin_cases i <;> simp [quadPoint, mulVec, dotProduct, Fin.sum_univ_four] <;> ring
  intro p hp
  simp only [quadPoints, List.mem_cons, List.not_mem_nil, or_false] at hp
  rcases hp with rfl | rfl | rfl | rfl <;> exact this _ _ _

theorem quad_N_one : ∀ p ∈ (quadPoints : List (GaussPoint K 2 4)), ∑ i, p.N i = 1 := by
  have : ∀ xi eta w : K, ∑ i, (quadPoint xi eta w).N i = 1 := by
    intro xi eta w
    simp [quadPoint, Fin.sum_univ_four]; ring
  intro p hp
  simp only [quadPoints, List.mem_cons, List.not_mem_nil, or_false] at hp
  rcases hp with rfl | rfl | rfl | rfl <;> exact this _ _ _

theorem quad_w : ∀ p ∈ (quadPoints : List (GaussPoint K 2 4)), p.w = 1 := by
  intro p hp
  simp only [quadPoints, List.mem_cons, List.not_mem_nil, or_false] at hp
  rcases hp with rfl | rfl | rfl | rfl <;> simp [quadPoint]

/-- Convex: the four corners turn the same way. -/
def SameTurn (X : Matrix (Fin 4) (Fin 2) K) : Prop := (∀ i, 0 < corner X i) ∨ (∀ i, corner X i < 0)

theorem quad_det_sign (X : Matrix (Fin 4) (Fin 2) K) (h : SameTurn X) :
    (∀ p ∈ (quadPoints : List (GaussPoint K 2 4)), 0 < (p.J X).det) ∨ (∀ p ∈ (quadPoints : List (GaussPoint K 2 4)), (p.J X).det < 0) := by
  have g0 := gp_pos (K := K)
  have g1 := gp_lt (K := K)
  have a : (0 : K) < 1 - gp := by linarith
  have b : (0 : K) < 1 + gp := by linarith
  have a' : (0 : K) < 1 + -gp := by linarith
  have b' : (0 : K) < 1 - -gp := by linarith
  rcases h with h | h
  · left
    intro p hp
    have h0 := h 0
    have h1 := h 1
    have h2 := h 2
    have h3 := h 3
    simp only [quadPoints, List.mem_cons, List.not_mem_nil, or_false] at hp
    rcases hp with rfl | rfl | rfl | rfl <;> rw [quad_det] <;> positivity
  · right
    intro p hp
    have h0 := neg_pos.2 (h 0)
    have h1 := neg_pos.2 (h 1)
    have h2 := neg_pos.2 (h 2)
    have h3 := neg_pos.2 (h 3)
    have key : ∀ x y z t : K, 0 < x → 0 < y → 0 < z → 0 < t →
        1 / 16 * (x * y * corner X 0 + x * z * corner X 1 + t * z * corner X 2 + t * y * corner X 3) < 0 := by
      intro x y z t hx hy hz ht
      have : 0 < 1 / 16 * (x * y * -corner X 0 + x * z * -corner X 1 + t * z * -corner X 2 + t * y * -corner X 3) := by positivity
      linarith
    simp only [quadPoints, List.mem_cons, List.not_mem_nil, or_false] at hp
    rcases hp with rfl | rfl | rfl | rfl <;> rw [quad_det] <;> apply key <;> assumption

/-- The signed area of a plane quadrilateral, from its diagonals. -/
def shoelace (X : Matrix (Fin 4) (Fin 2) K) : K :=
  ((X 2 0 - X 0 0) * (X 3 1 - X 1 1) - (X 2 1 - X 0 1) * (X 3 0 - X 1 0)) / 2

theorem quad_sum_det (X : Matrix (Fin 4) (Fin 2) K) :
    ((quadPoints : List (GaussPoint K 2 4)).map fun p => (p.J X).det).sum = shoelace X := by
  have e1 : (1 : Fin 4) - 1 = 0 := rfl
  have e2 : (2 : Fin 4) - 1 = 1 := rfl
  have e3 : (3 : Fin 4) - 1 = 2 := rfl
  have e0 : (0 : Fin 4) - 1 = 3 := rfl
  have f1 : (1 : Fin 4) + 1 = 2 := rfl
  have f2 : (2 : Fin 4) + 1 = 3 := rfl
  have f3 : (3 : Fin 4) + 1 = 0 := rfl
  have f0 : (0 : Fin 4) + 1 = 1 := rfl
  simp only [quadPoints, List.map_cons, List.map_nil, List.sum_cons, List.sum_nil, quad_det, corner, e0, e1, e2, e3, f0, f1, f2, f3, shoelace]
  ring

theorem quad_measure (X : Matrix (Fin 4) (Fin 2) K) (h : SameTurn X) : isoMeasure quadPoints X = |shoelace X| := by
  have e : isoMeasure quadPoints X = ((quadPoints : List (GaussPoint K 2 4)).map fun p => |(p.J X).det|).sum := by
    unfold isoMeasure
    congr 1
    exact List.map_congr_left fun p hp => by rw [quad_w p hp, one_mul]
  have s := quad_sum_det X
  rw [e]
  rcases quad_det_sign X h with hp | hp
  · rw [List.map_congr_left (g := fun p => (p.J X).det) fun p h => abs_of_pos (hp p h), s, abs_of_nonneg]
    rw [← s]
    exact List.sum_nonneg fun x hx => by
      obtain ⟨p, hq, rfl⟩ := List.mem_map.1 hx
      exact (hp p hq).le
  · rw [List.map_congr_left (g := fun p => -(p.J X).det) fun p h => abs_of_neg (hp p h)]
    have hn : ((quadPoints : List (GaussPoint K 2 4)).map fun p => -(p.J X).det).sum = -shoelace X := by
      rw [← s]; simp [quadPoints]; ring
    rw [hn, abs_of_nonpos]
    have : 0 ≤ ((quadPoints : List (GaussPoint K 2 4)).map fun p => -(p.J X).det).sum :=
      List.sum_nonneg fun x hx => by
        obtain ⟨p, hq, rfl⟩ := List.mem_map.1 hx
        exact neg_nonneg.2 (hp p hq).le
    linarith

theorem quad_G_zero (u : Fin 4 → K) (h : ∀ p ∈ (quadPoints : List (GaussPoint K 2 4)), p.G *ᵥ u = 0) : ∀ i j, u i = u j := by
  have g0 := (gp_pos (K := K)).ne'
  have r := fun (p : GaussPoint K 2 4) hp (k : Fin 2) => congrFun (h p hp) k
  have m1 : quadPoint (-gp) (-gp) (1 * 1) ∈ (quadPoints : List (GaussPoint K 2 4)) := by simp [quadPoints]
  have m2 : quadPoint gp gp (1 * 1) ∈ (quadPoints : List (GaussPoint K 2 4)) := by simp [quadPoints]
  have a0 := r _ m1 0
  have a1 := r _ m1 1
  have b0 := r _ m2 0
  have b1 := r _ m2 1
  simp [quadPoint, mulVec, dotProduct, Fin.sum_univ_four] at a0 a1 b0 b1
  have e01 : u 1 = u 0 := by
    have : gp * (u 1 - u 0) = 0 := by linear_combination (1 + gp) * a0 - (1 - gp) * b0
    have := (mul_eq_zero.1 this).resolve_left g0
    linarith
  have e23 : u 2 = u 3 := by
    have : gp * (u 2 - u 3) = 0 := by linear_combination (1 + gp) * b0 - (1 - gp) * a0
    have := (mul_eq_zero.1 this).resolve_left g0
    linarith
  have e03 : u 3 = u 0 := by
    have : gp * (u 3 - u 0) = 0 := by linear_combination (1 + gp) * a1 - (1 - gp) * b1
    have := (mul_eq_zero.1 this).resolve_left g0
    linarith
  intro i j
  fin_cases i <;> fin_cases j <;> simp [e01, e23, e03]

/-- The vertices of a quadrilateral. -/
def quadV (q : Quad K) : Fin 4 → Vec3 K := ![q.v0, q.v1, q.v2, q.v3]

/-- A plane, strictly convex quadrilateral in space with unit normal `n`: all four vertices lie in a plane orthogonal to `n` and, seen
from the side `n` points to, every corner turns to the left. -/
structure ConvexQuad (q : Quad K) (n : Vec3 K) : Prop where
  unit : n.dot n = 1
  plane : ∀ i, n.dot (quadV q i - quadV q 0) = 0
  turn : ∀ i, 0 < n.dot (Vec3.cross (quadV q (i + 1) - quadV q i) (quadV q (i - 1) - quadV q i))

theorem ConvexQuad.flat {q : Quad K} {n : Vec3 K} (h : ConvexQuad q n) :
    n.dot (q.v1 - q.v0) = 0 ∧ n.dot (q.v2 - q.v0) = 0 ∧ n.dot (q.v3 - q.v0) = 0 :=
  ⟨h.plane 1, h.plane 2, h.plane 3⟩

theorem ConvexQuad.turns {q : Quad K} {n : Vec3 K} (h : ConvexQuad q n) :
    0 < n.dot (Vec3.cross (q.v1 - q.v0) (q.v3 - q.v0)) ∧ 0 < n.dot (Vec3.cross (q.v2 - q.v1) (q.v0 - q.v1)) ∧
    0 < n.dot (Vec3.cross (q.v3 - q.v2) (q.v1 - q.v2)) ∧ 0 < n.dot (Vec3.cross (q.v0 - q.v3) (q.v2 - q.v3)) :=
  ⟨h.turn 0, h.turn 1, h.turn 2, h.turn 3⟩

/-- The cross product of two vectors of a plane is along its normal. -/
theorem cross_along (n p q : Vec3 K) (h1 : n.dot n = 1) (hp : n.dot p = 0) (hq : n.dot q = 0) :
    Vec3.cross p q = n.dot (Vec3.cross p q) • n := by
  have e : ∀ m : Vec3 K, m = 0 → m.x = 0 ∧ m.y = 0 ∧ m.z = 0 := by rintro m rfl; simp
  simp only [Vec3.dot] at h1 hp hq
  ext
  · simp only [Vec3.smul_x, Vec3.dot, Vec3.cross]
    linear_combination (-(p.y * q.z - p.z * q.y)) * h1 + (q.z * n.y - q.y * n.z) * hp - (p.z * n.y - p.y * n.z) * hq
  · simp only [Vec3.smul_y, Vec3.dot, Vec3.cross]
    linear_combination (-(p.z * q.x - p.x * q.z)) * h1 + (q.x * n.z - q.z * n.x) * hp - (p.x * n.z - p.z * n.x) * hq
  · simp only [Vec3.smul_z, Vec3.dot, Vec3.cross]
    linear_combination (-(p.x * q.y - p.y * q.x)) * h1 + (q.y * n.x - q.x * n.y) * hp - (p.y * n.x - p.x * n.y) * hq

/-- What `rebuild` does with a plane element: for a suitable orientation `σ = ±1`, in the plane the local cross product is the one in
space, and every linear field in space is one in the local coordinates, whose gradient keeps the tangential scalar products. -/
theorem localXY_spec {nrm : Vec3 K → K} (hn : IsNorm nrm) (a b c n : Vec3 K) (h1 : n.dot n = 1) (hb : n.dot (b - a) = 0)
    (hc : n.dot (c - a) = 0) (hnd : Vec3.cross (b - a) (c - a) ≠ 0) :
    let l := localXY nrm a b c
    (∃ σ : K, σ * σ = 1 ∧ ∀ p q p' q' : Vec3 K, n.dot (p - q) = 0 → n.dot (p' - q') = 0 →
      ((l p).1 - (l q).1) * ((l p').2 - (l q').2) - ((l p).2 - (l q).2) * ((l p').1 - (l q').1) =
        σ * n.dot (Vec3.cross (p - q) (p' - q'))) ∧
    ∃ γ : Vec3 K → Fin 2 → K, (∀ g h, γ g ⬝ᵥ γ h = g.dot h - g.dot n * h.dot n) ∧
      ∀ g, ∃ e : K, ∀ p, n.dot (p - a) = 0 → g.dot p = e + ((l p).1 * γ g 0 + (l p).2 * γ g 1) := by
  intro l
  by_cases ht : a.z ≠ 0 ∨ b.z ≠ 0 ∨ c.z ≠ 0
  · obtain ⟨vz, s, hs, hvz, hvy, e1, e2, e3⟩ := cross_frame nrm hn a b c hnd
    set vx := (planeFrame nrm a b c).1 with hvx
    set vy := (planeFrame nrm a b c).2 with hvy'
    have hl : ∀ p, l p = (vx.dot p, vy.dot p) := fun p => by simp only [l, localXY, if_pos ht]; rfl
    have hC := cross_along n (b - a) (c - a) h1 hb hc
    set k := n.dot (Vec3.cross (b - a) (c - a)) with hk
    have hvzn : vz = (s * k) • n := by rw [hvz, hC, smul_smul]
    have hsk : (s * k) * (s * k) = 1 := by
      rw [hvzn, Vec3.smul_dot, Vec3.dot_smul, h1] at e2
      linear_combination e2
    have hvxy : ∀ p q : Vec3 K, vx.dot p * vy.dot q - vy.dot p * vx.dot q = (s * k) * n.dot (Vec3.cross p q) := by
      intro p q
      have : (s * k) * n.dot (Vec3.cross p q) = vz.dot (Vec3.cross p q) := by rw [hvzn, Vec3.smul_dot]
      rw [this, hvy]
      have key : vx.dot p * (Vec3.cross vz vx).dot q - (Vec3.cross vz vx).dot p * vx.dot q =
          vx.dot vx * vz.dot (Vec3.cross p q) - vx.dot vz * vx.dot (Vec3.cross p q) := by
        simp only [Vec3.dot, Vec3.cross]; ring
      rw [key, e1, e3]; ring
    have hgram : ∀ g h : Vec3 K, vx.dot g * vx.dot h + vy.dot g * vy.dot h = g.dot h - g.dot n * h.dot n := by
      intro d d'
      have key : (vx.dot vx * vz.dot vz - vx.dot vz * vx.dot vz) * d.dot d' =
          vx.dot d * vx.dot d' * vz.dot vz + vz.dot d * vz.dot d' * vx.dot vx
            - vx.dot vz * (vx.dot d * vz.dot d' + vz.dot d * vx.dot d')
            + (Vec3.cross vz vx).dot d * (Vec3.cross vz vx).dot d' := by
        simp only [Vec3.dot, Vec3.cross]; ring
      rw [e1, e2, e3, ← hvy] at key
      have hz : vz.dot d * vz.dot d' = d.dot n * d'.dot n := by
        rw [hvzn, Vec3.smul_dot, Vec3.smul_dot, Vec3.dot_comm d, Vec3.dot_comm d']
        linear_combination (n.dot d * n.dot d') * hsk
      linear_combination -key - hz
    refine ⟨⟨s * k, hsk, ?_⟩, fun g => ![vx.dot g, vy.dot g], ?_, ?_⟩
    · intro p q p' q' _ _
      simp only [hl, ← Vec3.dot_sub]
      exact hvxy _ _
    · intro g h
      simp only [dotProduct, Fin.sum_univ_two, cons_val_zero, cons_val_one]
      exact hgram g h
    · intro g
      refine ⟨g.dot n * a.dot n, fun p hp => ?_⟩
      have := hgram p g
      simp only [hl, cons_val_zero, cons_val_one]
      have hpn : p.dot n = a.dot n := by rw [Vec3.dot_sub] at hp; rw [Vec3.dot_comm p, Vec3.dot_comm a]; linarith
      rw [hpn] at this
      rw [Vec3.dot_comm g p]
      linear_combination -this
  · have hl : ∀ p, l p = (p.x, p.y) := fun p => by simp only [l, localXY, if_neg ht]
    push Not at ht
    obtain ⟨ha, hbz, hcz⟩ := ht
    have hC := cross_along n (b - a) (c - a) h1 hb hc
    set k := n.dot (Vec3.cross (b - a) (c - a)) with hk
    have hk0 : k ≠ 0 := by rintro h0; rw [h0, zero_smul] at hC; exact hnd hC
    have hx : n.x = 0 := by
      have := congrArg Vec3.x hC
      simp [ha, hbz, hcz] at this
      exact this.resolve_left hk0
    have hy : n.y = 0 := by
      have := congrArg Vec3.y hC
      simp [ha, hbz, hcz] at this
      exact this.resolve_left hk0
    have hz : n.z * n.z = 1 := by simpa [Vec3.dot, hx, hy] using h1
    refine ⟨⟨n.z, hz, ?_⟩, fun g => ![g.x, g.y], ?_, ?_⟩
    · intro p q p' q' _ _
      simp only [hl, Vec3.dot, Vec3.cross, hx, hy, Vec3.sub_x, Vec3.sub_y]
      linear_combination (-((p.x - q.x) * (p'.y - q'.y) - (p.y - q.y) * (p'.x - q'.x))) * hz
    · intro g h
      simp only [dotProduct, Fin.sum_univ_two, cons_val_zero, cons_val_one, Vec3.dot, hx, hy]
      linear_combination (g.z * h.z) * hz
    · intro g
      refine ⟨g.z * a.z, fun p hp => ?_⟩
      have hpz : p.z = a.z := by
        have hnz : n.z ≠ 0 := by rintro h0; rw [h0] at hz; simp at hz
        simp [Vec3.dot, hx, hy] at hp
        have := hp.resolve_left hnz
        linarith
      simp only [hl, Vec3.dot, cons_val_zero, cons_val_one, hpz]
      ring

theorem quad_local {nrm : Vec3 K → K} (hn : IsNorm nrm) {q : Quad K} {n : Vec3 K} (h : ConvexQuad q n) :
    SameTurn (quadRebuild nrm q) ∧ |shoelace (quadRebuild nrm q)| = nrm (Vec3.cross (q.v2 - q.v0) (q.v3 - q.v1)) / 2 ∧
    ∃ γ : Vec3 K → Fin 2 → K, (∀ g h, γ g ⬝ᵥ γ h = g.dot h - g.dot n * h.dot n) ∧
      ∀ c g, ∃ e : K, sample (quadV q) c g = fun i => e + (quadRebuild nrm q *ᵥ γ g) i := by
  obtain ⟨f1, f2, f3⟩ := h.flat
  obtain ⟨t0, t1, t2, t3⟩ := h.turns
  have hnd : Vec3.cross (q.v1 - q.v0) (q.v2 - q.v0) ≠ 0 := by
    intro h0
    have : Vec3.cross (q.v2 - q.v1) (q.v0 - q.v1) = Vec3.cross (q.v1 - q.v0) (q.v2 - q.v0) := by ext <;> simp <;> ring
    rw [this, h0] at t1
    simp at t1
  obtain ⟨⟨σ, hσ, hcr⟩, γ, hγ, hlin⟩ := localXY_spec hn q.v0 q.v1 q.v2 n h.unit f1 f2 hnd
  set l := localXY nrm q.v0 q.v1 q.v2 with hl
  have d : ∀ p r : Vec3 K, n.dot (p - q.v0) = 0 → n.dot (r - q.v0) = 0 → n.dot (p - r) = 0 := by
    intro p r hp hr
    rw [Vec3.dot_sub] at hp hr ⊢; linarith
  have z0 : n.dot (q.v0 - q.v0) = 0 := by simp
  have c0 := hcr q.v1 q.v0 q.v3 q.v0 f1 f3
  have c1 := hcr q.v2 q.v1 q.v0 q.v1 (d _ _ f2 f1) (d _ _ z0 f1)
  have c2 := hcr q.v3 q.v2 q.v1 q.v2 (d _ _ f3 f2) (d _ _ f1 f2)
  have c3 := hcr q.v0 q.v3 q.v2 q.v3 (d _ _ z0 f3) (d _ _ f2 f3)
  have cd := hcr q.v2 q.v0 q.v3 q.v1 f2 (d _ _ f3 f1)
  have hσ0 : σ ≠ 0 := by rintro rfl; simp at hσ
  have k0 : corner (quadRebuild nrm q) 0 = σ * n.dot (Vec3.cross (q.v1 - q.v0) (q.v3 - q.v0)) := c0
  have k1 : corner (quadRebuild nrm q) 1 = σ * n.dot (Vec3.cross (q.v2 - q.v1) (q.v0 - q.v1)) := c1
  have k2 : corner (quadRebuild nrm q) 2 = σ * n.dot (Vec3.cross (q.v3 - q.v2) (q.v1 - q.v2)) := c2
  have k3 : corner (quadRebuild nrm q) 3 = σ * n.dot (Vec3.cross (q.v0 - q.v3) (q.v2 - q.v3)) := c3
  have kd : shoelace (quadRebuild nrm q) = σ * n.dot (Vec3.cross (q.v2 - q.v0) (q.v3 - q.v1)) / 2 := by rw [← cd]; rfl
  refine ⟨?_, ?_, γ, hγ, ?_⟩
  · rcases lt_or_gt_of_ne hσ0 with hs | hs
    · right
      intro i
      fin_cases i
      · show corner _ 0 < 0; rw [k0]; exact mul_neg_of_neg_of_pos hs t0
      · show corner _ 1 < 0; rw [k1]; exact mul_neg_of_neg_of_pos hs t1
      · show corner _ 2 < 0; rw [k2]; exact mul_neg_of_neg_of_pos hs t2
      · show corner _ 3 < 0; rw [k3]; exact mul_neg_of_neg_of_pos hs t3
    · left
      intro i
      fin_cases i
      · show 0 < corner _ 0; rw [k0]; exact mul_pos hs t0
      · show 0 < corner _ 1; rw [k1]; exact mul_pos hs t1
      · show 0 < corner _ 2; rw [k2]; exact mul_pos hs t2
      · show 0 < corner _ 3; rw [k3]; exact mul_pos hs t3
  · rw [kd, abs_div, abs_mul]
    have ha : |σ| = 1 := by
      have := abs_mul_abs_self σ
      rw [hσ] at this
      have h0 := abs_nonneg σ
      nlinarith
    have hcr' := cross_along n (q.v2 - q.v0) (q.v3 - q.v1) h.unit f2 (d _ _ f3 f1)
    have hnorm : nrm (Vec3.cross (q.v2 - q.v0) (q.v3 - q.v1)) = |n.dot (Vec3.cross (q.v2 - q.v0) (q.v3 - q.v1))| := by
      apply hn.eq_of_sq (abs_nonneg _)
      rw [abs_mul_abs_self]
      conv_rhs => rw [hcr']
      show _ = Vec3.dot _ _
      rw [Vec3.smul_dot, Vec3.dot_smul, h.unit]
      ring
    rw [ha, hnorm, one_mul]
    norm_num
  · intro c g
    obtain ⟨e, he⟩ := hlin g
    refine ⟨c + e, ?_⟩
    funext i
    have : ∀ i, n.dot (quadV q i - q.v0) = 0 := h.plane
    have key : sample (quadV q) c g i = c + (e + ((l (quadV q i)).1 * γ g 0 + (l (quadV q i)).2 * γ g 1)) := by
      rw [sample, he _ (this i)]
    rw [key]
    fin_cases i <;> simp [quadRebuild, quadV, mulVec, dotProduct, Fin.sum_univ_two, ← hl] <;> ring

end Fem

open Fem

/-- **C25, quadrilateral.** For every plane, strictly convex quadrilateral in space and every thickness, the diffusion matrix is
computed; it is symmetric, annihilates constants, and on the fields with gradients `g` and `h` it gives minus the exact energy of the
tangential gradients, with the area of the quadrilateral (half the cross product of the diagonals). It is negative, and zero only on
constants. -/
theorem C25_quadrilateral {nrm : Vec3 K → K} (hn : IsNorm nrm) (q : Quad K) (n : Vec3 K) (hq : ConvexQuad q n) (thickness : K) :
    ∃ L, quadLaplacian nrm thickness q = some L ∧ Lᵀ = L ∧ (∀ c : K, (L *ᵥ fun _ => c) = 0) ∧
    (∀ (c d : K) (g h : Vec3 K), sample (quadV q) d h ⬝ᵥ (L *ᵥ sample (quadV q) c g) =
      -(thickness * (nrm (Vec3.cross (q.v2 - q.v0) (q.v3 - q.v1)) / 2) * (g.dot h - g.dot n * h.dot n))) ∧
    (0 < thickness → ∀ u : Fin 4 → K, u ⬝ᵥ (L *ᵥ u) ≤ 0 ∧ (u ⬝ᵥ (L *ᵥ u) = 0 ↔ ∀ i j, u i = u j)) := by
  obtain ⟨hs, harea, γ, hγ, hlin⟩ := quad_local hn hq
  have hdet : ∀ p ∈ (quadPoints : List (GaussPoint K 2 4)), (p.J (quadRebuild nrm q)).det ≠ 0 := by
    rcases quad_det_sign _ hs with h | h
    · exact fun p hp => (h p hp).ne'
    · exact fun p hp => (h p hp).ne
  obtain ⟨M, hM⟩ := isoLaplacian_isSome _ _ hdet
  have hconst := isoLaplacian_const _ _ M hM quad_G_one
  refine ⟨thickness • M, by rw [quadLaplacian, hM]; rfl, by rw [transpose_smul, isoLaplacian_symm _ _ M hM], ?_, ?_, ?_⟩
  · intro c; rw [smul_mulVec, hconst, smul_zero]
  · intro c d g h
    obtain ⟨e1, h1⟩ := hlin c g
    obtain ⟨e2, h2⟩ := hlin d h
    rw [h1, h2, smul_mulVec, dotProduct_smul, isoLaplacian_linear _ _ M hM quad_G_one, quad_measure _ hs, harea, hγ, smul_eq_mul,
      Vec3.dot_comm h g]
    ring
  · intro hth u
    obtain ⟨a, b⟩ := isoLaplacian_nonpos _ _ M hM (fun p hp => by rw [quad_w p hp]; exact one_pos) u
    rw [smul_mulVec, dotProduct_smul, smul_eq_mul]
    refine ⟨mul_nonpos_of_nonneg_of_nonpos hth.le a, fun h0 => quad_G_zero u (b ((mul_eq_zero.1 h0).resolve_left hth.ne')), fun hu => ?_⟩
    have : u = fun _ => u 0 := by funext i; exact hu i 0
    rw [this, hconst, dotProduct_zero, mul_zero]

/-- **C26, quadrilateral.** Symmetric, the entries sum to `thickness · area / dt`, and positive definite. -/
theorem C26_quadrilateral {nrm : Vec3 K → K} (hn : IsNorm nrm) (q : Quad K) (n : Vec3 K) (hq : ConvexQuad q n) (thickness dt : K)
    (hth : 0 < thickness) (hdt : 0 < dt) :
    let M := quadDdt nrm thickness dt q
    Mᵀ = M ∧ (∑ i, ∑ j, M i j = thickness * (nrm (Vec3.cross (q.v2 - q.v0) (q.v3 - q.v1)) / 2) / dt) ∧
      ∀ u : Fin 4 → K, u ≠ 0 → 0 < u ⬝ᵥ (M *ᵥ u) := by
  intro M
  obtain ⟨hs, harea, -⟩ := quad_local hn hq
  have hdet : ∀ p ∈ (quadPoints : List (GaussPoint K 2 4)), (p.J (quadRebuild nrm q)).det ≠ 0 := by
    rcases quad_det_sign _ hs with h | h
    · exact fun p hp => (h p hp).ne'
    · exact fun p hp => (h p hp).ne
  have hM : M = (thickness / dt) • isoMass quadPoints (quadRebuild nrm q) := by
    simp only [M, quadDdt, overDt, if_pos hdt, smul_smul]; congr 1; field_simp
  refine ⟨by rw [hM, transpose_smul, isoMass_symm], ?_, ?_⟩
  · rw [← harea, ← quad_measure _ hs, ← isoMass_sum _ _ quad_N_one, hM]
    simp only [Matrix.smul_apply, smul_eq_mul, ← Finset.mul_sum]
    ring
  · intro u hu
    rw [hM, smul_mulVec, dotProduct_smul, smul_eq_mul, isoMass_form]
    apply mul_pos (by positivity)
    obtain ⟨a, b⟩ := sum_nonneg_zero quadPoints (fun p => p.w * |(p.J (quadRebuild nrm q)).det| * ((p.N ⬝ᵥ u) * (p.N ⬝ᵥ u)))
      (fun p hp => by rw [quad_w p hp]; exact mul_nonneg (by positivity) (mul_self_nonneg _))
    refine lt_of_le_of_ne a fun h0 => hu ?_
    have z : ∀ p ∈ (quadPoints : List (GaussPoint K 2 4)), p.N ⬝ᵥ u = 0 := by
      intro p hp
      have := b h0.symm p hp
      rw [quad_w p hp, one_mul] at this
      exact mul_self_eq_zero.1 ((mul_eq_zero.1 this).resolve_left (abs_ne_zero.2 (hdet p hp)))
    have g0 := (gp_pos (K := K)).ne'
    have p1 := z (quadPoint (-gp) (-gp) (1 * 1)) (by simp [quadPoints])
    have p2 := z (quadPoint gp (-gp) (1 * 1)) (by simp [quadPoints])
    have p3 := z (quadPoint (-gp) gp (1 * 1)) (by simp [quadPoints])
    have p4 := z (quadPoint gp gp (1 * 1)) (by simp [quadPoints])
    simp [quadPoint, dotProduct, Fin.sum_univ_four] at p1 p2 p3 p4
    have g2 : (gp * gp : K) ≠ 0 := mul_ne_zero g0 g0
    have c0 : gp * gp * u 0 = 0 := by
      linear_combination ((1+gp)*(1+gp)) / 4 * p1 - ((1-gp)*(1+gp)) / 4 * p2 - ((1-gp)*(1+gp)) / 4 * p3 + ((1-gp)*(1-gp)) / 4 * p4
    have c1 : gp * gp * u 1 = 0 := by
      linear_combination ((1+gp)*(1+gp)) / 4 * p2 - ((1-gp)*(1+gp)) / 4 * p1 - ((1-gp)*(1+gp)) / 4 * p4 + ((1-gp)*(1-gp)) / 4 * p3
    have c2 : gp * gp * u 2 = 0 := by
      linear_combination ((1+gp)*(1+gp)) / 4 * p4 - ((1-gp)*(1+gp)) / 4 * p2 - ((1-gp)*(1+gp)) / 4 * p3 + ((1-gp)*(1-gp)) / 4 * p1
    have c3 : gp * gp * u 3 = 0 := by
      linear_combination ((1+gp)*(1+gp)) / 4 * p3 - ((1-gp)*(1+gp)) / 4 * p1 - ((1-gp)*(1+gp)) / 4 * p4 + ((1-gp)*(1-gp)) / 4 * p2
    funext i
    fin_cases i
    · exact (mul_eq_zero.1 c0).resolve_left g2
    · exact (mul_eq_zero.1 c1).resolve_left g2
    · exact (mul_eq_zero.1 c2).resolve_left g2
    · exact (mul_eq_zero.1 c3).resolve_left g2

/-- A trapezium meets the hypotheses of the two theorems above. -/
example : ConvexQuad (K := ℚ) ⟨⟨0, 0, 0⟩, ⟨4, 0, 0⟩, ⟨3, 2, 0⟩, ⟨1, 2, 0⟩⟩ ⟨0, 0, 1⟩ := by
  refine ⟨by decide +kernel, ?_, ?_⟩ <;> intro i <;> fin_cases i <;> decide +kernel

/-- A tilted one, in the plane `z = x`, with the unit normal `(-4/5, 0, 3/5)` of `3 z = 4 x`. -/
example : ConvexQuad (K := ℚ) ⟨⟨0, 0, 0⟩, ⟨3, 0, 4⟩, ⟨3, 2, 4⟩, ⟨0, 5, 0⟩⟩ ⟨-4 / 5, 0, 3 / 5⟩ := by
  refine ⟨by decide +kernel, ?_, ?_⟩ <;> intro i <;> fin_cases i <;> decide +kernel

/-! ### The quadrilateral's mass matrix is integrated with the Jacobian of the mirrored point -/

/-- The derivative of `Σ N_k(ξ, η) x_k`: the matrix whose rows are the derivatives of the bilinear shape functions. -/
def bilinearG (xi eta : K) : Matrix (Fin 2) (Fin 4) K :=
  (1 / 4 : K) • !![-(1 - eta), 1 - eta, 1 + eta, -(1 + eta); -(1 - xi), -(1 + xi), 1 + xi, 1 - xi]

/-- The rows of `G` at a point are the derivatives of the shape functions at the point with `ξ` and `η` exchanged. Over the four points the
exchange only permutes the rule, so that the diffusion matrix is not affected. -/
theorem quad_G_mirrored (xi eta w : K) : (quadPoint xi eta w).G = bilinearG eta xi := rfl

/-- **C26, quadrilateral: the entries are not the rule applied to `N_i N_j |det J|`.** For the trapezium `(0,0) (4,0) (3,2) (1,2)` the entry
`(1, 1)` of the mass matrix differs from the four point rule with the Jacobian of the element at the same point. Only the
total is right. -/
theorem C26_quadrilateral_mirrored :
    let q : Quad ℚ := ⟨⟨0, 0, 0⟩, ⟨4, 0, 0⟩, ⟨3, 2, 0⟩, ⟨1, 2, 0⟩⟩
    let X : Matrix (Fin 4) (Fin 2) ℚ := !![0, 0; 4, 0; 3, 2; 1, 2]
    ∀ nrm, quadRebuild nrm q = X ∧
      quadDdt nrm 1 1 q 1 1 ≠ (([(-gp, -gp), (gp, -gp), (-gp, gp), (gp, gp)] : List (ℚ × ℚ)).map fun p =>
        (1 / 4 * (1 + p.1) * (1 - p.2)) * (1 / 4 * (1 + p.1) * (1 - p.2)) * |(bilinearG p.1 p.2 * X).det|).sum := by
  intro q X nrm
  have hX : quadRebuild nrm q = X := by
    ext i j
    fin_cases i <;> fin_cases j <;> simp [quadRebuild, q, X, localXY]
  refine ⟨hX, ?_⟩
  have e : quadDdt nrm 1 1 q 1 1 = isoMass quadPoints X 1 1 := by
    rw [quadDdt, hX]; simp [overDt]
  rw [e]
  simp only [isoMass, quadPoints, Matrix.add_apply, Matrix.smul_apply, Matrix.of_apply, Matrix.zero_apply, smul_eq_mul, List.map_cons,
    List.map_nil, List.sum_cons, List.sum_nil, show ∀ a b : ℚ, (bilinearG a b * X).det = ((quadPoint b a 1).J X).det from fun _ _ => rfl, quad_det]
  have c0 : corner X 0 = 8 := by decide +kernel
  have c1 : corner X 1 = 8 := by decide +kernel
  have c2 : corner X 2 = 4 := by decide +kernel
  have c3 : corner X 3 = 4 := by decide +kernel
  simp only [c0, c1, c2, c3, quadPoint, gp]
  norm_num [abs_of_pos]

/-! ### C62: prisms and hexahedra -/

namespace Fem

/-- The vertices of a hexahedron. -/
def hexV (h : Hex K) : Fin 8 → Vec3 K := ![h.v0, h.v1, h.v2, h.v3, h.v4, h.v5, h.v6, h.v7]

/-- The vertices of a prism. -/
def prismV (p : Prism K) : Fin 6 → Vec3 K := ![p.v0, p.v1, p.v2, p.v3, p.v4, p.v5]

theorem hex_G_one : ∀ p ∈ (hexPoints : List (GaussPoint K 3 8)), p.G *ᵥ (fun _ => 1) = 0 := by
  have : ∀ xi eta zeta w : K, (hexPoint xi eta zeta w).G *ᵥ (fun _ => 1) = 0 := by
    intro xi eta zeta w
    funext i
    fin_cases i <;> simp [hexPoint, mulVec, dotProduct, Fin.sum_univ_eight] <;> ring
  intro p hp
  simp only [hexPoints, List.mem_cons, List.not_mem_nil, or_false] at hp
  rcases hp with rfl | rfl | rfl | rfl | rfl | rfl | rfl | rfl <;> exact this _ _ _ _

theorem hex_N_one : ∀ p ∈ (hexPoints : List (GaussPoint K 3 8)), ∑ i, p.N i = 1 := by
  have : ∀ xi eta zeta w : K, ∑ i, (hexPoint xi eta zeta w).N i = 1 := by
    intro xi eta zeta w
    simp [hexPoint, Fin.sum_univ_eight]; ring
  intro p hp
  simp only [hexPoints, List.mem_cons, List.not_mem_nil, or_false] at hp
  rcases hp with rfl | rfl | rfl | rfl | rfl | rfl | rfl | rfl <;> exact this _ _ _ _

theorem hex_w : ∀ p ∈ (hexPoints : List (GaussPoint K 3 8)), p.w = 1 := by
  intro p hp
  simp only [hexPoints, List.mem_cons, List.not_mem_nil, or_false] at hp
  rcases hp with rfl | rfl | rfl | rfl | rfl | rfl | rfl | rfl <;> simp [hexPoint]

theorem prism_G_one (r : K) : ∀ p ∈ (prismPoints r : List (GaussPoint K 3 6)), p.G *ᵥ (fun _ => 1) = 0 := by
  have : ∀ xi eta zeta w : K, (prismPoint xi eta zeta w).G *ᵥ (fun _ => 1) = 0 := by
    intro xi eta zeta w
    funext i
    fin_cases i <;> simp [prismPoint, mulVec, dotProduct, Fin.sum_univ_six] <;> ring
  intro p hp
  simp only [prismPoints, List.mem_cons, List.not_mem_nil, or_false] at hp
  rcases hp with rfl | rfl | rfl | rfl | rfl | rfl <;> exact this _ _ _ _

theorem prism_N_one (r : K) : ∀ p ∈ (prismPoints r : List (GaussPoint K 3 6)), ∑ i, p.N i = 1 := by
  have : ∀ xi eta zeta w : K, ∑ i, (prismPoint xi eta zeta w).N i = 1 := by
    intro xi eta zeta w
    simp [prismPoint, Fin.sum_univ_six]; ring
  intro p hp
  simp only [prismPoints, List.mem_cons, List.not_mem_nil, or_false] at hp
  rcases hp with rfl | rfl | rfl | rfl | rfl | rfl <;> exact this _ _ _ _

theorem prism_w (r : K) : ∀ p ∈ (prismPoints r : List (GaussPoint K 3 6)), p.w = 1 / 8 := by
  intro p hp
  simp only [prismPoints, List.mem_cons, List.not_mem_nil, or_false] at hp
  rcases hp with rfl | rfl | rfl | rfl | rfl | rfl <;> simp [prismPoint] <;> norm_num

theorem hex_sample (h : Hex K) (c : K) (g : Vec3 K) : sample (hexV h) c g = fun i => c + (hexX h *ᵥ ![g.x, g.y, g.z]) i := by
  funext i
  fin_cases i <;> simp [sample, hexV, hexX, mulVec, dotProduct, Fin.sum_univ_three, Vec3.dot] <;> ring

theorem prism_sample (p : Prism K) (c : K) (g : Vec3 K) : sample (prismV p) c g = fun i => c + (prismX p *ᵥ ![g.x, g.y, g.z]) i := by
  funext i
  fin_cases i <;> simp [sample, prismV, prismX, mulVec, dotProduct, Fin.sum_univ_three, Vec3.dot] <;> ring

/-- The triangular prism over the triangle `o`, `o + a`, `o + b` with the edge `c`, in the vertex order of the prism. -/
def wedge (o a b c : Vec3 K) : Prism K := ⟨o, o + a, o + b, o + c, o + a + c, o + b + c⟩

theorem box_det (o a b c : Vec3 K) (xi eta zeta w : K) :
    ((hexPoint xi eta zeta w).J (hexX (box o a b c))).det = eta * (box o a b c).volume / 8 := by
  rw [det_fin_three]
  simp [GaussPoint.J, hexPoint, hexX, box, mul_apply, Fin.sum_univ_eight, Hex.volume, Vec3.dot]
  ring

theorem wedge_det (o a b c : Vec3 K) (xi eta zeta w : K) :
    ((prismPoint xi eta zeta w).J (prismX (wedge o a b c))).det = -(wedge o a b c).volume := by
  rw [det_fin_three]
  simp [GaussPoint.J, prismPoint, prismX, wedge, mul_apply, Fin.sum_univ_six, Prism.volume, Vec3.dot]
  ring

end Fem

/-- What C62 asks of a diffusion matrix of an element with vertices `v` and volume `vol`. -/
def ExactDiffusion {n : Nat} (L : Matrix (Fin n) (Fin n) K) (v : Fin n → Vec3 K) (vol : K) : Prop :=
  Lᵀ = L ∧ (∀ c : K, (L *ᵥ fun _ => c) = 0) ∧ (∀ u, u ⬝ᵥ (L *ᵥ u) ≤ 0) ∧
    ∀ (c d : K) (g h : Vec3 K), sample v d h ⬝ᵥ (L *ᵥ sample v c g) = -(vol * g.dot h)

theorem Fem.vec_dot (g h : Vec3 K) : ![h.x, h.y, h.z] ⬝ᵥ ![g.x, g.y, g.z] = g.dot h := by
  simp [dotProduct, Fin.sum_univ_three, Vec3.dot]; ring

/-- **C62 (partial), hexahedron.** Whatever the shape, the diffusion matrix is symmetric, annihilates constants, is negative and exact on
linear fields up to the measure the rule gives to the element; the mass matrix is symmetric with the same total. What is missing is that the measure is the volume: see the next theorem. -/
theorem C62_hexahedron_partial (h : Hex K) (L) (hL : hexLaplacian h = some L) (dt : K) (hdt : 0 < dt) :
    ExactDiffusion L (hexV h) (isoMeasure hexPoints (hexX h)) ∧ (hexDdt dt h)ᵀ = hexDdt dt h ∧
      ∑ i, ∑ j, hexDdt dt h i j = isoMeasure hexPoints (hexX h) / dt := by
  refine ⟨⟨isoLaplacian_symm _ _ L hL, isoLaplacian_const _ _ L hL hex_G_one,
    fun u => (isoLaplacian_nonpos _ _ L hL (fun p hp => by rw [hex_w p hp]; exact one_pos) u).1, fun c d g h' => ?_⟩, ?_, ?_⟩
  · rw [hex_sample, hex_sample, isoLaplacian_linear _ _ L hL hex_G_one, vec_dot]
  · simp only [hexDdt, overDt, if_pos hdt, transpose_smul, isoMass_symm]
  · rw [← isoMass_sum _ _ hex_N_one]
    simp only [hexDdt, overDt, if_pos hdt, Matrix.smul_apply, smul_eq_mul, ← Finset.mul_sum]
    field_simp

/-- **C62 fails for hexahedra in the vertex order of the meshes.** The shape functions of `CFemHexahedron` number the corners of the first
face crosswise while meshes, `CGeoHexahedron` and the picture in FemHexahedron.hpp number them around. For every parallelepiped with the
order of the meshes the diffusion and mass matrices carry `0.5773502692` of the volume. -/
theorem C62_hexahedron_order (o a b c : Vec3 K) (hv : (box o a b c).volume ≠ 0) (dt : K) (hdt : 0 < dt) :
    (∃ L, hexLaplacian (box o a b c) = some L ∧
      ExactDiffusion L (hexV (box o a b c)) (5773502692 / 10000000000 * |(box o a b c).volume|)) ∧
    ∑ i, ∑ j, hexDdt dt (box o a b c) i j = 5773502692 / 10000000000 * |(box o a b c).volume| / dt := by
  have g0 := gp_pos (K := K)
  have hdet : ∀ p ∈ (hexPoints : List (GaussPoint K 3 8)), (p.J (hexX (box o a b c))).det ≠ 0 := by
    intro p hp
    simp only [hexPoints, List.mem_cons, List.not_mem_nil, or_false] at hp
    rcases hp with rfl | rfl | rfl | rfl | rfl | rfl | rfl | rfl <;> rw [box_det] <;> simp [hv, g0.ne']
  obtain ⟨L, hL⟩ := isoLaplacian_isSome _ _ hdet
  have hm : isoMeasure hexPoints (hexX (box o a b c)) = 5773502692 / 10000000000 * |(box o a b c).volume| := by
    have e : (5773502692 / 10000000000 : K) = gp := rfl
    simp only [e, isoMeasure, hexPoints, List.map_cons, List.map_nil, List.sum_cons, List.sum_nil, box_det, abs_div, abs_mul, abs_neg,
      abs_of_pos g0]
    simp only [hexPoint, abs_of_pos (show (0 : K) < 8 by norm_num)]
    ring
  obtain ⟨h1, h2, h3⟩ := C62_hexahedron_partial (box o a b c) L hL dt hdt
  rw [hm] at h1 h3
  exact ⟨⟨L, hL, h1⟩, h3⟩

/-- The same parallelepiped with the vertices in the order of the shape functions. -/
def Fem.crossBox (o a b c : Vec3 K) : Hex K := ⟨o, o + a, o + b, o + a + b, o + c, o + a + c, o + b + c, o + a + b + c⟩

/-- **C62, hexahedron in the order of the shape functions.** Then everything is exact on every parallelepiped. -/
theorem C62_hexahedron_own_order (o a b c : Vec3 K) (hv : (box o a b c).volume ≠ 0) (dt : K) (hdt : 0 < dt) :
    (∃ L, hexLaplacian (crossBox o a b c) = some L ∧ ExactDiffusion L (hexV (crossBox o a b c)) |(box o a b c).volume|) ∧
    ∑ i, ∑ j, hexDdt dt (crossBox o a b c) i j = |(box o a b c).volume| / dt := by
  have hd : ∀ xi eta zeta w : K, ((hexPoint xi eta zeta w).J (hexX (crossBox o a b c))).det = -(box o a b c).volume / 8 := by
    intro xi eta zeta w
    rw [det_fin_three]
    simp [GaussPoint.J, hexPoint, hexX, crossBox, box, mul_apply, Fin.sum_univ_eight, Hex.volume, Vec3.dot]
    ring
  have hdet : ∀ p ∈ (hexPoints : List (GaussPoint K 3 8)), (p.J (hexX (crossBox o a b c))).det ≠ 0 := by
    intro p hp
    simp only [hexPoints, List.mem_cons, List.not_mem_nil, or_false] at hp
    rcases hp with rfl | rfl | rfl | rfl | rfl | rfl | rfl | rfl <;> rw [hd] <;> simp [hv]
  obtain ⟨L, hL⟩ := isoLaplacian_isSome _ _ hdet
  have hm : isoMeasure hexPoints (hexX (crossBox o a b c)) = |(box o a b c).volume| := by
    simp only [isoMeasure, hexPoints, List.map_cons, List.map_nil, List.sum_cons, List.sum_nil, hd, abs_div, abs_neg]
    simp only [hexPoint, abs_of_pos (show (0 : K) < 8 by norm_num)]
    ring
  obtain ⟨h1, h2, h3⟩ := C62_hexahedron_partial (crossBox o a b c) L hL dt hdt
  rw [hm] at h1 h3
  exact ⟨⟨L, hL, h1⟩, h3⟩

/-- **C62 (partial), prism.** As for the hexahedron. -/
theorem C62_prism_partial (r : K) (p : Prism K) (L) (hL : prismLaplacian r p = some L) (dt : K) (hdt : 0 < dt) :
    ExactDiffusion L (prismV p) (isoMeasure (prismPoints r) (prismX p)) ∧ (prismDdt r dt p)ᵀ = prismDdt r dt p ∧
      ∑ i, ∑ j, prismDdt r dt p i j = isoMeasure (prismPoints r) (prismX p) / dt := by
  refine ⟨⟨isoLaplacian_symm _ _ L hL, isoLaplacian_const _ _ L hL (prism_G_one r),
    fun u => (isoLaplacian_nonpos _ _ L hL (fun p hp => by rw [prism_w r p hp]; norm_num) u).1, fun c d g h' => ?_⟩, ?_, ?_⟩
  · rw [prism_sample, prism_sample, isoLaplacian_linear _ _ L hL (prism_G_one r), vec_dot]
  · simp only [prismDdt, overDt, if_pos hdt, transpose_smul, isoMass_symm]
  · rw [← isoMass_sum _ _ (prism_N_one r)]
    simp only [prismDdt, overDt, if_pos hdt, Matrix.smul_apply, smul_eq_mul, ← Finset.mul_sum]
    field_simp

/-- **C62 fails for prisms.** The six weights sum to `3/4` while the reference prism has volume `1`: on every prism with parallel sides the
diffusion and mass matrices carry three quarters of `volume()`. -/
theorem C62_prism_weights (r : K) (o a b c : Vec3 K) (hv : (wedge o a b c).volume ≠ 0) (dt : K) (hdt : 0 < dt) :
    (∃ L, prismLaplacian r (wedge o a b c) = some L ∧
      ExactDiffusion L (prismV (wedge o a b c)) (3 / 4 * |(wedge o a b c).volume|)) ∧
    ∑ i, ∑ j, prismDdt r dt (wedge o a b c) i j = 3 / 4 * |(wedge o a b c).volume| / dt := by
  have hdet : ∀ p ∈ (prismPoints r : List (GaussPoint K 3 6)), (p.J (prismX (wedge o a b c))).det ≠ 0 := by
    intro p hp
    simp only [prismPoints, List.mem_cons, List.not_mem_nil, or_false] at hp
    rcases hp with rfl | rfl | rfl | rfl | rfl | rfl <;> rw [wedge_det] <;> simp [hv]
  obtain ⟨L, hL⟩ := isoLaplacian_isSome _ _ hdet
  have hm : isoMeasure (prismPoints r) (prismX (wedge o a b c)) = 3 / 4 * |(wedge o a b c).volume| := by
    simp only [isoMeasure, prismPoints, List.map_cons, List.map_nil, List.sum_cons, List.sum_nil, wedge_det, abs_neg]
    simp only [prismPoint]
    ring
  obtain ⟨h1, h2, h3⟩ := C62_prism_partial r (wedge o a b c) L hL dt hdt
  rw [hm] at h1 h3
  exact ⟨⟨L, hL, h1⟩, h3⟩

example : (box (⟨0, 0, 0⟩ : Vec3 ℚ) ⟨0, 2, 0⟩ ⟨3, 0, 0⟩ ⟨0, 0, 5⟩).volume ≠ 0 := by decide +kernel
example : (wedge (⟨0, 0, 0⟩ : Vec3 ℚ) ⟨0, 2, 0⟩ ⟨3, 0, 0⟩ ⟨0, 0, 5⟩).volume ≠ 0 := by decide +kernel

end ENigMA
