import Verif.Pde.FemPlateGrid
import Verif.Pde.FemHeatExamples

/-!
# C161: temperatures in a rectangular plate stay between the prescribed ones
-/

set_option linter.unusedSectionVars false
set_option autoImplicit false

namespace ENigMA
open Matrix FemOp FemThermalOp Fem FemHeat FdmHeat BasicMesher FemPlate
variable {K : Type} [Field K] [LinearOrder K] [IsStrictOrderedRing K]

namespace FemPlate

/-- The square of a vector in the plane of two perpendicular ones. -/
theorem plane_square (g a b : Vec3 K) (hab : a.dot b = 0) (hg : g.dot (Vec3.cross a b) = 0) :
    g.dot g * (a.dot a * b.dot b) = g.dot a * g.dot a * b.dot b + g.dot b * g.dot b * a.dot a := by
  have id : g.dot g * (a.dot a * b.dot b - a.dot b * a.dot b) =
      g.dot a * g.dot a * b.dot b + g.dot b * g.dot b * a.dot a - 2 * (g.dot a * g.dot b * a.dot b) + g.dot (Vec3.cross a b) * g.dot (Vec3.cross a b) := by
    simp only [Vec3.dot, Vec3.cross]; ring
  rw [hab, hg] at id
  linarith

/-- Cut off below `lo` and above `hi`. -/
def clamp (lo hi t : K) : K := max lo (min hi t)

theorem clamp_sq (lo hi s t : K) : (clamp lo hi s - clamp lo hi t) * (clamp lo hi s - clamp lo hi t) ≤ (s - t) * (s - t) := by
  rw [← abs_mul_abs_self (clamp lo hi s - clamp lo hi t), ← abs_mul_abs_self (s - t)]
  have h : |clamp lo hi s - clamp lo hi t| ≤ |s - t| := (abs_max_sub_max_le_max lo (min hi s) lo (min hi t)).trans (by
    rw [sub_self, abs_zero, max_eq_right (abs_nonneg _)]
    refine (abs_min_sub_min_le_max hi s hi t).trans ?_
    rw [sub_self, abs_zero, max_eq_right (abs_nonneg _)])
  exact mul_self_le_mul_self (abs_nonneg _) h

theorem clamp_id (lo hi t : K) (h1 : lo ≤ t) (h2 : t ≤ hi) : clamp lo hi t = t := by
  unfold clamp; rw [min_eq_right h2, max_eq_right h1]

/-- In the plane of two perpendicular vectors, what is less steep along both has the smaller square. -/
theorem plane_le (g g' a b : Vec3 K) (hab : a.dot b = 0) (ha : 0 < a.dot a) (hb : 0 < b.dot b) (hg : g.dot (Vec3.cross a b) = 0) (hg' : g'.dot (Vec3.cross a b) = 0)
    (h1 : g'.dot a * g'.dot a ≤ g.dot a * g.dot a) (h2 : g'.dot b * g'.dot b ≤ g.dot b * g.dot b) : g'.dot g' ≤ g.dot g := by
  have e := plane_square g a b hab hg
  have e' := plane_square g' a b hab hg'
  have hp : 0 < a.dot a * b.dot b := mul_pos ha hb
  have : g'.dot g' * (a.dot a * b.dot b) ≤ g.dot g * (a.dot a * b.dot b) := by
    rw [e, e']
    have := mul_le_mul_of_nonneg_right h1 hb.le
    have := mul_le_mul_of_nonneg_right h2 ha.le
    linarith
  exact le_of_mul_le_mul_right this hp

/-- The last of the values that are set. -/
theorem last_side (P Q R S : Prop) [Decidable P] [Decidable Q] [Decidable R] [Decidable S] :
    ((if P then [(0 : K)] else []) ++ ((if Q then [0] else []) ++ ((if R then [0] else []) ++ (if S then [1] else [])))).getLast? = if S then some 1 else if P ∨ Q ∨ R then some 0 else none := by
  by_cases a : P <;> by_cases b : Q <;> by_cases c : R <;> by_cases d : S <;> simp [a, b, c, d]

section
variable {nrm : Vec3 K → K} (hn : IsNorm nrm) (q : Quad K) (nu nv : Nat) (hu : 0 < nu) (hv : 0 < nv)

include hn in
/-- Cutting off values does not raise the energy of a triangle of a rectangular grid. -/
theorem triangle_le (hperp : (q.v1 - q.v0).dot (q.v3 - q.v0) = 0) (hq1 : q.v1 - q.v0 ≠ 0) (hq3 : q.v3 - q.v0 ≠ 0) (hu : 0 < nu) (hv : 0 < nv) (i j : Nat) (lo hi u v w E E' : K) :
    (Energy nrm .triangle [gridPoint q nu nv i j, gridPoint q nu nv (i + 1) j, gridPoint q nu nv (i + 1) (j + 1)] [u, v, w] E →
      Energy nrm .triangle [gridPoint q nu nv i j, gridPoint q nu nv (i + 1) j, gridPoint q nu nv (i + 1) (j + 1)] [clamp lo hi u, clamp lo hi v, clamp lo hi w] E' → E' ≤ E) ∧
    (Energy nrm .triangle [gridPoint q nu nv i j, gridPoint q nu nv (i + 1) (j + 1), gridPoint q nu nv i (j + 1)] [u, v, w] E →
      Energy nrm .triangle [gridPoint q nu nv i j, gridPoint q nu nv (i + 1) (j + 1), gridPoint q nu nv i (j + 1)] [clamp lo hi u, clamp lo hi v, clamp lo hi w] E' → E' ≤ E) := by
  have hu0 : (0 : K) < 1 / nu := by have : (0 : K) < nu := by exact_mod_cast hu
                                    positivity
  have hv0 : (0 : K) < 1 / nv := by have : (0 : K) < nv := by exact_mod_cast hv
                                    positivity
  obtain ⟨s1, s2, s3⟩ := grid_steps q nu nv i j hu hv
  set a : Vec3 K := (1 / (nu : K)) • (q.v1 - q.v0) with hadef
  set b : Vec3 K := (1 / (nv : K)) • (q.v3 - q.v0) with hbdef
  have pos : ∀ w : Vec3 K, w ≠ 0 → 0 < w.dot w := fun w hw =>
    lt_of_le_of_ne (Vec3.normSq_nonneg w) fun h => hw (Vec3.normSq_eq_zero.1 h.symm)
  have smul_ne : ∀ (t : K) (w : Vec3 K), 0 < t → w ≠ 0 → t • w ≠ 0 := fun t w ht hw => smul_ne_zero ht.ne' hw
  have ha : 0 < a.dot a := pos _ (smul_ne _ _ hu0 hq1)
  have hb : 0 < b.dot b := pos _ (smul_ne _ _ hv0 hq3)
  have hab : a.dot b = 0 := by
    have : a.dot b = 1 / (nu : K) * (1 / nv) * (q.v1 - q.v0).dot (q.v3 - q.v0) := by
      simp only [hadef, hbdef, Vec3.dot, Vec3.smul_x, Vec3.smul_y, Vec3.smul_z]; ring
    rw [this, hperp, mul_zero]
  have dots : ∀ g x y : Vec3 K, g.dot (x + y) = g.dot x + g.dot y := fun g x y => by simp [Vec3.dot]; ring
  have cr1 : Vec3.cross a (a + b) = Vec3.cross a b := by ext <;> simp [Vec3.cross] <;> ring
  have cr2 : Vec3.cross (a + b) b = Vec3.cross a b := by ext <;> simp [Vec3.cross] <;> ring
  constructor
  · rintro (⟨⟩ | ⟨_, _, _, g, _, _, _, h0, h1, h2⟩) h'
    obtain ⟨⟩ | ⟨_, _, _, g', _, _, _, h0', h1', h2'⟩ := h'
    refine mul_le_mul_of_nonneg_left ?_ (by have := hn.nonneg (Vec3.cross (gridPoint q nu nv (i + 1) j - gridPoint q nu nv i j) (gridPoint q nu nv (i + 1) (j + 1) - gridPoint q nu nv i j)); linarith)
    rw [s1, s2, cr1] at h0 h0'
    rw [s1] at h1 h1'
    rw [s2, dots] at h2 h2'
    refine plane_le g g' a b hab ha hb h0 h0' ?_ ?_
    · rw [h1, h1']; exact clamp_sq lo hi v u
    · rw [show g.dot b = w - v by linarith, show g'.dot b = clamp lo hi w - clamp lo hi v by linarith]; exact clamp_sq lo hi w v
  · rintro (⟨⟩ | ⟨_, _, _, g, _, _, _, h0, h1, h2⟩) h'
    obtain ⟨⟩ | ⟨_, _, _, g', _, _, _, h0', h1', h2'⟩ := h'
    refine mul_le_mul_of_nonneg_left ?_ (by have := hn.nonneg (Vec3.cross (gridPoint q nu nv (i + 1) (j + 1) - gridPoint q nu nv i j) (gridPoint q nu nv i (j + 1) - gridPoint q nu nv i j)); linarith)
    rw [s2, s3, cr2] at h0 h0'
    rw [s2, dots] at h1 h1'
    rw [s3] at h2 h2'
    refine plane_le g g' a b hab ha hb h0 h0' ?_ ?_
    · rw [show g.dot a = v - w by linarith, show g'.dot a = clamp lo hi v - clamp lo hi w by linarith]; exact clamp_sq lo hi v w
    · rw [h2, h2']; exact clamp_sq lo hi w u

include hn hu hv in
/-- Cutting off values does not raise the energy. -/
theorem energy_clamp (hperp : (q.v1 - q.v0).dot (q.v3 - q.v0) = 0) (hq1 : q.v1 - q.v0 ≠ 0) (hq3 : q.v3 - q.v0 ≠ 0) (lo hi : K) (φ : Int → K) (E E' : K)
    (hE : TotalEnergy nrm (generateQuad nrm q nu nv true).mesh φ E) (hE' : TotalEnergy nrm (generateQuad nrm q nu nv true).mesh (fun x => clamp lo hi (φ x)) E') : E' ≤ E := by
  obtain ⟨en, h1, rfl⟩ := hE
  obtain ⟨en', h1', rfl⟩ := hE'
  apply List.sum_le_sum
  intro x hx
  obtain ⟨e, ps, he, hps, hen⟩ := h1 x hx
  obtain ⟨e', ps', he', hps', hen'⟩ := h1' x hx
  rw [he] at he'
  cases he'
  rw [hps] at hps'
  cases hps'
  obtain ⟨i, j, hi', hj', rfl | rfl⟩ := grid_elem q nu nv x e he
  · rw [(grid_corners hn q nu nv hu hv i j hi' hj').1] at hps
    cases hps
    exact (triangle_le hn q nu nv hperp hq1 hq3 hu hv i j lo hi _ _ _ _ _).1 hen hen'
  · rw [(grid_corners hn q nu nv hu hv i j hi' hj').2] at hps
    cases hps
    exact (triangle_le hn q nu nv hperp hq1 hq3 hu hv i j lo hi _ _ _ _ _).2 hen hen'

end
end FemPlate

/-- **C161, bounds in a rectangular plate.** In every rectangle, divided into triangles by the mesher in any way: if at least one node has a prescribed value, and all prescribed values are between
`lo` and `hi`, so are the temperatures at all nodes. -/
theorem C161_plate_bounds {nrm : Vec3 K → K} (hn : IsNorm nrm) (r : K) (solver : Sys K → Nat → K) (hS : Sound solver) (junk junk' : Nat → K) (q : Quad K)
    (hperp : (q.v1 - q.v0).dot (q.v3 - q.v0) = 0) (hq1 : q.v1 - q.v0 ≠ 0) (hq3 : q.v3 - q.v0 ≠ 0) (nu nv : Nat) (hu : 0 < nu) (hv : 0 < nv) (pf : PdeField K)
    (hno : NoConditions pf (generateQuad nrm q nu nv true).mesh) (f : EqField K) (hm : f.method = .fem) (hf : IndicesOk f.uFixed ((nu + 1) * (nv + 1)))
    (hone : ∃ k v, Equation.prescribed f k = some v) (lo hi : K) (hb : ∀ k v, Equation.prescribed f k = some v → lo ≤ v ∧ v ≤ hi) :
    ∃ f', steady nrm r solver junk junk' (generateQuad nrm q nu nv true).mesh pf f = some f' ∧ f'.u.size = (nu + 1) * (nv + 1) ∧
      (∀ k v, Equation.prescribed f k = some v → f'.u.at' k = v) ∧ ∀ k < (nu + 1) * (nv + 1), lo ≤ f'.u.at' k ∧ f'.u.at' k ≤ hi := by
  obtain ⟨hwf, hrt, -, hids, -, hnd⟩ := C30_nodes hn q nu nv hu hv true
  have hq : Vec3.cross (q.v1 - q.v0) (q.v3 - q.v0) ≠ 0 := by
    intro h
    have id : (q.v1 - q.v0).dot (q.v1 - q.v0) * (q.v3 - q.v0).dot (q.v3 - q.v0) - (q.v1 - q.v0).dot (q.v3 - q.v0) * (q.v1 - q.v0).dot (q.v3 - q.v0) =
        (Vec3.cross (q.v1 - q.v0) (q.v3 - q.v0)).dot (Vec3.cross (q.v1 - q.v0) (q.v3 - q.v0)) := by simp only [Vec3.dot, Vec3.cross]; ring
    rw [hperp, h] at id
    have h2 : (q.v1 - q.v0).dot (q.v1 - q.v0) * (q.v3 - q.v0).dot (q.v3 - q.v0) = 0 := by simpa [Vec3.dot] using id
    rcases mul_eq_zero.1 h2 with h3 | h3
    · exact hq1 (Vec3.normSq_eq_zero.1 h3)
    · exact hq3 (Vec3.normSq_eq_zero.1 h3)
  have hcnt := grid_count hn q nu nv hu hv
  have hs := grid_simplex hn q nu nv hu hv hq
  have hidx : ∀ k, k < (nu + 1) * (nv + 1) → (generateQuad nrm q nu nv true).mesh.nodes.idAt? k = some (k : Int) := fun k hk => by
    show (generateQuad nrm q nu nv true).mesh.nodes.ids[k]? = _
    rw [hids, iota_at]; exact ⟨hk, rfl⟩
  have hin : ∀ k v, Equation.prescribed f k = some v → k < (nu + 1) * (nv + 1) := fun k v h => by
    have := (hf (k : Int) v h).2
    exact_mod_cast this
  obtain ⟨f', h1, h2, h3⟩ := C144_least_energy hn r solver hS junk junk' (generateQuad nrm q nu nv true).mesh hwf hrt hs pf hno f hm (by rw [hcnt]; exact hf)
  have hφ : Holds (generateQuad nrm q nu nv true).mesh f'.u.at' (fun x => f'.u.at' x.toNat) := fun k x hk => by
    have hk2 : (Mesh.iota ((nu + 1) * (nv + 1)))[k]? = some x := by rw [← hids]; exact hk
    obtain ⟨-, rfl⟩ := (iota_at _ _ _).1 hk2
    rfl
  obtain ⟨hmeets, E, hE, hmin⟩ := h3 _ hφ
  have hval : ∀ k v, Equation.prescribed f k = some v → f'.u.at' k = v := fun k v h => hmeets k k v (hidx k (hin k v h)) h
  have hclamp : Meets (generateQuad nrm q nu nv true).mesh f (fun x => clamp lo hi (f'.u.at' x.toNat)) := fun k x v hk hv' => by
    have := hmeets k x v hk hv'
    simp only at this ⊢
    rw [this]
    exact clamp_id lo hi v (hb k v hv').1 (hb k v hv').2
  obtain ⟨hle, hlt⟩ := hmin _ _ hclamp (total_energy hn r _ hwf hs _).1
  have hnot := energy_clamp hn q nu nv hu hv hperp hq1 hq3 lo hi _ _ _ hE (total_energy hn r _ hwf hs _).1
  have hanch : ∀ x ∈ (generateQuad nrm q nu nv true).mesh.nodes.ids, Anchored (generateQuad nrm q nu nv true).mesh f x := fun x hx => by
    obtain ⟨k, v, hkv⟩ := hone
    obtain ⟨a, b, ha, hb', rfl, hab⟩ := (grid_index hn q nu nv hu hv k k).1 (hidx k (hin k v hkv))
    obtain ⟨k', hk'⟩ := List.mem_iff_getElem?.1 hx
    obtain ⟨i, j, hi', hj', -, rfl⟩ := (grid_index hn q nu nv hu hv k' x).1 hk'
    exact grid_anchored q nu nv f a b ha hb' (.fixed _ _ v ((grid_index hn q nu nv hu hv _ _).2 ⟨a, b, ha, hb', rfl, rfl⟩) hkv) i j hi' hj' hu hv
  refine ⟨f', h1, by rw [h2, hcnt], hval, fun k hk => ?_⟩
  have hsame : clamp lo hi (f'.u.at' k) = f'.u.at' k := by
    by_contra hne
    exact absurd (hlt hanch ⟨(k : Int), List.mem_of_getElem? (hidx k hk), by simpa using hne⟩) (not_lt.2 hnot)
  have hlohi : lo ≤ hi := by
    obtain ⟨k, v, hkv⟩ := hone
    exact (hb k v hkv).1.trans (hb k v hkv).2
  rw [← hsame]
  exact ⟨le_max_left _ _, max_le hlohi (min_le_left _ _)⟩

/-- **C161, the plate.** With cells larger than the tolerance, the program gives zero at the nodes on the left, right and lower side, one at the nodes on the upper side with both its corners, and values
between zero and one inside. -/
theorem C161_plate {nrm : Vec3 K → K} (hn : IsNorm nrm) (r : K) (solver : Sys K → Nat → K) (hS : Sound solver) (junk junk' : Nat → K) (nu nv : Nat) (hu : 0 < nu) (hv : 0 < nv)
    (eps : K) (he : 0 < eps) (hcu : eps ≤ 1 / nu) (hcv : eps ≤ 1 / nv) (pf : PdeField K) (hno : NoConditions pf (generateQuad nrm unitSquare nu nv true).mesh) (u : EVec K) :
    ∃ f', plate nrm r solver junk junk' nu nv eps pf u = some f' ∧ f'.u.size = (nu + 1) * (nv + 1) ∧
      ∀ i j, i ≤ nu → j ≤ nv → (j = nv → f'.u.at' (at2 nu i j) = 1) ∧ (j ≠ nv → OnRim nu nv i j → f'.u.at' (at2 nu i j) = 0) ∧
        0 ≤ f'.u.at' (at2 nu i j) ∧ f'.u.at' (at2 nu i j) ≤ 1 := by
  have hcnt := grid_count hn (unitSquare : Quad K) nu nv hu hv
  obtain ⟨-, -, -, -, -, hnd⟩ := C30_nodes hn (unitSquare : Quad K) nu nv hu hv true
  have hpos : ∀ i j, i ≤ nu → j ≤ nv → nodeAt (generateQuad nrm unitSquare nu nv true).mesh (at2 nu i j) = (⟨(i : K) / nu, (j : K) / nv, 0⟩ : Vec3 K) := fun i j hi hj => by
    unfold nodeAt
    rw [(grid_index hn unitSquare nu nv hu hv _ _).2 ⟨i, j, hi, hj, rfl, rfl⟩, Option.bind_some, hnd i j hi hj, Option.getD_some]
    ext <;> simp [unitSquare]
  have near0 : ∀ (n i : Nat), 0 < n → eps ≤ 1 / (n : K) → (|(i : K) / n - 0| < eps ↔ i = 0) := fun n i hn' hc => by
    have hnp : (0 : K) < n := by exact_mod_cast hn'
    rw [sub_zero, abs_of_nonneg (by positivity)]
    constructor
    · intro h
      by_contra hne
      have h1 : (1 : K) ≤ i := by exact_mod_cast Nat.pos_of_ne_zero hne
      have := (div_le_div_iff_of_pos_right hnp).2 h1
      linarith
    · rintro rfl; simpa using he
  have near1 : ∀ (n i : Nat), 0 < n → i ≤ n → eps ≤ 1 / (n : K) → (|(i : K) / n - 1| < eps ↔ i = n) := fun n i hn' hi hc => by
    have hnp : (0 : K) < n := by exact_mod_cast hn'
    have hle : (i : K) / n ≤ 1 := by rw [div_le_one hnp]; exact_mod_cast hi
    rw [abs_of_nonpos (by linarith)]
    constructor
    · intro h
      by_contra hne
      have h1 : ((i : K) + 1) ≤ n := by exact_mod_cast (show i + 1 ≤ n by omega)
      have h2 := (div_le_div_iff_of_pos_right hnp).2 h1
      rw [div_self hnp.ne', add_div] at h2
      linarith
    · rintro rfl; rw [div_self hnp.ne']; simpa using he
  have hlt : ∀ i j, i ≤ nu → j ≤ nv → at2 nu i j < (nu + 1) * (nv + 1) := fun i j hi hj => by
    rw [Nat.mul_comm]; exact id2_lt hi hj
  have hpre : ∀ i j, i ≤ nu → j ≤ nv → Equation.prescribed ⟨.fem, setConditions (generateQuad nrm unitSquare nu nv true).mesh (plateSides eps), .empty, u⟩ (at2 nu i j) =
      if j = nv then some 1 else if i = 0 ∨ i = nu ∨ j = 0 then some 0 else none := fun i j hi hj => by
    rw [prescribed_conditions _ _ _ _ (by rw [hcnt]; exact hlt i j hi hj), hpos i j hi hj]
    unfold plateSides
    simp only [near0 nu i hu hcu, near1 nu i hu hi hcu, near0 nv j hv hcv, near1 nv j hv hj hcv]
    exact last_side _ _ _ _
  have hall : ∀ k v, Equation.prescribed ⟨.fem, setConditions (generateQuad nrm unitSquare nu nv true).mesh (plateSides eps), .empty, u⟩ k = some v → (0 : K) ≤ v ∧ v ≤ 1 := fun k v h => by
    have hk := (conditions_ok _ _ (k : Int) v h).2
    rw [hcnt] at hk
    have hk2 : k < (nu + 1) * (nv + 1) := by exact_mod_cast hk
    have hi2 : (generateQuad nrm (unitSquare : Quad K) nu nv true).mesh.nodes.idAt? k = some (k : Int) := by
      show (generateQuad nrm (unitSquare : Quad K) nu nv true).mesh.nodes.ids[k]? = _
      rw [(C30_nodes hn (unitSquare : Quad K) nu nv hu hv true).2.2.2.1, iota_at]; exact ⟨hk2, rfl⟩
    obtain ⟨i, j, hi, hj, rfl, -⟩ := (grid_index hn unitSquare nu nv hu hv k k).1 hi2
    rw [hpre i j hi hj] at h
    split_ifs at h <;> cases h <;> simp
  obtain ⟨f', h1, h2, h3, h4⟩ := C161_plate_bounds hn r solver hS junk junk' unitSquare (by simp [unitSquare, Vec3.dot]) (by simp [unitSquare, Vec3.ext_iff]) (by simp [unitSquare, Vec3.ext_iff]) nu nv hu hv pf hno
    ⟨.fem, setConditions (generateQuad nrm unitSquare nu nv true).mesh (plateSides eps), .empty, u⟩ rfl (by rw [← hcnt]; exact conditions_ok _ _) ⟨at2 nu 0 nv, 1, by rw [hpre 0 nv (by omega) le_rfl, if_pos rfl]⟩ 0 1 hall
  refine ⟨f', h1, h2, fun i j hi hj => ⟨fun h => h3 _ _ (by rw [hpre i j hi hj, if_pos h]), fun h hr => h3 _ _ ?_, (h4 _ (hlt i j hi hj)).1, (h4 _ (hlt i j hi hj)).2⟩⟩
  rw [hpre i j hi hj, if_neg h, if_pos]
  unfold OnRim at hr
  tauto

/-- Fifteen cells in both directions and the tolerance of the program meet the hypotheses. -/
example (r : ℝ) : ∃ f', plate realNorm r anySolver (fun _ => 0) (fun _ => 0) 15 15 (1 / 1000000) plain ⟨256, fun _ => 0⟩ = some f' ∧ f'.u.at' (at2 15 7 15) = 1 ∧ 0 ≤ f'.u.at' (at2 15 7 7) ∧ f'.u.at' (at2 15 7 7) ≤ 1 := by
  obtain ⟨f', h1, -, h2⟩ := C161_plate isNorm_real r anySolver anySolver_sound (fun _ => 0) (fun _ => 0) 15 15 (by norm_num) (by norm_num) (1 / 1000000) (by norm_num) (by norm_num) (by norm_num) plain (plain_ok _)
    ⟨256, fun _ => 0⟩
  exact ⟨f', h1, (h2 7 15 (by norm_num) (by norm_num)).1 rfl, (h2 7 7 (by norm_num) (by norm_num)).2.2⟩

/-- The rod of the program, with thirty cells: one half in the middle. -/
example (r : ℝ) : ∃ f', rod realNorm r anySolver (fun _ => 0) (fun _ => 0) 30 (1 / 1000000) 0 1 plain ⟨31, fun _ => 0⟩ = some f' ∧ f'.u.at' 15 = 1 / 2 := by
  obtain ⟨f', h1, -, h2⟩ := C161_rod isNorm_real r anySolver anySolver_sound (fun _ => 0) (fun _ => 0) 30 (by norm_num) (1 / 1000000) 0 1 (by norm_num) (by norm_num) plain (plain_ok _) ⟨31, fun _ => 0⟩
  refine ⟨f', h1, ?_⟩
  rw [h2 15 (by norm_num)]
  norm_num

/-- A parallelogram that is not a rectangle. -/
noncomputable def FemPlate.slanted : Quad ℝ := ⟨⟨0, 0, 0⟩, ⟨2, 0, 0⟩, ⟨3, 1, 0⟩, ⟨1, 1, 0⟩⟩

/-- The hypotheses of the plate with linear temperatures: the nodes on the sides of a parallelogram. -/
example (r : ℝ) : ∃ f', steady realNorm r anySolver (fun _ => 0) (fun _ => 0) (generateQuad realNorm slanted ((2 : Nat) : Int) ((2 : Nat) : Int) true).mesh plain
    ⟨.fem, setConditions (generateQuad realNorm slanted ((2 : Nat) : Int) ((2 : Nat) : Int) true).mesh
      (fun p => if p = ⟨3 / 2, 1 / 2, 0⟩ then [] else [1 + 2 * p.x + 4 * p.y]), .empty, ⟨9, fun _ => 0⟩⟩ = some f' ∧ f'.u.at' (at2 2 1 1) = 6 := by
  have hn := isNorm_real
  have hcnt := grid_count hn slanted 2 2 (by norm_num) (by norm_num)
  obtain ⟨-, -, -, -, -, hnd⟩ := C30_nodes hn slanted 2 2 (by norm_num) (by norm_num) true
  have hpos : ∀ i j, i ≤ 2 → j ≤ 2 → nodeAt (generateQuad realNorm slanted ((2 : Nat) : Int) ((2 : Nat) : Int) true).mesh (at2 2 i j) = ⟨i + j / 2, j / 2, 0⟩ := fun i j hi hj => by
    unfold nodeAt
    rw [(grid_index hn _ 2 2 (by norm_num) (by norm_num) _ _).2 ⟨i, j, hi, hj, rfl, rfl⟩, Option.bind_some, hnd i j hi hj, Option.getD_some]
    ext <;> simp [slanted]
  have hpre : ∀ i j, i ≤ 2 → j ≤ 2 → Equation.prescribed ⟨.fem, setConditions (generateQuad realNorm slanted ((2 : Nat) : Int) ((2 : Nat) : Int) true).mesh
      (fun p => if p = ⟨3 / 2, 1 / 2, 0⟩ then [] else [1 + 2 * p.x + 4 * p.y]), .empty, ⟨9, fun _ => 0⟩⟩ (at2 2 i j) = if i = 1 ∧ j = 1 then none else some (1 + 2 * ((i : ℝ) + j / 2) + 4 * (j / 2)) := fun i j hi hj => by
    have hlt : at2 2 i j < 9 := by unfold at2; omega
    rw [prescribed_conditions _ _ _ _ (lt_of_lt_of_eq hlt hcnt.symm), hpos i j hi hj]
    have hiff : ((⟨(i : ℝ) + j / 2, j / 2, 0⟩ : Vec3 ℝ) = ⟨3 / 2, 1 / 2, 0⟩) ↔ i = 1 ∧ j = 1 := by
      rw [Vec3.ext_iff]
      constructor
      · rintro ⟨h1, h2, -⟩
        simp only at h1 h2
        have hj1 : (j : ℝ) = 1 := by linarith
        have hi1 : (i : ℝ) = 1 := by linarith
        exact ⟨by exact_mod_cast hi1, by exact_mod_cast hj1⟩
      · rintro ⟨rfl, rfl⟩; norm_num
    simp only [hiff]
    split_ifs <;> rfl
  obtain ⟨f', h1, -, h2⟩ := C161_plate_linear hn r anySolver anySolver_sound (fun _ => 0) (fun _ => 0) slanted
    (by simp [slanted, Vec3.ext_iff, Vec3.cross]) 2 2 (by norm_num) (by norm_num) plain (plain_ok _)
    ⟨.fem, setConditions (generateQuad realNorm slanted ((2 : Nat) : Int) ((2 : Nat) : Int) true).mesh (fun p => if p = ⟨3 / 2, 1 / 2, 0⟩ then [] else [1 + 2 * p.x + 4 * p.y]), .empty, ⟨9, fun _ => 0⟩⟩ rfl
    (by have := conditions_ok (generateQuad realNorm slanted ((2 : Nat) : Int) ((2 : Nat) : Int) true).mesh (fun p => if p = ⟨3 / 2, 1 / 2, 0⟩ then [] else [1 + 2 * p.x + 4 * p.y]); rw [show (generateQuad realNorm slanted ((2 : Nat) : Int) ((2 : Nat) : Int) true).mesh.nodes.count = (2 + 1) * (2 + 1) from hcnt] at this; exact this) 1 ⟨2, 4, 0⟩
    (fun i j hi hj hr => by rw [hpre i j hi hj, if_neg (by unfold OnRim at hr; omega)]; simp)
    (fun i j v hi hj hp => by
      rw [hpre i j hi hj] at hp
      split_ifs at hp
      cases hp
      simp [slanted, Vec3.dot]; ring)
  refine ⟨f', h1, ?_⟩
  rw [h2 1 1 (by norm_num) (by norm_num)]
  norm_num [slanted, Vec3.dot]

end ENigMA
