import Verif.Pde.FemPlateBounds
import Verif.Pde.FemStressPatch

/-!
# C162: stresses in generated plates

The mesher of quadrilaterals (C30) and the stress program (C153), one after the other.
-/

set_option linter.unusedSectionVars false
set_option autoImplicit false

namespace ENigMA
open FemOp FemStructuralOp FemStress BasicMesher
open FdmHeat (Sound anySolver anySolver_sound)
open FemHeat (Encircled)
open FemPlate (at2 OnRim gridPoint grid_elem grid_index grid_count grid_corners grid_encircled)
variable {K : Type} [Field K] [LinearOrder K] [IsStrictOrderedRing K]

namespace FemStress

/-! ### Specification -/

/-- A parallelogram in the plane `z = 0`, counterclockwise. -/
structure Sheet (q : Quad K) : Prop where
  z0 : q.v0.z = 0
  z1 : q.v1.z = 0
  z3 : q.v3.z = 0
  left : 0 < (q.v1.x - q.v0.x) * (q.v3.y - q.v0.y) - (q.v3.x - q.v0.x) * (q.v1.y - q.v0.y)

/-- Component `k` of the displacement of the grid node `(i, j)` is prescribed as `v`. -/
def FixedAt (nu : Nat) (f : EqField K) (i j k : Nat) (v : K) : Prop := f.uFixed.find? ((at2 nu i j * 2 + k : Nat) : Int) = some v

/-! ### Proofs -/

/-- A triangle without strain whose first and third node stay in place stays in place. -/
theorem third_stays (p q r : Vec3 K) (h : area2 p q r ≠ 0) (u v w : Nat → K) (hs : strain p q r u v w = (0, 0, 0)) (hu : ∀ k < 2, u k = 0) (hw : ∀ k < 2, w k = 0) : ∀ k < 2, v k = 0 := by
  have u0 := hu 0 (by norm_num)
  have u1 := hu 1 (by norm_num)
  have w0 := hw 0 (by norm_num)
  have w1 := hw 1 (by norm_num)
  simp only [strain, gradX, gradY, Prod.mk.injEq, u0, u1, w0, w1] at hs
  obtain ⟨h1, h2, h3⟩ := hs
  rw [← add_div] at h3
  have e1 : v 0 * (r.y - p.y) = 0 := by
    have := (div_eq_zero_iff.1 h1).resolve_right h; linarith
  have e2 : v 1 * (r.x - p.x) = 0 := by
    have := (div_eq_zero_iff.1 h2).resolve_right h; linarith
  have e3 : v 1 * (r.y - p.y) = v 0 * (r.x - p.x) := by
    have := (div_eq_zero_iff.1 h3).resolve_right h; linarith
  have key : v 0 = 0 ∧ v 1 = 0 := by
    by_cases hx : r.x - p.x = 0
    · have hy : r.y - p.y ≠ 0 := fun hy => h (by unfold area2; rw [hx, hy]; ring)
      rw [hx, mul_zero] at e3
      exact ⟨(mul_eq_zero.1 e1).resolve_right hy, (mul_eq_zero.1 e3).resolve_right hy⟩
    · have hv1 := (mul_eq_zero.1 e2).resolve_right hx
      rw [hv1, zero_mul] at e3
      exact ⟨(mul_eq_zero.1 e3.symm).resolve_right hx, hv1⟩
  intro k hk
  have : k = 0 ∨ k = 1 := by omega
  rcases this with rfl | rfl
  · exact key.1
  · exact key.2

section
variable {nrm : Vec3 K → K} (hn : IsNorm nrm) (q : Quad K) (hq : Sheet q) (nu nv : Nat) (hu : 0 < nu) (hv : 0 < nv)

include hn hu hv in
theorem grid_place (i j : Nat) (hi : i ≤ nu) (hj : j ≤ nv) : place (generateQuad nrm q nu nv true).mesh (id2 nu i j) = gridPoint q nu nv i j := by
  unfold place
  rw [(C30_nodes hn q nu nv hu hv true).2.2.2.2.2 i j hi hj]
  rfl

include hn hq hu hv in
theorem grid_areas (i j : Nat) (hi : i < nu) (hj : j < nv) :
    0 < area2 (place (generateQuad nrm q nu nv true).mesh (id2 nu i j)) (place (generateQuad nrm q nu nv true).mesh (id2 nu (i + 1) j)) (place (generateQuad nrm q nu nv true).mesh (id2 nu (i + 1) (j + 1))) ∧
    0 < area2 (place (generateQuad nrm q nu nv true).mesh (id2 nu i j)) (place (generateQuad nrm q nu nv true).mesh (id2 nu (i + 1) (j + 1))) (place (generateQuad nrm q nu nv true).mesh (id2 nu i (j + 1))) := by
  have hup : (0 : K) < nu := by exact_mod_cast hu
  have hvp : (0 : K) < nv := by exact_mod_cast hv
  rw [grid_place hn q nu nv hu hv i j (by omega) (by omega), grid_place hn q nu nv hu hv (i + 1) j (by omega) (by omega), grid_place hn q nu nv hu hv (i + 1) (j + 1) (by omega) (by omega),
    grid_place hn q nu nv hu hv i (j + 1) (by omega) (by omega)]
  have hl := hq.left
  have hp : 0 < 1 / ((nu : K) * nv) * ((q.v1.x - q.v0.x) * (q.v3.y - q.v0.y) - (q.v3.x - q.v0.x) * (q.v1.y - q.v0.y)) := by positivity
  constructor
  · refine lt_of_lt_of_eq hp ?_
    simp only [area2, gridPoint, Vec3.add_x, Vec3.add_y, Vec3.smul_x, Vec3.smul_y, Vec3.sub_x, Vec3.sub_y]
    push_cast
    field_simp
    ring
  · refine lt_of_lt_of_eq hp ?_
    simp only [area2, gridPoint, Vec3.add_x, Vec3.add_y, Vec3.smul_x, Vec3.smul_y, Vec3.sub_x, Vec3.sub_y]
    push_cast
    field_simp
    ring

include hn hq hu hv in
theorem grid_left : AllLeft (generateQuad nrm q nu nv true).mesh := by
  intro x e he
  obtain ⟨i, j, hi, hj, rfl | rfl⟩ := grid_elem q nu nv x e he
  · exact ⟨rfl, _, _, _, rfl, (grid_areas hn q hq nu nv hu hv i j hi hj).1⟩
  · exact ⟨rfl, _, _, _, rfl, (grid_areas hn q hq nu nv hu hv i j hi hj).2⟩

include hn hq hu hv in
theorem grid_plate {mat : Material K} {made : Int → Made K} {th : Int → K} (hth : ∀ id, (made id).thickness = some (th id)) (hpos : ∀ id, 0 < th id) (hm : 0 < modulus mat)
    (hp : -1 < poisson mat ∧ poisson mat < 1) : Plate mat made th (generateQuad nrm q nu nv true).mesh := by
  obtain ⟨hwf, hrt, -, hids, -, hnd⟩ := C30_nodes hn q nu nv hu hv true
  refine ⟨hwf, hrt, fun x p hx => ?_, fun x e he => ?_, hm, hp, hpos⟩
  · obtain ⟨k, hk⟩ := List.mem_iff_getElem?.1 ((hwf.nodes.2 x).2 ⟨p, hx⟩)
    obtain ⟨i, j, hi, hj, -, rfl⟩ := (grid_index hn q nu nv hu hv k x).1 hk
    rw [hnd i j hi hj] at hx
    cases hx
    simp [hq.z0, hq.z1, hq.z3]
  · rw [(grid_left hn q hq nu nv hu hv x e he).1]
    exact ⟨by simp, fun _ => hth x⟩

include hn hq hu hv in
/-- A plate whose left side is held is held. -/
theorem grid_held (f : EqField K) (hc : ∀ j ≤ nv, ∀ k < 2, ∃ v, FixedAt nu f 0 j k v) : Held (generateQuad nrm q nu nv true).mesh f := by
  intro ψ hun had x hx k hk
  have col : ∀ i, i ≤ nu → ∀ j, j ≤ nv → ∀ k < 2, ψ (id2 nu i j) k = 0 := by
    intro i
    induction i with
    | zero =>
      intro _ j hj k hk
      obtain ⟨v, hv'⟩ := hc j hj k hk
      exact had _ k v ⟨at2 nu 0 j, (grid_index hn q nu nv hu hv _ _).2 ⟨0, j, by omega, hj, rfl, rfl⟩, hk, hv'⟩
    | succ i ih =>
      intro hi
      have hprev := ih (by omega)
      -- the nodes above the lower side, from the upper triangles
      have upper : ∀ j, j < nv → ∀ k < 2, ψ (id2 nu (i + 1) (j + 1)) k = 0 := fun j hj => by
        have ha := (grid_areas hn q hq nu nv hu hv i j (by omega) hj).2.ne'
        exact third_stays _ _ _ ha _ _ _ (hun _ _ _ _ _ (C30_elements (nrm := nrm) q nu nv i j (by omega) hj).2.2 rfl rfl ha) (hprev j (by omega)) (hprev (j + 1) (by omega))
      intro j hj
      rcases Nat.eq_zero_or_pos j with rfl | h
      · have ha := (grid_areas hn q hq nu nv hu hv i 0 (by omega) hv).1.ne'
        exact third_stays _ _ _ ha _ _ _ (hun _ _ _ _ _ (C30_elements (nrm := nrm) q nu nv i 0 (by omega) hv).2.1 rfl rfl ha) (hprev 0 (by omega)) (upper 0 hv)
      · obtain ⟨j', rfl⟩ : ∃ j', j = j' + 1 := ⟨j - 1, by omega⟩
        exact upper j' (by omega)
  obtain ⟨n, hn'⟩ := List.mem_iff_getElem?.1 hx
  obtain ⟨i, j, hi, hj, -, rfl⟩ := (grid_index hn q nu nv hu hv n x).1 hn'
  exact col i hi j hj k hk

end
end FemStress

/-- **C162, a clamped plate.** A plate of triangles made by the mesher from any parallelogram with any numbers of cells, whose nodes on the left side have prescribed displacements, with any other supports and any
forces, always has a result: the displacements are as prescribed and in equilibrium with the forces, and no others are. -/
theorem C162_clamped {nrm : Vec3 K → K} (hn : IsNorm nrm) (q : Quad K) (hq : Sheet q) (nu nv : Nat) (hu : 0 < nu) (hv : 0 < nv) {mat : Material K} {made : Int → Made K} {th : Int → K}
    (hth : ∀ id, (made id).thickness = some (th id)) (hpos : ∀ id, 0 < th id) (hm : 0 < modulus mat) (hp : -1 < poisson mat ∧ poisson mat < 1)
    (f : EqField K) (hf : Given (generateQuad nrm q nu nv true).mesh f) (hc : ∀ j ≤ nv, ∀ k < 2, ∃ v, FixedAt nu f 0 j k v) (solver : Sys K → Nat → K) (hS : Sound solver) (junk junk' : Nat → K) :
    ∃ f', run nrm solver junk junk' mat made (generateQuad nrm q nu nv true).mesh f = some f' ∧ f'.u.size = (nu + 1) * (nv + 1) * 2 ∧
      ∀ φ, Meets (generateQuad nrm q nu nv true).mesh f φ ∧ Equilibrium mat th (generateQuad nrm q nu nv true).mesh f φ ↔ Holds (generateQuad nrm q nu nv true).mesh f'.u.at' φ := by
  obtain ⟨f', h1, h2, h3⟩ := (C153_result hn (grid_plate hn q hq nu nv hu hv hth hpos hm hp) f hf solver hS junk junk').2 (grid_held hn q hq nu nv hu hv f hc)
  exact ⟨f', h1, by rw [h2, grid_count hn q nu nv hu hv], h3⟩

/-- **C162, stretched plates.** If the displacements of all nodes on the sides are prescribed, all prescribed displacements are those of a linear displacement, and there are no forces, every node moves by that linear
displacement, exactly: stretching, shearing and turning are reproduced on every grid. -/
theorem C162_stretched {nrm : Vec3 K → K} (hn : IsNorm nrm) (q : Quad K) (hq : Sheet q) (nu nv : Nat) (hu : 0 < nu) (hv : 0 < nv) {mat : Material K} {made : Int → Made K} (t : K) (ht : 0 < t)
    (hth : ∀ id, (made id).thickness = some t) (hm : 0 < modulus mat) (hp : -1 < poisson mat ∧ poisson mat < 1) (f : EqField K) (hf : Given (generateQuad nrm q nu nv true).mesh f)
    (hno : ∀ i < (nu + 1) * (nv + 1), ∀ k < 2, force f i k = 0) (hrim : ∀ i j, i ≤ nu → j ≤ nv → OnRim nu nv i j → ∀ k < 2, ∃ v, FixedAt nu f i j k v) (c c' : Fin 3 → K)
    (hlin : ∀ i j v, i ≤ nu → j ≤ nv →
      (FixedAt nu f i j 0 v → v = c 0 + c 1 * (gridPoint q nu nv i j).x + c 2 * (gridPoint q nu nv i j).y) ∧ (FixedAt nu f i j 1 v → v = c' 0 + c' 1 * (gridPoint q nu nv i j).x + c' 2 * (gridPoint q nu nv i j).y))
    (solver : Sys K → Nat → K) (hS : Sound solver) (junk junk' : Nat → K) :
    ∃ f', run nrm solver junk junk' mat made (generateQuad nrm q nu nv true).mesh f = some f' ∧ ∀ i j, i ≤ nu → j ≤ nv →
      f'.u.at' (at2 nu i j * 2) = c 0 + c 1 * (gridPoint q nu nv i j).x + c 2 * (gridPoint q nu nv i j).y ∧
      f'.u.at' (at2 nu i j * 2 + 1) = c' 0 + c' 1 * (gridPoint q nu nv i j).x + c' 2 * (gridPoint q nu nv i j).y := by
  obtain ⟨f', h1, h2⟩ := C153_patch hn (grid_plate hn q hq nu nv hu hv (th := fun _ => t) hth (fun _ => ht) hm hp) (grid_left hn q hq nu nv hu hv) t (fun _ => rfl) f hf
    (grid_held hn q hq nu nv hu hv f fun j hj k hk => hrim 0 j (by omega) hj (Or.inl rfl) k hk) (fun i hi => hno i (by rwa [grid_count hn q nu nv hu hv] at hi)) c c'
    (fun x k v ⟨n, hn1, hk, hv'⟩ => by
      obtain ⟨i, j, hi, hj, rfl, rfl⟩ := (grid_index hn q nu nv hu hv n x).1 hn1
      unfold linear
      rw [grid_place hn q nu nv hu hv i j hi hj]
      have : k = 0 ∨ k = 1 := by omega
      rcases this with rfl | rfl
      · rw [if_pos rfl]; exact (hlin i j v hi hj).1 hv'
      · rw [if_neg (by norm_num)]; exact (hlin i j v hi hj).2 hv')
    (fun n x k hn1 hk hfree => by
      obtain ⟨i, j, hi, hj, rfl, rfl⟩ := (grid_index hn q nu nv hu hv n x).1 hn1
      refine grid_encircled hn q nu nv hu hv i j hi hj fun hr => hfree ?_
      obtain ⟨v, hv'⟩ := hrim i j hi hj hr k hk
      exact ⟨v, _, hn1, hk, hv'⟩) solver hS junk junk'
  refine ⟨f', h1, fun i j hi hj => ?_⟩
  have := h2 (at2 nu i j) _ ((grid_index hn q nu nv hu hv _ _).2 ⟨i, j, hi, hj, rfl, rfl⟩)
  rw [grid_place hn q nu nv hu hv i j hi hj] at this
  exact this

/-! ### The hypotheses are met -/

namespace FemStress

theorem slanted_sheet : Sheet FemPlate.slanted := ⟨rfl, rfl, rfl, by norm_num [FemPlate.slanted]⟩

/-- Two cells along the plate and one across: the left side is held, a force pulls the upper right corner down. -/
noncomputable def bracket : EqField ℝ := ⟨.fem, (((SMap.empty.insert 0 0).insert 1 0).insert 6 0).insert 7 0, SMap.empty.insert 11 (-3), ⟨12, fun _ => 0⟩⟩

/-- Two by two cells: all nodes on the sides move by `1 + 2x + 4y` and `x - y`. -/
noncomputable def pulled : EqField ℝ := ⟨.fem, (((((((((((((((SMap.empty.insert 0 1).insert 1 0).insert 2 3).insert 3 1).insert 4 5).insert 5 2).insert 6 4).insert 7 0).insert 10 8).insert 11 2).insert 12 7).insert 13 0).insert 14 9).insert 15 1).insert 16 11).insert 17 2, .empty, ⟨18, fun _ => 0⟩⟩

theorem pulled_fixed (i j : Nat) (v : ℝ) (hi : i ≤ 2) (hj : j ≤ 2) : (FixedAt 2 pulled i j 0 v → v = 1 + 2 * i + 3 * j) ∧ (FixedAt 2 pulled i j 1 v → v = i) := by
  unfold FixedAt at2
  simp only [pulled, SMap.find?_insert, SMap.find?_empty]
  interval_cases i <;> interval_cases j <;> constructor <;> intro h <;> simp at h <;> rw [← h] <;> norm_num

theorem pulled_rim (i j k : Nat) (hi : i ≤ 2) (hj : j ≤ 2) (hr : OnRim 2 2 i j) (hk : k < 2) : ∃ v, FixedAt 2 pulled i j k v := by
  unfold FixedAt at2
  unfold OnRim at hr
  simp only [pulled, SMap.find?_insert, SMap.find?_empty]
  interval_cases i <;> interval_cases j <;> interval_cases k <;> simp at hr ⊢

theorem pulled_range (i : Int) (v : ℝ) (h : pulled.uFixed.find? i = some v) : 0 ≤ i ∧ i < 18 := by
  by_contra hc
  unfold pulled at h
  dsimp only at h
  repeat rw [SMap.find?_insert, if_neg (by omega)] at h
  simp at h

end FemStress

/-- A slanted bracket under its load. -/
example : ∃ f', run realNorm anySolver (fun _ => 0) (fun _ => 0) (rubber : Material ℝ) (fun _ => .plain) (generateQuad realNorm FemPlate.slanted ((2 : Nat) : Int) ((1 : Nat) : Int) true).mesh bracket = some f' ∧
    f'.u.size = 12 := by
  have hc := grid_count isNorm_real FemPlate.slanted 2 1 (by norm_num) (by norm_num)
  obtain ⟨f', h1, h2, -⟩ := C162_clamped isNorm_real FemPlate.slanted slanted_sheet 2 1 (by norm_num) (by norm_num) (made := fun _ => .plain) (th := fun _ => 1) (fun _ => rfl) (fun _ => one_pos)
    plate_ok.modulus plate_ok.poisson bracket
    ⟨rfl, fun i v h => by
      rw [hc]
      simp only [bracket, SMap.find?_insert, SMap.find?_empty] at h
      split_ifs at h <;> omega, fun i v h => by
      rw [hc]
      simp only [bracket, SMap.find?_insert, SMap.find?_empty] at h
      split_ifs at h; omega⟩
    (fun j hj k hk => by
      unfold FixedAt at2
      simp only [bracket, SMap.find?_insert, SMap.find?_empty]
      interval_cases j <;> interval_cases k <;> simp) anySolver anySolver_sound (fun _ => 0) (fun _ => 0)
  exact ⟨f', h1, h2⟩

/-- A slanted plate, stretched: the inner node moves by six and one. -/
example : ∃ f', run realNorm anySolver (fun _ => 0) (fun _ => 0) (rubber : Material ℝ) (fun _ => .plain) (generateQuad realNorm FemPlate.slanted ((2 : Nat) : Int) ((2 : Nat) : Int) true).mesh pulled = some f' ∧
    f'.u.at' 8 = 6 ∧ f'.u.at' 9 = 1 := by
  have hc := grid_count isNorm_real FemPlate.slanted 2 2 (by norm_num) (by norm_num)
  obtain ⟨f', h1, h2⟩ := C162_stretched isNorm_real FemPlate.slanted slanted_sheet 2 2 (by norm_num) (by norm_num) (made := fun _ => .plain) 1 one_pos (fun _ => rfl) plate_ok.modulus plate_ok.poisson pulled
    ⟨rfl, fun i v h => by
      rw [hc]
      exact pulled_range i v h, fun i v h => by simp [pulled] at h⟩
    (fun i _ k _ => by simp [force, pulled])
    (fun i j hi hj hr k hk => pulled_rim i j k hi hj hr hk) ![1, 2, 4] ![0, 1, -1]
    (fun i j v hi hj => by
      obtain ⟨h0, h1⟩ := pulled_fixed i j v hi hj
      refine ⟨fun h => (h0 h).trans ?_, fun h => (h1 h).trans ?_⟩ <;> simp [gridPoint, FemPlate.slanted] <;> ring) anySolver anySolver_sound (fun _ => 0) (fun _ => 0)
  have := h2 1 1 (by norm_num) (by norm_num)
  refine ⟨f', h1, this.1.trans ?_, this.2.trans ?_⟩ <;> simp [gridPoint, FemPlate.slanted] <;> norm_num

end ENigMA
