import Verif.Pde.FemStressProps
import Verif.Pde.FemHeatExamples

/-! # C153: the patch test of plates -/

set_option linter.unusedSectionVars false
set_option autoImplicit false

namespace ENigMA
open FemOp FemStructuralOp FemStress
open FdmHeat (Sound anySolver anySolver_sound)
open FemHeat (triLink one Encircled over_around sum_round)
open FemThermalOp (overElements)
variable {K : Type} [Field K] [LinearOrder K] [IsStrictOrderedRing K]

namespace FemStress

/-- A linear displacement: the same strain everywhere. -/
def linear (m : Mesh K) (c c' : Fin 3 → K) : Int → Nat → K :=
  fun id k => if k = 0 then c 0 + c 1 * (place m id).x + c 2 * (place m id).y else c' 0 + c' 1 * (place m id).x + c' 2 * (place m id).y

/-- All elements are triangles, counterclockwise. -/
def AllLeft (m : Mesh K) : Prop :=
  ∀ id e, m.elements.get? id = some e → e.elementType = .triangle ∧ ∃ x y z, e.nodeIds = [x, y, z] ∧ 0 < area2 (place m x) (place m y) (place m z)

/-- The row of the stress. -/
def stressRow (E ν : K) (c c' : Fin 3 → K) (k : Nat) : Vec3 K :=
  if k = 0 then ⟨E / (1 - ν * ν) * (c 1 + ν * c' 2), E / (1 - ν * ν) * ((1 - ν) / 2 * (c 2 + c' 1)), 0⟩
  else ⟨E / (1 - ν * ν) * ((1 - ν) / 2 * (c 2 + c' 1)), E / (1 - ν * ν) * (ν * c 1 + c' 2), 0⟩

theorem linear_strain (m : Mesh K) (c c' : Fin 3 → K) (x y z : Int) (h : area2 (place m x) (place m y) (place m z) ≠ 0) :
    strain (place m x) (place m y) (place m z) (linear m c c' x) (linear m c c' y) (linear m c c' z) = (c 1, c' 2, c 2 + c' 1) := by
  simp only [strain, gradX, gradY, linear, if_pos, one_ne_zero, if_false, Prod.mk.injEq]
  refine ⟨?_, ?_, ?_⟩
  · rw [div_eq_iff h]; unfold area2; ring
  · rw [div_eq_iff h]; unfold area2; ring
  · rw [← add_div, div_eq_iff h]; unfold area2; ring

theorem tri_energy (E ν t : K) (m : Mesh K) (hl : AllLeft m) (c c' : Fin 3 → K) (w : Int) (k : Nat) (hk : k < 2) (id : Int) (e : Elem) (he : m.elements.get? id = some e) :
    planeEnergy E ν t m (linear m c c') (oneAt w k) e = t / 2 * (stressRow E ν c c' k).dot ((triLink e.nodeIds w).map fun p => Vec3.cross ⟨0, 0, 1⟩ (place m p.2 - place m p.1)).sum := by
  obtain ⟨hty, x, y, z, hids, hA⟩ := hl id e he
  have hsum : ((triLink [x, y, z] w).map fun p => Vec3.cross (⟨0, 0, 1⟩ : Vec3 K) (place m p.2 - place m p.1)).sum =
      (one w x : K) • Vec3.cross ⟨0, 0, 1⟩ (place m z - place m y) + ((one w y : K) • Vec3.cross ⟨0, 0, 1⟩ (place m x - place m z) + (one w z : K) • Vec3.cross ⟨0, 0, 1⟩ (place m y - place m x)) := by
    have e1 : ∀ (y : Int) (L : List (Int × Int)), (((if y = w then L else []).map fun p => Vec3.cross (⟨0, 0, 1⟩ : Vec3 K) (place m p.2 - place m p.1)).sum : Vec3 K) =
        (one w y : K) • (L.map fun p => Vec3.cross ⟨0, 0, 1⟩ (place m p.2 - place m p.1)).sum := fun y L => by
      unfold one
      split <;> simp
    simp only [triLink, List.map_append, List.sum_append, e1, List.map_cons, List.map_nil, List.sum_cons, List.sum_nil, add_zero]
  unfold planeEnergy
  rw [hty, hids]
  dsimp only
  rw [hsum, linear_strain m c c' x y z hA.ne', abs_of_pos hA]
  have h0 : ∀ v : Int, (oneAt w k v k : K) = one w v := fun v => by simp [oneAt, one]
  have hk : k = 0 ∨ k = 1 := by omega
  have hA0 := hA.ne'
  rcases hk with rfl | rfl
  · have h1 : ∀ v : Int, (oneAt w 0 v 1 : K) = 0 := fun v => by simp [oneAt]
    simp only [strain, h0, h1, gradX, gradY, planeStress, stressRow, if_pos, Vec3.dot, Vec3.cross, Vec3.add_x, Vec3.add_y, Vec3.add_z, Vec3.smul_x, Vec3.smul_y, Vec3.smul_z, Vec3.sub_x, Vec3.sub_y, Vec3.sub_z]
    generalize E / (1 - ν * ν) = C
    field_simp
    ring
  · have h1 : ∀ v : Int, (oneAt w 1 v 0 : K) = 0 := fun v => by simp [oneAt]
    simp only [strain, h0, h1, gradX, gradY, planeStress, stressRow, one_ne_zero, if_false, Vec3.dot, Vec3.cross, Vec3.add_x, Vec3.add_y, Vec3.add_z, Vec3.smul_x, Vec3.smul_y, Vec3.smul_z, Vec3.sub_x, Vec3.sub_y, Vec3.sub_z]
    generalize E / (1 - ν * ν) = C
    field_simp
    ring

theorem elastic_over (mat : Material K) (th : Int → K) (m : Mesh K) (φ ψ : Int → Nat → K) (t : K) (ht : ∀ id, th id = t) :
    elastic mat th m φ ψ = overElements m fun _ => planeEnergy (modulus mat) (poisson mat) t m φ ψ := by
  unfold elastic elemsId overElements
  simp only [ht]
  induction m.elements.ids with
  | nil => rfl
  | cons a l ih =>
    rw [List.filterMap_cons, List.map_cons, List.sum_cons, ← ih]
    cases m.elements.get? a <;> simp

end FemStress

/-- **C153, patch test.** In a plate of counterclockwise triangles of one thickness, of any shapes, without forces: if the prescribed displacements are those of a linear displacement, and triangles surround every node
with a component that is not prescribed, the result is that linear displacement: the strain is the same everywhere. -/
theorem C153_patch {nrm : Vec3 K → K} (hn : IsNorm nrm) {mat : Material K} {made : Int → Made K} {th : Int → K} {m : Mesh K} (g : Plate mat made th m) (hl : AllLeft m) (t : K) (ht : ∀ id, th id = t)
    (f : EqField K) (hf : Given m f) (hh : Held m f) (hno : ∀ i < m.nodes.count, ∀ k < 2, force f i k = 0) (c c' : Fin 3 → K)
    (hfix : ∀ id k v, Fixed m f id k v → v = linear m c c' id k)
    (hin : ∀ i id k, m.nodes.idAt? i = some id → k < 2 → (¬∃ v, Fixed m f id k v) → Encircled m id) (solver : Sys K → Nat → K) (hS : Sound solver) (junk junk' : Nat → K) :
    ∃ f', run nrm solver junk junk' mat made m f = some f' ∧ ∀ i id, m.nodes.idAt? i = some id →
      f'.u.at' (i * 2) = c 0 + c 1 * (place m id).x + c 2 * (place m id).y ∧ f'.u.at' (i * 2 + 1) = c' 0 + c' 1 * (place m id).x + c' 2 * (place m id).y := by
  obtain ⟨f', h1, h2, h3⟩ := (C153_result hn g f hf solver hS junk junk').2 hh
  refine ⟨f', h1, fun i id hi => ?_⟩
  have hw : ∀ ψ, work m f ψ = 0 := fun ψ => Finset.sum_eq_zero fun j hj => by
    rw [hno j (Finset.mem_range.1 hj) 0 (by norm_num), hno j (Finset.mem_range.1 hj) 1 (by norm_num)]
    cases m.nodes.idAt? j <;> simp
  obtain ⟨s, -, e2, -, e4, e5, e6⟩ := loaded hn g f hf solver junk junk'
  have hholds : Holds m (nodalD m 2 (linear m c c')) (linear m c c') := fun i id k hi hk => by
    rw [nodalD, show (i * 2 + k) / 2 = i by omega, hi, show (i * 2 + k) % 2 = k by omega]; rfl
  have heq := (rows_iff g.wf f s e2 e4 e5 e6 _ _ hholds).1 fun j hj hp => by
    obtain ⟨x, hx⟩ := row_of_lt m 2 j (e2 ▸ hj)
    have hone := fun l hl => nodalD_single (K := K) m g.wf 2 (by norm_num) j x hx l hl
    have hr := rowD_eq m g.wf 2 (by norm_num) s e2 j x hj hx (nodalD m 2 (linear m c c'))
    have hb : s.b j = 0 := by
      have := e6 (oneAt x (j % 2))
      rw [hw, Sys.load, Finset.sum_eq_single j] at this
      · rw [hone j (e2 ▸ hj), if_pos rfl, one_mul] at this
        exact this
      · intro l hl hne
        rw [hone l (by rw [← e2]; exact Finset.mem_range.1 hl), if_neg hne, zero_mul]
      · intro hni
        exact absurd (Finset.mem_range.2 hj) hni
    rw [hb, hr, FemHeat.form_symm s e4, e5, elastic_over mat th m _ _ t ht,
      over_around m g.wf triLink x (fun p => Vec3.cross ⟨0, 0, 1⟩ (place m p.2 - place m p.1)) (t / 2) (stressRow (modulus mat) (poisson mat) c c' (j % 2)) _
        (fun id e he => tri_energy _ _ t m hl c c' x (j % 2) (Nat.mod_lt _ (by norm_num)) id e he),
      sum_round (place m) _ _ (hin (j / 2) x (j % 2) hx (Nat.mod_lt _ (by norm_num)) ?_), Vec3.dot_zero, mul_zero]
    rintro ⟨v, i', hi', -, hv⟩
    have hii : i' = j / 2 := by
      have hi1 := List.getElem?_eq_some_iff.1 hi'
      have hj1 := List.getElem?_eq_some_iff.1 hx
      exact (g.wf.nodes.1.getElem_inj_iff).1 (hi1.2.trans hj1.2.symm)
    rw [hii, show j / 2 * 2 + j % 2 = j by omega] at hv
    rw [Equation.prescribed, hv] at hp
    exact absurd hp (by simp)
  have := (h3 _).1 ⟨fun id k v h => (hfix id k v h).symm, heq⟩
  exact ⟨(this i id 0 hi (by norm_num)).symm, (this i id 1 hi (by norm_num)).symm⟩

/-! ### A case that meets the hypotheses -/

namespace FemStress
open FemHeat (fan fan_ok built_element built_index)

/-- The corners are moved by (1 + 2x + 3y, x - y). -/
noncomputable def stretched : EqField ℝ :=
  ⟨.fem, (((((((SMap.empty.insert 0 1).insert 1 0).insert 2 9).insert 3 4).insert 4 21).insert 5 0).insert 6 13).insert 7 (-4), .empty, ⟨10, fun _ => 0⟩⟩

theorem fan_places : place fan 0 = ⟨0, 0, 0⟩ ∧ place fan 1 = ⟨4, 0, 0⟩ ∧ place fan 2 = ⟨4, 4, 0⟩ ∧ place fan 3 = ⟨0, 4, 0⟩ ∧ place fan 4 = ⟨1, 2, 0⟩ := ⟨rfl, rfl, rfl, rfl, rfl⟩

theorem fan_left : AllLeft fan := by
  obtain ⟨p0, p1, p2, p3, p4⟩ := fan_places
  intro id e he
  have := built_element he
  simp only [List.mem_cons, List.not_mem_nil, or_false] at this
  rcases this with rfl | rfl | rfl | rfl
  · exact ⟨rfl, 0, 1, 4, rfl, by rw [p0, p1, p4]; norm_num [area2]⟩
  · exact ⟨rfl, 1, 2, 4, rfl, by rw [p1, p2, p4]; norm_num [area2]⟩
  · exact ⟨rfl, 2, 3, 4, rfl, by rw [p2, p3, p4]; norm_num [area2]⟩
  · exact ⟨rfl, 3, 0, 4, rfl, by rw [p3, p0, p4]; norm_num [area2]⟩

theorem fan_plate : Plate (rubber : Material ℝ) (fun _ => .plain) (fun _ => 1) fan := by
  refine ⟨fan_ok.1, fan_ok.2.1, fun id p h => ?_, fun id e he => ?_, plate_ok.modulus, plate_ok.poisson, fun _ => one_pos⟩
  · obtain ⟨i, hi⟩ := List.mem_iff_getElem?.1 ((fan_ok.1.nodes.2 id).2 ⟨p, h⟩)
    obtain ⟨rfl, h2⟩ := built_index hi
    have : i = 0 ∨ i = 1 ∨ i = 2 ∨ i = 3 ∨ i = 4 := by simp at h2; omega
    rcases this with rfl | rfl | rfl | rfl | rfl <;> cases h <;> rfl
  · rw [(fan_left id e he).1]
    exact ⟨by simp, fun _ => rfl⟩

theorem stretched_fixed (i : Nat) (h : i < 8) : ∃ v, stretched.uFixed.find? (i : Int) = some v := by
  simp only [stretched, SMap.find?_insert, SMap.find?_empty]
  interval_cases i <;> simp

theorem fan_corner (f : EqField ℝ) (hf : ∀ i < 8, ∃ v, f.uFixed.find? ((i : Nat) : Int) = some v) (i : Nat) (hi : i < 4) (k : Nat) (hk : k < 2) : ∃ v, Fixed fan f i k v := by
  obtain ⟨v, hv⟩ := hf (i * 2 + k) (by omega)
  refine ⟨v, i, ?_, hk, hv⟩
  interval_cases i <;> rfl

theorem stretched_held : Held fan stretched := by
  intro ψ hu ha id hid k hk
  have c : ∀ i < 4, ∀ k < 2, ψ ((i : Nat) : Int) k = 0 := fun i hi k hk => by
    obtain ⟨v, hv⟩ := fan_corner stretched stretched_fixed i hi k hk
    exact ha i k v hv
  obtain ⟨p0, p1, p2, p3, p4⟩ := fan_places
  have h := hu 0 ⟨.triangle, [0, 1, 4], []⟩ 0 1 4 rfl rfl rfl (by rw [p0, p1, p4]; norm_num [area2])
  have c00 : ψ 0 0 = 0 := c 0 (by norm_num) 0 (by norm_num)
  have c01 : ψ 0 1 = 0 := c 0 (by norm_num) 1 (by norm_num)
  have c10 : ψ 1 0 = 0 := c 1 (by norm_num) 0 (by norm_num)
  have c11 : ψ 1 1 = 0 := c 1 (by norm_num) 1 (by norm_num)
  rw [p0, p1, p4] at h
  simp only [strain, gradX, gradY, area2, Prod.mk.injEq, c00, c01, c10, c11] at h
  norm_num at h
  obtain ⟨i, hi⟩ := List.mem_iff_getElem?.1 hid
  obtain ⟨rfl, h2⟩ := built_index hi
  have h5 : i < 5 := by simpa using h2
  rcases Nat.lt_or_ge i 4 with h4 | h4
  · exact c i h4 k hk
  · have : i = 4 := by omega
    subst this
    have hk : k = 0 ∨ k = 1 := by omega
    rcases hk with rfl | rfl
    · exact h.2
    · exact h.1

theorem stretched_given : Given fan stretched :=
  ⟨rfl, fun i v h => by
    have : fan.nodes.count * 2 = 10 := rfl
    rw [this]
    simp only [stretched, SMap.find?_insert, SMap.find?_empty] at h
    split_ifs at h <;> omega, fun i v h => by simp [stretched] at h⟩

end FemStress

open FemHeat (fan built_index) in
/-- The node inside, at (1, 2), moves by (1 + 2 · 1 + 3 · 2, 1 - 2). -/
example : ∃ f', run realNorm anySolver (fun _ => 0) (fun _ => 0) (rubber : Material ℝ) (fun _ => .plain) fan stretched = some f' ∧ f'.u.at' 8 = 9 ∧ f'.u.at' 9 = -1 := by
  obtain ⟨p0, p1, p2, p3, p4⟩ := fan_places
  obtain ⟨f', h1, h2⟩ := C153_patch isNorm_real fan_plate fan_left 1 (fun _ => rfl) stretched stretched_given stretched_held (fun i _ k _ => by simp [force, stretched]) ![1, 2, 3] ![0, 1, -1]
    (fun id k v ⟨i, hi, hk, hv⟩ => by
      obtain ⟨rfl, h2⟩ := built_index hi
      have h5 : i < 5 := by simpa using h2
      interval_cases i <;> interval_cases k <;> simp [stretched, SMap.find?_insert] at hv <;> simp [linear, p0, p1, p2, p3, ← hv] <;> norm_num)
    (fun i id k hi hk hno => by
      obtain ⟨rfl, h2⟩ := built_index hi
      have h5 : i < 5 := by simpa using h2
      rcases Nat.lt_or_ge i 4 with h4 | h4
      · exact absurd (fan_corner stretched stretched_fixed i h4 k hk) hno
      · have : i = 4 := by omega
        subst this
        show List.Perm [(0 : Int), 1, 2, 3] [1, 2, 3, 0]
        decide) anySolver anySolver_sound (fun _ => 0) (fun _ => 0)
  obtain ⟨e1, e2⟩ := h2 4 4 rfl
  refine ⟨f', h1, ?_, ?_⟩
  · refine e1.trans ?_; rw [p4]; norm_num [Matrix.cons_val_two]
  · refine e2.trans ?_; rw [p4]; norm_num [Matrix.cons_val_two]

end ENigMA
