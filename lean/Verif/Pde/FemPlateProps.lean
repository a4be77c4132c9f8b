import Verif.Pde.FemPlate

/-!
# C161: what the programs for rods and plates compute
-/

set_option linter.unusedSectionVars false
set_option autoImplicit false

namespace ENigMA
open Matrix FemOp FemThermalOp Fem FemHeat FdmHeat BasicMesher
variable {K : Type} [Field K] [LinearOrder K] [IsStrictOrderedRing K]

namespace FemPlate

/-- How often a list that is made piece by piece contains something. -/
theorem count_take (nu : Nat) (x : Int) : ((List.range nu).flatMap fun i : Nat => [(i : Int)]).count x = if 0 ≤ x ∧ x < nu then 1 else 0 := by
  induction nu with
  | zero => rw [if_neg (by push_cast; omega)]; rfl
  | succ n ih =>
    rw [List.range_succ, List.flatMap_append, List.count_append, ih]
    simp only [List.flatMap_cons, List.flatMap_nil, List.append_nil, List.count_cons, List.count_nil, beq_iff_eq]
    push_cast
    split_ifs <;> omega

theorem count_drop (nu : Nat) (x : Int) : ((List.range nu).flatMap fun i : Nat => [(i : Int) + 1]).count x = if 1 ≤ x ∧ x ≤ nu then 1 else 0 := by
  induction nu with
  | zero => rw [if_neg (by push_cast; omega)]; rfl
  | succ n ih =>
    rw [List.range_succ, List.flatMap_append, List.count_append, ih]
    simp only [List.flatMap_cons, List.flatMap_nil, List.append_nil, List.count_cons, List.count_nil, beq_iff_eq]
    push_cast
    split_ifs <;> omega

section Rod
variable {nrm : Vec3 K → K} (hn : IsNorm nrm) (l : GLine K) (hl : l.Ok) (nu : Nat) (hu : 0 < nu)

include hn hl hu in
theorem line_between (i : Nat) (h0 : 0 < i) (h1 : i < nu) : Between (generateLine nrm l nu).mesh (i : Int) := by
  obtain ⟨-, -, -, -, hids, -, -, -, hel, -⟩ := C29_line hn l hl nu hu
  unfold Between
  rw [hids]
  unfold Mesh.iota
  rw [List.flatMap_map, List.flatMap_map]
  have e1 : (List.range nu).flatMap (fun a => (((generateLine nrm l nu).mesh.elements.get? (Int.ofNat a)).map fun e => e.nodeIds.take 1).getD []) = (List.range nu).flatMap fun i : Nat => [(i : Int)] := by
    apply List.flatMap_congr
    intro a ha
    have := (hel a (by simpa using ha)).1
    show (((generateLine nrm l nu).mesh.elements.get? (a : Int)).map _).getD [] = _
    rw [this]; rfl
  have e2 : (List.range nu).flatMap (fun a => (((generateLine nrm l nu).mesh.elements.get? (Int.ofNat a)).map fun e => e.nodeIds.drop 1).getD []) = (List.range nu).flatMap fun i : Nat => [(i : Int) + 1] := by
    apply List.flatMap_congr
    intro a ha
    have := (hel a (by simpa using ha)).1
    show (((generateLine nrm l nu).mesh.elements.get? (a : Int)).map _).getD [] = _
    rw [this]; rfl
  rw [e1, e2, count_take, count_drop, if_pos (by omega), if_pos (by omega)]

include hn hl hu in
theorem line_corners (i : Nat) (h : i < nu) : ([(i : Int), i + 1] : List Int).mapM (generateLine nrm l nu).mesh.nodes.get? =
    some [l.startP + ((i : K) / nu) • (l.endP - l.startP), l.startP + (((i + 1 : Nat) : K) / nu) • (l.endP - l.startP)] := by
  obtain ⟨-, -, -, -, -, hnd, -⟩ := C29_line hn l hl nu hu
  have h1 := hnd i (by omega)
  have h2 := hnd (i + 1) (by omega)
  have e : ((i + 1 : Nat) : Int) = (i : Int) + 1 := by push_cast; rfl
  rw [e] at h2
  simp only [List.mapM_cons, List.mapM_nil, h1, h2, Option.bind_eq_bind, Option.bind_some, Option.pure_def]

theorem line_piece (a v : Vec3 K) (i nu : Nat) (hu : 0 < nu) : a + (((i + 1 : Nat) : K) / nu) • v - (a + ((i : K) / nu) • v) = (1 / (nu : K)) • v := by
  have hnu0 : (nu : K) ≠ 0 := by exact_mod_cast hu.ne'
  ext <;> simp <;> field_simp <;> ring

include hn hl hu in
theorem line_simplex (hne : l.endP ≠ l.startP) : SimplexMesh nrm (generateLine nrm l nu).mesh := by
  intro x e he
  obtain ⟨i, hi, rfl, rfl⟩ := line_elem hn l hl nu hu x e he
  refine ⟨_, line_corners hn l hl nu hu i hi, ?_⟩
  apply Simplex.beam
  have hnup : (0 : K) < nu := by exact_mod_cast hu
  rw [line_piece _ _ _ _ hu, hn.smul, abs_of_pos (by positivity)]
  have : 0 < nrm (l.endP - l.startP) := by
    refine lt_of_le_of_ne (hn.nonneg _) fun h => hne ?_
    have h2 := hn.sq (l.endP - l.startP)
    rw [← h] at h2
    have h3 : (l.endP - l.startP).normSq = 0 := by rw [← h2]; ring
    exact sub_eq_zero.1 (Vec3.normSq_eq_zero.1 h3)
  positivity

include hn hl hu in
theorem line_straight (hne : nrm (l.endP - l.startP) ≠ 0) : AllStraight nrm (generateLine nrm l nu).mesh ((1 / nrm (l.endP - l.startP)) • (l.endP - l.startP)) := by
  intro x e he
  obtain ⟨i, hi, rfl, rfl⟩ := line_elem hn l hl nu hu x e he
  refine ⟨rfl, fun p q hpq => ?_⟩
  rw [line_corners hn l hl nu hu i hi] at hpq
  cases hpq
  have hnup : (0 : K) < nu := by exact_mod_cast hu
  rw [line_piece _ _ _ _ hu, hn.smul, abs_of_pos (by positivity)]
  ext <;> simp <;> field_simp

end Rod
end FemPlate

open FemPlate

/-- **C161, the rod.** With the values `T0` and `T1` set at the nodes near the two ends, and cells longer than the tolerance, the program gives at the node `i` of `nu + 1` exactly
`T0 + (i / nu) (T1 - T0)`: the temperature of the rod. -/
theorem C161_rod {nrm : Vec3 K → K} (hn : IsNorm nrm) (r : K) (solver : Sys K → Nat → K) (hS : Sound solver) (junk junk' : Nat → K) (nu : Nat) (hu : 0 < nu)
    (eps T0 T1 : K) (he : 0 < eps) (hc : eps ≤ 1 / nu) (pf : PdeField K) (hno : NoConditions pf (generateLine nrm unitLine nu).mesh) (u : EVec K) :
    ∃ f', rod nrm r solver junk junk' nu eps T0 T1 pf u = some f' ∧ f'.u.size = nu + 1 ∧ ∀ i ≤ nu, f'.u.at' i = T0 + (i : K) / nu * (T1 - T0) := by
  have hl : (unitLine : GLine K).Ok := rfl
  have hnup : (0 : K) < nu := by exact_mod_cast hu
  obtain ⟨hwf, hrt, -, hids, heids, hnd, -, -, hel, -⟩ := C29_line hn unitLine hl nu hu
  have hcnt : (generateLine nrm (unitLine : GLine K) nu).mesh.nodes.count = nu + 1 := by
    show (generateLine nrm (unitLine : GLine K) nu).mesh.nodes.ids.length = _
    rw [hids]; simp [Mesh.iota]
  have hx : ∀ i : Nat, i ≤ nu → (generateLine nrm (unitLine : GLine K) nu).mesh.nodes.get? (i : Int) = some ⟨(i : K) / nu, 0, 0⟩ := fun i hi => by
    rw [hnd i hi]
    congr 1
    ext <;> simp [unitLine, GLine.mk2]
  have hidx : ∀ i x, (generateLine nrm (unitLine : GLine K) nu).mesh.nodes.idAt? i = some x ↔ i < nu + 1 ∧ x = i := fun i x => by
    show (generateLine nrm (unitLine : GLine K) nu).mesh.nodes.ids[i]? = _ ↔ _
    rw [hids, iota_at]
  have hpos : ∀ i : Nat, i ≤ nu → nodeAt (generateLine nrm (unitLine : GLine K) nu).mesh i = ⟨(i : K) / nu, 0, 0⟩ := fun i hi => by
    unfold nodeAt
    rw [(hidx i i).2 ⟨by omega, rfl⟩, Option.bind_some, hx i hi]; rfl
  -- which nodes get a value
  have hpre : ∀ i : Nat, i ≤ nu → Equation.prescribed ⟨.fem, setConditions (generateLine nrm unitLine nu).mesh (rodEnds eps T0 T1), .empty, u⟩ i =
      if i = nu then some T1 else if i = 0 then some T0 else none := fun i hi => by
    rw [prescribed_conditions _ _ _ _ (by omega), hpos i hi]
    have a1 : |(i : K) / nu - 0| < eps ↔ i = 0 := by
      rw [sub_zero, abs_of_nonneg (by positivity)]
      constructor
      · intro h
        by_contra hne
        have : (1 : K) ≤ i := by exact_mod_cast Nat.pos_of_ne_zero hne
        have := (div_le_div_iff_of_pos_right hnup).2 this
        linarith
      · rintro rfl; simpa using he
    have a2 : |(i : K) / nu - 1| < eps ↔ i = nu := by
      have hle : (i : K) / nu ≤ 1 := by rw [div_le_one hnup]; exact_mod_cast hi
      rw [abs_of_nonpos (by linarith)]
      constructor
      · intro h
        by_contra hne
        have h1 : ((i : K) + 1) ≤ nu := by exact_mod_cast (show i + 1 ≤ nu by omega)
        have h2 := (div_le_div_iff_of_pos_right hnup).2 h1
        rw [div_self hnup.ne', add_div] at h2
        linarith
      · rintro rfl; rw [div_self hnup.ne']; simpa using he
    unfold rodEnds
    simp only [a1, a2]
    split_ifs <;> simp_all
  obtain ⟨f', h1, h2, h3⟩ := C144_patch_beams hn r solver hS junk junk' (generateLine nrm unitLine nu).mesh hwf hrt
    (line_simplex hn _ hl nu hu (by simp [unitLine, GLine.mk2])) _
    (line_straight hn _ hl nu hu (by
      intro h0
      have := hn.sq ((unitLine : GLine K).endP - (unitLine : GLine K).startP)
      rw [h0] at this
      simp [unitLine, GLine.mk2, Vec3.normSq, Vec3.dot] at this))
    pf hno ⟨.fem, setConditions (generateLine nrm unitLine nu).mesh (rodEnds eps T0 T1), .empty, u⟩ rfl (conditions_ok _ _)
    (by
      intro x hxm
      rw [hids] at hxm
      obtain ⟨i, hi⟩ := List.mem_iff_getElem?.1 hxm
      obtain ⟨hi1, rfl⟩ := (iota_at _ _ _).1 hi
      clear hxm hi
      induction i with
      | zero =>
        refine Anchored.fixed 0 _ (if 0 = nu then T1 else T0) ((hidx 0 _).2 ⟨by omega, rfl⟩) ?_
        rw [hpre 0 (by omega)]
        split_ifs <;> simp_all
      | succ i ih =>
        refine Anchored.element (i : Int) _ (i : Int) _ (hel i (by omega)).1 (by simp) (by simp) (ih (by omega)))
    T0 ⟨T1 - T0, 0, 0⟩
    (by
      intro i x p v hi hp hv
      obtain ⟨hi1, rfl⟩ := (hidx i x).1 hi
      rw [hx i (by omega)] at hp
      cases hp
      rw [hpre i (by omega)] at hv
      split_ifs at hv with h h'
      · cases hv; subst h; simp [Vec3.dot, div_self hnup.ne']
      · cases hv; subst h'; simp [Vec3.dot])
    (by
      intro i x hi hv
      obtain ⟨hi1, rfl⟩ := (hidx i x).1 hi
      rw [hpre i (by omega)] at hv
      split_ifs at hv with h h'
      exact line_between hn _ hl nu hu i (by omega) (by omega))
  refine ⟨f', h1, by rw [h2, hcnt], fun i hi => ?_⟩
  rw [h3 i i _ ((hidx i i).2 ⟨by omega, rfl⟩) (hx i hi)]
  simp only [Vec3.dot]
  ring

end ENigMA
