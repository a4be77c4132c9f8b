import Verif.Pde.FemPlateProps
import Verif.Pde.FemHeatTimeLimit
import Verif.Pde.FemHeatExamples

/-!
# C161: the cooling rod gets as cold as its end
-/

set_option linter.unusedSectionVars false
set_option autoImplicit false

namespace ENigMA
open Matrix FemOp FemThermalOp Fem FemHeat FdmHeat BasicMesher FemPlate
variable {K : Type} [Field K] [LinearOrder K] [IsStrictOrderedRing K]

/-- **C161, the cooling rod.** With one end kept at zero and the other insulated, whatever the initial temperatures, the length of the time steps and the material: the squares of the temperatures at all nodes
fall like the powers of a number below one, which depends on neither the initial temperatures nor the node. -/
theorem C161_cooling {nrm : Vec3 K → K} (hn : IsNorm nrm) (r : K) (solver : Sys K → Nat → K) (hS : Sound solver) (junk junk' : Nat → K) (nu : Nat) (hu : 0 < nu)
    (eps : K) (he : 0 < eps) (hc : eps ≤ 1 / nu) (P : Par K) (hrc : 0 < P.rc) (hdt : 0 < P.dt) (hk : 0 < P.k) (pf : PdeField K)
    (hno : NoConditions pf (generateLine nrm unitLine nu).mesh) :
    ∃ q, 0 ≤ q ∧ q < 1 ∧ ∀ u : EVec K, ∀ i ≤ nu, ∃ C, ∀ n, ∃ f', cooling nrm r solver junk junk' nu eps P pf n u = some f' ∧ f'.u.at' i * f'.u.at' i ≤ C * q ^ n := by
  have hl : (unitLine : GLine K).Ok := rfl
  have hnup : (0 : K) < nu := by exact_mod_cast hu
  obtain ⟨hwf, hrt, -, hids, heids, hnd, -, -, hel, -⟩ := C29_line hn unitLine hl nu hu
  have hcnt : (generateLine nrm (unitLine : GLine K) nu).mesh.nodes.count = nu + 1 := by
    show (generateLine nrm (unitLine : GLine K) nu).mesh.nodes.ids.length = _
    rw [hids]; simp [Mesh.iota]
  have hx : ∀ i : Nat, i ≤ nu → (generateLine nrm (unitLine : GLine K) nu).mesh.nodes.get? (i : Int) = some ⟨(i : K) / nu, 0, 0⟩ := fun i hi => by
    rw [hnd i hi]
    congr 1
    ext <;> simp [unitLine, GLine.mk2]
  have hidx : ∀ i x, (generateLine nrm (unitLine : GLine K) nu).mesh.nodes.idAt? i = some x ↔ i < nu + 1 ∧ x = i := fun i x => by
    show (generateLine nrm (unitLine : GLine K) nu).mesh.nodes.ids[i]? = _ ↔ _
    rw [hids, iota_at]
  have hpos : ∀ i : Nat, i ≤ nu → nodeAt (generateLine nrm (unitLine : GLine K) nu).mesh i = ⟨(i : K) / nu, 0, 0⟩ := fun i hi => by
    unfold nodeAt
    rw [(hidx i i).2 ⟨by omega, rfl⟩, Option.bind_some, hx i hi]; rfl
  have hpre : ∀ (u : EVec K) (i : Nat), i ≤ nu → Equation.prescribed ⟨.fem, setConditions (generateLine nrm unitLine nu).mesh (coldEnd eps), .empty, u⟩ i =
      if i = nu then some 0 else none := fun u i hi => by
    rw [prescribed_conditions _ _ _ _ (by omega), hpos i hi]
    have a2 : |(i : K) / nu - 1| < eps ↔ i = nu := by
      have hle : (i : K) / nu ≤ 1 := by rw [div_le_one hnup]; exact_mod_cast hi
      rw [abs_of_nonpos (by linarith)]
      constructor
      · intro h
        by_contra hne
        have h1 : ((i : K) + 1) ≤ nu := by exact_mod_cast (show i + 1 ≤ nu by omega)
        have h2 := (div_le_div_iff_of_pos_right hnup).2 h1
        rw [div_self hnup.ne', add_div] at h2
        linarith
      · rintro rfl; rw [div_self hnup.ne']; simpa using he
    unfold coldEnd
    simp only [a2]
    split_ifs <;> rfl
  have hs : SimplexMesh nrm (generateLine nrm (unitLine : GLine K) nu).mesh := line_simplex hn _ hl nu hu (by simp [unitLine, GLine.mk2])
  have hecnt : (generateLine nrm (unitLine : GLine K) nu).mesh.elements.ids = Mesh.iota nu := heids
  have g : Good nrm (generateLine nrm (unitLine : GLine K) nu).mesh := ⟨hwf, hrt, hs, by
      have hc' : (generateLine nrm (unitLine : GLine K) nu).mesh.elements.count = nu := by
        show (generateLine nrm (unitLine : GLine K) nu).mesh.elements.ids.length = _
        rw [heids]; simp [Mesh.iota]
      unfold Contiguous
      rw [hc', heids]; rfl, fun x hx' => by
      rw [hids] at hx'
      obtain ⟨i, hi⟩ := List.mem_iff_getElem?.1 hx'
      obtain ⟨h1, rfl⟩ := (iota_at _ _ _).1 hi
      rw [hcnt]; omega⟩
  have hcov : Covered (generateLine nrm (unitLine : GLine K) nu).mesh := fun x hx' => by
    rw [hids] at hx'
    obtain ⟨i, hi⟩ := List.mem_iff_getElem?.1 hx'
    obtain ⟨h1, rfl⟩ := (iota_at _ _ _).1 hi
    rcases Nat.lt_or_ge i nu with h | h
    · exact ⟨_, _, (hel i h).1, by simp⟩
    · obtain ⟨j, rfl⟩ : ∃ j, i = j + 1 := ⟨i - 1, by omega⟩
      exact ⟨_, _, (hel j (by omega)).1, by simp⟩
  have hanch : ∀ u : EVec K, ∀ x ∈ (generateLine nrm (unitLine : GLine K) nu).mesh.nodes.ids,
      Anchored (generateLine nrm (unitLine : GLine K) nu).mesh ⟨.fem, setConditions (generateLine nrm unitLine nu).mesh (coldEnd eps), .empty, u⟩ x := fun u x hx' => by
    rw [hids] at hx'
    obtain ⟨i, hi⟩ := List.mem_iff_getElem?.1 hx'
    obtain ⟨h1, rfl⟩ := (iota_at _ _ _).1 hi
    clear hx' hi
    obtain ⟨d, hd⟩ : ∃ d, i + d = nu := ⟨nu - i, by omega⟩
    induction d generalizing i with
    | zero => exact .fixed nu _ 0 ((hidx nu _).2 ⟨by omega, by rw [← hd]; rfl⟩) (by rw [hpre u nu le_rfl, if_pos rfl])
    | succ d ih => exact .element (i : Int) _ ((i + 1 : Nat) : Int) _ (hel i (by omega)).1 (by simp) (by simp) (ih (i + 1) (by omega) (by omega))
  obtain ⟨q, q0, q1, hlim⟩ := C145_limit hn r solver hS junk junk' _ g hcov pf hno P hrc hdt hk ⟨.fem, setConditions (generateLine nrm unitLine nu).mesh (coldEnd eps), .empty, ⟨0, fun _ => 0⟩⟩
    (conditions_ok _ _) (hanch _)
  refine ⟨q, q0, q1, fun u i hi => ?_⟩
  obtain ⟨fs, hfs, hall⟩ := hlim ⟨.fem, setConditions (generateLine nrm unitLine nu).mesh (coldEnd eps), .empty, u⟩ rfl rfl
  -- the steady temperatures are zero
  obtain ⟨fs', e1, -, e3⟩ := C144_least_energy hn r solver hS junk junk' _ hwf hrt hs pf hno ⟨.fem, setConditions (generateLine nrm unitLine nu).mesh (coldEnd eps), .empty, u⟩ rfl (conditions_ok _ _)
  rw [hfs, Option.some.injEq] at e1
  subst e1
  have hφ : Holds (generateLine nrm (unitLine : GLine K) nu).mesh fs.u.at' (fun x => fs.u.at' x.toNat) := fun k x hk' => by
    obtain ⟨-, rfl⟩ := (hidx k x).1 hk'
    rfl
  obtain ⟨-, E, hE, hmin⟩ := e3 _ hφ
  have hzero : TotalEnergy nrm (generateLine nrm (unitLine : GLine K) nu).mesh (fun _ => (0 : K)) 0 := by
    refine ⟨fun _ => 0, fun id hid => ?_, by simp⟩
    obtain ⟨e, hge⟩ := (hwf.elements.2 id).1 hid
    obtain ⟨k, hk1, rfl, rfl⟩ := line_elem hn _ hl nu hu id e hge
    refine ⟨_, _, hge, line_corners hn _ hl nu hu k hk1, ?_⟩
    have := Energy.beam (nrm := nrm) ((unitLine : GLine K).startP + ((k : K) / nu) • ((unitLine : GLine K).endP - (unitLine : GLine K).startP))
      ((unitLine : GLine K).startP + (((k + 1 : Nat) : K) / nu) • ((unitLine : GLine K).endP - (unitLine : GLine K).startP)) 0 0
    rw [sub_zero, zero_div, mul_zero, mul_zero] at this
    exact this
  have hsteady : ∀ k ≤ nu, fs.u.at' k = 0 := fun k hk' => by
    by_contra hne
    have h1 := (hmin (fun _ => 0) 0 (fun i x v hi' hv => by
      obtain ⟨hi1, rfl⟩ := (hidx i x).1 hi'
      rw [hpre u i (by omega)] at hv
      split_ifs at hv
      exact Option.some.inj hv) hzero).2 (hanch u) ⟨(k : Int), List.mem_of_getElem? ((hidx k k).2 ⟨by omega, rfl⟩), fun h => hne (by simpa using h.symm)⟩
    have h2 := total_nonneg _ hs _ _ hE
    linarith
  obtain ⟨C, hC⟩ := hall (i : Int) (List.mem_of_getElem? ((hidx i i).2 ⟨by omega, rfl⟩))
  refine ⟨C, fun n => ?_⟩
  obtain ⟨f', hf', hb⟩ := hC n
  refine ⟨f', hf', ?_⟩
  have h := hb (fun x => fs.u.at' x.toNat) (fun x => f'.u.at' x.toNat) hφ (fun k x hk' => by
    obtain ⟨-, rfl⟩ := (hidx k x).1 hk'
    rfl)
  simp only [Int.toNat_natCast, hsteady i hi, sub_zero] at h
  exact h

/-- The rod of the program meets the hypotheses. -/
example (r : ℝ) : ∃ q, 0 ≤ q ∧ q < 1 ∧ ∀ u : EVec ℝ, ∀ i ≤ 30, ∃ C, ∀ n,
    ∃ f', cooling realNorm r anySolver (fun _ => 0) (fun _ => 0) 30 (1 / 1000000) ⟨1, 1, 1 / 100⟩ plain n u = some f' ∧ f'.u.at' i * f'.u.at' i ≤ C * q ^ n :=
  C161_cooling isNorm_real r anySolver anySolver_sound (fun _ => 0) (fun _ => 0) 30 (by norm_num) (1 / 1000000) (by norm_num) (by norm_num) ⟨1, 1, 1 / 100⟩ (by norm_num) (by norm_num) (by norm_num) plain (plain_ok _)

end ENigMA
