import Verif.Geometry.TriTriFaults

/-! # C134: concrete triangles that meet the hypotheses -/

set_option linter.unusedSectionVars false
set_option autoImplicit false

namespace ENigMA

open Tri

namespace TriTriExample

/-- A triangle in the plane `z = 0`. -/
noncomputable def flat : Tri ℝ := ⟨⟨0, 0, 0⟩, ⟨4, 1, 0⟩, ⟨-1, 4, 0⟩⟩

/-- A triangle in the plane `x = 1` through it. -/
noncomputable def upright : Tri ℝ := ⟨⟨1, 1, -1⟩, ⟨1, 2, 1⟩, ⟨1, 1 / 2, 2⟩⟩

theorem flat_raw : flat.rawNormal = ⟨0, 0, 17⟩ := by ext <;> norm_num [flat, rawNormal, Vec3.cross]

theorem upright_raw : upright.rawNormal = ⟨4, 0, 0⟩ := by ext <;> norm_num [upright, rawNormal, Vec3.cross]

theorem flat_ne : flat.rawNormal ≠ 0 := by rw [flat_raw]; intro h; have := congrArg Vec3.z h; norm_num at this

theorem upright_ne : upright.rawNormal ≠ 0 := by rw [upright_raw]; intro h; have := congrArg Vec3.x h; norm_num at this

theorem realNorm_of_sq (v : Vec3 ℝ) (c : ℝ) (hc : 0 ≤ c) (h : v.normSq = c * c) : realNorm v = c := by
  have h1 := isNorm_real.sq v
  rw [h] at h1
  exact (mul_self_inj (isNorm_real.nonneg v) hc).1 h1

theorem flat_normal : flat.normal realNorm = ⟨0, 0, 1⟩ := by
  rw [flat.normal_eq isNorm_real flat_ne, flat_raw, realNorm_of_sq _ 17 (by norm_num) (by norm_num [Vec3.normSq, Vec3.dot])]
  ext <;> norm_num

theorem upright_normal : upright.normal realNorm = ⟨1, 0, 0⟩ := by
  rw [upright.normal_eq isNorm_real upright_ne, upright_raw, realNorm_of_sq _ 4 (by norm_num) (by norm_num [Vec3.normSq, Vec3.dot])]
  ext <;> norm_num

theorem flat_has : flat.Has ⟨1, 3 / 2, 0⟩ :=
  ⟨13 / 34, 11 / 34, 10 / 34, by norm_num, by norm_num, by norm_num, by norm_num, by ext <;> norm_num [flat]⟩

theorem upright_has : upright.Has ⟨1, 3 / 2, 0⟩ :=
  ⟨1 / 2, 1 / 2, 0, by norm_num, by norm_num, by norm_num, by norm_num, by ext <;> norm_num [upright]⟩

theorem large (v : Vec3 ℝ) (h : 1 ≤ v.normSq) : (1 / 100 : ℝ) < realNorm v := by
  have h1 := isNorm_real.sq v
  have h2 := isNorm_real.nonneg v
  by_contra hc
  rw [not_lt] at hc
  nlinarith

theorem clear1 : Clear realNorm flat upright (1 / 100) where
  steep := by
    intro k hk
    rw [flat_normal]
    interval_cases k <;> norm_num [upright, v, Vec3.dot]
  far := by
    intro x hx _ i hi
    apply large
    obtain ⟨a, b, c, -, -, -, hs, rfl⟩ := upright.has_edge hx.choose_spec.2
    have e : (a • upright.v0 + b • upright.v1 + c • upright.v2 : Vec3 ℝ).x = 1 := by simp [upright]; linarith
    have g : ∀ w : Vec3 ℝ, (w.x ≤ 0 ∨ 2 ≤ w.x) → 1 ≤ ((a • upright.v0 + b • upright.v1 + c • upright.v2) - w).normSq := by
      intro w hw
      simp only [Vec3.normSq, Vec3.dot, Vec3.sub_x, e]
      have h1 := mul_self_nonneg ((a • upright.v0 + b • upright.v1 + c • upright.v2 : Vec3 ℝ) - w).y
      have h2 := mul_self_nonneg ((a • upright.v0 + b • upright.v1 + c • upright.v2 : Vec3 ℝ) - w).z
      rcases hw with h | h <;> nlinarith
    apply g
    interval_cases i <;> norm_num [flat, v]

theorem clear2 : Clear realNorm upright flat (1 / 100) where
  steep := by
    intro k hk
    rw [upright_normal]
    interval_cases k <;> norm_num [flat, v, Vec3.dot]
  far := by
    intro x hx _ i hi
    apply large
    obtain ⟨a, b, c, -, -, -, hs, rfl⟩ := flat.has_edge hx.choose_spec.2
    have e : (a • flat.v0 + b • flat.v1 + c • flat.v2 : Vec3 ℝ).z = 0 := by simp [flat]
    have g : ∀ w : Vec3 ℝ, (w.z ≤ -1 ∨ 1 ≤ w.z) → 1 ≤ ((a • flat.v0 + b • flat.v1 + c • flat.v2) - w).normSq := by
      intro w hw
      simp only [Vec3.normSq, Vec3.dot, Vec3.sub_z, e]
      have h1 := mul_self_nonneg ((a • flat.v0 + b • flat.v1 + c • flat.v2 : Vec3 ℝ) - w).y
      have h2 := mul_self_nonneg ((a • flat.v0 + b • flat.v1 + c • flat.v2 : Vec3 ℝ) - w).x
      rcases hw with h | h <;> nlinarith
    apply g
    interval_cases i <;> norm_num [upright, v]

theorem tilt : realNorm (Vec3.cross (flat.normal realNorm) (upright.normal realNorm)) = 1 := by
  rw [flat_normal, upright_normal]
  exact realNorm_of_sq _ 1 (by norm_num) (by norm_num [Vec3.normSq, Vec3.dot, Vec3.cross])

/-- Non-vacuity of `C134_found`. -/
example : flat.intersects realNorm 0 1000 1 upright (1 / 100) = some .internal := by
  refine (C134_found isNorm_real 0 1000 1 flat upright (1 / 100) (by norm_num) flat_ne upright_ne (by rw [tilt]; norm_num) clear1 clear2 _
    flat_has upright_has).2 ?_
  intro i hi j hj
  apply le_of_lt
  apply large
  interval_cases i <;> interval_cases j <;> norm_num [flat, upright, v, Vec3.normSq, Vec3.dot]

/-- Non-vacuity of `C134_sound_partial`: the same triangles with tolerance 0. -/
example : ∃ k, flat.intersects realNorm 0 1000 1 upright 0 = some k ∧ Vec3.cross flat.rawNormal upright.rawNormal ≠ 0 ∧
    (¬ (∀ i < 3, 0 < upright.rawNormal.dot (flat.v i - upright.v0)) ∧ ¬ ∀ i < 3, upright.rawNormal.dot (flat.v i - upright.v0) < 0) := by
  refine ⟨.internal, ?_, ?_, ?_, ?_⟩
  · obtain ⟨ty, hty⟩ := flat.planeHit_of (flat.normal_unit isNorm_real flat_ne) (l := upright.edgeLine 0) (le_refl (0 : ℝ))
      (by rw [flat_normal]; norm_num [upright, edgeLine, GLine.mk2, v, Vec3.dot]) (s := 1 / 2) (by norm_num) (by norm_num)
      (by rw [flat_normal]; norm_num [upright, flat, edgeLine, GLine.mk2, v, Vec3.dot])
    have e : (upright.edgeLine 0).startP + (1 / 2 : ℝ) • (upright.edgeLine 0).vec = ⟨1, 3 / 2, 0⟩ := by
      ext <;> norm_num [upright, edgeLine, GLine.mk2, v]
    rw [e] at hty
    have hc := flat.contains_of_sides isNorm_real flat_ne 1000 ⟨1, 3 / 2, 0⟩ (bbox_hull3 1000 _ _ _ _ 0 le_rfl flat_has) (by
      rw [flat_raw]
      intro k hk
      interval_cases k <;> norm_num [flat, v, Vec3.cross, Vec3.dot])
    have hnv : flat.contains realNorm 1000 ⟨1, 3 / 2, 0⟩ 0 ≠ .vertex := by
      intro hv
      have big : ∀ w : Vec3 ℝ, 1 ≤ ((⟨1, 3 / 2, 0⟩ : Vec3 ℝ) - w).normSq → ¬ realNorm ((⟨1, 3 / 2, 0⟩ : Vec3 ℝ) - w) ≤ 0 := by
        intro w hw h
        have := large _ hw
        linarith
      rcases flat.contains_vertex hv with h | h | h
      · exact big _ (by norm_num [flat, Vec3.normSq, Vec3.dot]) h
      · exact big _ (by norm_num [flat, Vec3.normSq, Vec3.dot]) h
      · exact big _ (by norm_num [flat, Vec3.normSq, Vec3.dot]) h
    have hp : pierced realNorm 1000 flat upright 0 = true := by
      unfold pierced
      rw [List.any_eq_true]
      refine ⟨0, by simp, ?_⟩
      rw [hty]
      simp only [decide_eq_true_eq]
      cases hc' : flat.contains realNorm 1000 ⟨1, 3 / 2, 0⟩ 0 with
      | outside => exact absurd hc' hc
      | vertex => exact absurd hc' hnv
      | edge => exact Or.inr rfl
      | internal => exact Or.inl rfl
    have hb := flat.boxes_meet upright 1000 flat_has upright_has (le_refl (0 : ℝ))
    have hs1 := upright.not_oneSide_of_has (flat.normal realNorm) ((flat.normal realNorm).dot flat.v0) upright_has (flat.normal_dot_has flat_has) (le_refl (0 : ℝ))
    unfold Tri.intersects
    simp only [nearVertices_zero isNorm_real, hb, Bool.not_true, Bool.false_eq_true, if_false, hs1,
      upright.oneSide_self (nrm := realNorm) (le_refl (0 : ℝ)), hp, Bool.true_or, if_true]
    rw [if_neg (by norm_num), if_neg (c := _ ∧ _) (fun hh => by rw [tilt] at hh; norm_num at hh), if_neg (by norm_num)]
  · rw [flat_raw, upright_raw]
    intro h
    have := congrArg Vec3.y h
    norm_num [Vec3.cross] at this
  · intro h
    have := h 0 (by norm_num)
    rw [upright_raw] at this
    norm_num [flat, upright, v, Vec3.dot] at this
  · intro h
    have := h 1 (by norm_num)
    rw [upright_raw] at this
    norm_num [flat, upright, v, Vec3.dot] at this

/-- Non-vacuity of `C134_neighbours`: two faces of a corner. -/
example : Tri.intersects realNorm 0 1000 1 ⟨⟨0, 0, 0⟩, ⟨2, 0, 0⟩, ⟨0, 2, 0⟩⟩ ⟨⟨2, 0, 0⟩, ⟨0, 0, 0⟩, ⟨0, 0, 2⟩⟩ (1 / 100) = some .edge := by
  have n1 : Tri.normal realNorm ⟨⟨0, 0, 0⟩, ⟨2, 0, 0⟩, ⟨0, 2, 0⟩⟩ = ⟨0, 0, 1⟩ := by
    have r : (⟨⟨0, 0, 0⟩, ⟨2, 0, 0⟩, ⟨0, 2, 0⟩⟩ : Tri ℝ).rawNormal = ⟨0, 0, 4⟩ := by ext <;> norm_num [rawNormal, Vec3.cross]
    rw [Tri.normal_eq isNorm_real _ (by rw [r]; intro h; have := congrArg Vec3.z h; norm_num at this), r,
      realNorm_of_sq _ 4 (by norm_num) (by norm_num [Vec3.normSq, Vec3.dot])]
    ext <;> norm_num
  have n2 : Tri.normal realNorm ⟨⟨2, 0, 0⟩, ⟨0, 0, 0⟩, ⟨0, 0, 2⟩⟩ = ⟨0, 1, 0⟩ := by
    have r : (⟨⟨2, 0, 0⟩, ⟨0, 0, 0⟩, ⟨0, 0, 2⟩⟩ : Tri ℝ).rawNormal = ⟨0, 4, 0⟩ := by ext <;> norm_num [rawNormal, Vec3.cross]
    rw [Tri.normal_eq isNorm_real _ (by rw [r]; intro h; have := congrArg Vec3.y h; norm_num at this), r,
      realNorm_of_sq _ 4 (by norm_num) (by norm_num [Vec3.normSq, Vec3.dot])]
    ext <;> norm_num
  refine C134_neighbours isNorm_real 0 1000 1 _ _ _ _ (1 / 100) (by norm_num) ?_ ?_ ?_ ?_ ?_ ?_ ?_ ?_
  all_goals first
    | (rw [n1, n2]; apply large; norm_num [Vec3.normSq, Vec3.dot, Vec3.cross]; done)
    | (apply le_of_lt; apply large; norm_num [Vec3.normSq, Vec3.dot])

/-- Non-vacuity of `C134_segment`. -/
example : ∃ loc, flat.intersectsLine realNorm 1000 (GLine.mk2 ⟨1, 3 / 2, -1⟩ ⟨1, 3 / 2, 1⟩) (1 / 100) = some (⟨1, 3 / 2, 0⟩, loc) :=
  C134_segment isNorm_real 1000 flat flat_ne _ rfl (1 / 100) (by norm_num) (by rw [flat_normal]; norm_num [GLine.mk2, Vec3.dot]) _ flat_has
    ⟨1 / 2, by norm_num, by norm_num, by ext <;> norm_num [GLine.mk2]⟩

end TriTriExample
end ENigMA
