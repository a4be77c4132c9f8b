import Verif.Sph.Kernel
import Mathlib.Analysis.SpecialFunctions.Integrals.Basic
import Mathlib.Tactic.Linarith
import Mathlib.Tactic.FieldSimp
import Mathlib.Tactic.Positivity

/-!
# C49: the SPH kernels
-/

set_option linter.unusedSectionVars false

namespace ENigMA
open Sph

namespace Sph

/-- The measure of the sphere of radius `ρ` in dimension `d`: two points, a circle, a sphere. -/
noncomputable def sphere : Int → ℝ → ℝ
  | 1, _ => 2
  | 2, ρ => 2 * Real.pi * ρ
  | 3, ρ => 4 * Real.pi * ρ ^ 2
  | _, _ => 0

theorem coef_pos {κ : Kind} {d : Int} {old h : ℝ} (hd : d = 1 ∨ d = 2 ∨ d = 3) (hh : 0 < h) : 0 < coef old h κ d := by
  have := Real.pi_pos
  have := Real.sqrt_pos.2 Real.pi_pos
  rcases hd with rfl | rfl | rfl <;> cases κ <;> simp only [coef] <;> positivity

theorem support_pos (κ : Kind) : 0 < support κ := by cases κ <;> simp only [support] <;> norm_num

theorem realNorm_x (ρ : ℝ) : realNorm ⟨ρ, 0, 0⟩ = |ρ| := by
  apply isNorm_real.eq_of_sq (abs_nonneg ρ)
  rw [abs_mul_abs_self]; simp [Vec3.normSq, Vec3.dot]

theorem shape_nonneg {κ : Kind} {q : ℝ} (h0 : 0 ≤ q) (hq : q ≤ support κ) : 0 ≤ shape κ q := by
  cases κ <;> simp only [shape, support] at *
  · split_ifs with h
    · nlinarith [mul_nonneg h0 h0, mul_nonneg (mul_nonneg h0 h0) (sub_nonneg.2 h.2.le), h.2]
    · have : 0 ≤ 2 - q := by linarith
      positivity
  · have : 0 ≤ 2 - q := by linarith
    positivity
  · positivity
  · have : 0 ≤ 1 - q := by linarith
    positivity
  · positivity

/-- The profile of a kernel as a function of the distance over the smoothing length. -/
noncomputable def profile (κ : Kind) (q : ℝ) : ℝ := if support κ < q then 0 else shape κ q

theorem W_eq (κ : Kind) (d : Int) (old : ℝ) (r : Vec3 ℝ) (h : ℝ) : W κ d old r h = coef old h κ d * profile κ (realNorm r / h) := by
  simp only [W, profile, gt_iff_lt]
  split_ifs <;> simp

theorem profile_of_lt {κ : Kind} {q : ℝ} (h : support κ < q) : profile κ q = 0 := if_pos h

theorem profile_of_le {κ : Kind} {q : ℝ} (h : q ≤ support κ) : profile κ q = shape κ q := if_neg (not_lt.2 h)

theorem shape_inner {q : ℝ} (h0 : 0 ≤ q) (h : q ≤ 1) :
    shape .cubic q = (2 - q) * (2 - q) * (2 - q) - 4 * (1 - q) * (1 - q) * (1 - q) := by
  rcases h.lt_or_eq with h1 | rfl
  · exact if_pos ⟨h0, h1⟩
  · norm_num [shape]

theorem shape_outer {q : ℝ} (h : 1 ≤ q) : shape .cubic q = (2 - q) * (2 - q) * (2 - q) := if_neg fun t => absurd t.2 (not_lt.2 h)

/-- The profiles other than the Gaussian one, as continuous functions on `q ≥ 0`. -/
theorem profile_cont (κ : Kind) (hκ : κ ≠ .gaussian) : ∃ g : ℝ → ℝ, Continuous g ∧ ∀ q, 0 ≤ q → profile κ q = g q := by
  have key : ∀ (s : ℝ) (f : ℝ → ℝ), Continuous f → f s = 0 → Continuous fun q => if q ≤ s then f q else 0 := by
    intro s f hf hs
    exact Continuous.if_le hf (by fun_prop) (by fun_prop) (by fun_prop) fun x hx => by rw [hx, hs]
  have fin : ∀ κ, Continuous (shape κ) → shape κ (support κ) = 0 → ∃ g : ℝ → ℝ, Continuous g ∧ ∀ q, 0 ≤ q → profile κ q = g q := by
    intro κ hc hs
    refine ⟨_, key (support κ) (shape κ) hc hs, fun q _ => ?_⟩
    by_cases h : support κ < q
    · rw [profile_of_lt h, if_neg (not_le.2 h)]
    · rw [profile_of_le (not_lt.1 h), if_pos (not_lt.1 h)]
  cases κ
  · refine ⟨fun q => if q ≤ 1 then (2 - q) * (2 - q) * (2 - q) - 4 * (1 - q) * (1 - q) * (1 - q) else
      if q ≤ 2 then (2 - q) * (2 - q) * (2 - q) else 0, ?_, fun q hq => ?_⟩
    · refine Continuous.if_le (by fun_prop) (key 2 _ (by fun_prop) (by norm_num)) (by fun_prop) (by fun_prop) ?_
      intro x hx; rw [hx]; norm_num
    · beta_reduce
      by_cases h2 : 2 < q
      · rw [profile_of_lt (κ := .cubic) h2, if_neg (by linarith), if_neg (by linarith)]
      · rw [profile_of_le (κ := .cubic) (not_lt.1 h2)]
        by_cases h1 : q ≤ 1
        · rw [if_pos h1, shape_inner hq h1]
        · rw [if_neg h1, if_pos (not_lt.1 h2), shape_outer (not_le.1 h1).le]
  · exact fin _ (by unfold shape; fun_prop) (by norm_num [shape, support])
  · exact fin _ (by unfold shape; fun_prop) (by norm_num [shape, support])
  · exact fin _ (by unfold shape; fun_prop) (by norm_num [shape, support])
  · exact absurd rfl hκ

/-- The integral of a polynomial. -/
theorem integral_poly (l : List ℝ) (a b : ℝ) :
    ∫ x in a..b, ∑ k ∈ Finset.range l.length, l.getD k 0 * x ^ k =
      ∑ k ∈ Finset.range l.length, l.getD k 0 * ((b ^ (k + 1) - a ^ (k + 1)) / (k + 1)) := by
  rw [intervalIntegral.integral_finset_sum fun k _ => by apply Continuous.intervalIntegrable; fun_prop]
  simp only [intervalIntegral.integral_const_mul, integral_pow]

/-- The integral of a function that is a polynomial on the interval. -/
theorem integral_of_poly {f : ℝ → ℝ} (l : List ℝ) {a b : ℝ} (hab : a ≤ b)
    (h : ∀ x, a ≤ x → x ≤ b → f x = ∑ k ∈ Finset.range l.length, l.getD k 0 * x ^ k) :
    ∫ x in a..b, f x = ∑ k ∈ Finset.range l.length, l.getD k 0 * ((b ^ (k + 1) - a ^ (k + 1)) / (k + 1)) := by
  rw [← integral_poly]
  refine intervalIntegral.integral_congr fun x hx => ?_
  rw [Set.uIcc_of_le hab] at hx
  exact h x hx.1 hx.2

/-- What the kernels integrate to, by class and dimension. -/
noncomputable def massOf : Kind → Int → ℝ
  | .cubic, _ => 4
  | _, 1 => 2
  | _, _ => 1

/-- The integral of the profile, weighted by the power of the distance. -/
theorem moment (κ : Kind) (hκ : κ ≠ .gaussian) (m : Nat) (hm : m ≤ 2) : ∃ v : ℝ,
    ∫ q in (0 : ℝ)..support κ, q ^ m * profile κ q = v ∧
    (m = 0 → 2 * v * coef 0 1 κ 1 = massOf κ 1) ∧ (m = 1 → 2 * Real.pi * v * coef 0 1 κ 2 = massOf κ 2) ∧
    (m = 2 → 4 * Real.pi * v * coef 0 1 κ 3 = massOf κ 3) := by
  have hpi := Real.pi_ne_zero
  obtain ⟨g, hg, he⟩ := profile_cont κ hκ
  have hI : ∀ a b : ℝ, 0 ≤ a → 0 ≤ b → IntervalIntegrable (fun q : ℝ => q ^ m * profile κ q) MeasureTheory.volume a b := by
    intro a b ha hb
    have : IntervalIntegrable (fun q : ℝ => q ^ m * g q) MeasureTheory.volume a b := by apply Continuous.intervalIntegrable; fun_prop
    refine this.congr fun q hq => ?_
    have : 0 ≤ q := le_trans (le_min ha hb) (Set.uIoc_subset_uIcc hq).1
    simp only [he q this]
  cases κ
  · have hs : ∫ q in (0 : ℝ)..support .cubic, q ^ m * profile .cubic q =
        (∫ q in (0 : ℝ)..1, q ^ m * profile .cubic q) + ∫ q in (1 : ℝ)..2, q ^ m * profile .cubic q :=
      (intervalIntegral.integral_add_adjacent_intervals (hI 0 1 le_rfl (by norm_num)) (hI 1 2 (by norm_num) (by norm_num))).symm
    have h1 : ∀ x : ℝ, 0 ≤ x → x ≤ 1 → profile .cubic x = 4 - 6 * x ^ 2 + 3 * x ^ 3 := fun x h0 h1 => by
      rw [profile_of_le (κ := .cubic) (show x ≤ 2 by linarith), shape_inner h0 h1]; ring
    have h2 : ∀ x : ℝ, 1 ≤ x → x ≤ 2 → profile .cubic x = 8 - 12 * x + 6 * x ^ 2 - x ^ 3 := fun x h0 h1 => by
      rw [profile_of_le (κ := .cubic) h1, shape_outer h0]; ring
    refine ⟨_, hs, ?_, ?_, ?_⟩
    · rintro rfl
      rw [integral_of_poly [4, 0, -6, 3] (by norm_num) (fun x a b => by rw [h1 x a b]; simp [Finset.sum_range_succ]; ring),
        integral_of_poly [8, -12, 6, -1] (by norm_num) (fun x a b => by rw [h2 x a b]; simp [Finset.sum_range_succ]; ring)]
      simp [Finset.sum_range_succ, coef, massOf]; norm_num
    · rintro rfl
      rw [integral_of_poly [0, 4, 0, -6, 3] (by norm_num) (fun x a b => by rw [h1 x a b]; simp [Finset.sum_range_succ]; ring),
        integral_of_poly [0, 8, -12, 6, -1] (by norm_num) (fun x a b => by rw [h2 x a b]; simp [Finset.sum_range_succ]; ring)]
      simp [Finset.sum_range_succ, coef, massOf]; field_simp; norm_num
    · rintro rfl
      rw [integral_of_poly [0, 0, 4, 0, -6, 3] (by norm_num) (fun x a b => by rw [h1 x a b]; simp [Finset.sum_range_succ]; ring),
        integral_of_poly [0, 0, 8, -12, 6, -1] (by norm_num) (fun x a b => by rw [h2 x a b]; simp [Finset.sum_range_succ]; ring)]
      simp [Finset.sum_range_succ, coef, massOf]; field_simp; norm_num
  · have h1 : ∀ x : ℝ, 0 ≤ x → x ≤ support .convex → profile .convex x = 8 - 8 * x + 2 * x ^ 3 - 1 / 2 * x ^ 4 := fun x h0 h1 => by
      rw [profile_of_le h1]; simp only [shape]; ring
    refine ⟨_, rfl, ?_, ?_, ?_⟩
    · rintro rfl
      rw [integral_of_poly [8, -8, 0, 2, -1 / 2] (support_pos _).le (fun x a b => by rw [h1 x a b]; simp [Finset.sum_range_succ]; ring)]
      simp [Finset.sum_range_succ, coef, massOf, support]; norm_num
    · rintro rfl
      rw [integral_of_poly [0, 8, -8, 0, 2, -1 / 2] (support_pos _).le (fun x a b => by rw [h1 x a b]; simp [Finset.sum_range_succ]; ring)]
      simp [Finset.sum_range_succ, coef, massOf, support]; field_simp; norm_num
    · rintro rfl
      rw [integral_of_poly [0, 0, 8, -8, 0, 2, -1 / 2] (support_pos _).le (fun x a b => by rw [h1 x a b]; simp [Finset.sum_range_succ]; ring)]
      simp [Finset.sum_range_succ, coef, massOf, support]; field_simp; norm_num
  · have h1 : ∀ x : ℝ, 0 ≤ x → x ≤ support .quintic →
        profile .quintic x = 1 - 5 / 2 * x ^ 2 + 5 / 2 * x ^ 3 - 15 / 16 * x ^ 4 + 1 / 8 * x ^ 5 := fun x h0 h1 => by
      rw [profile_of_le h1]; simp only [shape]; ring
    refine ⟨_, rfl, ?_, ?_, ?_⟩
    · rintro rfl
      rw [integral_of_poly [1, 0, -5 / 2, 5 / 2, -15 / 16, 1 / 8] (support_pos _).le (fun x a b => by rw [h1 x a b]; simp [Finset.sum_range_succ]; ring)]
      simp [Finset.sum_range_succ, coef, massOf, support]; norm_num
    · rintro rfl
      rw [integral_of_poly [0, 1, 0, -5 / 2, 5 / 2, -15 / 16, 1 / 8] (support_pos _).le (fun x a b => by rw [h1 x a b]; simp [Finset.sum_range_succ]; ring)]
      simp [Finset.sum_range_succ, coef, massOf, support]; field_simp; norm_num
    · rintro rfl
      rw [integral_of_poly [0, 0, 1, 0, -5 / 2, 5 / 2, -15 / 16, 1 / 8] (support_pos _).le (fun x a b => by rw [h1 x a b]; simp [Finset.sum_range_succ]; ring)]
      simp [Finset.sum_range_succ, coef, massOf, support]; field_simp; norm_num
  · have h1 : ∀ x : ℝ, 0 ≤ x → x ≤ support .spiky → profile .spiky x = 1 - 3 * x + 3 * x ^ 2 - x ^ 3 := fun x h0 h1 => by
      rw [profile_of_le h1]; simp only [shape]; ring
    refine ⟨_, rfl, ?_, ?_, ?_⟩
    · rintro rfl
      rw [integral_of_poly [1, -3, 3, -1] (support_pos _).le (fun x a b => by rw [h1 x a b]; simp [Finset.sum_range_succ]; ring)]
      simp [Finset.sum_range_succ, coef, massOf, support]; norm_num
    · rintro rfl
      rw [integral_of_poly [0, 1, -3, 3, -1] (support_pos _).le (fun x a b => by rw [h1 x a b]; simp [Finset.sum_range_succ]; ring)]
      simp [Finset.sum_range_succ, coef, massOf, support]; field_simp; norm_num
    · rintro rfl
      rw [integral_of_poly [0, 0, 1, -3, 3, -1] (support_pos _).le (fun x a b => by rw [h1 x a b]; simp [Finset.sum_range_succ]; ring)]
      simp [Finset.sum_range_succ, coef, massOf, support]; field_simp; norm_num
  · exact absurd rfl hκ

/-- `m_C` scales with the smoothing length. -/
theorem coef_scale {κ : Kind} {h old : ℝ} (hh : 0 < h) :
    coef old h κ 1 = coef 0 1 κ 1 / h ∧ coef old h κ 2 = coef 0 1 κ 2 / h ^ 2 ∧ coef old h κ 3 = coef 0 1 κ 3 / h ^ 3 := by
  have := hh.ne'
  have := Real.pi_ne_zero
  have := (Real.sqrt_pos.2 Real.pi_pos).ne'
  refine ⟨?_, ?_, ?_⟩ <;> cases κ <;> simp only [coef] <;> field_simp

/-- Every kernel but the Gaussian one integrates to `massOf`. -/
theorem mass_eq (κ : Kind) (hκ : κ ≠ .gaussian) (d : Int) (hd : d = 1 ∨ d = 2 ∨ d = 3) (old h R : ℝ) (hh : 0 < h) (hR : support κ * h ≤ R) :
    ∫ ρ in (0 : ℝ)..R, sphere d ρ * W κ d old ⟨ρ, 0, 0⟩ h = massOf κ d := by
  obtain ⟨g, hg, he⟩ := profile_cont κ hκ
  have hs := support_pos κ
  have hRh : support κ ≤ R / h := (le_div_iff₀ hh).2 hR
  have hR0 : 0 ≤ R := le_trans (by positivity) hR
  -- the integral over the ratio of the distance to the smoothing length
  have hJ : ∀ m : Nat, ∫ ρ in (0 : ℝ)..R, (ρ / h) ^ m * profile κ (ρ / h) = h * ∫ q in (0 : ℝ)..support κ, q ^ m * profile κ q := by
    intro m
    rw [intervalIntegral.integral_comp_div (fun q => q ^ m * profile κ q) hh.ne', zero_div, smul_eq_mul]
    congr 1
    have hI : ∀ a b : ℝ, 0 ≤ a → 0 ≤ b → IntervalIntegrable (fun q : ℝ => q ^ m * profile κ q) MeasureTheory.volume a b := by
      intro a b ha hb
      have : IntervalIntegrable (fun q : ℝ => q ^ m * g q) MeasureTheory.volume a b := by apply Continuous.intervalIntegrable; fun_prop
      refine this.congr fun q hq => ?_
      have : 0 ≤ q := le_trans (le_min ha hb) (Set.uIoc_subset_uIcc hq).1
      simp only [he q this]
    rw [← intervalIntegral.integral_add_adjacent_intervals (hI 0 (support κ) le_rfl hs.le) (hI (support κ) (R / h) hs.le (hs.le.trans hRh))]
    have hz : ∫ q in support κ..R / h, q ^ m * profile κ q = ∫ q in support κ..R / h, (0 : ℝ) := by
      refine intervalIntegral.integral_congr fun q hq => ?_
      rw [Set.uIcc_of_le hRh] at hq
      rcases hq.1.lt_or_eq with h1 | h1
      · simp only [profile_of_lt h1, mul_zero]
      · rw [← h1]
        show support κ ^ m * profile κ (support κ) = 0
        rw [profile_of_le le_rfl]
        cases κ
        · rw [show support .cubic = 2 from rfl, shape_outer (by norm_num)]; norm_num
        · norm_num [support, shape]
        · norm_num [support, shape]
        · norm_num [support, shape]
        · exact absurd rfl hκ
    rw [hz]; simp
  have hW : ∀ ρ ∈ Set.uIcc (0 : ℝ) R, W κ d old ⟨ρ, 0, 0⟩ h = coef old h κ d * profile κ (ρ / h) := by
    intro ρ hρ
    rw [Set.uIcc_of_le hR0] at hρ
    rw [W_eq, realNorm_x, abs_of_nonneg hρ.1]
  obtain ⟨c1, c2, c3⟩ := coef_scale (κ := κ) (old := old) hh
  rcases hd with rfl | rfl | rfl
  · obtain ⟨v, hv, k, -, -⟩ := moment κ hκ 0 (by omega)
    rw [intervalIntegral.integral_congr (g := fun ρ => 2 * coef old h κ 1 * ((ρ / h) ^ 0 * profile κ (ρ / h)))
      (fun ρ hρ => by simp only [sphere, hW ρ hρ]; ring), intervalIntegral.integral_const_mul, hJ, hv, c1, ← k rfl]
    field_simp
  · obtain ⟨v, hv, -, k, -⟩ := moment κ hκ 1 (by omega)
    rw [intervalIntegral.integral_congr (g := fun ρ => 2 * Real.pi * h * coef old h κ 2 * ((ρ / h) ^ 1 * profile κ (ρ / h)))
      (fun ρ hρ => by simp only [sphere, hW ρ hρ]; field_simp), intervalIntegral.integral_const_mul, hJ, hv, c2, ← k rfl]
    field_simp
  · obtain ⟨v, hv, -, -, k⟩ := moment κ hκ 2 (by omega)
    rw [intervalIntegral.integral_congr (g := fun ρ => 4 * Real.pi * h ^ 2 * coef old h κ 3 * ((ρ / h) ^ 2 * profile κ (ρ / h)))
      (fun ρ hρ => by simp only [sphere, hW ρ hρ]; field_simp), intervalIntegral.integral_const_mul, hJ, hv, c3, ← k rfl]
    field_simp

end Sph

/-- C49: in dimensions 1, 2, 3 and for every positive smoothing length, every kernel is non-negative, depends on the distance only (so it is symmetric), and is
zero beyond its support radius: `2h` for the cubic, convex and quintic kernels, `h` for the spiky and `3h` for the Gaussian kernel. -/
theorem C49_support (κ : Kind) (d : Int) (hd : d = 1 ∨ d = 2 ∨ d = 3) (old h : ℝ) (hh : 0 < h) (r : Vec3 ℝ) :
    0 ≤ W κ d old r h ∧ W κ d old (-r) h = W κ d old r h ∧ (∀ r', realNorm r' = realNorm r → W κ d old r' h = W κ d old r h) ∧
    (support κ * h < realNorm r → W κ d old r h = 0) ∧ support κ ≤ 3 ∧ (κ ≠ .gaussian → support κ ≤ 2) := by
  have hq : 0 ≤ realNorm r / h := div_nonneg (isNorm_real.nonneg r) hh.le
  refine ⟨?_, ?_, ?_, ?_, ?_, ?_⟩
  · rw [W_eq]
    refine mul_nonneg (coef_pos hd hh).le ?_
    by_cases h1 : support κ < realNorm r / h
    · rw [profile_of_lt h1]
    · rw [profile_of_le (not_lt.1 h1)]
      exact shape_nonneg hq (not_lt.1 h1)
  · rw [W_eq, W_eq, isNorm_real.neg]
  · intro r' hr'; rw [W_eq, W_eq, hr']
  · intro h1
    rw [W_eq, profile_of_lt ((lt_div_iff₀ hh).2 h1), mul_zero]
  · cases κ <;> simp only [support] <;> norm_num
  · intro hκ
    cases κ
    case gaussian => exact absurd rfl hκ
    all_goals (simp only [support]; norm_num)

/-- Inside the support the kernels are positive somewhere: the statement is not about zero functions. -/
example : 0 < W .quintic 2 0 ⟨1, 0, 0⟩ 1 := by
  rw [W_eq, realNorm_x, profile_of_le (by norm_num [support])]
  have := Real.pi_pos
  simp only [coef, shape]; norm_num; positivity

/-- C49: every kernel but the Gaussian one is a continuous function of the distance, so it has no jump at its break points. -/
theorem C49_continuous (κ : Kind) (hκ : κ ≠ .gaussian) (d : Int) (old h : ℝ) (hh : 0 < h) : Continuous fun ρ : ℝ => W κ d old ⟨ρ, 0, 0⟩ h := by
  obtain ⟨g, hg, he⟩ := profile_cont κ hκ
  have : (fun ρ : ℝ => W κ d old ⟨ρ, 0, 0⟩ h) = fun ρ => coef old h κ d * g (|ρ| / h) := by
    funext ρ; rw [W_eq, realNorm_x, he _ (div_nonneg (abs_nonneg ρ) hh.le)]
  rw [this]; fun_prop

example : Kind.cubic ≠ Kind.gaussian := by decide

/-- C49: the convex, quintic and spiky kernels have unit mass in two and three dimensions: the integral over the circles, or spheres, around the particle, out
to any radius that contains the support, is one. -/
theorem C49_mass_partial (κ : Kind) (hκ : κ = .convex ∨ κ = .quintic ∨ κ = .spiky) (d : Int) (hd : d = 2 ∨ d = 3) (old h R : ℝ) (hh : 0 < h)
    (hR : support κ * h ≤ R) : ∫ ρ in (0 : ℝ)..R, sphere d ρ * W κ d old ⟨ρ, 0, 0⟩ h = 1 := by
  rw [mass_eq κ (by rcases hκ with rfl | rfl | rfl <;> decide) d (Or.inr hd) old h R hh hR]
  rcases hκ with rfl | rfl | rfl <;> rcases hd with rfl | rfl <;> rfl

example : support .quintic * (1 / 2) ≤ 1 := by norm_num [support]

/-- C49 fails in one dimension for the convex, quintic and spiky kernels, whose mass is two, and in every dimension for the cubic spline, whose mass is four. -/
theorem C49_mass_wrong (κ : Kind) (d : Int) (old h R : ℝ) (hh : 0 < h) (hR : support κ * h ≤ R) :
    ((κ = .convex ∨ κ = .quintic ∨ κ = .spiky) → ∫ ρ in (0 : ℝ)..R, sphere 1 ρ * W κ 1 old ⟨ρ, 0, 0⟩ h = 2) ∧
    (κ = .cubic → d = 1 ∨ d = 2 ∨ d = 3 → ∫ ρ in (0 : ℝ)..R, sphere d ρ * W κ d old ⟨ρ, 0, 0⟩ h = 4) := by
  refine ⟨fun hκ => ?_, fun hκ hd => ?_⟩
  · rw [mass_eq κ (by rcases hκ with rfl | rfl | rfl <;> decide) 1 (Or.inl rfl) old h R hh hR]
    rcases hκ with rfl | rfl | rfl <;> rfl
  · subst hκ
    rw [mass_eq .cubic (by decide) d hd old h R hh hR]; rfl

/-- C49: the Gaussian kernel is cut at `3h`, where it jumps from a positive value to zero, and in two dimensions its mass is `1 - e⁻⁹`. -/
theorem C49_gaussian (d : Int) (hd : d = 1 ∨ d = 2 ∨ d = 3) (old h : ℝ) (hh : 0 < h) :
    0 < W .gaussian d old ⟨3 * h, 0, 0⟩ h ∧ (∀ ρ, 3 * h < ρ → W .gaussian d old ⟨ρ, 0, 0⟩ h = 0) ∧
    ∫ ρ in (0 : ℝ)..3 * h, sphere 2 ρ * W .gaussian 2 old ⟨ρ, 0, 0⟩ h = 1 - Real.exp (-9) := by
  refine ⟨?_, ?_, ?_⟩
  · rw [W_eq, realNorm_x, abs_of_pos (by positivity), profile_of_le (by rw [mul_div_assoc, div_self hh.ne']; norm_num [support])]
    exact mul_pos (coef_pos hd hh) (Real.exp_pos _)
  · intro ρ hρ
    rw [W_eq, realNorm_x, abs_of_pos (by linarith), profile_of_lt ((lt_div_iff₀ hh).2 hρ), mul_zero]
  · have hd : ∀ ρ ∈ Set.uIcc (0 : ℝ) (3 * h), HasDerivAt (fun ρ : ℝ => -Real.exp (-(ρ / h) * (ρ / h)))
        (sphere 2 ρ * W .gaussian 2 old ⟨ρ, 0, 0⟩ h) ρ := by
      intro ρ hρ
      rw [Set.uIcc_of_le (by positivity)] at hρ
      have h1 : HasDerivAt (fun ρ : ℝ => ρ / h) (1 / h) ρ := (hasDerivAt_id ρ).div_const h
      have h2 := ((h1.neg.mul h1).exp).neg
      refine h2.congr_deriv ?_
      rw [W_eq, realNorm_x, abs_of_nonneg hρ.1, profile_of_le ((div_le_iff₀ hh).2 hρ.2)]
      have := hh.ne'
      have := Real.pi_ne_zero
      simp only [sphere, coef, shape, Pi.neg_apply, Pi.mul_apply]
      generalize Real.exp (-(ρ / h) * (ρ / h)) = E
      field_simp; ring
    rw [intervalIntegral.integral_eq_sub_of_hasDerivAt hd]
    · rw [mul_div_assoc, div_self hh.ne']; norm_num; ring
    · have : IntervalIntegrable (fun ρ : ℝ => sphere 2 ρ * (coef old h .gaussian 2 * shape .gaussian (ρ / h))) MeasureTheory.volume 0 (3 * h) := by
        apply Continuous.intervalIntegrable; unfold sphere shape; fun_prop
      refine this.congr fun ρ hρ => ?_
      have hρ := Set.uIoc_subset_uIcc hρ
      rw [Set.uIcc_of_le (by positivity)] at hρ
      simp only [W_eq, realNorm_x, abs_of_nonneg hρ.1, profile_of_le (κ := .gaussian) ((div_le_iff₀ hh).2 hρ.2)]

end ENigMA
