import Verif.Analytical.Flow
import Verif.Analytical.TemperatureProps
import Mathlib.Analysis.Calculus.Deriv.Slope

set_option linter.unusedSectionVars false
set_option autoImplicit false

open Real Filter Topology

namespace ENigMA
namespace Ana

/-- The viscous Burgers equation u_t + u u_x = mu u_xx at every point and every time from the start on. -/
def SolvesBurgers (mu : ℝ) (u : ℝ → ℝ → ℝ) : Prop :=
  ∀ x t, 0 ≤ t → ∃ ux ut uxx : ℝ → ℝ,
    (∀ x', HasDerivAt (fun x => u x t) (ux x') x') ∧ (∀ x', HasDerivAt ux (uxx x') x') ∧ HasDerivAt (fun t => u x t) (ut t) t ∧
    ut t + u x t * ux x = mu * uxx x

noncomputable def logistic (y : ℝ) : ℝ := exp y / (1 + exp y)

theorem d_logistic (y : ℝ) : HasDerivAt logistic (logistic y * (1 - logistic y)) y := by
  have hpos : 1 + exp y ≠ 0 := by positivity
  have := (Real.hasDerivAt_exp y).div ((Real.hasDerivAt_exp y).const_add 1) hpos
  refine this.congr_deriv ?_
  unfold logistic
  field_simp

/-- The difference of the exponents of the two waves. -/
noncomputable def gap (x t L mu : ℝ) : ℝ := (2 * (x - 4 * t) * L - L * L) / (4 * mu * (t + 1))

/-- The limit of the computed velocity. -/
noncomputable def velocity (L mu x t : ℝ) : ℝ := 4 + ((x - 4 * t) - L * logistic (gap x t L mu)) / (t + 1)

theorem phi_ratio (x t L mu : ℝ) (ht : 0 ≤ t) (hmu : 0 < mu) :
    exp (-(x - 4 * t - L) * (x - 4 * t - L) / (4 * mu * (t + 1))) = phi x t L mu * logistic (gap x t L mu) := by
  have ht1 : t + 1 ≠ 0 := by linarith
  have e : exp (-(x - 4 * t - L) * (x - 4 * t - L) / (4 * mu * (t + 1))) = exp (-(x - 4 * t) * (x - 4 * t) / (4 * mu * (t + 1))) * exp (gap x t L mu) := by
    rw [← Real.exp_add]
    congr 1
    unfold gap
    field_simp
    ring
  rw [phi, e, logistic]
  have hpos : 1 + exp (gap x t L mu) ≠ 0 := by positivity
  field_simp

theorem d_phi (x t L mu : ℝ) (ht : 0 ≤ t) (hmu : 0 < mu) :
    HasDerivAt (fun x => phi x t L mu) (-(phi x t L mu) * ((x - 4 * t) - L * logistic (gap x t L mu)) / (2 * mu * (t + 1))) x := by
  have ht1 : t + 1 ≠ 0 := by linarith
  have h1 : HasDerivAt (fun x : ℝ => -(x - 4 * t) * (x - 4 * t) / (4 * mu * (t + 1))) (-(2 * (x - 4 * t)) / (4 * mu * (t + 1))) x := by
    have := (((hasDerivAt_id x).sub_const (4 * t)).neg.mul ((hasDerivAt_id x).sub_const (4 * t))).div_const (4 * mu * (t + 1))
    refine this.congr_deriv ?_
    simp
    ring
  have h2 : HasDerivAt (fun x : ℝ => -(x - 4 * t - L) * (x - 4 * t - L) / (4 * mu * (t + 1))) (-(2 * (x - 4 * t - L)) / (4 * mu * (t + 1))) x := by
    have := ((((hasDerivAt_id x).sub_const (4 * t)).sub_const L).neg.mul (((hasDerivAt_id x).sub_const (4 * t)).sub_const L)).div_const (4 * mu * (t + 1))
    refine this.congr_deriv ?_
    simp
    ring
  have := h1.exp.add h2.exp
  refine this.congr_deriv ?_
  have hr := phi_ratio x t L mu ht hmu
  have hs : exp (-(x - 4 * t) * (x - 4 * t) / (4 * mu * (t + 1))) = phi x t L mu * (1 - logistic (gap x t L mu)) := by
    rw [show phi x t L mu * (1 - logistic (gap x t L mu)) = phi x t L mu - phi x t L mu * logistic (gap x t L mu) by ring, ← hr, phi]; ring
  rw [hr, hs]
  field_simp
  ring

theorem gap_x (x t L mu : ℝ) : HasDerivAt (fun x => gap x t L mu) (2 * L / (4 * mu * (t + 1))) x := by
  have := (((((hasDerivAt_id x).sub_const (4 * t)).const_mul 2).mul_const L).sub_const (L * L)).div_const (4 * mu * (t + 1))
  refine this.congr_deriv ?_
  simp

theorem gap_t (x t L mu : ℝ) (ht : 0 ≤ t) (hmu : 0 < mu) :
    HasDerivAt (fun t => gap x t L mu) (-(8 * L) / (4 * mu * (t + 1)) - (2 * (x - 4 * t) * L - L * L) / (4 * mu * (t + 1) * (t + 1))) t := by
  have ht1 : t + 1 ≠ 0 := by linarith
  have h1 : HasDerivAt (fun t : ℝ => 2 * (x - 4 * t) * L - L * L) (-(8 * L)) t := by
    have := (((((hasDerivAt_id t).const_mul 4).const_sub x).const_mul 2).mul_const L).sub_const (L * L)
    refine this.congr_deriv ?_
    ring
  have h2 : HasDerivAt (fun t : ℝ => 4 * mu * (t + 1)) (4 * mu) t := by
    have := ((hasDerivAt_id t).add_const 1).const_mul (4 * mu)
    refine this.congr_deriv ?_
    ring
  have := h1.div h2 (by positivity)
  refine this.congr_deriv ?_
  field_simp

end Ana

open Ana

/-- C103: for a positive viscosity the computed velocity tends, as the step dx goes to zero, to a function that solves the viscous Burgers equation exactly, whatever L is. -/
theorem C103_burgers (L mu : ℝ) (hmu : 0 < mu) :
    ∃ u : ℝ → ℝ → ℝ, (∀ x t, 0 ≤ t → Tendsto (fun dx => burgers x dx t L mu) (𝓝[≠] 0) (𝓝 (u x t))) ∧ SolvesBurgers mu u := by
  refine ⟨velocity L mu, fun x t ht => ?_, fun x t ht => ?_⟩
  · have ht1 : t + 1 ≠ 0 := by linarith
    have hphi : phi x t L mu ≠ 0 := by unfold phi; positivity
    have h := (d_phi x t L mu ht hmu).tendsto_slope_zero
    have h' := (h.const_mul (-2 * mu / phi x t L mu)).add_const 4
    refine (h'.congr fun dx => ?_).trans (le_of_eq ?_)
    · simp only [burgers, smul_eq_mul]; ring
    · congr 1
      unfold velocity
      field_simp
      ring
  · have ht1 : t + 1 ≠ 0 := by linarith
    have hpos : 0 < t + 1 := by linarith
    let r := fun x => logistic (gap x t L mu)
    have hr : ∀ x, HasDerivAt r (r x * (1 - r x) * (2 * L / (4 * mu * (t + 1)))) x := fun x => (d_logistic _).comp x (gap_x x t L mu)
    refine ⟨fun x => (1 - L * (r x * (1 - r x) * (2 * L / (4 * mu * (t + 1))))) / (t + 1),
      fun t' => (-4 - L * (r x * (1 - r x) * (-(8 * L) / (4 * mu * (t + 1)) - (2 * (x - 4 * t) * L - L * L) / (4 * mu * (t + 1) * (t + 1))))) / (t + 1) - ((x - 4 * t) - L * r x) / ((t + 1) * (t + 1)),
      fun x => -(L * (r x * (1 - r x) * (1 - 2 * r x) * (2 * L / (4 * mu * (t + 1))) * (2 * L / (4 * mu * (t + 1))))) / (t + 1), fun x' => ?_, fun x' => ?_, ?_, ?_⟩
    · have := ((((hasDerivAt_id x').sub_const (4 * t)).sub ((hr x').const_mul L)).div_const (t + 1)).const_add 4
      exact this
    · have := ((((((hr x').mul ((hr x').const_sub 1)).mul_const (2 * L / (4 * mu * (t + 1)))).const_mul L).const_sub 1).div_const (t + 1))
      refine this.congr_deriv ?_
      ring
    · have hl : HasDerivAt (fun t => logistic (gap x t L mu)) _ t := (d_logistic _).comp t (gap_t x t L mu ht hmu)
      have h1 := ((((hasDerivAt_id t).const_mul 4).const_sub x).sub (hl.const_mul L)).div ((hasDerivAt_id t).add_const 1) ht1
      refine (h1.const_add 4).congr_deriv ?_
      simp only [r, id, Pi.sub_apply]
      field_simp
    · simp only [velocity, r]
      generalize logistic (gap x t L mu) = s
      field_simp
      ring

/-- A non-trivial case: viscosity 0.07 and length 2π, the values of the usual benchmark. -/
example : ∃ u : ℝ → ℝ → ℝ, (∀ x t, 0 ≤ t → Tendsto (fun dx => burgers x dx t (2 * π) 0.07) (𝓝[≠] 0) (𝓝 (u x t))) ∧ SolvesBurgers 0.07 u :=
  C103_burgers _ _ (by norm_num)

end ENigMA
