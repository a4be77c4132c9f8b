import Verif.Pde.FdmHeatLimit
import Mathlib.Analysis.Calculus.MeanValue
import Mathlib.Analysis.SpecialFunctions.Trigonometric.Deriv
import Mathlib.Analysis.SpecialFunctions.ExpDeriv

/-!
# C143: how far the computed temperatures are from those of the heat equation
-/

set_option linter.unusedSectionVars false
set_option autoImplicit false

namespace ENigMA
open Equation FdmHeat

namespace FdmHeat

/-- Specification: a solution of `rc ∂V/∂t = k ∂²V/∂x²` from time zero on, smooth, with bounds of its slope, of its second derivative in time and of its fourth derivative in space. -/
structure HeatSolution (rc k G M2 M4 : ℝ) where
  V : ℝ → ℝ → ℝ
  Vx : ℝ → ℝ → ℝ
  Vxx : ℝ → ℝ → ℝ
  Vxxx : ℝ → ℝ → ℝ
  Vxxxx : ℝ → ℝ → ℝ
  Vt : ℝ → ℝ → ℝ
  Vtt : ℝ → ℝ → ℝ
  dx1 : ∀ x t, 0 ≤ t → HasDerivAt (fun x => V x t) (Vx x t) x
  dx2 : ∀ x t, 0 ≤ t → HasDerivAt (fun x => Vx x t) (Vxx x t) x
  dx3 : ∀ x t, 0 ≤ t → HasDerivAt (fun x => Vxx x t) (Vxxx x t) x
  dx4 : ∀ x t, 0 ≤ t → HasDerivAt (fun x => Vxxx x t) (Vxxxx x t) x
  dt1 : ∀ x t, 0 ≤ t → HasDerivAt (fun t => V x t) (Vt x t) t
  dt2 : ∀ x t, 0 ≤ t → HasDerivAt (fun t => Vt x t) (Vtt x t) t
  heat : ∀ x t, 0 ≤ t → rc * Vt x t = k * Vxx x t
  slope : ∀ x t, 0 ≤ t → |Vx x t| ≤ G
  curve : ∀ x t, 0 ≤ t → |Vtt x t| ≤ M2
  fourth : ∀ x t, 0 ≤ t → |Vxxxx x t| ≤ M4

/-- A bound of a derivative bounds the function. -/
theorem grow (f f' B B' : ℝ → ℝ) (h : ℝ) (hh : 0 ≤ h) (hf : ∀ s, 0 ≤ s → s ≤ h → HasDerivAt f (f' s) s) (h0 : f 0 = 0) (hB0 : B 0 = 0)
    (hB : ∀ s, HasDerivAt B (B' s) s) (hb : ∀ s, 0 ≤ s → s ≤ h → |f' s| ≤ B' s) : ∀ s, 0 ≤ s → s ≤ h → |f s| ≤ B s := by
  intro s s0 s1
  have := image_norm_le_of_norm_deriv_right_le_deriv_boundary (f := f) (f' := f') (a := 0) (b := h) (B := B) (B' := B')
    (fun x hx => (hf x hx.1 hx.2).continuousAt.continuousWithinAt) (fun x hx => (hf x hx.1 hx.2.le).hasDerivWithinAt) (by rw [h0, hB0]; simp) hB
    (fun x hx => hb x hx.1 hx.2.le) (x := s) ⟨s0, s1⟩
  exact this

theorem shift_add (f f' : ℝ → ℝ) (hf : ∀ x, HasDerivAt f (f' x) x) (x s : ℝ) : HasDerivAt (fun s => f (x + s)) (f' (x + s)) s := by
  simpa using (hf (x + s)).comp_const_add x s

theorem shift_sub (f f' : ℝ → ℝ) (hf : ∀ x, HasDerivAt f (f' x) x) (x s : ℝ) : HasDerivAt (fun s => f (x - s)) (-f' (x - s)) s := by
  simpa using (hf (x - s)).comp_const_sub x s

theorem pow_deriv (c : ℝ) (p : Nat) (s : ℝ) : HasDerivAt (fun s : ℝ => c * s ^ (p + 1) / (p + 1)) (c * s ^ p) s := by
  have h := ((hasDerivAt_pow (p + 1) s).const_mul c).div_const ((p : ℝ) + 1)
  have e : c * (((p + 1 : ℕ) : ℝ) * s ^ (p + 1 - 1)) / ((p : ℝ) + 1) = c * s ^ p := by
    have : ((p : ℝ) + 1) ≠ 0 := by positivity
    push_cast
    field_simp
    try simp
  rw [e] at h
  exact h

/-- The second difference of a function. -/
theorem second_difference (g g1 g2 g3 g4 : ℝ → ℝ) (d1 : ∀ x, HasDerivAt g (g1 x) x) (d2 : ∀ x, HasDerivAt g1 (g2 x) x) (d3 : ∀ x, HasDerivAt g2 (g3 x) x)
    (d4 : ∀ x, HasDerivAt g3 (g4 x) x) (M : ℝ) (hM : ∀ x, |g4 x| ≤ M) (x h : ℝ) (hh : 0 ≤ h) :
    |g (x - h) - 2 * g x + g (x + h) - h * h * g2 x| ≤ M * h ^ 4 / 12 := by
  have b3 := grow (fun s => g3 (x + s) - g3 (x - s)) (fun s => g4 (x + s) - -g4 (x - s)) (fun s => 2 * M * s ^ (0 + 1) / ((0 : ℕ) + 1)) (fun s => 2 * M * s ^ 0) h hh
    (fun s _ _ => (shift_add g3 g4 d4 x s).sub (shift_sub g3 g4 d4 x s)) (by simp) (by simp) (fun s => pow_deriv (2 * M) 0 s) (fun s _ _ => by
      have h1 := abs_le.1 (hM (x + s)); have h2 := abs_le.1 (hM (x - s))
      rw [abs_le, pow_zero]; constructor <;> linarith)
  have b2 := grow (fun s => g2 (x + s) + g2 (x - s) - 2 * g2 x) (fun s => g3 (x + s) + -g3 (x - s)) (fun s => 2 * M * s ^ (1 + 1) / ((1 : ℕ) + 1)) (fun s => 2 * M * s ^ 1) h hh
    (fun s _ _ => ((shift_add g2 g3 d3 x s).add (shift_sub g2 g3 d3 x s)).sub_const _) (by simp; ring) (by simp) (fun s => pow_deriv (2 * M) 1 s) (fun s s0 s1 => by
      have := b3 s s0 s1
      simp only [Nat.cast_zero, zero_add, div_one, ← sub_eq_add_neg] at this ⊢
      exact this)
  have b1 := grow (fun s => g1 (x + s) - g1 (x - s) - 2 * g2 x * s) (fun s => g2 (x + s) - -g2 (x - s) - 2 * g2 x * 1) (fun s => M * s ^ (2 + 1) / ((2 : ℕ) + 1)) (fun s => M * s ^ 2) h hh
    (fun s _ _ => ((shift_add g1 g2 d2 x s).sub (shift_sub g1 g2 d2 x s)).sub ((hasDerivAt_id s).const_mul _)) (by simp) (by simp) (fun s => pow_deriv M 2 s) (fun s s0 s1 => by
      have := b2 s s0 s1
      have e : 2 * M * s ^ (1 + 1) / ((1 : ℕ) + 1) = M * s ^ 2 := by push_cast; ring
      simp only [e] at this
      rw [show g2 (x + s) - -g2 (x - s) - 2 * g2 x * 1 = g2 (x + s) + g2 (x - s) - 2 * g2 x by ring]
      exact this)
  have b0 := grow (fun s => g (x + s) + g (x - s) - 2 * g x - g2 x * s ^ 2) (fun s => g1 (x + s) + -g1 (x - s) - g2 x * (((2 : ℕ) : ℝ) * s ^ (2 - 1)))
    (fun s => M / 3 * s ^ (3 + 1) / ((3 : ℕ) + 1)) (fun s => M / 3 * s ^ 3) h hh
    (fun s _ _ => (((shift_add g g1 d1 x s).add (shift_sub g g1 d1 x s)).sub_const _).sub ((hasDerivAt_pow 2 s).const_mul _)) (by simp; ring) (by simp)
    (fun s => pow_deriv (M / 3) 3 s) (fun s s0 s1 => by
      have := b1 s s0 s1
      have e : M * s ^ (2 + 1) / ((2 : ℕ) + 1) = M / 3 * s ^ 3 := by push_cast; ring
      simp only [e] at this
      rw [show g1 (x + s) + -g1 (x - s) - g2 x * (((2 : ℕ) : ℝ) * s ^ (2 - 1)) = g1 (x + s) - g1 (x - s) - 2 * g2 x * s by push_cast; ring]
      exact this)
  have := b0 h hh le_rfl
  have e : M / 3 * h ^ (3 + 1) / ((3 : ℕ) + 1) = M * h ^ 4 / 12 := by push_cast; ring
  simp only [e] at this
  rw [show g (x - h) - 2 * g x + g (x + h) - h * h * g2 x = g (x + h) + g (x - h) - 2 * g x - g2 x * h ^ 2 by ring]
  exact this

/-- A backward difference in time. -/
theorem backward_difference (g g1 g2 : ℝ → ℝ) (d1 : ∀ t, 0 ≤ t → HasDerivAt g (g1 t) t) (d2 : ∀ t, 0 ≤ t → HasDerivAt g1 (g2 t) t) (M : ℝ) (hM : ∀ t, 0 ≤ t → |g2 t| ≤ M) (t d : ℝ)
    (ht : 0 ≤ t) (hd : 0 ≤ d) : |g (t + d) - g t - d * g1 (t + d)| ≤ M * d ^ 2 / 2 := by
  have sub : ∀ (f f' : ℝ → ℝ), (∀ t, 0 ≤ t → HasDerivAt f (f' t) t) → ∀ s, 0 ≤ s → s ≤ d → HasDerivAt (fun s => f (t + d - s)) (-f' (t + d - s)) s := fun f f' hf s s0 s1 => by
    simpa using (hf (t + d - s) (by linarith)).comp_const_sub (t + d) s
  have b1 := grow (fun s => g1 (t + d - s) - g1 (t + d)) (fun s => -g2 (t + d - s)) (fun s => M * s ^ (0 + 1) / ((0 : ℕ) + 1)) (fun s => M * s ^ 0) d hd
    (fun s s0 s1 => (sub g1 g2 d2 s s0 s1).sub_const _) (by simp) (by simp) (fun s => pow_deriv M 0 s) (fun s s0 s1 => by
      rw [abs_neg, pow_zero, mul_one]; exact hM _ (by linarith))
  have b0 := grow (fun s => g (t + d) - g (t + d - s) - g1 (t + d) * s) (fun s => - -g1 (t + d - s) - g1 (t + d) * 1) (fun s => M * s ^ (1 + 1) / ((1 : ℕ) + 1)) (fun s => M * s ^ 1) d hd
    (fun s s0 s1 => ((sub g g1 d1 s s0 s1).const_sub _).sub ((hasDerivAt_id s).const_mul _)) (by simp) (by simp) (fun s => pow_deriv M 1 s) (fun s s0 s1 => by
      have := b1 s s0 s1
      simp only [Nat.cast_zero, zero_add, div_one] at this
      rw [neg_neg, mul_one]
      exact this)
  have := b0 d hd le_rfl
  have e : M * d ^ (1 + 1) / ((1 : ℕ) + 1) = M * d ^ 2 / 2 := by push_cast; ring
  simp only [e, add_sub_cancel_right] at this
  rw [mul_comm d]
  exact this

/-- Values at neighbouring nodes. -/
theorem neighbour (g g1 : ℝ → ℝ) (d1 : ∀ x, HasDerivAt g (g1 x) x) (G : ℝ) (hG : ∀ x, |g1 x| ≤ G) (x h : ℝ) (hh : 0 ≤ h) : |g (x + h) - g x| ≤ G * h := by
  have := grow (fun s => g (x + s) - g x) (fun s => g1 (x + s)) (fun s => G * s ^ (0 + 1) / ((0 : ℕ) + 1)) (fun s => G * s ^ 0) h hh
    (fun s _ _ => (shift_add g g1 d1 x s).sub_const _) (by simp) (by simp) (fun s => pow_deriv G 0 s) (fun s _ _ => by rw [pow_zero, mul_one]; exact hG _) h hh le_rfl
  simpa using this

/-- Errors are bounded by what causes them. -/
theorem error_up (n : Nat) (c k : ℝ) (hc : 0 < c) (hk : 0 ≤ k) (e o : Nat → ℝ) (E ρ D : ℝ) (hD : 0 ≤ D) (ho : ∀ i < n, o i ≤ E)
    (h : ∀ i < n, (∃ j < n, ∃ l < n, c * (e i - o i) - k * (e j - 2 * e i + e l) ≤ ρ) ∨ (∃ j < n, ∃ δ ≤ D, c * e i = k * (e j + δ - 2 * e i))) :
    ∀ i < n, e i ≤ max (E + ρ / c) D := by
  intro i0 hi0
  obtain ⟨i, hi, hmax⟩ := Finset.exists_max_image (Finset.range n) e ⟨i0, Finset.mem_range.2 hi0⟩
  rw [Finset.mem_range] at hi
  have hmax : ∀ j < n, e j ≤ e i := fun j hj => hmax j (Finset.mem_range.2 hj)
  refine (hmax i0 hi0).trans ?_
  rcases h i hi with ⟨j, hj, l, hl, hr⟩ | ⟨j, hj, δ, hδ, hr⟩
  · refine le_max_of_le_left ?_
    have h1 : k * (e j - 2 * e i + e l) ≤ 0 := mul_nonpos_of_nonneg_of_nonpos hk (by linarith [hmax j hj, hmax l hl])
    have h2 : e i - o i ≤ ρ / c := by rw [le_div_iff₀ hc]; linarith
    linarith [ho i hi]
  · refine le_max_of_le_right ?_
    by_contra hlt
    rw [not_le] at hlt
    have h1 : k * (e j + δ - 2 * e i) ≤ 0 := mul_nonpos_of_nonneg_of_nonpos hk (by linarith [hmax j hj])
    have h2 : 0 < c * e i := mul_pos hc (by linarith)
    linarith

end FdmHeat

/-- **C143.** The computed temperatures against a solution of the heat equation. With each end either prescribed, at the solution's constant value there, or left alone, the solution having the same
value at the end node as one step outside, and with the solution's values at time zero, the error after `m` steps is at most the elapsed time times the sum of a term of first order in the time step
and a term of second order in the spacing, plus spacing times slope, because a prescribed value is taken to stand one step outside the end. -/
theorem C143_error (solver : Sys ℝ → Nat → ℝ) (hS : Sound solver) (junk : Nat → ℝ) (n : Nat) (h : ℝ) (hn : 2 ≤ n) (hh : 0 < h) (P : Par ℝ) (hrc : 0 < P.rc)
    (hdt : 0 < P.dt) (hk : 0 ≤ P.k) {G M2 M4 : ℝ} (S : HeatSolution P.rc P.k G M2 M4) (x0 : ℝ) (f : EqField ℝ) (hf : IndicesOk f.uFixed n) (hu : n ≤ f.u.size)
    (hstart : ∀ i < n, f.u.at' i = S.V (x0 + i * h) 0)
    (hleft : (∃ a, prescribed f 0 = some a ∧ ∀ t, 0 ≤ t → S.V x0 t = a) ∨ (prescribed f 0 = none ∧ ∀ t, 0 ≤ t → S.V (x0 - h) t = S.V x0 t))
    (hright : (∃ b, prescribed f (n - 1) = some b ∧ ∀ t, 0 ≤ t → S.V (x0 + (n - 1) * h) t = b) ∨
      (prescribed f (n - 1) = none ∧ ∀ t, 0 ≤ t → S.V (x0 + n * h) t = S.V (x0 + (n - 1) * h) t))
    (hin : ∀ i, 0 < i → i + 1 < n → prescribed f i = none) (m : Nat) :
    ∃ f', steps solver junk n h P m f = some f' ∧
      ∀ i < n, |f'.u.at' i - S.V (x0 + i * h) (m * P.dt)| ≤ m * P.dt * (M2 * P.dt / 2 + P.k / P.rc * (M4 * h ^ 2 / 12)) + h * G := by
  have hG : 0 ≤ G := (abs_nonneg _).trans (S.slope 0 0 le_rfl)
  have hM2 : 0 ≤ M2 := (abs_nonneg _).trans (S.curve 0 0 le_rfl)
  have hM4 : 0 ≤ M4 := (abs_nonneg _).trans (S.fourth 0 0 le_rfl)
  have hhG : 0 ≤ h * G := mul_nonneg hh.le hG
  obtain ⟨c, hcd⟩ : ∃ c, c = P.rc / P.dt := ⟨_, rfl⟩
  obtain ⟨κ, hκd⟩ : ∃ κ, κ = P.k / (h * h) := ⟨_, rfl⟩
  have hc : 0 < c := by rw [hcd]; exact div_pos hrc hdt
  have hκ : 0 ≤ κ := by rw [hκd]; exact div_nonneg hk (mul_self_nonneg h)
  obtain ⟨ρ, hρ⟩ : ∃ ρ, ρ = c * (P.dt * (M2 * P.dt / 2 + P.k / P.rc * (M4 * h ^ 2 / 12))) := ⟨_, rfl⟩
  have hρ0 : 0 ≤ ρ / c := by rw [hρ]; positivity
  have hρc : ρ / c = P.dt * (M2 * P.dt / 2 + P.k / P.rc * (M4 * h ^ 2 / 12)) := by rw [hρ]; field_simp
  -- the residual of the solution in the scheme
  have hres : ∀ x t, 0 ≤ t → |c * (S.V x (t + P.dt) - S.V x t) - κ * (S.V (x - h) (t + P.dt) - 2 * S.V x (t + P.dt) + S.V (x + h) (t + P.dt))| ≤ ρ := by
    intro x t ht
    have ht' : 0 ≤ t + P.dt := by linarith
    have e1 := second_difference _ _ _ _ _ (fun x => S.dx1 x _ ht') (fun x => S.dx2 x _ ht') (fun x => S.dx3 x _ ht') (fun x => S.dx4 x _ ht') M4 (fun x => S.fourth x _ ht') x h hh.le
    have e2 := backward_difference _ _ _ (S.dt1 x) (S.dt2 x) M2 (S.curve x) t P.dt ht hdt.le
    have e3 := S.heat x (t + P.dt) ht'
    have hsplit : c * (S.V x (t + P.dt) - S.V x t) - κ * (S.V (x - h) (t + P.dt) - 2 * S.V x (t + P.dt) + S.V (x + h) (t + P.dt)) =
        c * (S.V x (t + P.dt) - S.V x t - P.dt * S.Vt x (t + P.dt)) -
          κ * (S.V (x - h) (t + P.dt) - 2 * S.V x (t + P.dt) + S.V (x + h) (t + P.dt) - h * h * S.Vxx x (t + P.dt)) := by
      have k1 : c * P.dt = P.rc := by rw [hcd]; field_simp
      have k2 : κ * (h * h) = P.k := by rw [hκd]; field_simp
      linear_combination e3 + S.Vt x (t + P.dt) * k1 - S.Vxx x (t + P.dt) * k2
    rw [hsplit]
    refine (abs_sub _ _).trans ?_
    rw [abs_mul, abs_mul, abs_of_pos hc, abs_of_nonneg hκ]
    have k3 : ρ = c * (M2 * P.dt ^ 2 / 2) + κ * (M4 * h ^ 4 / 12) := by
      rw [hρ, hcd, hκd]; field_simp
    rw [k3]
    exact add_le_add (mul_le_mul_of_nonneg_left e2 hc.le) (mul_le_mul_of_nonneg_left e1 hκ)
  obtain ⟨f', s1, -, -, s2⟩ := steps_inv solver junk n h P
    (fun m q => q.uFixed = f.uFixed ∧ n ≤ q.u.size ∧ ∀ i < n, |q.u.at' i - S.V (x0 + i * h) (m * P.dt)| ≤ m * (ρ / c) + h * G) (by
    rintro m q ⟨q1, q2, q3⟩
    obtain ⟨u, x, a1, a2, a3, a4, -⟩ := step_run solver hS junk n h hn hh.ne' P hrc hdt hk q (q1 ▸ hf) q2
    have hp : ∀ i, prescribed q i = prescribed f i := fun i => by simp only [prescribed, q1]
    obtain ⟨t, ht⟩ : ∃ t, t = (m : ℝ) * P.dt := ⟨_, rfl⟩
    have ht0 : 0 ≤ t := by rw [ht]; positivity
    have ht1 : ((m + 1 : ℕ) : ℝ) * P.dt = t + P.dt := by rw [ht]; push_cast; ring
    have ht' : 0 ≤ t + P.dt := by linarith
    rw [← ht] at q3
    have hkc : ∀ z, P.k * (z / (h * h)) = κ * z := fun z => by rw [hκd]; ring
    have hsc : ∀ (i : Nat), x0 + ((i + 1 : ℕ) : ℝ) * h = x0 + i * h + h := fun i => by push_cast; ring
    have hsp : ∀ (i : Nat), 0 < i → x0 + ((i - 1 : ℕ) : ℝ) * h = x0 + i * h - h := fun i hi => by rw [Nat.cast_sub hi]; push_cast; ring
    have hN : x0 + ((n - 1 : ℕ) : ℝ) * h = x0 + (n - 1) * h := by rw [Nat.cast_sub (by omega)]; simp
    have rows : ∀ i < n, (∃ j < n, ∃ l < n, |c * ((x i - S.V (x0 + i * h) (t + P.dt)) - (q.u.at' i - S.V (x0 + i * h) t)) -
          κ * ((x j - S.V (x0 + j * h) (t + P.dt)) - 2 * (x i - S.V (x0 + i * h) (t + P.dt)) + (x l - S.V (x0 + l * h) (t + P.dt)))| ≤ ρ) ∨
        (∃ j < n, ∃ δ, |δ| ≤ h * G ∧ c * (x i - S.V (x0 + i * h) (t + P.dt)) = κ * (x j - S.V (x0 + j * h) (t + P.dt) + δ - 2 * (x i - S.V (x0 + i * h) (t + P.dt)))) := by
      intro i hi
      have ea := a4 i hi
      rw [hkc, ← hcd] at ea
      unfold before after at ea
      simp only [hp] at ea
      have hr := hres (x0 + i * h) t ht0
      by_cases c1 : i = 0
      · subst c1
        rw [if_pos rfl, if_neg (by omega)] at ea
        simp only [Nat.cast_zero, zero_mul, add_zero] at hr ⊢
        rcases hleft with ⟨a, hl1, hl2⟩ | ⟨hl1, hl2⟩
        · right
          rw [hl1, Option.getD_some, Option.getD_some] at ea
          refine ⟨1, by omega, S.V (x0 + h) (t + P.dt) - S.V x0 (t + P.dt), ?_, ?_⟩
          · rw [mul_comm]; exact neighbour _ _ (fun x => S.dx1 x _ ht') G (fun x => S.slope x _ ht') x0 h hh.le
          · rw [hl2 _ ht', Nat.cast_one, one_mul]
            linear_combination ea
        · left
          rw [hl1, Option.getD_none, Option.getD_none] at ea
          refine ⟨0, by omega, 1, by omega, ?_⟩
          rw [hl2 _ ht'] at hr
          simp only [Nat.cast_zero, zero_mul, add_zero, Nat.cast_one, one_mul]
          rw [← abs_neg] at hr
          convert hr using 2
          linear_combination ea
      · by_cases c2 : i + 1 = n
        · rw [if_neg c1, if_pos c2] at ea
          have hi' : i = n - 1 := by omega
          have hi2 : x0 + (i : ℝ) * h = x0 + (n - 1) * h := by rw [hi', hN]
          rw [← hi', ← hi2] at hright
          rcases hright with ⟨b, hl1, hl2⟩ | ⟨hl1, hl2⟩
          · right
            rw [hl1, Option.getD_some, Option.getD_some] at ea
            refine ⟨i - 1, by omega, S.V (x0 + i * h - h) (t + P.dt) - S.V (x0 + i * h) (t + P.dt), ?_, ?_⟩
            · have := neighbour _ _ (fun x => S.dx1 x _ ht') G (fun x => S.slope x _ ht') (x0 + i * h - h) h hh.le
              rw [sub_add_cancel, ← abs_neg, neg_sub, mul_comm G] at this
              exact this
            · rw [hsp i (by omega), hl2 _ ht']
              linear_combination ea
          · left
            rw [hl1, Option.getD_none, Option.getD_none] at ea
            refine ⟨i - 1, by omega, i, hi, ?_⟩
            have e5 : x0 + (n : ℝ) * h = x0 + i * h + h := by rw [← c2]; push_cast; ring
            rw [e5] at hl2
            rw [hl2 _ ht'] at hr
            rw [hsp i (by omega)]
            rw [← abs_neg] at hr
            convert hr using 2
            linear_combination ea
        · left
          rw [if_neg c1, if_neg c2, hin i (by omega) (by omega), Option.getD_none] at ea
          refine ⟨i - 1, by omega, i + 1, by omega, ?_⟩
          rw [hsp i (by omega), hsc]
          rw [← abs_neg] at hr
          convert hr using 2
          linear_combination ea
    have up := error_up n c κ hc hκ (fun i => x i - S.V (x0 + i * h) (t + P.dt)) (fun i => q.u.at' i - S.V (x0 + i * h) t) (m * (ρ / c) + h * G) ρ (h * G) hhG
      (fun i hi => (abs_le'.1 (q3 i hi)).1) (fun i hi => by
        rcases rows i hi with ⟨j, hj, l, hl, hr⟩ | ⟨j, hj, δ, hδ, hr⟩
        · exact Or.inl ⟨j, hj, l, hl, (abs_le'.1 hr).1⟩
        · exact Or.inr ⟨j, hj, δ, (abs_le'.1 hδ).1, hr⟩)
    have dn := error_up n c κ hc hκ (fun i => -(x i - S.V (x0 + i * h) (t + P.dt))) (fun i => -(q.u.at' i - S.V (x0 + i * h) t)) (m * (ρ / c) + h * G) ρ (h * G) hhG
      (fun i hi => (abs_le'.1 (q3 i hi)).2) (fun i hi => by
        rcases rows i hi with ⟨j, hj, l, hl, hr⟩ | ⟨j, hj, δ, hδ, hr⟩
        · refine Or.inl ⟨j, hj, l, hl, ?_⟩
          have := (abs_le'.1 hr).2
          linarith
        · exact Or.inr ⟨j, hj, -δ, (abs_le'.1 hδ).2, by linear_combination -hr⟩)
    have hmax : max (m * (ρ / c) + h * G + ρ / c) (h * G) = ((m + 1 : ℕ) : ℝ) * (ρ / c) + h * G := by
      rw [max_eq_left]
      · push_cast; ring
      · have : 0 ≤ (m : ℝ) * (ρ / c) := by positivity
        linarith
    refine ⟨_, a1, q1, a2.ge, fun i hi => ?_⟩
    show |u.at' i - _| ≤ _
    rw [a3, hp, ht1]
    have hpos : 0 ≤ ((m + 1 : ℕ) : ℝ) * (ρ / c) + h * G := by positivity
    have hopen : |x i - S.V (x0 + i * h) (t + P.dt)| ≤ ((m + 1 : ℕ) : ℝ) * (ρ / c) + h * G := by
      rw [← hmax]; exact abs_le'.2 ⟨up i hi, dn i hi⟩
    by_cases c1 : i = 0
    · subst c1
      rcases hleft with ⟨a, hl1, hl2⟩ | ⟨hl1, -⟩
      · rw [hl1, Option.getD_some, Nat.cast_zero, zero_mul, add_zero, hl2 _ ht', sub_self, abs_zero]; exact hpos
      · rw [hl1]; exact hopen
    · by_cases c2 : i + 1 = n
      · have hi' : i = n - 1 := by omega
        have hi2 : x0 + (i : ℝ) * h = x0 + (n - 1) * h := by rw [hi', hN]
        rw [← hi', ← hi2] at hright
        rcases hright with ⟨b, hl1, hl2⟩ | ⟨hl1, -⟩
        · rw [hl1, Option.getD_some, hl2 _ ht', sub_self, abs_zero]; exact hpos
        · rw [hl1]; exact hopen
      · rw [hin i (by omega) (by omega)]; exact hopen) m f ⟨rfl, hu, fun i hi => by
      rw [hstart i hi, Nat.cast_zero, zero_mul, zero_mul, zero_add, sub_self, abs_zero]; exact hhG⟩
  refine ⟨f', s1, fun i hi => ?_⟩
  have := s2 i hi
  rw [hρc] at this
  calc _ ≤ _ := this
    _ = _ := by ring

/-- The standard decaying wave is such a solution, zero at the ends of `[0, π]`. -/
noncomputable def FdmHeat.wave : HeatSolution 1 1 1 1 1 where
  V x t := Real.exp (-t) * Real.sin x
  Vx x t := Real.exp (-t) * Real.cos x
  Vxx x t := Real.exp (-t) * -Real.sin x
  Vxxx x t := Real.exp (-t) * -Real.cos x
  Vxxxx x t := Real.exp (-t) * - -Real.sin x
  Vt x t := Real.exp (-t) * -1 * Real.sin x
  Vtt x t := Real.exp (-t) * -1 * -1 * Real.sin x
  dx1 x t _ := (Real.hasDerivAt_sin x).const_mul _
  dx2 x t _ := (Real.hasDerivAt_cos x).const_mul _
  dx3 x t _ := (Real.hasDerivAt_sin x).neg.const_mul _
  dx4 x t _ := (Real.hasDerivAt_cos x).neg.const_mul _
  dt1 x t _ := ((hasDerivAt_id t).neg.exp).mul_const _
  dt2 x t _ := (((hasDerivAt_id t).neg.exp).mul_const _).mul_const _
  heat x t _ := by ring
  slope x t ht := by
    rw [abs_mul, Real.abs_exp]
    exact mul_le_one₀ (Real.exp_le_one_iff.2 (by linarith)) (abs_nonneg _) (Real.abs_cos_le_one x)
  curve x t ht := by
    rw [show Real.exp (-t) * -1 * -1 * Real.sin x = Real.exp (-t) * Real.sin x by ring, abs_mul, Real.abs_exp]
    exact mul_le_one₀ (Real.exp_le_one_iff.2 (by linarith)) (abs_nonneg _) (Real.abs_sin_le_one x)
  fourth x t ht := by
    rw [neg_neg, abs_mul, Real.abs_exp]
    exact mul_le_one₀ (Real.exp_le_one_iff.2 (by linarith)) (abs_nonneg _) (Real.abs_sin_le_one x)

end ENigMA
