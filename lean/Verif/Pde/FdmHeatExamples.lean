import Verif.Pde.FdmHeatError
import Mathlib.Analysis.SpecialFunctions.Trigonometric.Basic

/-!
# C142, C143: cases that meet the hypotheses
-/

set_option linter.unusedSectionVars false
set_option autoImplicit false

namespace ENigMA
open Equation FdmHeat
variable {K : Type} [Field K] [LinearOrder K] [IsStrictOrderedRing K]

namespace FdmHeat

/-- A solver that finds a solution of every system that has one. -/
noncomputable def anySolver : Sys K → Nat → K := fun s => by
  classical
  exact if h : ∃ x, s.Solves x then h.choose else fun _ => 0

theorem anySolver_sound : Sound (anySolver (K := K)) := by
  intro s h
  unfold anySolver
  rw [dif_pos h]
  exact h.choose_spec

/-- A rod of five nodes, 0 prescribed at the left, 6 at the right. -/
def rod : EqField K := ⟨.fdm, (SMap.empty.insert 0 0).insert 4 6, .empty, ⟨5, fun i => if i = 2 then 1 else 0⟩⟩

/-- A rod without prescribed values. -/
def bare : EqField K := ⟨.fdm, .empty, .empty, ⟨5, fun i => if i = 2 then 1 else 0⟩⟩

end FdmHeat

theorem FdmHeat.rod_ok : IndicesOk (rod (K := K)).uFixed 5 ∧ prescribed (rod (K := K)) 0 = some 0 ∧ prescribed (rod (K := K)) 4 = some 6 ∧
    ∀ i, 0 < i → i + 1 < 5 → prescribed (rod (K := K)) i = none := by
  have hf : ∀ i : Int, (rod (K := K)).uFixed.find? i = if i = 4 then some 6 else if i = 0 then some 0 else none := fun i => by
    simp only [rod, SMap.find?_insert, SMap.find?_empty]
  refine ⟨fun i v h => ?_, ?_, ?_, fun i i0 i1 => ?_⟩
  · rw [hf] at h
    split_ifs at h <;> omega
  · simp only [prescribed, hf]; rfl
  · simp only [prescribed, hf]; rfl
  · simp only [prescribed, hf]
    rw [if_neg (by omega), if_neg (by omega)]

/-- The steady rod from 0 to 6: the exact values at the inner nodes are 1.5, 3 and 4.5. -/
example : ∃ f', steady anySolver (fun _ => 0) 5 (1 / 4) (rod (K := ℚ)) = some f' ∧ (f'.u.at' 1, f'.u.at' 2, f'.u.at' 3) = (2, 3, 4) := by
  obtain ⟨h1, h2, h3, h4⟩ := rod_ok (K := ℚ)
  obtain ⟨f', e1, -, -, -, e2⟩ := C142_steady_partial anySolver anySolver_sound (fun _ => 0) 5 (1 / 4) (by norm_num) (by norm_num) rod h1 0 6 h2 h3
  refine ⟨f', e1, ?_⟩
  rw [e2 1 (by omega) (by omega), e2 2 (by omega) (by omega), e2 3 (by omega) (by omega), h4 1 (by omega) (by omega), h4 2 (by omega) (by omega), h4 3 (by omega) (by omega)]
  norm_num

example : ∃ f', steady anySolver (fun _ => 0) 5 (1 / 4) (rod (K := ℚ)) = some f' ∧ f'.u.at' 1 ≠ 0 + (6 - 0) * (1 / ((5 : ℕ) - 1)) := by
  obtain ⟨h1, h2, h3, h4⟩ := rod_ok (K := ℚ)
  exact C142_not_the_line anySolver anySolver_sound (fun _ => 0) 5 (1 / 4) (by norm_num) (by norm_num) rod h1 0 6 (by norm_num) h2 h3 (h4 1 (by omega) (by omega))

/-- Ten steps: the temperatures stay between 0 and 6. -/
example : ∃ f', steps anySolver (fun _ => 0) 5 (1 / 4) ⟨1, 1, 1 / 10⟩ 10 (rod (K := ℚ)) = some f' ∧ ∀ i < 5, 0 ≤ f'.u.at' i ∧ f'.u.at' i ≤ 6 := by
  obtain ⟨h1, h2, h3, h4⟩ := rod_ok (K := ℚ)
  refine C143_bounds anySolver anySolver_sound (fun _ => 0) 5 (1 / 4) (by norm_num) (by norm_num) ⟨1, 1, 1 / 10⟩ (by norm_num) (by norm_num) (by norm_num) rod h1 (le_refl 5) 0 6 ?_ ?_ 10
  · intro i _
    show 0 ≤ (if i = 2 then (1 : ℚ) else 0) ∧ (if i = 2 then (1 : ℚ) else 0) ≤ 6
    split <;> norm_num
  · intro i hi v hv
    rcases Nat.eq_zero_or_pos i with rfl | hp
    · rw [h2, Option.some.injEq] at hv; subst hv; norm_num
    · by_cases h5 : i + 1 < 5
      · rw [h4 i hp h5] at hv; cases hv
      · obtain rfl : i = 4 := by omega
        rw [h3, Option.some.injEq] at hv; subst hv; norm_num

example : ∃ f', steps anySolver (fun _ => 0) 5 (1 / 4) ⟨1, 1, 1 / 10⟩ 10 (bare (K := ℚ)) = some f' ∧ ∑ i ∈ Finset.range 5, f'.u.at' i = 1 := by
  obtain ⟨f', h1, h2⟩ := C143_insulated anySolver anySolver_sound (fun _ => 0) 5 (1 / 4) (by norm_num) (by norm_num) ⟨1, 1, 1 / 10⟩ (by norm_num) (by norm_num) (by norm_num)
    (bare (K := ℚ)) (fun i => by simp only [bare, SMap.find?_empty]) (le_refl 5) 10
  refine ⟨f', h1, h2.trans ?_⟩
  decide +kernel

/-- The rod in the long run: 1/10 of time per step, conduction 16 per step of space; the share is 16/26. -/
example (m : Nat) : ∃ f', steps anySolver (fun _ => 0) 5 (1 / 4) ⟨1, 1, 1 / 10⟩ m (rod (K := ℚ)) = some f' ∧
    |f'.u.at' 1 - 6 * (21 / 68)| ≤ (45 / 61) ^ m * 6 * 9 := by
  obtain ⟨h1, h2, h3, h4⟩ := rod_ok (K := ℚ)
  have hs : share (1 / 4 : ℚ) ⟨1, 1, 1 / 10⟩ = 8 / 13 := by norm_num [share]
  have hr : ratio 5 (1 / 4 : ℚ) ⟨1, 1, 1 / 10⟩ = 45 / 61 := by norm_num [ratio]
  have hp : ∀ i, profile 5 (1 / 4 : ℚ) ⟨1, 1, 1 / 10⟩ 0 6 i = 6 * ((13 * i + 8) / 68) := fun i => by rw [profile, hs]; push_cast; field_simp; norm_num
  obtain ⟨f', e1, e2⟩ := C143_limit anySolver anySolver_sound (fun _ => 0) 5 (1 / 4) (by norm_num) (by norm_num) ⟨1, 1, 1 / 10⟩ (by norm_num) (by norm_num) (by norm_num)
    (rod (K := ℚ)) h1 (le_refl 5) 0 6 h2 h3 h4 6 (by
      intro i hi
      simp only [hp]
      have : (rod (K := ℚ)).u.at' i = if i = 2 then 1 else 0 := rfl
      rw [this]
      interval_cases i <;> norm_num [abs_le]) m
  refine ⟨f', e1, ?_⟩
  have := e2 1 (by omega) (by omega)
  rw [hr, hp] at this
  norm_num at this ⊢
  linarith

/-- A rod of `N + 1` nodes from 0 to π with the values of a sine, both ends prescribed zero. -/
noncomputable def FdmHeat.sineRod (N : Nat) : EqField ℝ :=
  ⟨.fdm, (SMap.empty.insert 0 0).insert (N : Int) 0, .empty, ⟨N + 1, fun i => Real.sin (i * (Real.pi / N))⟩⟩

/-- Run to time `m dt` with `N` intervals, the error of the decaying sine is at most `m dt (dt / 2 + h² / 12) + h`. -/
example (N : Nat) (hN : 1 ≤ N) (dt : ℝ) (hdt : 0 < dt) (m : Nat) : ∃ f', steps anySolver (fun _ => 0) (N + 1) (Real.pi / N) ⟨1, 1, dt⟩ m (sineRod N) = some f' ∧
    ∀ i < N + 1, |f'.u.at' i - Real.exp (-(m * dt)) * Real.sin (i * (Real.pi / N))| ≤ m * dt * (dt / 2 + (Real.pi / N) ^ 2 / 12) + Real.pi / N := by
  have hN0 : (0 : ℝ) < N := by exact_mod_cast hN
  have hh : 0 < Real.pi / N := div_pos Real.pi_pos hN0
  have hf : ∀ i : Int, (sineRod N).uFixed.find? i = if i = N then some 0 else if i = 0 then some 0 else none := fun i => by
    simp only [sineRod, SMap.find?_insert, SMap.find?_empty]
  obtain ⟨f', e1, e2⟩ := C143_error anySolver anySolver_sound (fun _ => 0) (N + 1) (Real.pi / N) (by omega) hh ⟨1, 1, dt⟩ one_pos hdt zero_le_one wave 0 (sineRod N)
    (fun i v h => by rw [hf] at h; split_ifs at h <;> constructor <;> push_cast <;> omega) (le_refl _)
    (fun i _ => by
      show Real.sin (i * (Real.pi / N)) = Real.exp (-0) * Real.sin (0 + i * (Real.pi / N))
      rw [neg_zero, Real.exp_zero, one_mul, zero_add])
    (Or.inl ⟨0, by simp only [prescribed, hf]; split_ifs <;> simp_all, fun t _ => by show Real.exp (-t) * Real.sin 0 = 0; rw [Real.sin_zero, mul_zero]⟩)
    (Or.inl ⟨0, by simp only [prescribed, hf]; simp, fun t _ => by
      show Real.exp (-t) * Real.sin (0 + (((N + 1 : ℕ) : ℝ) - 1) * (Real.pi / N)) = 0
      have : 0 + (((N + 1 : ℕ) : ℝ) - 1) * (Real.pi / N) = Real.pi := by push_cast; field_simp; ring
      rw [this, Real.sin_pi, mul_zero]⟩)
    (fun i i0 i1 => by simp only [prescribed, hf]; rw [if_neg (by omega), if_neg (by omega)]) m
  refine ⟨f', e1, fun i hi => ?_⟩
  have : |f'.u.at' i - Real.exp (-(m * dt)) * Real.sin (0 + i * (Real.pi / N))| ≤ m * dt * (1 * dt / 2 + 1 / 1 * (1 * (Real.pi / N) ^ 2 / 12)) + Real.pi / N * 1 := e2 i hi
  rw [zero_add] at this
  calc _ ≤ _ := this
    _ = _ := by ring

end ENigMA
