import Verif.Pde.FdmConvection
import Verif.Pde.FdmHeatExamples

/-!
# C148: heat convection along a line with finite differences
-/

set_option linter.unusedSectionVars false
set_option autoImplicit false

namespace ENigMA
open FdmConvection
open FdmHeat (Sound anySolver anySolver_sound)
open FvmHeat (Plain)
variable {K : Type} [Field K] [LinearOrder K] [IsStrictOrderedRing K]

namespace FdmConvection

theorem steps_inv (solver : Sys K → Nat → K) (junk : Nat → K) (n : Nat) (dx : K) (P : Flow K) (Q : Nat → EqField K → Prop)
    (hstep : ∀ k f, Q k f → ∃ f', step solver junk n dx P f = some f' ∧ Q (k + 1) f') (k : Nat) (f : EqField K) (h0 : Q 0 f) :
    ∃ f', steps solver junk n dx P k f = some f' ∧ Q k f' := by
  induction k with
  | zero => exact ⟨f, rfl, h0⟩
  | succ k ih =>
    obtain ⟨f1, h1, h2⟩ := ih
    obtain ⟨f2, h3, h4⟩ := hstep k f1 h2
    exact ⟨f2, by simp [steps, h1, h3], h4⟩

/-- The product of a result with itself. -/
theorem product (m : Nat) (c : K) (o x : Nat → K) (h : ∀ i < m, x (i + 1) - o (i + 1) = -c * (x (i + 2) - x i)) :
    ∑ i ∈ Finset.range m, x (i + 1) * (x (i + 1) - o (i + 1)) = -c * (x m * x (m + 1) - x 0 * x 1) := by
  rw [← skew, Finset.mul_sum]
  refine Finset.sum_congr rfl fun i hi => ?_
  rw [h i (Finset.mem_range.1 hi)]; ring

end FdmConvection

/-- C148, the part that holds: a step of any length has exactly one result: between the ends every node stores what the flow brings less what it takes away; the ends keep their values (`C148_ends`). -/
theorem C148_step_partial (solver : Sys K → Nat → K) (hS : Sound solver) (junk : Nat → K) (n : Nat) (hn : 2 ≤ n) (dx : K) (hdx : 0 < dx) (P : Flow K) (hrc : 0 < P.rc) (hdt : 0 < P.dt)
    (f : EqField K) (hf : Plain f) (hu : f.u.size = n) :
    ∃ u : EVec K, step solver junk n dx P f = some { f with u := u } ∧ u.size = n ∧ Carried n dx P f.u.at' u.at' ∧ ∀ y, Carried n dx P f.u.at' y → ∀ i < n, y i = u.at' i := by
  obtain ⟨m, rfl⟩ : ∃ m, n = m + 2 := ⟨n - 2, by omega⟩
  exact step_run solver hS junk m dx hdx P hrc hdt f hf hu

/-- C148, where it fails: whatever arrives at the end of the line, the value there never changes; nor does that at the inlet. -/
theorem C148_ends (solver : Sys K → Nat → K) (hS : Sound solver) (junk : Nat → K) (n : Nat) (hn : 2 ≤ n) (dx : K) (hdx : 0 < dx) (P : Flow K) (hrc : 0 < P.rc) (hdt : 0 < P.dt)
    (f : EqField K) (hf : Plain f) (hu : f.u.size = n) (k : Nat) :
    ∃ f', steps solver junk n dx P k f = some f' ∧ f'.u.at' 0 = f.u.at' 0 ∧ f'.u.at' (n - 1) = f.u.at' (n - 1) := by
  obtain ⟨f', h1, -, -, h2⟩ := steps_inv solver junk n dx P (fun _ f' => Plain f' ∧ f'.u.size = n ∧ f'.u.at' 0 = f.u.at' 0 ∧ f'.u.at' (n - 1) = f.u.at' (n - 1)) (by
    rintro - g ⟨g1, g2, g3, g4⟩
    obtain ⟨u, a1, a2, a3, -⟩ := C148_step_partial solver hS junk n hn dx hdx P hrc hdt g g1 g2
    exact ⟨_, a1, g1, a2, a3.1.trans g3, a3.2.1.trans g4⟩) k f ⟨hf, hu, rfl, rfl⟩
  exact ⟨f', h1, h2⟩

/-- C148: what the nodes between the ends hold changes by what the flow carries in at one end and out at the other. -/
theorem C148_balance (solver : Sys K → Nat → K) (hS : Sound solver) (junk : Nat → K) (m : Nat) (dx : K) (hdx : 0 < dx) (P : Flow K) (hrc : 0 < P.rc) (hdt : 0 < P.dt)
    (f f' : EqField K) (hf : Plain f) (hu : f.u.size = m + 2) (h : step solver junk (m + 2) dx P f = some f') :
    P.rc * dx * ∑ i ∈ Finset.range m, (f'.u.at' (i + 1) - f.u.at' (i + 1)) =
      P.dt * (P.v * ((f'.u.at' 0 + f'.u.at' 1) / 2) - P.v * ((f'.u.at' m + f'.u.at' (m + 1)) / 2)) := by
  obtain ⟨u, h1, -, h3, -⟩ := step_run solver hS junk m dx hdx P hrc hdt f hf hu
  rw [h, Option.some.injEq] at h1
  subst h1
  obtain ⟨-, -, h3⟩ := (carried_iff m dx hdx P hrc hdt _ _).1 h3
  rw [Finset.sum_congr rfl fun i hi => h3 i (Finset.mem_range.1 hi), ← Finset.mul_sum, spread]
  unfold half
  field_simp
  ring

/-- C148: the centre of the heat moves with the flow: the first moment grows by the distance covered times the heat, less what has reached the last node before the end (ends at zero). -/
theorem C148_moment (solver : Sys K → Nat → K) (hS : Sound solver) (junk : Nat → K) (m : Nat) (dx : K) (hdx : 0 < dx) (P : Flow K) (hrc : 0 < P.rc) (hdt : 0 < P.dt)
    (f f' : EqField K) (hf : Plain f) (hu : f.u.size = m + 2) (h : step solver junk (m + 2) dx P f = some f') (h0 : f.u.at' 0 = 0) (hl : f.u.at' (m + 1) = 0) :
    ∑ i ∈ Finset.range m, dx * (i + 1 : K) * f'.u.at' (i + 1) - ∑ i ∈ Finset.range m, dx * (i + 1 : K) * f.u.at' (i + 1) =
      P.v / P.rc * P.dt * (∑ i ∈ Finset.range m, f'.u.at' (i + 1) - (m + 1) / 2 * f'.u.at' m) := by
  obtain ⟨u, h1, -, h3, -⟩ := step_run solver hS junk m dx hdx P hrc hdt f hf hu
  rw [h, Option.some.injEq] at h1
  subst h1
  obtain ⟨e0, e1, h3⟩ := (carried_iff m dx hdx P hrc hdt _ _).1 h3
  rw [h0] at e0
  rw [hl] at e1
  have key : ∀ (x : Nat → K) (k : Nat), ∑ i ∈ Finset.range k, (i + 1 : K) * (x (i + 2) - x i) = -2 * ∑ i ∈ Finset.range k, x (i + 1) + (k : K) * x (k + 1) + (k + 1 : K) * x k - x 0 := by
    intro x k
    induction k with
    | zero => simp
    | succ k ih => rw [Finset.sum_range_succ, Finset.sum_range_succ, ih]; push_cast; ring
  rw [← Finset.sum_sub_distrib]
  have : ∀ i ∈ Finset.range m, dx * (i + 1 : K) * u.at' (i + 1) - dx * (i + 1 : K) * f.u.at' (i + 1) = -dx * half dx P * ((i + 1 : K) * (u.at' (i + 2) - u.at' i)) := fun i hi => by
    have := h3 i (Finset.mem_range.1 hi)
    linear_combination dx * (i + 1 : K) * this
  rw [Finset.sum_congr rfl this, ← Finset.mul_sum, key, e0, e1]
  unfold half
  field_simp
  ring

/-- C148: stability without a condition on the step: two runs from fields that agree at the ends never move apart in the mean square. -/
theorem C148_stable (solver : Sys K → Nat → K) (hS : Sound solver) (junk : Nat → K) (m : Nat) (dx : K) (hdx : 0 < dx) (P : Flow K) (hrc : 0 < P.rc) (hdt : 0 < P.dt)
    (f g : EqField K) (hf : Plain f) (hg : Plain g) (hu : f.u.size = m + 2) (hv : g.u.size = m + 2) (h0 : f.u.at' 0 = g.u.at' 0) (hl : f.u.at' (m + 1) = g.u.at' (m + 1)) (k : Nat) :
    ∃ f' g', steps solver junk (m + 2) dx P k f = some f' ∧ steps solver junk (m + 2) dx P k g = some g' ∧
      ∑ i ∈ Finset.range (m + 2), (f'.u.at' i - g'.u.at' i) ^ 2 ≤ ∑ i ∈ Finset.range (m + 2), (f.u.at' i - g.u.at' i) ^ 2 := by
  have main : ∀ k, ∃ f' g', steps solver junk (m + 2) dx P k f = some f' ∧ steps solver junk (m + 2) dx P k g = some g' ∧ Plain f' ∧ Plain g' ∧ f'.u.size = m + 2 ∧ g'.u.size = m + 2 ∧
      f'.u.at' 0 = g'.u.at' 0 ∧ f'.u.at' (m + 1) = g'.u.at' (m + 1) ∧
      ∑ i ∈ Finset.range (m + 2), (f'.u.at' i - g'.u.at' i) ^ 2 ≤ ∑ i ∈ Finset.range (m + 2), (f.u.at' i - g.u.at' i) ^ 2 := by
    intro k
    induction k with
    | zero => exact ⟨f, g, rfl, rfl, hf, hg, hu, hv, h0, hl, le_rfl⟩
    | succ k ih =>
      obtain ⟨a, b, s1, s2, p1, p2, z1, z2, q0, ql, q⟩ := ih
      obtain ⟨u, a1, a2, a3, -⟩ := step_run solver hS junk m dx hdx P hrc hdt a p1 z1
      obtain ⟨w, b1, b2, b3, -⟩ := step_run solver hS junk m dx hdx P hrc hdt b p2 z2
      obtain ⟨c0, c1, c2⟩ := (carried_iff m dx hdx P hrc hdt _ _).1 a3
      obtain ⟨d0, d1, d2⟩ := (carried_iff m dx hdx P hrc hdt _ _).1 b3
      refine ⟨{ a with u := u }, { b with u := w }, by simp [steps, s1, a1], by simp [steps, s2, b1], p1, p2, a2, b2, by simp only [c0, d0, q0], by simp only [c1, d1, ql], le_trans ?_ q⟩
      have e0 : u.at' 0 - w.at' 0 = 0 := by rw [c0, d0, q0, sub_self]
      have e1 : u.at' (m + 1) - w.at' (m + 1) = 0 := by rw [c1, d1, ql, sub_self]
      have hp := product m (half dx P) (fun i => a.u.at' i - b.u.at' i) (fun i => u.at' i - w.at' i) (fun i hi => by
        have := c2 i hi; have := d2 i hi; linarith)
      simp only [e0, e1, mul_zero, zero_mul, sub_zero] at hp
      rw [Finset.sum_range_succ, Finset.sum_range_succ', Finset.sum_range_succ, Finset.sum_range_succ' (fun i => (a.u.at' i - b.u.at' i) ^ 2)]
      simp only [e0, e1, show a.u.at' 0 - b.u.at' 0 = 0 by rw [q0, sub_self], show a.u.at' (m + 1) - b.u.at' (m + 1) = 0 by rw [ql, sub_self]]
      have hle : ∑ i ∈ Finset.range m, (u.at' (i + 1) - w.at' (i + 1)) ^ 2 ≤ ∑ i ∈ Finset.range m, (a.u.at' (i + 1) - b.u.at' (i + 1)) ^ 2 := by
        have : ∑ i ∈ Finset.range m, ((u.at' (i + 1) - w.at' (i + 1)) ^ 2 - (a.u.at' (i + 1) - b.u.at' (i + 1)) ^ 2) ≤
            ∑ i ∈ Finset.range m, 2 * ((u.at' (i + 1) - w.at' (i + 1)) * ((u.at' (i + 1) - w.at' (i + 1)) - (a.u.at' (i + 1) - b.u.at' (i + 1)))) := by
          refine Finset.sum_le_sum fun i _ => ?_
          have := sq_nonneg ((u.at' (i + 1) - w.at' (i + 1)) - (a.u.at' (i + 1) - b.u.at' (i + 1)))
          linarith
        rw [Finset.sum_sub_distrib, ← Finset.mul_sum, hp] at this
        linarith
      linarith
  obtain ⟨f', g', s1, s2, -, -, -, -, -, -, q⟩ := main k
  exact ⟨f', g', s1, s2, q⟩

/-- C148, where it fails: temperatures between 0 and 1 do not stay there: with 1 at the outlet and 0 elsewhere one step makes some temperature negative, however short the step and however fine the line. -/
theorem C148_undershoot (solver : Sys K → Nat → K) (hS : Sound solver) (junk : Nat → K) (m : Nat) (hm : 1 ≤ m) (dx : K) (hdx : 0 < dx) (P : Flow K) (hrc : 0 < P.rc) (hdt : 0 < P.dt) (hv : 0 < P.v)
    (f f' : EqField K) (hf : Plain f) (hu : f.u.size = m + 2) (h0 : ∀ i < m + 1, f.u.at' i = 0) (h1 : f.u.at' (m + 1) = 1) (h : step solver junk (m + 2) dx P f = some f') :
    ∃ i < m + 2, f'.u.at' i < 0 := by
  obtain ⟨u, e, -, h3, -⟩ := step_run solver hS junk m dx hdx P hrc hdt f hf hu
  rw [h, Option.some.injEq] at e
  subst e
  obtain ⟨c0, c1, c2⟩ := (carried_iff m dx hdx P hrc hdt _ _).1 h3
  have hc : 0 < half dx P := div_pos (mul_pos hv hdt) (mul_pos hrc (by linarith))
  by_contra hno
  have hno : ∀ i < m + 2, 0 ≤ u.at' i := fun i hi => not_lt.1 fun hlt => hno ⟨i, hi, hlt⟩
  have hp := product m (half dx P) f.u.at' u.at' c2
  rw [c0, h0 0 (by omega), c1, h1] at hp
  have hs : ∑ i ∈ Finset.range m, u.at' (i + 1) * (u.at' (i + 1) - f.u.at' (i + 1)) = ∑ i ∈ Finset.range m, u.at' (i + 1) * u.at' (i + 1) :=
    Finset.sum_congr rfl fun i hi => by rw [h0 (i + 1) (by have := Finset.mem_range.1 hi; omega), sub_zero]
  rw [hs] at hp
  have hz : ∑ i ∈ Finset.range m, u.at' (i + 1) * u.at' (i + 1) = 0 := by
    refine le_antisymm ?_ (Finset.sum_nonneg fun i _ => mul_self_nonneg _)
    rw [hp]
    have := mul_nonneg hc.le (hno m (by omega))
    linarith
  have hall : ∀ i < m + 1, u.at' i = 0 := by
    intro i hi
    rcases Nat.eq_zero_or_pos i with rfl | hpos
    · rw [c0]; exact h0 0 (by omega)
    · obtain ⟨j, rfl⟩ : ∃ j, i = j + 1 := ⟨i - 1, by omega⟩
      exact mul_self_eq_zero.1 ((Finset.sum_eq_zero_iff_of_nonneg fun i _ => mul_self_nonneg _).1 hz j (Finset.mem_range.2 (by omega)))
  obtain ⟨j, rfl⟩ : ∃ j, m = j + 1 := ⟨m - 1, by omega⟩
  have := c2 j (by omega)
  rw [h0 (j + 1) (by omega), hall (j + 1) (by omega), hall j (by omega), c1, h1] at this
  linarith

/-! ### The hypotheses are met -/

/-- A line of five nodes with a pulse in the middle; and one with 1 at the outlet. -/
def pulse : EqField ℚ := ⟨.fdm, .empty, .empty, ⟨5, fun i => if i = 2 then 1 else 0⟩⟩
def outlet : EqField ℚ := ⟨.fdm, .empty, .empty, ⟨5, fun i => if i = 4 then 1 else 0⟩⟩

/-- With Courant number 1 the pulse 0 0 1 0 0 becomes 0 -1/3 2/3 1/3 0. -/
example (solver : Sys ℚ → Nat → ℚ) (hS : Sound solver) : ∃ f', step solver (fun _ => 0) 5 1 ⟨1, 1, 1⟩ pulse = some f' ∧
    [f'.u.at' 0, f'.u.at' 1, f'.u.at' 2, f'.u.at' 3, f'.u.at' 4] = [0, -1 / 3, 2 / 3, 1 / 3, 0] := by
  obtain ⟨u, h1, -, -, h2⟩ := C148_step_partial solver hS (fun _ => 0) 5 (by norm_num) 1 one_pos ⟨1, 1, 1⟩ one_pos one_pos pulse rfl rfl
  have hy : Carried 5 1 ⟨1, 1, 1⟩ pulse.u.at' (fun i => if i = 1 then -1 / 3 else if i = 2 then 2 / 3 else if i = 3 then (1 / 3 : ℚ) else 0) := by
    refine ⟨by norm_num [pulse], by norm_num [pulse], fun i h0 hi => ?_⟩
    have hi : i < 4 := by omega
    interval_cases i <;> norm_num [pulse]
  have h2 := h2 _ hy
  refine ⟨_, h1, ?_⟩
  simp only
  rw [← h2 0 (by norm_num), ← h2 1 (by norm_num), ← h2 2 (by norm_num), ← h2 3 (by norm_num), ← h2 4 (by norm_num)]
  norm_num

example (k : Nat) := C148_ends anySolver anySolver_sound (fun _ => 0) 5 (by norm_num) 1 one_pos ⟨1, 1, 1⟩ one_pos one_pos pulse rfl rfl k
example (k : Nat) := C148_stable anySolver anySolver_sound (fun _ => 0) 3 1 one_pos ⟨1, 1, 1⟩ one_pos one_pos pulse { pulse with u := ⟨5, fun _ => 0⟩ } rfl rfl rfl rfl rfl rfl k
example (f' : EqField ℚ) (h : step anySolver (fun _ => 0) 5 1 ⟨1, 1, 1⟩ pulse = some f') :=
  And.intro (C148_balance anySolver anySolver_sound (fun _ => 0) 3 1 one_pos ⟨1, 1, 1⟩ one_pos one_pos pulse f' rfl rfl h)
    (C148_moment anySolver anySolver_sound (fun _ => 0) 3 1 one_pos ⟨1, 1, 1⟩ one_pos one_pos pulse f' rfl rfl h rfl rfl)
example (f' : EqField ℚ) (h : step anySolver (fun _ => 0) 5 1 ⟨1, 1, 1⟩ outlet = some f') :=
  C148_undershoot anySolver anySolver_sound (fun _ => 0) 3 (by norm_num) 1 one_pos ⟨1, 1, 1⟩ one_pos one_pos one_pos outlet f' rfl rfl
    (fun i hi => by have : i ≠ 4 := by omega
                    simp [outlet, this]) (by simp [outlet]) h

end ENigMA
