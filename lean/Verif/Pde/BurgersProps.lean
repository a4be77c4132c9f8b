import Verif.Pde.BurgersLemmas
import Verif.Pde.FdmHeatExamples

/-!
# C150: the equation of Burgers with finite differences
-/

set_option linter.unusedSectionVars false
set_option autoImplicit false

namespace ENigMA
open Burgers
open FdmHeat (Sound anySolver anySolver_sound)
open FvmHeat (Plain)
variable {K : Type} [Field K] [LinearOrder K] [IsStrictOrderedRing K]

/-- C150, the part that holds: where nothing flows backwards and the line is fine enough, a step has exactly one result: the one solution of the scheme, with the first value replaced by the last. -/
theorem C150_step_partial (solver : Sys K → Nat → K) (hS : Sound solver) (junk : Nat → K) {n : Nat} {dx : K} {P : Par K} (f : EqField K) (hf : Plain f) (hu : f.u.size = n) (g : Fine n dx P f.u.at') :
    ∃ (f' : EqField K) (y : Nat → K), step solver junk n dx P f = some f' ∧ Plain f' ∧ f'.u.size = n ∧ Scheme n dx P f.u.at' y ∧ (∀ z, Scheme n dx P f.u.at' z → ∀ i < n, z i = y i) ∧
      f'.u.at' 0 = y (n - 1) ∧ ∀ i, 0 < i → i < n → f'.u.at' i = y i := by
  obtain ⟨u, a1, a2, a3, a4⟩ := solve_run solver hS junk n g.nodes dx g.gap.ne' P f hf hu g.kernel
  exact ⟨cyclic n { f with u := u }, u.at', by simp only [step, a1, Option.bind_eq_bind, Option.bind_some]; rfl, hf, a2, a3, a4, by simp [cyclic], fun i h0 _ => by simp [cyclic, Nat.pos_iff_ne_zero.1 h0]⟩

/-- C150: a velocity between 0 and `M` stays there through any number of steps of any length, if the line is fine enough for `M`. -/
theorem C150_bounds (solver : Sys K → Nat → K) (hS : Sound solver) (junk : Nat → K) (n : Nat) (hn : 2 ≤ n) (dx : K) (hdx : 0 < dx) (P : Par K) (hdt : 0 < P.dt) (hmu : 0 ≤ P.mu) (M : K) (hM : M * dx ≤ 2 * P.mu)
    (f : EqField K) (hf : Plain f) (hu : f.u.size = n) (h0 : ∀ i < n, 0 ≤ f.u.at' i ∧ f.u.at' i ≤ M) (k : Nat) :
    ∃ f', steps solver junk n dx P k f = some f' ∧ Plain f' ∧ f'.u.size = n ∧ ∀ i < n, 0 ≤ f'.u.at' i ∧ f'.u.at' i ≤ M := by
  induction k with
  | zero => exact ⟨f, rfl, hf, hu, h0⟩
  | succ k ih =>
    obtain ⟨f1, h1, h2, h3, h4⟩ := ih
    have g : Fine n dx P f1.u.at' := ⟨hn, hdx, hdt, hmu, fun i hi => (h4 i hi).1, fun i hi => le_trans (mul_le_mul_of_nonneg_right (h4 i hi).2 hdx.le) hM⟩
    obtain ⟨f2, y, a1, a2, a3, a4, -, a6, a7⟩ := C150_step_partial solver hS junk f1 h2 h3 g
    have hrow := (scheme_iff n hn dx P _ _).1 a4
    have hM0 : 0 ≤ M := (h4 0 (by omega)).1.trans (h4 0 (by omega)).2
    have lo := g.above _ _ hrow 0 (fun i hi => by rw [zero_mul]; exact (h4 i hi).1)
    have hi' := g.below _ _ hrow M (fun i hi => (h4 i hi).2.trans (le_mul_of_one_le_right hM0 (g.keep_ge i hi)))
    refine ⟨f2, by simp only [steps, h1, Option.bind_some, a1], a2, a3, fun i hi => ?_⟩
    rcases Nat.eq_zero_or_pos i with rfl | hp
    · rw [a6]; exact ⟨lo _ (by omega), hi' _ (by omega)⟩
    · rw [a7 i hp hi]; exact ⟨lo i hi, hi' i hi⟩

/-- C150: every step starts from the result of the one before. -/
theorem C150_steps (solver : Sys K → Nat → K) (hS : Sound solver) (junk : Nat → K) (n : Nat) (hn : 2 ≤ n) (dx : K) (hdx : 0 < dx) (P : Par K) (hdt : 0 < P.dt) (hmu : 0 ≤ P.mu) (M : K) (hM : M * dx ≤ 2 * P.mu)
    (f : EqField K) (hf : Plain f) (hu : f.u.size = n) (h0 : ∀ i < n, 0 ≤ f.u.at' i ∧ f.u.at' i ≤ M) (k : Nat) :
    ∃ (f1 f2 : EqField K) (y : Nat → K), steps solver junk n dx P k f = some f1 ∧ steps solver junk n dx P (k + 1) f = some f2 ∧ Scheme n dx P f1.u.at' y ∧ f2.u.at' 0 = y (n - 1) ∧
      ∀ i, 0 < i → i < n → f2.u.at' i = y i := by
  obtain ⟨f1, h1, h2, h3, h4⟩ := C150_bounds solver hS junk n hn dx hdx P hdt hmu M hM f hf hu h0 k
  have g : Fine n dx P f1.u.at' := ⟨hn, hdx, hdt, hmu, fun i hi => (h4 i hi).1, fun i hi => le_trans (mul_le_mul_of_nonneg_right (h4 i hi).2 hdx.le) hM⟩
  obtain ⟨f2, y, a1, -, -, a4, -, a6, a7⟩ := C150_step_partial solver hS junk f1 h2 h3 g
  exact ⟨f1, f2, y, h1, by simp only [steps, h1, Option.bind_some, a1], a4, a6, a7⟩

/-- C150: after every step the first and the last velocity are the same. -/
theorem C150_cyclic (solver : Sys K → Nat → K) (junk : Nat → K) (n : Nat) (dx : K) (P : Par K) (f f' : EqField K) (k : Nat) (h : steps solver junk n dx P (k + 1) f = some f') : f'.u.at' 0 = f'.u.at' (n - 1) := by
  simp only [steps, step, Option.bind_eq_bind, Option.bind_eq_some_iff] at h
  obtain ⟨f1, -, f2, -, h⟩ := h
  simp only [pure, Option.some.injEq] at h
  subst h
  simp only [cyclic, if_true]
  split
  · rfl
  · rfl

/-- C150, where it fails: a uniform flow round the cycle has nothing to change it. The computed one has slowed down at the last node after any number of steps. -/
theorem C150_uniform (solver : Sys K → Nat → K) (hS : Sound solver) (junk : Nat → K) (n : Nat) (hn : 2 ≤ n) (dx : K) (hdx : 0 < dx) (P : Par K) (hdt : 0 < P.dt) (c : K) (hc : 0 < c) (hM : c * dx ≤ 2 * P.mu)
    (f : EqField K) (hf : Plain f) (hu : f.u.size = n) (h0 : ∀ i < n, f.u.at' i = c) (k : Nat) :
    ∃ f', steps solver junk n dx P (k + 1) f = some f' ∧ f'.u.at' (n - 1) < c ∧ f'.u.at' 0 < c := by
  have hmu : 0 ≤ P.mu := by have := mul_pos hc hdx; linarith
  obtain ⟨f1, h1, h2, h3, h4⟩ := C150_bounds solver hS junk n hn dx hdx P hdt hmu c hM f hf hu (fun i hi => by rw [h0 i hi]; exact ⟨hc.le, le_rfl⟩) k
  have g : Fine n dx P f1.u.at' := ⟨hn, hdx, hdt, hmu, fun i hi => (h4 i hi).1, fun i hi => le_trans (mul_le_mul_of_nonneg_right (h4 i hi).2 hdx.le) hM⟩
  obtain ⟨f2, y, a1, a2, a3, a4, -, a6, a7⟩ := C150_step_partial solver hS junk f1 h2 h3 g
  have hrow := (scheme_iff n hn dx P _ _).1 a4
  have hi' := g.below _ _ hrow c (fun i hi => (h4 i hi).2.trans (le_mul_of_one_le_right hc.le (g.keep_ge i hi)))
  have hlast : y (n - 1) < c := by
    refine lt_of_le_of_ne (hi' _ (by omega)) fun he => ?_
    have := rows n hn dx P hdx.ne' hdt.ne' _ _ _ (n - 1) (by omega) (hrow (n - 1) (by omega))
    rw [show up n dx P f1.u.at' (n - 1) = 0 from if_neg (by omega), he] at this
    unfold keep at this
    rw [if_pos (Or.inr (by omega))] at this
    have b1 := mul_nonneg (g.down_nonneg (n - 1) (by omega)) (sub_nonneg.2 (hi' (n - 1 - 1) (by omega)))
    obtain ⟨b2, b3⟩ := h4 (n - 1) (by omega)
    have b4 : 0 ≤ P.dt * f1.u.at' (n - 1) * c := mul_nonneg (mul_nonneg hdt.le b2) hc.le
    have b5 : f1.u.at' (n - 1) = c := by linarith
    rw [b5] at this
    have b6 := mul_pos (mul_pos hdt hc) hc
    linarith
  exact ⟨f2, by simp only [steps, h1, Option.bind_some, a1], by rw [a7 (n - 1) (by omega) (by omega)]; exact hlast, by rw [a6]; exact hlast⟩

/-- C150, where it fails: what flows backwards is sped up at the ends, until there is no solution. A uniform velocity -1 on two nodes with steps of 1/2 doubles in the first step; the second has no solution, whatever the viscosity and the spacing. -/
theorem C150_backward (solver : Sys K → Nat → K) (hS : Sound solver) (junk : Nat → K) (dx : K) (hdx : 0 < dx) (mu : K) (hmu : 0 ≤ mu) :
    (∃ f', step solver junk 2 dx ⟨1 / 2, mu⟩ ⟨.fdm, .empty, .empty, ⟨2, fun _ => -1⟩⟩ = some f' ∧ ∀ i < 2, f'.u.at' i = -2) ∧ ¬ ∃ y, Scheme 2 dx ⟨1 / 2, mu⟩ (fun _ => -2) y := by
  have hm : 0 ≤ mu / (dx * dx) := by positivity
  constructor
  · obtain ⟨u, a1, a2, a3, a4⟩ := solve_run solver hS junk 2 le_rfl dx hdx.ne' ⟨1 / 2, mu⟩ ⟨.fdm, .empty, .empty, ⟨2, fun _ => -1⟩⟩ rfl rfl (by
      intro z hz
      have z0 := hz 0 (by norm_num)
      have z1 := hz 1 (by norm_num)
      norm_num [rowOf] at z0 z1
      have e0 : z 0 = mu / (dx * dx) * (z 1 - z 0) := by linear_combination z0
      have e1 : z 1 = mu / (dx * dx) * (z 0 - z 1) := by linear_combination z1
      have e2 : z 0 * (1 + 2 * (mu / (dx * dx))) = 0 := by linear_combination (1 + mu / (dx * dx)) * e0 + mu / (dx * dx) * e1
      have e3 : z 0 = 0 := (mul_eq_zero.1 e2).resolve_right (by positivity)
      intro i hi
      interval_cases i
      · exact e3
      · linear_combination e0 + e1 - e3)
    have h := a4 (fun _ => -2) ⟨fun i _ _ => by omega, by norm_num, by norm_num⟩
    refine ⟨cyclic 2 { (⟨.fdm, .empty, .empty, ⟨2, fun _ => -1⟩⟩ : EqField K) with u := u }, by simp only [step, a1, Option.bind_eq_bind, Option.bind_some]; rfl, fun i hi => ?_⟩
    have b1 := h 1 (by norm_num)
    interval_cases i
    · exact b1.symm
    · exact b1.symm
  · rintro ⟨y, -, h0, h1⟩
    norm_num at h0 h1
    have : (8 : K) = 0 := by linear_combination h0 + h1
    norm_num at this

/-! ### The hypotheses are met -/

/-- A wave on five nodes. -/
def Burgers.wave : EqField ℚ := ⟨.fdm, .empty, .empty, ⟨5, fun i => if i = 2 then 2 else 1⟩⟩

theorem Burgers.wave_fine : Fine 5 1 ⟨1, 1⟩ wave.u.at' :=
  ⟨by norm_num, one_pos, one_pos, zero_le_one, fun i _ => by simp only [wave]; split <;> norm_num, fun i _ => by simp only [wave]; split <;> norm_num⟩

example := C150_step_partial anySolver anySolver_sound (fun _ => 0) wave rfl rfl wave_fine
example (k : Nat) := C150_bounds anySolver anySolver_sound (fun _ => 0) 5 (by norm_num) 1 one_pos ⟨1, 1⟩ one_pos zero_le_one 2 (by norm_num) wave rfl rfl (fun i _ => by simp only [wave]; split <;> norm_num) k
example (k : Nat) := C150_steps anySolver anySolver_sound (fun _ => 0) 5 (by norm_num) 1 one_pos ⟨1, 1⟩ one_pos zero_le_one 2 (by norm_num) wave rfl rfl (fun i _ => by simp only [wave]; split <;> norm_num) k
example (k : Nat) := C150_uniform anySolver anySolver_sound (fun _ => 0) 5 (by norm_num) 1 one_pos ⟨1, 1⟩ one_pos 1 one_pos (by norm_num) { wave with u := ⟨5, fun _ => 1⟩ } rfl rfl (fun _ _ => rfl) k

/-- On two nodes a uniform velocity 1 halves in a step of length 1. -/
example (solver : Sys ℚ → Nat → ℚ) (hS : Sound solver) : ∃ f', step solver (fun _ => 0) 2 1 ⟨1, 1⟩ ⟨.fdm, .empty, .empty, ⟨2, fun _ => 1⟩⟩ = some f' ∧ f'.u.at' 0 = 1 / 2 ∧ f'.u.at' 1 = 1 / 2 := by
  obtain ⟨f', y, a1, -, -, -, a5, a6, a7⟩ := C150_step_partial solver hS (fun _ => 0) (n := 2) (dx := 1) (P := ⟨1, 1⟩) ⟨.fdm, .empty, .empty, ⟨2, fun _ => (1 : ℚ)⟩⟩ rfl rfl
    ⟨le_rfl, one_pos, one_pos, zero_le_one, fun _ _ => zero_le_one, fun _ _ => by norm_num⟩
  have h := a5 (fun _ => 1 / 2) ⟨fun i _ _ => by omega, by norm_num, by norm_num⟩ 1 (by norm_num)
  exact ⟨f', a1, a6.trans h.symm, (a7 1 (by norm_num) (by norm_num)).trans h.symm⟩

end ENigMA
