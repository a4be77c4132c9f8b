import Verif.Pde.FdmHeatLemmas
import Mathlib.Tactic.Positivity

/-!
# C142, C143: heat conduction in a rod, from the equation the user writes to the values in the field
-/

set_option linter.unusedSectionVars false
set_option autoImplicit false

namespace ENigMA
open Equation FdmHeat
variable {K : Type} [Field K] [LinearOrder K] [IsStrictOrderedRing K]

namespace FdmHeat

/-- Values with equal steps. -/
theorem march (f : EqField K) (n : Nat) (x : Nat → K) (h : ∀ i < n, before f x i - 2 * x i + after f n x i = 0) (a : K) (ha : before f x 0 = a) :
    ∀ i < n, x i = a + (i + 1) * (x 0 - a) := by
  intro i
  induction i using Nat.strong_induction_on with
  | _ i ih =>
    intro hi
    rcases i with _ | i
    · push_cast; ring
    · have e := h i (by omega)
      have h1 := ih i (by omega) (by omega)
      rw [after, if_neg (by omega)] at e
      rcases i with _ | i
      · rw [ha] at e
        push_cast at *
        linear_combination e
      · rw [before, if_neg (by omega), show i + 1 - 1 = i by omega] at e
        have h2 := ih i (by omega) (by omega)
        push_cast at *
        linear_combination e + 2 * h1 - h2

end FdmHeat

/-- **C142.** Steady conduction in a rod of `n` nodes whose ends have the prescribed values `a` and `b`: the call succeeds, the ends have their values, and the nodes between have the values of the
straight line from `a`, one step *before* the first node, to `b`, one step *after* the last node. A value prescribed inside is put in its place and has no other effect. -/
theorem C142_steady_partial (solver : Sys K → Nat → K) (hS : Sound solver) (junk : Nat → K) (n : Nat) (dx : K) (hn : 2 ≤ n) (hdx : dx ≠ 0) (f : EqField K)
    (hf : IndicesOk f.uFixed n) (a b : K) (ha : prescribed f 0 = some a) (hb : prescribed f (n - 1) = some b) :
    ∃ f', steady solver junk n dx f = some f' ∧ f'.u.size = n ∧ f'.u.at' 0 = a ∧ f'.u.at' (n - 1) = b ∧
      ∀ i, 0 < i → i + 1 < n → f'.u.at' i = (prescribed f i).getD (a + (b - a) * ((i + 1) / (n + 1))) := by
  have hn1 : ((n : K) + 1) ≠ 0 := by positivity
  obtain ⟨u, x, h1, h2, h3, h4⟩ := steady_run solver hS junk n dx hn hdx f hf ⟨fun i => a + (b - a) * ((i + 1) / (n + 1)), by
    intro i hi
    unfold before after
    rcases Nat.eq_zero_or_pos i with rfl | hpos
    · rw [if_pos rfl, if_neg (by omega), ha, Option.getD_some]
      push_cast; field_simp; ring
    · rw [if_neg (by omega)]
      obtain ⟨j, rfl⟩ : ∃ j, i = j + 1 := ⟨i - 1, by omega⟩
      by_cases hl : j + 1 + 1 = n
      · rw [if_pos hl, show j + 1 = n - 1 by omega, hb, Option.getD_some, show n - 1 - 1 = j by omega, show n - 1 = j + 1 by omega, ← hl]
        rw [← hl] at hn1
        push_cast at *; field_simp; ring
      · rw [if_neg hl, show j + 1 - 1 = j by omega]
        push_cast; field_simp; ring⟩
  refine ⟨_, h1, h2, by rw [h3, ha, Option.getD_some], by rw [h3, hb, Option.getD_some], fun i hi0 hi => ?_⟩
  have hm := march f n x h4 a (by rw [before, if_pos rfl, ha, Option.getD_some])
  show u.at' i = _
  rw [h3]
  congr 1
  have hlast := h4 (n - 1) (by omega)
  rw [before, if_neg (by omega), after, if_pos (by omega), hb, Option.getD_some, hm (n - 1) (by omega), hm (n - 1 - 1) (by omega)] at hlast
  have c1 : ((n - 1 : Nat) : K) = n - 1 := by rw [Nat.cast_sub (by omega)]; simp
  have c2 : ((n - 1 - 1 : Nat) : K) = n - 2 := by rw [Nat.cast_sub (by omega), c1]; push_cast; ring
  rw [c1, c2] at hlast
  rw [hm i (by omega)]
  have : x 0 - a = (b - a) / (n + 1) := by rw [eq_div_iff hn1]; linear_combination -hlast
  rw [this]
  ring

/-- **C142.** The claim that the values are those of the straight line between the ends is false for four nodes or more. -/
theorem C142_not_the_line (solver : Sys K → Nat → K) (hS : Sound solver) (junk : Nat → K) (n : Nat) (dx : K) (hn : 4 ≤ n) (hdx : dx ≠ 0) (f : EqField K)
    (hf : IndicesOk f.uFixed n) (a b : K) (hab : a ≠ b) (ha : prescribed f 0 = some a) (hb : prescribed f (n - 1) = some b) (hin : prescribed f 1 = none) :
    ∃ f', steady solver junk n dx f = some f' ∧ f'.u.at' 1 ≠ a + (b - a) * (1 / (n - 1)) := by
  obtain ⟨f', h1, -, -, -, h2⟩ := C142_steady_partial solver hS junk n dx (by omega) hdx f hf a b ha hb
  refine ⟨f', h1, ?_⟩
  rw [h2 1 (by omega) (by omega), hin, Option.getD_none]
  have hn4 : (4 : K) ≤ n := by exact_mod_cast hn
  have p1 : ((n : K) + 1) ≠ 0 := by positivity
  have p2 : ((n : K) - 1) ≠ 0 := by
    have : (0 : K) < n - 1 := by linarith
    exact this.ne'
  intro h
  have h' := mul_left_cancel₀ (sub_ne_zero.2 hab.symm) (add_left_cancel h)
  push_cast at h'
  rw [div_eq_div_iff p1 p2] at h'
  linarith

/-- **C142.** The values differ from the straight line between the ends by at most the difference of the ends divided by the number of nodes plus one. -/
theorem C142_error (solver : Sys K → Nat → K) (hS : Sound solver) (junk : Nat → K) (n : Nat) (dx : K) (hn : 2 ≤ n) (hdx : dx ≠ 0) (f : EqField K)
    (hf : IndicesOk f.uFixed n) (a b : K) (ha : prescribed f 0 = some a) (hb : prescribed f (n - 1) = some b) (hin : ∀ i, 0 < i → i + 1 < n → prescribed f i = none) :
    ∃ f', steady solver junk n dx f = some f' ∧ ∀ i < n, |f'.u.at' i - (a + (b - a) * (i / (n - 1)))| ≤ |b - a| / (n + 1) := by
  obtain ⟨f', h1, -, h0, hl, h2⟩ := C142_steady_partial solver hS junk n dx hn hdx f hf a b ha hb
  refine ⟨f', h1, fun i hi => ?_⟩
  have hn2 : (2 : K) ≤ n := by exact_mod_cast hn
  have p1 : (0 : K) < (n : K) + 1 := by positivity
  have p2 : (0 : K) < (n : K) - 1 := by linarith
  rcases Nat.eq_zero_or_pos i with rfl | hpos
  · rw [h0]
    simp only [Nat.cast_zero, zero_div, mul_zero, add_zero, sub_self, abs_zero]
    positivity
  by_cases hlast : i + 1 = n
  · rw [show i = n - 1 by omega, hl, Nat.cast_sub (by omega), Nat.cast_one, div_self p2.ne']
    simp only [mul_one, add_sub_cancel, sub_self, abs_zero]
    positivity
  · rw [h2 i hpos (by omega), hin i hpos (by omega), Option.getD_none]
    have e : a + (b - a) * (((i : K) + 1) / (n + 1)) - (a + (b - a) * (i / (n - 1))) = (b - a) * ((n - 1 - 2 * i) / ((n + 1) * (n - 1))) := by
      field_simp; ring
    rw [e, abs_mul, div_eq_mul_inv |b - a|]
    refine mul_le_mul_of_nonneg_left ?_ (abs_nonneg _)
    rw [abs_div, abs_of_pos (mul_pos p1 p2), div_le_iff₀ (mul_pos p1 p2), inv_mul_cancel_left₀ p1.ne']
    have : (i : K) + 1 ≤ n := by exact_mod_cast hi
    have h0 : (0 : K) ≤ i := by positivity
    rw [abs_le]
    constructor <;> linarith

/-- **C142.** With one end prescribed and the other free, the rod has the prescribed value everywhere. -/
theorem C142_one_end (solver : Sys K → Nat → K) (hS : Sound solver) (junk : Nat → K) (n : Nat) (dx : K) (hn : 2 ≤ n) (hdx : dx ≠ 0) (f : EqField K)
    (hf : IndicesOk f.uFixed n) (a : K) (h : prescribed f 0 = some a ∧ prescribed f (n - 1) = none ∨ prescribed f 0 = none ∧ prescribed f (n - 1) = some a) :
    ∃ f', steady solver junk n dx f = some f' ∧ f'.u.size = n ∧ ∀ i < n, f'.u.at' i = (prescribed f i).getD a := by
  obtain ⟨u, x, h1, h2, h3, h4⟩ := steady_run solver hS junk n dx hn hdx f hf ⟨fun _ => a, by
    intro i hi
    unfold before after
    have e1 : (prescribed f 0).getD a = a := by rcases h with h | h <;> simp [h.1]
    have e2 : (prescribed f (n - 1)).getD a = a := by rcases h with h | h <;> simp [h.2]
    rw [e1]
    split <;> split
    · omega
    · ring
    · next hl => rw [show i = n - 1 by omega, e2]; ring
    · ring⟩
  refine ⟨_, h1, h2, fun i hi => ?_⟩
  show u.at' i = _
  rw [h3]
  congr 1
  have hlast := h4 (n - 1) (by omega)
  rw [before, if_neg (by omega), after, if_pos (by omega)] at hlast
  rcases h with ⟨ha, hb⟩ | ⟨ha, hb⟩
  · have hm := march f n x h4 a (by rw [before, if_pos rfl, ha, Option.getD_some])
    rw [hb, Option.getD_none] at hlast
    have e1 := hm (n - 1) (by omega)
    have e2 := hm (n - 1 - 1) (by omega)
    rw [show n - 1 = n - 1 - 1 + 1 by omega] at e1
    rw [show n - 1 = n - 1 - 1 + 1 by omega] at hlast
    simp only [Nat.add_sub_cancel] at hlast e1 e2
    push_cast at e1
    rw [hm i hi]
    linear_combination (i + 1) * (-(e1 - e2) - hlast)
  · have hm := march f n x h4 (x 0) (by rw [before, if_pos rfl, ha, Option.getD_none])
    rw [hb, Option.getD_some] at hlast
    have e1 := hm (n - 1) (by omega)
    have e2 := hm (n - 1 - 1) (by omega)
    rw [hm i hi]
    linear_combination -hlast - 2 * e1 + e2

/-! ### Time steps -/

namespace FdmHeat

/-- Induction over the steps. -/
theorem steps_inv (solver : Sys K → Nat → K) (junk : Nat → K) (n : Nat) (dx : K) (P : Par K) (Q : Nat → EqField K → Prop)
    (hstep : ∀ m f, Q m f → ∃ f', step solver junk n dx P f = some f' ∧ Q (m + 1) f') (m : Nat) (f : EqField K) (h0 : Q 0 f) :
    ∃ f', steps solver junk n dx P m f = some f' ∧ Q m f' := by
  induction m with
  | zero => exact ⟨f, rfl, h0⟩
  | succ m ih =>
    obtain ⟨g, h1, h2⟩ := ih
    obtain ⟨f', h3, h4⟩ := hstep m g h2
    exact ⟨f', by rw [steps, h1, Option.bind_some, h3], h4⟩

end FdmHeat

/-- **C143.** A step always succeeds. Prescribed nodes have their value; the values `x` found for all nodes satisfy the balance of every node: heat stored in a time step is heat that flowed in from both sides, where beyond a prescribed
end lies the prescribed value and through a free end nothing flows; the new value of a free node is its `x`. These equations have no other solution. -/
theorem C143_step (solver : Sys K → Nat → K) (hS : Sound solver) (junk : Nat → K) (n : Nat) (dx : K) (hn : 2 ≤ n) (hdx : dx ≠ 0) (P : Par K) (hrc : 0 < P.rc)
    (hdt : 0 < P.dt) (hk : 0 ≤ P.k) (f : EqField K) (hf : IndicesOk f.uFixed n) (hu : n ≤ f.u.size) :
    ∃ (f' : EqField K) (x : Nat → K), step solver junk n dx P f = some f' ∧ f'.uFixed = f.uFixed ∧ f'.u.size = n ∧ (∀ i, f'.u.at' i = (prescribed f i).getD (x i)) ∧
      HeatBalance n dx P f x ∧ ∀ y, HeatBalance n dx P f y → ∀ i < n, y i = x i := by
  obtain ⟨u, x, h1, h2, h3, h4, h5⟩ := step_run solver hS junk n dx hn hdx P hrc hdt hk f hf hu
  refine ⟨_, x, h1, rfl, h2, h3, fun i hi => ?_, fun y hy => h5 y fun i hi => ?_⟩
  · have := h4 i hi
    unfold before after at this
    linear_combination this
  · have := hy i hi
    unfold before after
    linear_combination this

/-- **C143.** For every number of steps of any length, temperatures stay between the smallest and the largest of the initial and the prescribed ones. -/
theorem C143_bounds (solver : Sys K → Nat → K) (hS : Sound solver) (junk : Nat → K) (n : Nat) (dx : K) (hn : 2 ≤ n) (hdx : dx ≠ 0) (P : Par K) (hrc : 0 < P.rc)
    (hdt : 0 < P.dt) (hk : 0 ≤ P.k) (f : EqField K) (hf : IndicesOk f.uFixed n) (hu : n ≤ f.u.size) (lo hi : K) (hini : ∀ i < n, lo ≤ f.u.at' i ∧ f.u.at' i ≤ hi)
    (hpre : ∀ i < n, ∀ v, prescribed f i = some v → lo ≤ v ∧ v ≤ hi) (m : Nat) :
    ∃ f', steps solver junk n dx P m f = some f' ∧ ∀ i < n, lo ≤ f'.u.at' i ∧ f'.u.at' i ≤ hi := by
  obtain ⟨f', h1, -, -, h2⟩ := steps_inv solver junk n dx P (fun _ g => g.uFixed = f.uFixed ∧ n ≤ g.u.size ∧ ∀ i < n, lo ≤ g.u.at' i ∧ g.u.at' i ≤ hi) (by
    rintro - g ⟨q1, q2, q3⟩
    have hpg : ∀ i, prescribed g i = prescribed f i := fun i => by simp only [prescribed, q1]
    obtain ⟨u, x, a1, a2, a3, a4, -⟩ := step_run solver hS junk n dx hn hdx P hrc hdt hk g (q1 ▸ hf) q2
    have hold : ∀ i < n, lo ≤ (prescribed g i).getD (g.u.at' i) ∧ (prescribed g i).getD (g.u.at' i) ≤ hi := fun i hi => by
      cases hp : prescribed g i with
      | none => exact q3 i hi
      | some v => exact hpre i hi v (hpg i ▸ hp)
    have hc : 0 < P.rc / P.dt := div_pos hrc hdt
    have hk2 : 0 ≤ P.k / (dx * dx) := div_nonneg hk (mul_self_nonneg dx)
    have hbef : ∀ i < n, (lo ≤ before g x i ∧ before g x i ≤ hi) ∨ ∃ j < n, before g x i = x j := fun i hi => by
      unfold before
      split
      · cases hp : prescribed g 0 with
        | none => exact Or.inr ⟨0, by omega, rfl⟩
        | some v => exact Or.inl (hpre 0 (by omega) v (hpg 0 ▸ hp))
      · exact Or.inr ⟨i - 1, by omega, rfl⟩
    have haft : ∀ i < n, (lo ≤ after g n x i ∧ after g n x i ≤ hi) ∨ ∃ j < n, after g n x i = x j := fun i hi => by
      unfold after
      split
      · cases hp : prescribed g i with
        | none => exact Or.inr ⟨i, hi, rfl⟩
        | some v => exact Or.inl (hpre i hi v (hpg i ▸ hp))
      · exact Or.inr ⟨i + 1, by omega, rfl⟩
    have hup := max_principle n _ _ hc hk2 x _ (before g x) (after g n x) hi (fun i hi => by rw [a4 i hi]; ring) (fun i hi => (hold i hi).2)
      (fun i hi => (hbef i hi).imp And.right fun ⟨j, hj, e⟩ => ⟨j, hj, e.le⟩) (fun i hi => (haft i hi).imp And.right fun ⟨j, hj, e⟩ => ⟨j, hj, e.le⟩)
    have hlo := max_principle n _ _ hc hk2 (fun i => -x i) (fun i => -(prescribed g i).getD (g.u.at' i)) (fun i => -before g x i) (fun i => -after g n x i) (-lo)
      (fun i hi => by linear_combination -(a4 i hi)) (fun i hi => neg_le_neg (hold i hi).1)
      (fun i hi => (hbef i hi).imp (fun h => neg_le_neg h.1) fun ⟨j, hj, e⟩ => ⟨j, hj, by rw [e]⟩)
      (fun i hi => (haft i hi).imp (fun h => neg_le_neg h.1) fun ⟨j, hj, e⟩ => ⟨j, hj, by rw [e]⟩)
    refine ⟨_, a1, q1, a2.ge, fun i hi => ?_⟩
    show _ ≤ u.at' i ∧ u.at' i ≤ _
    rw [a3]
    cases hp : prescribed g i with
    | none => exact ⟨neg_le_neg_iff.1 (hlo i hi), hup i hi⟩
    | some v => exact hpre i hi v (hpg i ▸ hp)) m f ⟨rfl, hu, hini⟩
  exact ⟨f', h1, h2⟩

/-- **C143.** Without prescribed values the total heat stays the same for ever. -/
theorem C143_insulated (solver : Sys K → Nat → K) (hS : Sound solver) (junk : Nat → K) (n : Nat) (dx : K) (hn : 2 ≤ n) (hdx : dx ≠ 0) (P : Par K) (hrc : 0 < P.rc)
    (hdt : 0 < P.dt) (hk : 0 ≤ P.k) (f : EqField K) (hnone : ∀ i, f.uFixed.find? i = none) (hu : n ≤ f.u.size) (m : Nat) :
    ∃ f', steps solver junk n dx P m f = some f' ∧ ∑ i ∈ Finset.range n, f'.u.at' i = ∑ i ∈ Finset.range n, f.u.at' i := by
  obtain ⟨f', h1, -, -, h2⟩ := steps_inv solver junk n dx P
    (fun _ g => g.uFixed = f.uFixed ∧ n ≤ g.u.size ∧ ∑ i ∈ Finset.range n, g.u.at' i = ∑ i ∈ Finset.range n, f.u.at' i) (by
    rintro - g ⟨q1, q2, q3⟩
    have hpg : ∀ i, prescribed g i = none := fun i => by simp only [prescribed, q1, hnone]
    obtain ⟨u, x, a1, a2, a3, a4, -⟩ := step_run solver hS junk n dx hn hdx P hrc hdt hk g (fun i v h => by rw [q1, hnone] at h; cases h) q2
    refine ⟨_, a1, q1, a2.ge, ?_⟩
    rw [← q3]
    have hc : P.rc / P.dt ≠ 0 := (div_pos hrc hdt).ne'
    -- flows between neighbours cancel
    have htel : ∀ N, N < n → ∑ i ∈ Finset.range (N + 1), (before g x i - 2 * x i + after g n x i) = after g n x N - x N := by
      intro N hN
      induction N with
      | zero => rw [Finset.sum_range_one, before, if_pos rfl, hpg, Option.getD_none]; ring
      | succ N ih =>
        rw [Finset.sum_range_succ, ih (by omega), before, if_neg (by omega), after, if_neg (by omega), Nat.add_sub_cancel]
        ring
    have hz : ∑ i ∈ Finset.range n, (before g x i - 2 * x i + after g n x i) = 0 := by
      have := htel (n - 1) (by omega)
      rw [show n - 1 + 1 = n by omega, after, if_pos (by omega), hpg, Option.getD_none] at this
      rw [this, sub_self]
    have hs : P.rc / P.dt * (∑ i ∈ Finset.range n, x i - ∑ i ∈ Finset.range n, g.u.at' i) = 0 := by
      rw [← Finset.sum_sub_distrib, Finset.mul_sum]
      calc _ = ∑ i ∈ Finset.range n, P.k / (dx * dx) * (before g x i - 2 * x i + after g n x i) :=
            Finset.sum_congr rfl fun i hi => by
              have := a4 i (Finset.mem_range.1 hi)
              rw [hpg, Option.getD_none] at this
              rw [this]; ring
        _ = 0 := by rw [← Finset.mul_sum, hz, mul_zero]
    have := (mul_eq_zero.1 hs).resolve_left hc
    rw [sub_eq_zero] at this
    rw [← this]
    exact Finset.sum_congr rfl fun i _ => by show u.at' i = _; rw [a3, hpg, Option.getD_none]) m f ⟨rfl, hu, rfl⟩
  exact ⟨f', h1, h2⟩

end ENigMA
