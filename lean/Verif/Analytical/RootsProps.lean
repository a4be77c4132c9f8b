import Verif.Analytical.Roots
import Mathlib.Topology.Order.IntermediateValue
import Mathlib.Topology.Algebra.Order.Field
import Mathlib.Topology.MetricSpace.Pseudo.Defs
import Mathlib.Analysis.SpecialFunctions.Pow.Real
import Mathlib.Tactic.Linarith
import Mathlib.Tactic.Ring
import Mathlib.Tactic.FieldSimp
import Mathlib.Algebra.Order.Ring.Rat

/-!
# What the root finders return

The specification is elementary: a root is an `x` with `f x = 0`; "between the bounds" is `Set.uIcc lower upper`.
-/

set_option linter.unusedSectionVars false
set_option autoImplicit false

namespace ENigMA
namespace Ana

section
variable {K : Type} [Field K] [LinearOrder K] [IsStrictOrderedRing K]

theorem half_uIcc (a b : K) : (a + b) * (1 / 2) ∈ Set.uIcc a b := by
  rcases le_total a b with h | h
  · rw [Set.uIcc_of_le h]; constructor <;> linarith
  · rw [Set.uIcc_of_ge h]; constructor <;> linarith

/-- What the loop of `bisection` keeps and reaches. -/
theorem bisectLoop_spec (f : K → K) (tol : K) : ∀ (k : Nat) (a b : K) (i : Nat), f a * f b ≤ 0 →
    let r := bisectLoop f tol k (a, b, i)
    f r.1 * f r.2.1 ≤ 0 ∧ r.1 ∈ Set.uIcc a b ∧ r.2.1 ∈ Set.uIcc a b ∧ i ≤ r.2.2 ∧ r.2.2 ≤ i + k ∧
      |r.2.1 - r.1| = |b - a| / 2 ^ (r.2.2 - i) ∧ (r.2.2 < i + k → |r.2.1 - r.1| ≤ tol) := by
  intro k
  induction k with
  | zero => intro a b i h; simp [bisectLoop, h]
  | succ k ih =>
    intro a b i h
    simp only [bisectLoop]
    split_ifs with h1 h2
    · have hs : f ((a + b) * (1 / 2)) * f b ≤ 0 := by
        rcases lt_trichotomy (f a) 0 with q | q | q
        · have : f ((a + b) * (1 / 2)) < 0 := by by_contra hc; push Not at hc; nlinarith
          have : 0 ≤ f b := by by_contra hc; push Not at hc; nlinarith
          nlinarith
        · rw [q] at h2; simp at h2
        · have : 0 < f ((a + b) * (1 / 2)) := by by_contra hc; push Not at hc; nlinarith
          have : f b ≤ 0 := by by_contra hc; push Not at hc; nlinarith
          nlinarith
      obtain ⟨q1, q2, q3, q4, q5, q6, q7⟩ := ih ((a + b) * (1 / 2)) b (i + 1) hs
      have sub : Set.uIcc ((a + b) * (1 / 2)) b ⊆ Set.uIcc a b := Set.uIcc_subset_uIcc (half_uIcc a b) Set.right_mem_uIcc
      refine ⟨q1, sub q2, sub q3, by omega, by omega, ?_, fun hl => q7 (by omega)⟩
      rw [q6]
      have e : b - (a + b) * (1 / 2) = (b - a) / 2 := by ring
      rw [e, abs_div, abs_two, div_div, ← pow_succ', show (bisectLoop f tol k ((a + b) * (1 / 2), b, i + 1)).2.2 - (i + 1) + 1 =
        (bisectLoop f tol k ((a + b) * (1 / 2), b, i + 1)).2.2 - i by omega]
    · obtain ⟨q1, q2, q3, q4, q5, q6, q7⟩ := ih a ((a + b) * (1 / 2)) (i + 1) (not_lt.mp h2)
      have sub : Set.uIcc a ((a + b) * (1 / 2)) ⊆ Set.uIcc a b := Set.uIcc_subset_uIcc Set.left_mem_uIcc (half_uIcc a b)
      refine ⟨q1, sub q2, sub q3, by omega, by omega, ?_, fun hl => q7 (by omega)⟩
      rw [q6]
      have e : (a + b) * (1 / 2) - a = (b - a) / 2 := by ring
      rw [e, abs_div, abs_two, div_div, ← pow_succ', show (bisectLoop f tol k (a, (a + b) * (1 / 2), i + 1)).2.2 - (i + 1) + 1 =
        (bisectLoop f tol k (a, (a + b) * (1 / 2), i + 1)).2.2 - i by omega]
    · refine ⟨h, Set.left_mem_uIcc, Set.right_mem_uIcc, le_refl _, by simp, by simp, fun _ => not_lt.mp h1⟩

theorem abs_half_left (a b x : K) (h : x ∈ Set.uIcc a b) : |(a + b) * (1 / 2) - x| ≤ |b - a| / 2 := by
  rcases le_total a b with q | q
  · rw [Set.uIcc_of_le q] at h; rw [abs_of_nonneg (sub_nonneg.mpr q), abs_le]; constructor <;> linarith [h.1, h.2]
  · rw [Set.uIcc_of_ge q] at h; rw [abs_of_nonpos (sub_nonpos.mpr q), abs_le]; constructor <;> linarith [h.1, h.2]

end

/-- A continuous function that does not have the same sign at two points has a root between them. -/
theorem root_between {f : ℝ → ℝ} {a b : ℝ} (hf : ContinuousOn f (Set.uIcc a b)) (h : f a * f b ≤ 0) : ∃ x ∈ Set.uIcc a b, f x = 0 := by
  have h0 : (0 : ℝ) ∈ Set.uIcc (f a) (f b) := by
    rw [Set.mem_uIcc]
    rcases le_total (f a) 0 with q | q
    · rcases le_total (f b) 0 with q' | q'
      · have : f a = 0 ∨ f b = 0 := mul_eq_zero.mp (le_antisymm h (mul_nonneg_of_nonpos_of_nonpos q q'))
        rcases this with e | e <;> [right; left] <;> constructor <;> linarith
      · left; exact ⟨q, q'⟩
    · rcases le_total (f b) 0 with q' | q'
      · right; exact ⟨q', q⟩
      · have : f a = 0 ∨ f b = 0 := mul_eq_zero.mp (le_antisymm h (mul_nonneg q q'))
        rcases this with e | e <;> [left; right] <;> constructor <;> linarith
  obtain ⟨x, hx, e⟩ := intermediate_value_uIcc hf h0
  exact ⟨x, hx, e⟩

end Ana

open Ana

/-- **C71.** `bisection` (and `root`, which is the same function) on a continuous function whose values at the bounds do not have the same strict sign: there is a
root between the bounds that differs from the value returned by at most the length of the interval over `2 ^ (nIterations + 1)`; the value is between the bounds; and
unless all the passes allowed were made, it differs from that root by at most half of the tolerance. -/
theorem C71_root (f : ℝ → ℝ) (l u tol : ℝ) (nMax : Int) (hf : ContinuousOn f (Set.uIcc l u)) (h : f l * f u ≤ 0) :
    let r := root f l u nMax tol
    r.1 ∈ Set.uIcc l u ∧ r.2 ≤ max 1 (nMax + 1).toNat ∧
      ∃ x ∈ Set.uIcc l u, f x = 0 ∧ |r.1 - x| ≤ |u - l| / 2 ^ (r.2 + 1) ∧ (r.2 < max 1 (nMax + 1).toNat → |r.1 - x| ≤ tol / 2) := by
  rw [show max 1 (nMax + 1).toNat = passes nMax from rfl]
  obtain ⟨q1, q2, q3, _, q5, q6, q7⟩ := bisectLoop_spec f tol (passes nMax) l u 0 h
  simp only [root, bisection]
  generalize bisectLoop f tol (passes nMax) (l, u, 0) = r at *
  have sub : Set.uIcc r.1 r.2.1 ⊆ Set.uIcc l u := Set.uIcc_subset_uIcc q2 q3
  obtain ⟨x, hx, e⟩ := root_between (hf.mono sub) q1
  have hd := abs_half_left r.1 r.2.1 x hx
  refine ⟨sub (half_uIcc _ _), by omega, x, sub hx, e, ?_, fun hl => hd.trans ?_⟩
  · rw [q6, Nat.sub_zero, div_div, ← pow_succ] at hd; exact hd
  · have := q7 (by omega); linarith

/-- **C71**, for any function on any ordered field, continuous or not: the value returned is the middle of a pair of points between the bounds at which the function does
not have the same strict sign, and the pair is `2 ^ nIterations` times closer than the bounds. -/
theorem C71_bracket {K : Type} [Field K] [LinearOrder K] [IsStrictOrderedRing K] (f : K → K) (l u tol : K) (nMax : Int) (h : f l * f u ≤ 0) :
    let r := root f l u nMax tol
    ∃ a ∈ Set.uIcc l u, ∃ b ∈ Set.uIcc l u, f a * f b ≤ 0 ∧ r.1 = (a + b) / 2 ∧ |b - a| = |u - l| / 2 ^ r.2 ∧ (r.2 < max 1 (nMax + 1).toNat → |b - a| ≤ tol) := by
  rw [show max 1 (nMax + 1).toNat = passes nMax from rfl]
  obtain ⟨q1, q2, q3, _, q5, q6, q7⟩ := bisectLoop_spec f tol (passes nMax) l u 0 h
  simp only [root, bisection]
  exact ⟨_, q2, _, q3, q1, by ring, by simpa using q6, fun hl => q7 (by omega)⟩

/-- **C71**, termination: the passes made are the fewest that bring the length of the interval to the tolerance, or all that are allowed. -/
theorem C71_iterations {K : Type} [Field K] [LinearOrder K] [IsStrictOrderedRing K] (f : K → K) (l u tol : K) (nMax : Int) (h : f l * f u ≤ 0)
    (n : Nat) (hn : |u - l| / 2 ^ n ≤ tol) : (root f l u nMax tol).2 ≤ n := by
  simp only [root, bisection]
  have key : ∀ (k : Nat) (a b : K) (i n : Nat), |b - a| / 2 ^ n ≤ tol → (bisectLoop f tol k (a, b, i)).2.2 ≤ i + n := by
    intro k
    induction k with
    | zero => intro a b i n _; simp [bisectLoop]
    | succ k ih =>
      intro a b i n hn
      simp only [bisectLoop]
      split_ifs with h1 h2
      · cases n with
        | zero => simp at hn; exact absurd h1 (not_lt.mpr hn)
        | succ n =>
          have := ih ((a + b) * (1 / 2)) b (i + 1) n (by
            rw [show b - (a + b) * (1 / 2) = (b - a) / 2 by ring, abs_div, abs_two, div_div, ← pow_succ']; exact hn)
          omega
      · cases n with
        | zero => simp at hn; exact absurd h1 (not_lt.mpr hn)
        | succ n =>
          have := ih a ((a + b) * (1 / 2)) (i + 1) n (by
            rw [show (a + b) * (1 / 2) - a = (b - a) / 2 by ring, abs_div, abs_two, div_div, ← pow_succ']; exact hn)
          omega
      · simp
  simpa using key (passes nMax) l u 0 n hn

/-- **C71**, what is not checked: for a function that is positive everywhere no failure is reported; the value returned is close to the upper bound. -/
theorem C71_no_sign_change {K : Type} [Field K] [LinearOrder K] [IsStrictOrderedRing K] (f : K → K) (hf : ∀ x, 0 < f x) (l u tol : K) (nMax : Int) :
    |(root f l u nMax tol).1 - u| = |u - l| / 2 ^ ((root f l u nMax tol).2 + 1) := by
  simp only [root, bisection]
  have key : ∀ (k : Nat) (a b : K) (i : Nat), let r := bisectLoop f tol k (a, b, i)
      r.2.1 = b ∧ i ≤ r.2.2 ∧ |b - r.1| = |b - a| / 2 ^ (r.2.2 - i) := by
    intro k
    induction k with
    | zero => intro a b i; simp [bisectLoop]
    | succ k ih =>
      intro a b i
      simp only [bisectLoop]
      split_ifs with h1 h2
      · obtain ⟨q1, q2, q3⟩ := ih ((a + b) * (1 / 2)) b (i + 1)
        refine ⟨q1, by omega, ?_⟩
        rw [q3, show b - (a + b) * (1 / 2) = (b - a) / 2 by ring, abs_div, abs_two, div_div, ← pow_succ',
          show (bisectLoop f tol k ((a + b) * (1 / 2), b, i + 1)).2.2 - (i + 1) + 1 = (bisectLoop f tol k ((a + b) * (1 / 2), b, i + 1)).2.2 - i by omega]
      · exact absurd (mul_pos (hf _) (hf _)) h2
      · simp
  obtain ⟨q1, -, q3⟩ := key (passes nMax) l u 0
  generalize bisectLoop f tol (passes nMax) (l, u, 0) = r at *
  rw [q1, show (r.1 + u) * (1 / 2) - u = -((u - r.1) / 2) by ring, abs_neg, abs_div, abs_two, q3, Nat.sub_zero, div_div, ← pow_succ]

/-- `x ^ 2 - 2` on `[0, 2]`: the hypotheses hold, and ten passes are made. -/
example : (fun x : ℚ => x * x - 2) 0 * (fun x : ℚ => x * x - 2) 2 ≤ 0 ∧ (root (fun x : ℚ => x * x - 2) 0 2 100 (1 / 512)).2 = 10 ∧
    (root (fun x : ℚ => x * x - 2) 0 2 100 (1 / 512)).1 = 1449 / 1024 ∧ (root (fun x : ℚ => x * x - 2) 0 2 3 (1 / 512)).2 = 4 := by
  decide +kernel

namespace Ana
section
variable {K : Type} [Field K] [LinearOrder K] [IsStrictOrderedRing K]

/-- The invariant of the loop of `brent`. -/
def BState.Inv (f : K → K) (l u : K) (st : BState K) : Prop :=
  st.fa = f st.a ∧ st.fb = f st.b ∧ st.a ∈ Set.uIcc l u ∧ st.b ∈ Set.uIcc l u ∧ (st.fa * st.fb < 0 ∨ st.fb = 0) ∧ |st.fb| ≤ |st.fa|

theorem order_inv (f : K → K) (l u : K) (st : BState K) (h1 : st.fa = f st.a) (h2 : st.fb = f st.b) (h3 : st.a ∈ Set.uIcc l u) (h4 : st.b ∈ Set.uIcc l u)
    (h5 : st.fa * st.fb < 0 ∨ st.fb = 0 ∨ st.fa = 0) : st.order.Inv f l u := by
  unfold BState.order
  split_ifs with h
  · refine ⟨h2, h1, h4, h3, ?_, h.le⟩
    rcases h5 with q | q | q
    · left; show st.fb * st.fa < 0; rw [mul_comm]; exact q
    · rw [q, abs_zero] at h; exact absurd h (not_lt.mpr (abs_nonneg _))
    · right; exact q
  · refine ⟨h1, h2, h3, h4, ?_, not_lt.mp h⟩
    rcases h5 with q | q | q
    · exact Or.inl q
    · exact Or.inr q
    · rw [q, abs_zero] at h
      right; exact abs_eq_zero.mp (le_antisymm (not_lt.mp h) (abs_nonneg _))

theorem order_fields (st : BState K) : st.order.i = st.i := by unfold BState.order; split_ifs <;> rfl

/-- The next point is between `a` and `b`. -/
theorem next_mem (tol : K) (st : BState K) : (st.next tol).1 ∈ Set.uIcc st.a st.b := by
  simp only [BState.next]
  generalize (if st.fa ≠ st.fc ∧ st.fb ≠ st.fc then _ else _ : K) = s
  split_ifs with h1 h2
  · exact half_uIcc _ _
  · show (st.a + st.b) / 2 ∈ _; rw [show (st.a + st.b) / 2 = (st.a + st.b) * (1 / 2) by ring]; exact half_uIcc _ _
  · have h3 : (3 * st.a + st.b) / 4 < s ∧ s < st.b ∨ s < (3 * st.a + st.b) / 4 ∧ st.b < s := by
      by_contra hc; exact h1 (Or.inl hc)
    rw [Set.mem_uIcc]
    rcases h3 with ⟨p, q⟩ | ⟨p, q⟩
    · left; constructor <;> [skip; exact q.le]
      have : (3 * st.a + st.b) / 4 < st.b := p.trans q
      have : st.a < st.b := by linarith
      show st.a ≤ s; linarith
    · right; constructor <;> [exact q.le; skip]
      show s ≤ st.a; linarith

theorem step_inv (f : K → K) (tol l u : K) (st : BState K) (h : st.Inv f l u) (h0 : st.fb ≠ 0) : (st.step f tol).Inv f l u ∧ (st.step f tol).i = st.i + 1 := by
  obtain ⟨h1, h2, h3, h4, h5, h6⟩ := h
  have hm := next_mem tol st
  have h5' : st.fa * st.fb < 0 := h5.resolve_right h0
  unfold BState.step
  generalize st.next tol = n at hm
  obtain ⟨s, m⟩ := n
  have hs : s ∈ Set.uIcc l u := Set.uIcc_subset_uIcc h3 h4 hm
  simp only
  split_ifs with h7
  · exact ⟨order_inv f l u _ h1 rfl h3 hs (Or.inl h7), by rw [order_fields]⟩
  · refine ⟨order_inv f l u _ rfl h2 hs h4 ?_, by rw [order_fields]⟩
    simp only
    by_cases h8 : f s = 0
    · exact Or.inr (Or.inr h8)
    · left
      push Not at h7
      rcases lt_trichotomy st.fa 0 with q | q | q
      · have hb : 0 < st.fb := by by_contra hc; push Not at hc; nlinarith
        have : f s ≤ 0 := by by_contra hc; push Not at hc; nlinarith
        have : f s < 0 := lt_of_le_of_ne this h8
        nlinarith
      · rw [q] at h5'; simp at h5'
      · have hb : st.fb < 0 := by by_contra hc; push Not at hc; nlinarith
        have : 0 ≤ f s := by by_contra hc; push Not at hc; nlinarith
        have : 0 < f s := lt_of_le_of_ne this (Ne.symm h8)
        nlinarith

theorem loop_inv (f : K → K) (tol l u : K) : ∀ (k : Nat) (st : BState K), st.Inv f l u →
    let r := st.loop f tol k
    r.Inv f l u ∧ r.i ≤ st.i + k ∧ (r.i < st.i + k → r.fb = 0 ∨ |r.a - r.b| ≤ tol) := by
  intro k
  induction k with
  | zero => intro st h; exact ⟨h, by simp [BState.loop], by simp [BState.loop]⟩
  | succ k ih =>
    intro st h
    simp only [BState.loop]
    split_ifs with h1
    · obtain ⟨q1, q2⟩ := step_inv f tol l u st h h1.1
      obtain ⟨r1, r2, r3⟩ := ih _ q1
      rw [q2] at r2 r3
      exact ⟨r1, by omega, fun hl => r3 (by omega)⟩
    · refine ⟨h, by omega, fun _ => ?_⟩
      by_cases h2 : st.fb = 0
      · exact Or.inl h2
      · exact Or.inr (not_lt.mp fun hc => h1 ⟨h2, hc⟩)

end
end Ana

/-- **C72.** `brent` on a function with values of opposite strict sign at the bounds: `nIterations` is set and at most the passes allowed; the value returned is between
the bounds and there is a second point between the bounds, not of the same strict sign and not with a smaller absolute value; and unless all the passes allowed
were made, the value is a root or the two points are within the tolerance of one another. -/
theorem C72_bracket {K : Type} [Field K] [LinearOrder K] [IsStrictOrderedRing K] (big : K) (f : K → K) (l u tol : K) (nMax : Int) (h : f l * f u < 0) :
    ∃ r n, brent big f l u nMax tol = (r, some n) ∧ n ≤ max 1 (nMax + 1).toNat ∧ r ∈ Set.uIcc l u ∧
      ∃ a ∈ Set.uIcc l u, f a * f r ≤ 0 ∧ |f r| ≤ |f a| ∧ (n < max 1 (nMax + 1).toNat → f r = 0 ∨ |a - r| ≤ tol) := by
  rw [show max 1 (nMax + 1).toNat = passes nMax from rfl]
  have hi := order_inv f l u (⟨l, u, 0, big, f l, f u, 0, true, 0⟩ : BState K) rfl rfl Set.left_mem_uIcc Set.right_mem_uIcc (Or.inl h)
  have hj := order_fields (⟨l, u, 0, big, f l, f u, 0, true, 0⟩ : BState K)
  unfold brent
  rw [if_neg (not_le.mpr h)]
  simp only
  generalize (⟨l, u, 0, big, f l, f u, 0, true, 0⟩ : BState K).order = st at hi hj
  obtain ⟨a0, b0, c0, d0, fa0, fb0, fc0, mf0, i0⟩ := st
  simp only at hj
  subst hj
  have hi' : (⟨a0, b0, a0, d0, fa0, fb0, fa0, mf0, 0⟩ : BState K).Inv f l u := hi
  obtain ⟨⟨q1, q2, q3, q4, q5, q6⟩, r2, r3⟩ := loop_inv f tol l u (passes nMax) _ hi'
  simp only [Nat.zero_add] at r2 r3
  refine ⟨_, _, rfl, r2, q4, _, q3, ?_, ?_, ?_⟩
  · rw [← q1, ← q2]; rcases q5 with q | q
    · exact q.le
    · rw [q, mul_zero]
  · rw [← q1, ← q2]; exact q6
  · rw [← q2]; exact r3

/-- **C72**, for a continuous function: unless all the passes allowed were made, there is a root between the bounds within the tolerance of the value returned. -/
theorem C72_root (big : ℝ) (f : ℝ → ℝ) (l u tol : ℝ) (ht : 0 ≤ tol) (nMax : Int) (hf : ContinuousOn f (Set.uIcc l u)) (h : f l * f u < 0) :
    ∃ r n, brent big f l u nMax tol = (r, some n) ∧ r ∈ Set.uIcc l u ∧ n ≤ max 1 (nMax + 1).toNat ∧
      (n < max 1 (nMax + 1).toNat → ∃ x ∈ Set.uIcc l u, f x = 0 ∧ |r - x| ≤ tol) := by
  rw [show max 1 (nMax + 1).toNat = passes nMax from rfl]
  obtain ⟨r, n, e, hn, hr, a, ha, hs, -, hx⟩ := C72_bracket big f l u tol nMax h
  refine ⟨r, n, e, hr, hn, fun hl => ?_⟩
  rcases hx hl with q | q
  · exact ⟨r, hr, q, by simpa using ht⟩
  · have sub : Set.uIcc a r ⊆ Set.uIcc l u := Set.uIcc_subset_uIcc ha hr
    obtain ⟨x, hx, e'⟩ := root_between (hf.mono sub) hs
    refine ⟨x, sub hx, e', ?_⟩
    have : |r - x| ≤ |a - r| := by
      rw [Set.mem_uIcc] at hx
      rcases hx with ⟨p, q⟩ | ⟨p, q⟩ <;> rcases abs_cases (r - x) with ⟨e1, _⟩ | ⟨e1, _⟩ <;> rcases abs_cases (a - r) with ⟨e2, _⟩ | ⟨e2, _⟩ <;> rw [e1, e2] <;> linarith
    exact this.trans q

/-- **C72**, what the check at the beginning does: when the values at the bounds are of the same sign, or one of them is zero, the bound with the smaller value (not the
smaller absolute value) is returned and `nIterations` is not set. So a root at a bound may be passed over in favour of a bound that is not a root. -/
theorem C72_bounds {K : Type} [Field K] [LinearOrder K] [IsStrictOrderedRing K] (big : K) (f : K → K) (l u tol : K) (nMax : Int) (hl : f l = 0) (hu : f u < 0) :
    brent big f l u nMax tol = (u, none) ∧ f u ≠ 0 := by
  refine ⟨?_, hu.ne⟩
  unfold brent
  rw [if_pos (by rw [hl, zero_mul]), if_neg (by rw [hl]; exact not_lt.mpr hu.le)]

/-- The hypotheses hold for `x ^ 3 - 2` on `[0, 2]`, and after 20 passes or less the value is close to the root; for `-x` on `[0, 1]` the root `0` is missed. -/
example : (fun x : ℚ => x * x * x - 2) 0 * (fun x : ℚ => x * x * x - 2) 2 < 0 ∧ (brent 1000000 (fun x : ℚ => x * x * x - 2) 0 2 4 (1 / 100)).2.isSome = true ∧
    |(brent 1000000 (fun x : ℚ => x * x * x - 2) 0 2 4 (1 / 100)).1 - 126 / 100| ≤ 1 / 10 ∧
    (brent 1000000 (fun x : ℚ => -x) 0 1 100 (1 / 1000)).1 = 1 := by
  decide +kernel

end ENigMA
