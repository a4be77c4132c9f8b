import Verif.Pde.BlackScholesLemmas
import Verif.Pde.FdmHeatExamples

/-!
# C149: option prices with finite differences
-/

set_option linter.unusedSectionVars false
set_option autoImplicit false

namespace ENigMA
open BlackScholes
open FdmHeat (Sound anySolver anySolver_sound)
open FvmHeat (Plain)
variable {K : Type} [Field K] [LinearOrder K] [IsStrictOrderedRing K]

namespace BlackScholes
variable {n : Nat} {P : Par K}

theorem run_inv (g : Mild n P) (solver : Sys K → Nat → K) (hS : Sound solver) (junk : Nat → K) (Q : Nat → (Nat → K) → Prop) (hQ : ∀ k o x, Q k o → Scheme n P o x → Q (k + 1) x)
    (f : EqField K) (hf : Plain f) (hu : f.u.size = n) (h0 : Q 0 f.u.at') (k : Nat) :
    ∃ f', run solver junk n P k f = some f' ∧ f'.u.size = n ∧ Q k f'.u.at' := by
  obtain ⟨t, t0, -⟩ := step_run solver hS junk n g.nodes P g.dx.ne' g.kernel f f hf hu hf hu
  suffices h : ∃ f', steps solver junk n P t k f = some f' ∧ Plain f' ∧ f'.u.size = n ∧ Q k f'.u.at' by
    obtain ⟨f', h1, -, h2⟩ := h
    exact ⟨f', by simp only [run, t0, Option.bind_eq_bind, Option.bind_some, h1], h2⟩
  induction k with
  | zero => exact ⟨f, rfl, hf, hu, h0⟩
  | succ k ih =>
    obtain ⟨f1, h1, h2, h3, h4⟩ := ih
    obtain ⟨t', t0', u, a1, a2, a3, -⟩ := step_run solver hS junk n g.nodes P g.dx.ne' g.kernel f f1 hf hu h2 h3
    rw [t0, Option.some.injEq] at t0'
    subst t0'
    exact ⟨{ f1 with u := u }, by simp only [steps, h1, Option.bind_some]; exact a1, h2, a2, hQ k _ _ h4 a3⟩

end BlackScholes

/-- C149, the part that holds: for mild data every step has exactly one result; between the ends it satisfies the equation of Black and Scholes with central differences. At the ends it does not (`C149_bond`). -/
theorem C149_step_partial (solver : Sys K → Nat → K) (hS : Sound solver) (junk : Nat → K) {n : Nat} {P : Par K} (g : Mild n P) (f : EqField K) (hf : Plain f) (hu : f.u.size = n) :
    ∃ f', run solver junk n P 1 f = some f' ∧ f'.u.size = n ∧ Scheme n P f.u.at' f'.u.at' ∧ ∀ y, Scheme n P f.u.at' y → ∀ i < n, y i = f'.u.at' i := by
  obtain ⟨t, t0, u, a1, a2, a3, a4⟩ := step_run solver hS junk n g.nodes P g.dx.ne' g.kernel f f hf hu hf hu
  exact ⟨{ f with u := u }, by simp only [run, t0, Option.bind_eq_bind, Option.bind_some, steps, a1], a2, a3, a4⟩

/-- C149: every step starts from the result of the one before. -/
theorem C149_steps (solver : Sys K → Nat → K) (hS : Sound solver) (junk : Nat → K) {n : Nat} {P : Par K} (g : Mild n P) (f : EqField K) (hf : Plain f) (hu : f.u.size = n) (k : Nat) :
    ∃ f1 f2, run solver junk n P k f = some f1 ∧ run solver junk n P (k + 1) f = some f2 ∧ Scheme n P f1.u.at' f2.u.at' := by
  obtain ⟨t, t0, -⟩ := step_run solver hS junk n g.nodes P g.dx.ne' g.kernel f f hf hu hf hu
  have h : ∀ k, ∃ f1, steps solver junk n P t k f = some f1 ∧ Plain f1 ∧ f1.u.size = n := by
    intro k
    induction k with
    | zero => exact ⟨f, rfl, hf, hu⟩
    | succ k ih =>
      obtain ⟨f1, h1, h2, h3⟩ := ih
      obtain ⟨t', t0', u, a1, a2, a3, -⟩ := step_run solver hS junk n g.nodes P g.dx.ne' g.kernel f f1 hf hu h2 h3
      rw [t0, Option.some.injEq] at t0'
      subst t0'
      exact ⟨{ f1 with u := u }, by simp only [steps, h1, Option.bind_some]; exact a1, h2, a2⟩
  obtain ⟨f1, h1, h2, h3⟩ := h k
  obtain ⟨t', t0', u, a1, a2, a3, -⟩ := step_run solver hS junk n g.nodes P g.dx.ne' g.kernel f f1 hf hu h2 h3
  rw [t0, Option.some.injEq] at t0'
  subst t0'
  refine ⟨f1, { f1 with u := u }, by simp only [run, t0, Option.bind_eq_bind, Option.bind_some, h1], ?_, a3⟩
  simp only [run, t0, Option.bind_eq_bind, Option.bind_some, steps, h1]
  exact a1

/-- C149: prices never become negative, and grow by no more than a fixed factor per step. -/
theorem C149_bounds (solver : Sys K → Nat → K) (hS : Sound solver) (junk : Nat → K) {n : Nat} {P : Par K} (g : Mild n P) (f : EqField K) (hf : Plain f) (hu : f.u.size = n)
    (M : K) (h0 : ∀ i < n, 0 ≤ f.u.at' i) (hM : ∀ i < n, f.u.at' i ≤ M) (k : Nat) :
    ∃ f', run solver junk n P k f = some f' ∧ ∀ i < n, 0 ≤ f'.u.at' i ∧ f'.u.at' i ≤ M / (1 - P.dt * (drift P * share P (n - 1) - rate P)) ^ k := by
  have hM0 : 0 ≤ M := (h0 0 (by have := g.nodes; omega)).trans (hM 0 (by have := g.nodes; omega))
  obtain ⟨f', h1, -, h2⟩ := run_inv g solver hS junk (fun k x => ∀ i < n, 0 ≤ x i ∧ x i ≤ M / least n P ^ k) (by
    intro k o x ho hx i hi
    have hp := g.least_pos
    refine ⟨g.above o x hx 0 (fun i hi => by rw [zero_mul]; exact (ho i hi).1) i hi, ?_⟩
    have := g.above _ _ hx.neg (-(M / least n P ^ (k + 1))) (fun i hi => ?_) i hi
    · linarith
    · have h1 := mul_le_mul_of_nonneg_left (g.keep_ge i hi) (show 0 ≤ M / least n P ^ (k + 1) by positivity)
      have h2 : M / least n P ^ (k + 1) * least n P = M / least n P ^ k := by rw [pow_succ]; field_simp
      have h3 := (ho i hi).2
      linarith) f hf hu (fun i hi => ⟨h0 i hi, by simpa using hM i hi⟩) k
  exact ⟨f', h1, h2⟩

/-- C149: where the share is worth nothing the option is worth its discounted payoff, at every step. -/
theorem C149_worthless_share (solver : Sys K → Nat → K) (hS : Sound solver) (junk : Nat → K) {n : Nat} {P : Par K} (g : Mild n P) (h0 : P.smin = 0) (f : EqField K) (hf : Plain f) (hu : f.u.size = n) (k : Nat) :
    ∃ f', run solver junk n P k f = some f' ∧ f'.u.at' 0 = f.u.at' 0 / (1 + P.dt * rate P) ^ k := by
  have hd : 0 < 1 + P.dt * rate P := by have := g.dt; have := g.rate_nonneg; positivity
  obtain ⟨f', h1, -, h2⟩ := run_inv g solver hS junk (fun k x => x 0 = f.u.at' 0 / (1 + P.dt * rate P) ^ k) (by
    intro k o x ho hx
    have hs : share P 0 = 0 := by simp [share, h0]
    have := scheme_rows n g.nodes P g.dx.ne' g.dt.ne' o x hx 0 (by have := g.nodes; omega)
    rw [down_zero] at this
    unfold keep up at this
    rw [if_pos (Or.inl rfl), if_pos (by have := g.nodes; omega), if_pos rfl, hs, ho] at this
    rw [pow_succ, ← div_div, eq_div_iff hd.ne', ← this]
    ring) f hf hu (by simp) k
  exact ⟨f', h1, h2⟩

/-- C149, where it fails: money that is paid for certain should be worth the same discounted amount at every share price. At the highest price it is worth more than that after any number of steps, and never less anywhere. -/
theorem C149_bond (solver : Sys K → Nat → K) (hS : Sound solver) (junk : Nat → K) {n : Nat} {P : Par K} (g : Mild n P) (hr : 0 < P.r) (ha : P.advect = true)
    (f : EqField K) (hf : Plain f) (hu : f.u.size = n) (h1 : ∀ i < n, f.u.at' i = 1) (k : Nat) :
    ∃ f', run solver junk n P (k + 1) f = some f' ∧ (∀ i < n, 1 / (1 + P.dt * rate P) ^ (k + 1) ≤ f'.u.at' i) ∧ 1 / (1 + P.dt * rate P) ^ (k + 1) < f'.u.at' (n - 1) := by
  have hd : 0 < 1 + P.dt * rate P := by have := g.dt; have := g.rate_nonneg; positivity
  have hn := g.nodes
  have hdr : 0 < drift P := by rw [drift, if_pos ha]; exact hr
  have hs : 0 < share P (n - 1) := by
    have := g.smin; have := g.dx
    have : (0 : K) < (n - 1 : Nat) := by exact_mod_cast (by omega : 0 < n - 1)
    unfold share; positivity
  have hnext : ∀ k : Nat, 1 / (1 + P.dt * rate P) ^ (k + 1) * (1 + P.dt * rate P) = 1 / (1 + P.dt * rate P) ^ k := fun k => by rw [pow_succ]; field_simp
  obtain ⟨f', e1, -, e2, e3⟩ := run_inv g solver hS junk (fun k x => (∀ i < n, 1 / (1 + P.dt * rate P) ^ k ≤ x i) ∧ (0 < k → 1 / (1 + P.dt * rate P) ^ k < x (n - 1))) (by
    rintro k o x ⟨ho, -⟩ hx
    have hc : 0 < 1 / (1 + P.dt * rate P) ^ (k + 1) := by positivity
    have hlow : ∀ i < n, 1 / (1 + P.dt * rate P) ^ (k + 1) ≤ x i := g.above o x hx _ fun i hi => by
      refine le_trans ?_ (ho i hi)
      rw [← hnext k]
      refine mul_le_mul_of_nonneg_left ?_ hc.le
      unfold keep
      have : 0 ≤ P.dt * (drift P * share P i) := mul_nonneg g.dt.le (mul_nonneg hdr.le (g.share_nonneg i))
      split <;> linarith
    refine ⟨hlow, fun _ => lt_of_le_of_ne (hlow _ (by omega)) fun he => ?_⟩
    have hrow := scheme_rows n g.nodes P g.dx.ne' g.dt.ne' o x hx (n - 1) (by omega)
    rw [up_last (n - 1) (by omega), ← he] at hrow
    unfold keep at hrow
    rw [if_pos (Or.inr (by omega))] at hrow
    have h1 := hlow (n - 1 - 1) (by omega)
    have h2 := mul_nonneg (g.down_nonneg (n - 1)) (sub_nonneg.2 h1)
    have h3 := ho (n - 1) (by omega)
    have h4 := mul_pos hc (mul_pos g.dt (mul_pos hdr hs))
    have h5 := hnext k
    linarith) f hf hu ⟨fun i hi => by rw [h1 i hi]; simp, fun h => absurd h (lt_irrefl 0)⟩ (k + 1)
  exact ⟨f', e1, e2, e3 (Nat.succ_pos k)⟩

/-- C149: the printed price lies between the values at the two nodes around the share price asked for. -/
theorem C149_quote (n : Nat) (P : Par K) (hdx : 0 < P.dx) (s0 : K) (v : Nat → K) (h1 : P.smin ≤ s0) (h2 : s0 < share P (n - 1)) :
    ∃ w p, w + 1 < n ∧ share P w ≤ s0 ∧ s0 < share P (w + 1) ∧ quote n P s0 v = some (some p) ∧ min (v w) (v (w + 1)) ≤ p ∧ p ≤ max (v w) (v (w + 1)) ∧ (s0 = share P w → p = v w) := by
  have h0 : ¬ s0 < share P 0 := by simpa [share] using h1
  cases hf : above n P s0 with
  | none =>
    have := List.find?_eq_none.1 hf (n - 1)
    have hn : n - 1 < n := by
      rcases Nat.eq_zero_or_pos n with rfl | h
      · exact absurd h2 h0
      · omega
    exact absurd (this (List.mem_range.2 hn)) (by simpa using h2)
  | some j =>
    have hj := List.find?_some hf
    have hm := List.mem_range.1 (List.mem_of_find?_eq_some hf)
    simp only [decide_eq_true_eq] at hj
    cases j with
    | zero => exact absurd hj h0
    | succ w =>
      have hw : share P w ≤ s0 := by
        obtain ⟨-, as, bs, e, hb⟩ := List.find?_eq_some_iff_append.1 hf
        have hmem : w ∈ as := by
          have hget : (List.range n)[w]? = some w := by rw [List.getElem?_range (by omega)]
          have hlen : as.length = w + 1 := by
            have h1 : (List.range n)[as.length]? = some (w + 1) := by rw [e]; simp
            have hlt : as.length < n := by
              have := congrArg List.length e
              simp at this; omega
            rw [List.getElem?_range hlt] at h1
            exact Option.some.inj h1
          rw [e, List.getElem?_append_left (by omega)] at hget
          exact List.mem_of_getElem? hget
        have := hb w hmem
        simpa using this
      have hd : share P (w + 1) - share P w = P.dx := by unfold share; push_cast; ring
      refine ⟨w, v w + (v (w + 1) - v w) * (s0 - share P w) / (share P (w + 1) - share P w), hm, hw, hj, by simp only [quote, hf], ?_, ?_, fun h => by rw [h]; simp⟩
      all_goals
        rw [hd]
        set t := (s0 - share P w) / P.dx with ht
        have e : v w + (v (w + 1) - v w) * (s0 - share P w) / P.dx = (1 - t) * v w + t * v (w + 1) := by rw [ht]; ring
        have t0 : 0 ≤ t := div_nonneg (sub_nonneg.2 hw) hdx.le
        have t1 : t ≤ 1 := by rw [ht, div_le_one hdx]; linarith
        rw [e]
      · have a := mul_le_mul_of_nonneg_left (min_le_left (v w) (v (w + 1))) (sub_nonneg.2 t1)
        have b := mul_le_mul_of_nonneg_left (min_le_right (v w) (v (w + 1))) t0
        linarith
      · have a := mul_le_mul_of_nonneg_left (le_max_left (v w) (v (w + 1))) (sub_nonneg.2 t1)
        have b := mul_le_mul_of_nonneg_left (le_max_right (v w) (v (w + 1))) t0
        linarith

/-- C149: the whole program. For mild data and a share price between the ends of the line a price is printed; it is not negative. -/
theorem C149_calculate (solver : Sys K → Nat → K) (hS : Sound solver) (junk : Nat → K) {n : Nat} {P : Par K} (g : Mild n P) (strike s0 : K) (h1 : P.smin ≤ s0) (h2 : s0 < share P (n - 1)) (k : Nat) :
    ∃ p, calculate solver junk n P strike s0 k = some (some p) ∧ 0 ≤ p := by
  obtain ⟨f', e1, e2⟩ := C149_bounds solver hS junk g (payoff strike n P) rfl rfl (max strike 0) (fun i _ => le_max_right _ _) (fun i _ => max_le_max (by have := g.share_nonneg i; linarith) le_rfl) k
  obtain ⟨w, p, hw, -, -, q1, q2, -⟩ := C149_quote n P g.dx s0 f'.u.at' h1 h2
  exact ⟨p, by simp only [calculate, e1, Option.bind_eq_bind, Option.bind_some, q1], le_trans (le_min (e2 w (by omega)).1 (e2 (w + 1) hw).1) q2⟩

/-- C149, where it fails: for a share price below the line the program reads before the first value; at the upper end of the line and above it no price is printed. -/
theorem C149_outside (solver : Sys K → Nat → K) (hS : Sound solver) (junk : Nat → K) {n : Nat} {P : Par K} (g : Mild n P) (strike s0 : K) (k : Nat) :
    (s0 < P.smin → calculate solver junk n P strike s0 k = none) ∧ (share P (n - 1) ≤ s0 → calculate solver junk n P strike s0 k = some none) := by
  obtain ⟨f', e1, -⟩ := run_inv g solver hS junk (fun _ _ => True) (fun _ _ _ _ _ => trivial) (payoff strike n P) rfl rfl trivial k
  have hn := g.nodes
  simp only [calculate, e1, Option.bind_eq_bind, Option.bind_some, quote]
  refine ⟨fun h => ?_, fun h => ?_⟩
  · have : above n P s0 = some 0 := by
      obtain ⟨m, rfl⟩ : ∃ m, n = m + 1 := ⟨n - 1, by omega⟩
      rw [above, List.range_succ_eq_map, List.find?_cons, show decide (s0 < share P 0) = true by simpa [share] using h]
    rw [this]
  · have : above n P s0 = none := by
      rw [above, List.find?_eq_none]
      intro i hi
      have := share_mono (P := P) g.dx.le (show i ≤ n - 1 by have := List.mem_range.1 hi; omega)
      simpa using this.trans h
    rw [this]

/-! ### The hypotheses are met -/

/-- Share prices 0, 10, .. 100; a rate of 5%, a volatility of 4/5 and steps of 1/10. -/
def BlackScholes.demo : Par ℚ := ⟨1 / 20, 4 / 5, 1 / 10, true, true, true, 0, 10⟩

theorem BlackScholes.demo_mild : Mild 11 demo :=
  ⟨by norm_num, by norm_num [demo], by norm_num [demo], by norm_num [demo], by norm_num [demo], fun i h0 hi => by
    have : (1 : ℚ) ≤ i := by exact_mod_cast h0
    simp only [drift, demo, half2, share, if_true]
    norm_num
    linarith, by norm_num [demo, drift, share, rate]⟩

example (k : Nat) : ∃ p, calculate anySolver (fun _ => 0) 11 demo 50 45 k = some (some p) ∧ 0 ≤ p :=
  C149_calculate anySolver anySolver_sound _ demo_mild 50 45 (by norm_num [demo]) (by norm_num [demo, share]) k
example := C149_step_partial anySolver anySolver_sound (fun _ => 0) demo_mild (payoff 50 11 demo) rfl rfl
example (k : Nat) := C149_worthless_share anySolver anySolver_sound (fun _ => 0) demo_mild rfl (payoff 50 11 demo) rfl rfl k
example (k : Nat) := C149_bond anySolver anySolver_sound (fun _ => 0) demo_mild (by norm_num [demo]) rfl { payoff 50 11 demo with u := ⟨11, fun _ => 1⟩ } rfl rfl (fun _ _ => rfl) k
example (k : Nat) : calculate anySolver (fun _ => 0) 11 demo 50 (-1) k = none := (C149_outside anySolver anySolver_sound _ demo_mild 50 (-1) k).1 (by norm_num [demo])

example (k : Nat) := C149_steps anySolver anySolver_sound (fun _ => 0) demo_mild (payoff 50 11 demo) rfl rfl k

/-- C149: at maturity the price at a node is what the option to sell at the strike is worth there. -/
theorem C149_maturity (solver : Sys K → Nat → K) (hS : Sound solver) (junk : Nat → K) {n : Nat} {P : Par K} (g : Mild n P) (strike : K) (w : Nat) (hw : w + 1 < n) :
    calculate solver junk n P strike (share P w) 0 = some (some (max (strike - share P w) 0)) := by
  have hmono : ∀ i j : Nat, share P i < share P j → i < j := fun i j h => by
    by_contra hc
    have : (j : K) ≤ i := by exact_mod_cast not_lt.1 hc
    have := mul_le_mul_of_nonneg_left this g.dx.le
    simp only [share] at h
    linarith
  have hlt : share P w < share P (w + 1) := by
    have := g.dx
    simp only [share]
    push_cast
    linarith
  obtain ⟨w', p, a1, a2, a3, a4, -, -, a7⟩ := C149_quote n P g.dx (share P w) (payoff strike n P).u.at' (by simp only [share]; have := mul_nonneg g.dx.le (Nat.cast_nonneg (α := K) w); linarith)
    (lt_of_lt_of_le hlt (by
      have h : ((w + 1 : Nat) : K) ≤ ((n - 1 : Nat) : K) := by exact_mod_cast (by omega : w + 1 ≤ n - 1)
      have := mul_le_mul_of_nonneg_left h g.dx.le
      simp only [share]
      linarith))
  have e : w' = w := by
    have h1 := hmono _ _ a3
    have h2 : ¬ w < w' := fun h => by
      have h : ((w + 1 : Nat) : K) ≤ (w' : K) := by exact_mod_cast h
      have := mul_le_mul_of_nonneg_left h g.dx.le
      simp only [share] at a2 hlt
      linarith
    omega
  subst e
  obtain ⟨t, t0, -⟩ := step_run solver hS junk n g.nodes P g.dx.ne' g.kernel (payoff strike n P) (payoff strike n P) rfl rfl rfl rfl
  simp only [calculate, run, t0, steps, Option.bind_eq_bind, Option.bind_some, a4, a7 rfl]
  rfl

example : calculate anySolver (fun _ => 0) 11 demo 50 (share demo 4) 0 = some (some (max (50 - share demo 4) 0)) := C149_maturity anySolver anySolver_sound _ demo_mild 50 4 (by norm_num)

/-- C149, where it fails: with longer steps a price becomes negative. Share prices 0 and 201, strike 300, a rate of 10%, a step of 1/10, no volatility: the right to sell at 300 what is worth 201 is quoted at less than nothing. -/
theorem C149_negative (solver : Sys ℚ → Nat → ℚ) (hS : Sound solver) : ∃ f', run solver (fun _ => 0) 2 ⟨1 / 10, 1, 1 / 10, false, true, true, 0, 201⟩ 1 (payoff 300 2 ⟨1 / 10, 1, 1 / 10, false, true, true, 0, 201⟩) = some f' ∧
    f'.u.at' 1 = -99 := by
  obtain ⟨t, t0, u, a1, a2, a3, -⟩ := step_run solver hS (fun _ => 0) 2 le_rfl ⟨1 / 10, 1, 1 / 10, false, true, true, 0, 201⟩ (by norm_num) (by
    rintro z ⟨-, h0, h1⟩ i hi
    norm_num [half2, drift, rate, share] at h0 h1
    interval_cases i
    · linarith
    · linarith) (payoff 300 2 ⟨1 / 10, 1, 1 / 10, false, true, true, 0, 201⟩) (payoff 300 2 ⟨1 / 10, 1, 1 / 10, false, true, true, 0, 201⟩) rfl rfl rfl rfl
  refine ⟨{ payoff 300 2 ⟨1 / 10, 1, 1 / 10, false, true, true, 0, 201⟩ with u := u }, by simp only [run, t0, Option.bind_eq_bind, Option.bind_some, steps, a1], ?_⟩
  obtain ⟨-, -, h⟩ := a3
  norm_num [half2, drift, rate, share, payoff] at h
  show u.at' 1 = -99
  linarith

end ENigMA
