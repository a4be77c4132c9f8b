import Verif.Pde.FdmHeatProps

/-!
# C143: what a long run tends to
-/

set_option linter.unusedSectionVars false
set_option autoImplicit false

namespace ENigMA
open Equation FdmHeat
variable {K : Type} [Field K] [LinearOrder K] [IsStrictOrderedRing K]

namespace FdmHeat

/-- The part of a step by which values beyond a prescribed end are moved towards it. -/
def share (dx : K) (P : Par K) : K := P.k / (dx * dx) / (P.rc / P.dt + P.k / (dx * dx))

/-- The straight line from `a`, `share` steps before the first node, to `b`, `share` steps after the last. -/
def profile (n : Nat) (dx : K) (P : Par K) (a b : K) (i : Nat) : K := a + (b - a) * ((i + share dx P) / (n - 1 + 2 * share dx P))

/-- How much of a difference is left after a step. -/
def ratio (n : Nat) (dx : K) (P : Par K) : K :=
  P.rc / P.dt * ((n + 1) * (n + 1)) / (P.rc / P.dt * ((n + 1) * (n + 1)) + 8 * (P.k / (dx * dx)))

theorem ratio_nonneg (n : Nat) (dx : K) (P : Par K) (hrc : 0 < P.rc) (hdt : 0 < P.dt) (hk : 0 ≤ P.k) : 0 ≤ ratio n dx P := by
  have hc : 0 < P.rc / P.dt := div_pos hrc hdt
  have hk2 : 0 ≤ P.k / (dx * dx) := div_nonneg hk (mul_self_nonneg dx)
  unfold ratio
  positivity

/-- Weights of the nodes. -/
def weight (n i : Nat) : K := ((i : K) + 1) * ((n : K) - i)

theorem weight_one (n i : Nat) (hi : i < n) : (1 : K) ≤ weight n i := by
  have h1 : (1 : K) ≤ (i : K) + 1 := by have : (0 : K) ≤ i := by positivity
                                        linarith
  have h2 : (1 : K) ≤ (n : K) - i := by have : (i : K) + 1 ≤ n := by exact_mod_cast hi
                                        linarith
  unfold weight
  nlinarith

theorem weight_le (n i : Nat) : 4 * (weight n i : K) ≤ (n + 1) * (n + 1) := by
  unfold weight
  nlinarith [sq_nonneg ((n : K) - 1 - 2 * i)]

/-- Differences shrink, weighted. -/
theorem decay (n : Nat) (c k : K) (hc : 0 < c) (hk : 0 ≤ k) (e o : Nat → K) (E q : K) (hE : 0 ≤ E)
    (hq : q = c * ((n + 1) * (n + 1)) / (c * ((n + 1) * (n + 1)) + 8 * k))
    (h : ∀ i < n, c * (e i - o i) = k * ((if i = 0 then 0 else e (i - 1)) - 2 * e i + (if i + 1 = n then 0 else e (i + 1))))
    (ho : ∀ i < n, o i ≤ E * weight n i) : ∀ i < n, e i ≤ q * E * weight n i := by
  intro i0 hi0
  obtain ⟨i, hi, hmax⟩ := Finset.exists_max_image (Finset.range n) (fun i => e i - q * E * weight n i) ⟨i0, Finset.mem_range.2 hi0⟩
  rw [Finset.mem_range] at hi
  have hmax : ∀ j < n, e j - q * E * weight n j ≤ e i - q * E * weight n i := fun j hj => hmax j (Finset.mem_range.2 hj)
  suffices hs : e i - q * E * weight n i ≤ 0 by have := hmax i0 hi0; linarith
  by_contra hlt
  rw [not_le] at hlt
  have hl : (if i = 0 then 0 else e (i - 1)) ≤ e i - q * E * weight n i + q * E * ((i : K) * (n - i + 1)) := by
    split
    · next h0 => rw [h0]; push_cast; simp only [zero_mul, mul_zero, add_zero]; rw [h0] at hlt; exact hlt.le
    · have := hmax (i - 1) (by omega)
      have e1 : (weight n (i - 1) : K) = (i : K) * (n - i + 1) := by
        unfold weight
        rw [Nat.cast_sub (by omega)]; push_cast; ring
      rw [e1] at this
      linarith
  have hr : (if i + 1 = n then 0 else e (i + 1)) ≤ e i - q * E * weight n i + q * E * (((i : K) + 2) * (n - i - 1)) := by
    split
    · next h0 =>
      have : (n : K) - i - 1 = 0 := by rw [← h0]; push_cast; ring
      rw [this, mul_zero, mul_zero, add_zero]; exact hlt.le
    · have := hmax (i + 1) (by omega)
      have e1 : (weight n (i + 1) : K) = ((i : K) + 2) * (n - i - 1) := by
        unfold weight
        push_cast; ring
      rw [e1] at this
      linarith
  have hsum : (if i = 0 then 0 else e (i - 1)) - 2 * e i + (if i + 1 = n then 0 else e (i + 1)) ≤ -2 * (q * E) := by
    have : q * E * ((i : K) * (n - i + 1)) + q * E * (((i : K) + 2) * (n - i - 1)) - 2 * (q * E * weight n i) = -2 * (q * E) := by
      unfold weight; ring
    linarith
  have h1 := h i hi
  have h2 : k * ((if i = 0 then 0 else e (i - 1)) - 2 * e i + (if i + 1 = n then 0 else e (i + 1))) ≤ k * (-2 * (q * E)) := mul_le_mul_of_nonneg_left hsum hk
  have h3 : c * (q * E * weight n i) < c * e i := mul_lt_mul_of_pos_left (by linarith) hc
  have h4 : c * o i ≤ c * (E * weight n i) := mul_le_mul_of_nonneg_left (ho i hi) hc.le
  have hlt2 : c * (q * E * weight n i) < c * (E * weight n i) - 2 * k * (q * E) := by nlinarith
  -- the value of `q`
  have hN : (0 : K) < ((n : K) + 1) * (n + 1) := by positivity
  have hden : 0 < c * ((n + 1) * (n + 1)) + 8 * k := by have := mul_pos hc hN; linarith
  have hq' : q * (c * ((n + 1) * (n + 1)) + 8 * k) = c * ((n + 1) * (n + 1)) := by rw [hq, div_mul_cancel₀ _ hden.ne']
  have hw := weight_le (K := K) n i
  have hm := mul_lt_mul_of_pos_right hlt2 hden
  have hA : c * (q * E * weight n i) * (c * ((n + 1) * (n + 1)) + 8 * k) = c * E * weight n i * (c * ((n + 1) * (n + 1))) := by
    linear_combination (c * E * weight n i) * hq'
  have hB : (c * (E * weight n i) - 2 * k * (q * E)) * (c * ((n + 1) * (n + 1)) + 8 * k) =
      c * E * weight n i * (c * ((n + 1) * (n + 1)) + 8 * k) - 2 * k * E * (c * ((n + 1) * (n + 1))) := by
    linear_combination (-2 * k * E) * hq'
  rw [hA, hB] at hm
  have hf : 0 ≤ 2 * k * c * E * ((n + 1) * (n + 1) - 4 * weight n i) := by
    have : 0 ≤ ((n : K) + 1) * (n + 1) - 4 * weight n i := by linarith
    positivity
  nlinarith

/-- Two fields with the same prescribed values. -/
theorem twins (solver : Sys K → Nat → K) (hS : Sound solver) (junk : Nat → K) (n : Nat) (dx : K) (hn : 2 ≤ n) (hdx : dx ≠ 0) (P : Par K) (hrc : 0 < P.rc)
    (hdt : 0 < P.dt) (hk : 0 ≤ P.k) (f g : EqField K) (hfg : g.uFixed = f.uFixed) (hf : IndicesOk f.uFixed n) (hu : n ≤ f.u.size) (hv : n ≤ g.u.size)
    (h0 : (prescribed f 0).isSome) (h1 : (prescribed f (n - 1)).isSome) (E : K) (hE : 0 ≤ E) (hd : ∀ i < n, |f.u.at' i - g.u.at' i| ≤ E * weight n i) :
    ∃ f' g', step solver junk n dx P f = some f' ∧ step solver junk n dx P g = some g' ∧ f'.uFixed = f.uFixed ∧ g'.uFixed = f.uFixed ∧ f'.u.size = n ∧ g'.u.size = n ∧
      ∀ i < n, |f'.u.at' i - g'.u.at' i| ≤ ratio n dx P * E * weight n i := by
  obtain ⟨u, x, a1, a2, a3, a4, -⟩ := step_run solver hS junk n dx hn hdx P hrc hdt hk f hf hu
  obtain ⟨v, y, b1, b2, b3, b4, -⟩ := step_run solver hS junk n dx hn hdx P hrc hdt hk g (hfg ▸ hf) hv
  have hp : ∀ i, prescribed g i = prescribed f i := fun i => by simp only [prescribed, hfg]
  refine ⟨_, _, a1, b1, rfl, hfg, a2, b2, ?_⟩
  have hc : 0 < P.rc / P.dt := div_pos hrc hdt
  have hk2 : 0 ≤ P.k / (dx * dx) := div_nonneg hk (mul_self_nonneg dx)
  obtain ⟨va, hva⟩ := Option.isSome_iff_exists.1 h0
  obtain ⟨vb, hvb⟩ := Option.isSome_iff_exists.1 h1
  have key : ∀ i < n, P.rc / P.dt * ((x i - y i) - ((prescribed f i).getD (f.u.at' i) - (prescribed f i).getD (g.u.at' i))) =
      P.k / (dx * dx) * ((if i = 0 then 0 else x (i - 1) - y (i - 1)) - 2 * (x i - y i) + (if i + 1 = n then 0 else x (i + 1) - y (i + 1))) := by
    intro i hi
    have ea := a4 i hi
    have eb := b4 i hi
    unfold before after at ea eb
    simp only [hp] at eb
    rw [hva, Option.getD_some] at ea eb
    by_cases c1 : i = 0 <;> by_cases c2 : i + 1 = n
    · omega
    · subst c1
      rw [if_pos rfl, if_neg c2] at ea eb ⊢
      linear_combination ea - eb
    · have hb : prescribed f i = some vb := by rw [show i = n - 1 by omega]; exact hvb
      rw [if_neg c1, if_pos c2] at ea eb ⊢
      simp only [hb, Option.getD_some] at ea eb ⊢
      linear_combination ea - eb
    · rw [if_neg c1, if_neg c2] at ea eb ⊢
      linear_combination ea - eb
  have hold : ∀ i < n, |(prescribed f i).getD (f.u.at' i) - (prescribed f i).getD (g.u.at' i)| ≤ E * weight n i := by
    intro i hi
    cases prescribed f i with
    | none => exact hd i hi
    | some w =>
      simp only [Option.getD_some, sub_self, abs_zero]
      exact mul_nonneg hE (zero_le_one.trans (weight_one n i hi))
  have up := decay n _ _ hc hk2 (fun i => x i - y i) (fun i => (prescribed f i).getD (f.u.at' i) - (prescribed f i).getD (g.u.at' i)) E (ratio n dx P) hE rfl key
    (fun i hi => (abs_le'.1 (hold i hi)).1)
  have dn := decay n _ _ hc hk2 (fun i => -(x i - y i)) (fun i => -((prescribed f i).getD (f.u.at' i) - (prescribed f i).getD (g.u.at' i))) E (ratio n dx P) hE rfl
    (fun i hi => by
      have := key i hi
      by_cases c1 : i = 0 <;> by_cases c2 : i + 1 = n
      · omega
      · rw [if_pos c1, if_neg c2] at this ⊢
        linear_combination -this
      · rw [if_neg c1, if_pos c2] at this ⊢
        linear_combination -this
      · rw [if_neg c1, if_neg c2] at this ⊢
        linear_combination -this)
    (fun i hi => (abs_le'.1 (hold i hi)).2)
  have hr0 : 0 ≤ ratio n dx P := ratio_nonneg n dx P hrc hdt hk
  intro i hi
  show |u.at' i - v.at' i| ≤ _
  rw [a3, b3, hp]
  cases prescribed f i with
  | none => exact abs_le'.2 ⟨up i hi, dn i hi⟩
  | some w =>
    simp only [Option.getD_some, sub_self, abs_zero]
    exact mul_nonneg (mul_nonneg hr0 hE) (zero_le_one.trans (weight_one n i hi))

end FdmHeat

/-- **C143.** With both ends prescribed the initial temperatures are forgotten: the difference of two runs shrinks at least like the powers of a ratio, which is below one if there is conduction. -/
theorem C143_forgets (solver : Sys K → Nat → K) (hS : Sound solver) (junk : Nat → K) (n : Nat) (dx : K) (hn : 2 ≤ n) (hdx : dx ≠ 0) (P : Par K) (hrc : 0 < P.rc)
    (hdt : 0 < P.dt) (hk : 0 ≤ P.k) (f g : EqField K) (hfg : g.uFixed = f.uFixed) (hf : IndicesOk f.uFixed n) (hu : n ≤ f.u.size) (hv : n ≤ g.u.size)
    (h0 : (prescribed f 0).isSome) (h1 : (prescribed f (n - 1)).isSome) (E : K) (hd : ∀ i < n, |f.u.at' i - g.u.at' i| ≤ E) (m : Nat) :
    ∃ f' g', steps solver junk n dx P m f = some f' ∧ steps solver junk n dx P m g = some g' ∧
      ∀ i < n, |f'.u.at' i - g'.u.at' i| ≤ ratio n dx P ^ m * E * ((n + 1) * (n + 1) / 4) := by
  have hE : 0 ≤ E := (abs_nonneg _).trans (hd 0 (by omega))
  have hr0 : 0 ≤ ratio n dx P := ratio_nonneg n dx P hrc hdt hk
  have key : ∃ f' g', steps solver junk n dx P m f = some f' ∧ steps solver junk n dx P m g = some g' ∧ f'.uFixed = f.uFixed ∧ g'.uFixed = f.uFixed ∧ n ≤ f'.u.size ∧ n ≤ g'.u.size ∧
      ∀ i < n, |f'.u.at' i - g'.u.at' i| ≤ ratio n dx P ^ m * E * weight n i := by
    induction m with
    | zero =>
      refine ⟨f, g, rfl, rfl, rfl, hfg, hu, hv, fun i hi => (hd i hi).trans ?_⟩
      rw [pow_zero, one_mul]
      exact le_mul_of_one_le_right hE (weight_one n i hi)
    | succ m ih =>
      obtain ⟨f1, g1, e1, e2, e3, e4, e5, e6, e7⟩ := ih
      have hp : ∀ i, prescribed f1 i = prescribed f i := fun i => by simp only [prescribed, e3]
      obtain ⟨f', g', t1, t2, t3, t4, t5, t6, t7⟩ := twins solver hS junk n dx hn hdx P hrc hdt hk f1 g1 (by rw [e3, e4]) (e3 ▸ hf) e5 e6 (by rw [hp]; exact h0) (by rw [hp]; exact h1)
        (ratio n dx P ^ m * E) (mul_nonneg (pow_nonneg hr0 m) hE) e7
      refine ⟨f', g', by rw [steps, e1, Option.bind_some, t1], by rw [steps, e2, Option.bind_some, t2], by rw [t3, e3], by rw [t4, e3], t5.ge, t6.ge, fun i hi => ?_⟩
      rw [pow_succ, mul_comm (ratio n dx P ^ m), mul_assoc (ratio n dx P)]
      exact t7 i hi
  obtain ⟨f', g', e1, e2, -, -, -, -, e7⟩ := key
  refine ⟨f', g', e1, e2, fun i hi => (e7 i hi).trans ?_⟩
  refine mul_le_mul_of_nonneg_left ?_ (mul_nonneg (pow_nonneg hr0 m) hE)
  rw [le_div_iff₀ (by norm_num)]
  have := weight_le (K := K) n i
  linarith

/-- **C143.** The ratio is below one if heat is conducted. -/
theorem C143_ratio (n : Nat) (dx : K) (hdx : dx ≠ 0) (P : Par K) (hrc : 0 < P.rc) (hdt : 0 < P.dt) (hk : 0 < P.k) : 0 < ratio n dx P ∧ ratio n dx P < 1 := by
  have hd : 0 < dx * dx := mul_self_pos.2 hdx
  have hc : 0 < P.rc / P.dt := div_pos hrc hdt
  have hN : (0 : K) < ((n : K) + 1) * (n + 1) := by positivity
  have h1 := mul_pos hc hN
  have h2 : 0 < 8 * (P.k / (dx * dx)) := by positivity
  unfold ratio
  exact ⟨div_pos h1 (by linarith), (div_lt_one (by linarith)).2 (by linarith)⟩

/-- **C143.** What a long run tends to, with both ends prescribed: straight lines, but not the line of a steady calculation (C142), and not the line between the ends. How far outside the ends the
prescribed values are met depends on the length of the time step. -/
theorem C143_limit (solver : Sys K → Nat → K) (hS : Sound solver) (junk : Nat → K) (n : Nat) (dx : K) (hn : 2 ≤ n) (hdx : dx ≠ 0) (P : Par K) (hrc : 0 < P.rc)
    (hdt : 0 < P.dt) (hk : 0 ≤ P.k) (f : EqField K) (hf : IndicesOk f.uFixed n) (hu : n ≤ f.u.size) (a b : K) (h0 : prescribed f 0 = some a)
    (h1 : prescribed f (n - 1) = some b) (hin : ∀ i, 0 < i → i + 1 < n → prescribed f i = none) (E : K)
    (hd : ∀ i < n, |f.u.at' i - (if i = 0 then a else if i + 1 = n then b else profile n dx P a b i)| ≤ E) (m : Nat) :
    ∃ f', steps solver junk n dx P m f = some f' ∧
      ∀ i, 0 < i → i + 1 < n → |f'.u.at' i - profile n dx P a b i| ≤ ratio n dx P ^ m * E * ((n + 1) * (n + 1) / 4) := by
  let g : EqField K := { f with u := ⟨n, fun i => if i = 0 then a else if i + 1 = n then b else profile n dx P a b i⟩ }
  obtain ⟨f', g', e1, e2, e3⟩ := C143_forgets solver hS junk n dx hn hdx P hrc hdt hk f g rfl hf hu le_rfl (by rw [h0]; rfl) (by rw [h1]; rfl) E hd m
  obtain ⟨g'', s1, -, -, s2⟩ := steps_inv solver junk n dx P
    (fun _ q => q.uFixed = f.uFixed ∧ n ≤ q.u.size ∧ ∀ i, 0 < i → i + 1 < n → q.u.at' i = profile n dx P a b i) (by
    rintro - q ⟨q1, q2, q3⟩
    obtain ⟨u, x, a1, a2, a3, -, a5⟩ := step_run solver hS junk n dx hn hdx P hrc hdt hk q (q1 ▸ hf) q2
    have hp : ∀ i, prescribed q i = prescribed f i := fun i => by simp only [prescribed, q1]
    have hc : 0 < P.rc / P.dt := div_pos hrc hdt
    have hk2 : 0 ≤ P.k / (dx * dx) := div_nonneg hk (mul_self_nonneg dx)
    have hs : share dx P * (P.rc / P.dt + P.k / (dx * dx)) = P.k / (dx * dx) := div_mul_cancel₀ _ (by linarith)
    have hs0 : 0 ≤ share dx P := by unfold share; positivity
    have hn2 : (2 : K) ≤ n := by exact_mod_cast hn
    have hden : (n : K) - 1 + 2 * share dx P ≠ 0 := by
      have : 0 < (n : K) - 1 + 2 * share dx P := by linarith
      exact this.ne'
    have hfix : Balance n dx P q (profile n dx P a b) := by
      intro i hi
      unfold before after
      simp only [hp]
      -- the slope
      obtain ⟨D, hD⟩ : ∃ D, D = (b - a) / (n - 1 + 2 * share dx P) := ⟨_, rfl⟩
      have hY : ∀ j, profile n dx P a b j = a + D * (j + share dx P) := fun j => by rw [profile, hD]; ring
      have hb : b = a + D * (n - 1 + 2 * share dx P) := by rw [hD, div_mul_cancel₀ _ hden]; ring
      by_cases c1 : i = 0
      · subst c1
        rw [if_pos rfl, if_neg (by omega), h0, hY, hY]
        simp only [Option.getD_some]
        push_cast
        linear_combination D * hs
      · by_cases c2 : i + 1 = n
        · rw [if_neg c1, if_pos c2, show i = n - 1 by omega, h1, hY, hY, hb]
          simp only [Option.getD_some]
          have k1 : ((n - 1 : Nat) : K) = n - 1 := by rw [Nat.cast_sub (by omega)]; simp
          have k2 : ((n - 1 - 1 : Nat) : K) = n - 2 := by rw [Nat.cast_sub (by omega), k1]; push_cast; ring
          rw [k1, k2]
          linear_combination -D * hs
        · rw [if_neg c1, if_neg c2, hin i (by omega) (by omega), Option.getD_none, q3 i (by omega) (by omega), hY, hY, hY]
          rw [Nat.cast_sub (by omega)]
          push_cast
          ring
    refine ⟨_, a1, q1, a2.ge, fun i i0 i1 => ?_⟩
    show u.at' i = _
    rw [a3, hp, hin i i0 i1, Option.getD_none, a5 _ hfix i (by omega)]) m g ⟨rfl, le_rfl, fun i i0 i1 => by
      show (if i = 0 then a else if i + 1 = n then b else profile n dx P a b i) = _
      rw [if_neg (by omega), if_neg (by omega)]⟩
  rw [e2, Option.some.injEq] at s1
  subst s1
  exact ⟨f', e1, fun i i0 i1 => by rw [← s2 i i0 i1]; exact e3 i (by omega)⟩

end ENigMA
