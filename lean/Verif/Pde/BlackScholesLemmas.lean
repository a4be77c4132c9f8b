import Verif.Pde.BlackScholes

set_option linter.unusedSectionVars false
set_option autoImplicit false

namespace ENigMA
namespace BlackScholes
open FdmHeat (Sound)
open FvmHeat (Plain plain_ok plain_none)
variable {K : Type} [Field K] [LinearOrder K] [IsStrictOrderedRing K]

/-- Row `i` of the scheme. -/
def rowOf (n : Nat) (P : Par K) (o x : Nat → K) (i : Nat) : K :=
  if i = 0 then -1 / P.dt * (x 0 - o 0) + half2 P * (share P 0 * share P 0 * ((x 1 - x 0) / (P.dx * P.dx))) + drift P * (share P 0 * x 0) - rate P * x 0
  else if i + 1 < n then -1 / P.dt * (x i - o i) + half2 P * (share P i * share P i * ((x (i - 1) - 2 * x i + x (i + 1)) / (P.dx * P.dx))) +
    drift P * (share P i * ((x (i + 1) - x (i - 1)) / (2 * P.dx))) - rate P * x i
  else -1 / P.dt * (x i - o i) + half2 P * (share P i * share P i * ((x (i - 1) - x i) / (P.dx * P.dx))) + drift P * (share P i * x i) - rate P * x i

theorem scheme_iff (n : Nat) (hn : 2 ≤ n) (P : Par K) (o x : Nat → K) : Scheme n P o x ↔ ∀ i < n, rowOf n P o x i = 0 := by
  obtain ⟨m, rfl⟩ : ∃ m, n = m + 2 := ⟨n - 2, by omega⟩
  constructor
  · rintro ⟨h1, h2, h3⟩ i hi
    unfold rowOf
    by_cases h : i = 0
    · subst h; rw [if_pos rfl]; linear_combination -h2
    · rw [if_neg h]
      by_cases hl : i + 1 < m + 2
      · rw [if_pos hl]; linear_combination -(h1 i (by omega) hl)
      · obtain rfl : i = m + 1 := by omega
        rw [if_neg hl]
        simp only [Nat.add_sub_cancel] at h3 ⊢
        simp only [show m + 2 - 1 = m + 1 by omega] at h3
        linear_combination -h3
  · intro h
    refine ⟨fun i h0 hi => ?_, ?_, ?_⟩
    · have := h i (by omega)
      rw [rowOf, if_neg (by omega), if_pos hi] at this
      linear_combination -this
    · have := h 0 (by omega)
      rw [rowOf, if_pos rfl] at this
      linear_combination -this
    · have := h (m + 1) (by omega)
      rw [rowOf, if_neg (by omega), if_neg (by omega)] at this
      simp only [Nat.add_sub_cancel, show m + 2 - 1 = m + 1 by omega] at this ⊢
      linear_combination -this

theorem addKind (l r s : Sys K) (h : l.add r = some s) (hl : l.kind = .sparse) (hr : r.kind = .sparse ∨ r.kind = .unknown) : s.kind = .sparse := by
  unfold Sys.add at h
  split at h
  · rw [Option.some.injEq] at h
    rw [← h]
    rcases hr with hr | hr <;> simp only [hl, hr] <;> rfl
  · cases h

/-- The terms computed at maturity. -/
theorem terms_spec (n : Nat) (hn : 2 ≤ n) (P : Par K) (hdx : P.dx ≠ 0) (f : EqField K) (hf : Plain f) (hu : f.u.size = n) :
    ∃ t, terms n P f = some t ∧ t.1.n = n ∧ t.2.1.n = n ∧ t.2.2.n = n ∧ t.1.kind = .sparse ∧ t.2.1.kind = .sparse ∧ t.2.2.kind = .unknown ∧
      ∀ x, ∀ i < n, -1 / P.dt * (x i - f.u.at' i) + t.1.residual x i + t.2.1.residual x i + t.2.2.residual x i = rowOf n P f.u.at' x i := by
  obtain ⟨l, l1, l2, l3, l4⟩ := FdmHeat.laplacian_residual f n P.dx hn (plain_ok hf _)
  obtain ⟨g, g1, g2, g3⟩ := C55_divergence_interior true f n P.dx hn hdx two_ne_zero (plain_ok hf _) hu.ge 0 0 0 0
  obtain ⟨g', g1', g4⟩ := C55_divergence_ends_generic f n P.dx hn (plain_ok hf _) hu.ge
  rw [g1, Option.some.injEq] at g1'
  subst g1'
  have gk : g.kind = .sparse := by
    have g1 := g1
    unfold Fdm.divergence at g1
    simp only [Option.bind_eq_bind, Option.bind_eq_some_iff] at g1
    obtain ⟨fx, -, r, -, h⟩ := g1
    exact Sys.assemble_kind _ _ _ h
  refine ⟨_, by simp only [terms, l1, g1, Option.bind_eq_bind, Option.bind_some]; rfl, l2, g2, hu, l3, gk, rfl, fun x i hi => ?_⟩
  have h1 : flag P.diff * (1 / 2) * P.sigma * P.sigma = half2 P := by unfold flag half2; split <;> ring
  have h2 : flag P.advect * P.r = drift P := by unfold flag drift; split <;> ring
  have h3 : -flag P.react * P.r = -rate P := by unfold flag rate; split <;> ring
  have e1 : ∀ c v, (Sys.smul c (Sys.vmul v l)).residual x i = c * (v i * l.residual x i) := fun c v => by
    rw [(C18_residuals (Sys.vmul v l) l rfl c v x).2.2.1.2, (C18_residuals l l rfl c v x).2.2.2.2]
  have e2 : ∀ c v, (Sys.smul c (Sys.vmul v g)).residual x i = c * (v i * g.residual x i) := fun c v => by
    rw [(C18_residuals (Sys.vmul v g) g rfl c v x).2.2.1.2, (C18_residuals g g rfl c v x).2.2.2.2]
  have e3 : ∀ c : K, (Sys.ofField c f.u.size).residual x i = c * x i := fun c => by
    simp only [Sys.residual, Sys.row, Sys.ofField, ite_mul, zero_mul, sub_zero]
    rw [Finset.sum_ite_eq, if_pos (Finset.mem_range.2 (hu ▸ hi))]
  simp only [e1, e2, e3, h1, h2, h3]
  rw [l4 x i hi]
  unfold rowOf FdmHeat.before FdmHeat.after
  rw [plain_none hf, plain_none hf]
  simp only [Option.getD_none]
  by_cases hz : i = 0
  · subst hz
    have := (g4 x).1
    rw [plain_none hf] at this
    simp only [add_zero] at this
    rw [this]
    simp only [if_true, if_neg (show ¬ 0 + 1 = n by omega)]
    ring
  · simp only [if_neg hz]
    by_cases hl : i + 1 < n
    · obtain ⟨q1, q2, -⟩ := g3 i (by omega) hl
      rw [if_pos hl, if_neg (by omega), Sys.residual, q1, q2]
      ring
    · obtain rfl : i = n - 1 := by omega
      have := (g4 x).2
      rw [plain_none hf] at this
      simp only [add_zero] at this
      rw [this, if_neg hl, if_pos (by omega)]
      ring

/-- One step, given that the homogeneous scheme has only the trivial solution. `g` is the field the terms were computed from. -/
theorem step_run (solver : Sys K → Nat → K) (hS : Sound solver) (junk : Nat → K) (n : Nat) (hn : 2 ≤ n) (P : Par K) (hdx : P.dx ≠ 0) (hk : ∀ z, Scheme n P (fun _ => 0) z → ∀ i < n, z i = 0)
    (g f : EqField K) (hg : Plain g) (hgu : g.u.size = n) (hf : Plain f) (hu : f.u.size = n) :
    ∃ t, terms n P g = some t ∧ ∃ u : EVec K, step solver junk n P t f = some { f with u := u } ∧ u.size = n ∧ Scheme n P f.u.at' u.at' ∧ ∀ y, Scheme n P f.u.at' y → ∀ i < n, y i = u.at' i := by
  obtain ⟨t, t0, t1, t2, t3, k1, k2, k3, hrow⟩ := terms_spec n hn P hdx g hg hgu
  refine ⟨t, t0, ?_⟩
  obtain ⟨d, d1, d2, d3, d4⟩ := FdmHeat.ddt_residual f n (plain_ok hf _) hu.ge
  have d4 : ∀ x, ∀ i < n, d.residual x i = x i - f.u.at' i := fun x i hi => by rw [d4 x i hi, plain_none hf]; rfl
  have n1 : (Sys.smul (-1 / P.dt) d).n = t.1.n := d2.trans t1.symm
  obtain ⟨s1, a1, a2, -⟩ := (C18_residuals _ _ n1 0 (fun _ => 0) (fun _ => 0)).1
  have n2 : s1.n = t.2.1.n := by rw [a2, t2]; exact d2
  obtain ⟨s2, b1, b2, -⟩ := (C18_residuals _ _ n2 0 (fun _ => 0) (fun _ => 0)).1
  have n3 : s2.n = t.2.2.n := by rw [b2, n2, t2, t3]
  obtain ⟨s, c1, c2, -⟩ := (C18_residuals _ _ n3 0 (fun _ => 0) (fun _ => 0)).1
  have hsn : s.n = n := by rw [c2, b2, n2, t2]
  have hkind : s.kind = .sparse := addKind _ _ _ c1 (addKind _ _ _ b1 (addKind _ _ _ a1 d3 (.inl k1)) (.inl k2)) (.inr k3)
  have hres : ∀ x, ∀ i < n, s.residual x i = rowOf n P f.u.at' x i := fun x i hi => by
    obtain ⟨s1', x1, -, x3⟩ := (C18_residuals _ _ n1 0 (fun _ => 0) x).1
    rw [a1, Option.some.injEq] at x1; subst x1
    obtain ⟨s2', y1, -, y3⟩ := (C18_residuals _ _ n2 0 (fun _ => 0) x).1
    rw [b1, Option.some.injEq] at y1; subst y1
    obtain ⟨s', z1, -, z3⟩ := (C18_residuals _ _ n3 0 (fun _ => 0) x).1
    rw [c1, Option.some.injEq] at z1; subst z1
    rw [z3, y3, x3, (C18_residuals d d rfl (-1 / P.dt) (fun _ => 0) x).2.2.1.2, d4 x i hi]
    have := hrow x i hi
    have e : rowOf n P f.u.at' x i = rowOf n P g.u.at' x i + (-1 / P.dt * (x i - f.u.at' i) - -1 / P.dt * (x i - g.u.at' i)) := by
      unfold rowOf
      split_ifs with h h'
      · rw [h]; ring
      · ring
      · ring
    rw [e, ← this]; ring
  have hsolve : ∀ x, s.Solves x ↔ Scheme n P f.u.at' x := fun x => by
    rw [FvmHeat.solves_residual, hsn, scheme_iff n hn]
    exact ⟨fun h i hi => (hres x i hi).symm.trans (h i hi), fun h i hi => (hres x i hi).trans (h i hi)⟩
  have hlin : ∀ z i, rowOf n P f.u.at' z i - rowOf n P f.u.at' (fun _ => 0) i = rowOf n P (fun _ => 0) z i := fun z i => by
    unfold rowOf; split_ifs <;> ring
  have hker : ∀ z : Nat → K, (∀ i < s.n, s.row z i = 0) → ∀ i < s.n, z i = 0 := by
    intro z hz
    rw [hsn] at hz ⊢
    refine hk z ((scheme_iff n hn P _ _).2 fun i hi => ?_)
    rw [← hlin, ← hres z i hi, ← hres _ i hi, ← FvmHeat.residual_row]
    exact hz i hi
  obtain ⟨u, h1, h2, h3⟩ := FvmHeat.solve_run solver hS junk s (by rw [hkind]; simp) f hf hker
  refine ⟨u, ?_, h2.trans hsn, (hsolve _).1 h3, fun y hy i hi => ?_⟩
  · simp only [step, d1, a1, b1, c1, Option.bind_eq_bind, Option.bind_some]; exact h1
  · have hy := (hsolve y).2 hy
    have := hker (fun j => y j - u.at' j) (fun i hi => by
      have a := hy i hi
      have b := h3 i hi
      have : s.row (fun j => y j - u.at' j) i = s.row y i - s.row u.at' i := by simp only [Sys.row, mul_sub, Finset.sum_sub_distrib]
      rw [this, a, b, sub_self]) i (hsn ▸ hi)
    exact sub_eq_zero.1 this

/-! ### Comparison -/

/-- What a node keeps of its own. -/
def keep (n : Nat) (P : Par K) (i : Nat) : K := 1 + P.dt * rate P - if i = 0 ∨ i + 1 = n then P.dt * (drift P * share P i) else 0

/-- What it exchanges with the node below and with the node above. -/
def down (n : Nat) (P : Par K) (i : Nat) : K :=
  if i = 0 then 0 else P.dt * (half2 P * share P i ^ 2 / P.dx ^ 2 - if i + 1 < n then drift P * share P i / (2 * P.dx) else 0)
def up (n : Nat) (P : Par K) (i : Nat) : K :=
  if i + 1 < n then P.dt * (half2 P * share P i ^ 2 / P.dx ^ 2 + if i = 0 then 0 else drift P * share P i / (2 * P.dx)) else 0

theorem scheme_rows (n : Nat) (hn : 2 ≤ n) (P : Par K) (hdx : P.dx ≠ 0) (hdt : P.dt ≠ 0) (o x : Nat → K) (h : Scheme n P o x) (i : Nat) (hi : i < n) :
    keep n P i * x i + down n P i * (x i - x (i - 1)) + up n P i * (x i - x (i + 1)) = o i := by
  have h := (scheme_iff n hn P o x).1 h i hi
  unfold keep down up
  unfold rowOf at h
  by_cases h0 : i = 0
  · subst h0
    rw [if_pos rfl] at h
    rw [if_pos (Or.inl rfl), if_pos rfl, if_pos (by omega), if_pos rfl]
    field_simp at h ⊢
    linear_combination -h
  · rw [if_neg h0] at h
    rw [if_neg h0]
    by_cases hl : i + 1 < n
    · rw [if_pos hl] at h
      rw [if_neg (by omega), if_pos hl, if_pos hl, if_neg h0]
      field_simp at h ⊢
      linear_combination -h
    · rw [if_neg hl] at h
      rw [if_pos (by omega), if_neg hl, if_neg hl]
      field_simp at h ⊢
      linear_combination -h

/-- A comparison principle for three-term rows. -/
theorem lower (n : Nat) (p a b o x : Nat → K) (hp : ∀ i < n, 0 < p i) (ha : ∀ i < n, 0 ≤ a i) (hb : ∀ i < n, 0 ≤ b i) (ha0 : a 0 = 0) (hbl : ∀ i, i + 1 = n → b i = 0)
    (h : ∀ i < n, p i * x i + a i * (x i - x (i - 1)) + b i * (x i - x (i + 1)) = o i) (ho : ∀ i < n, 0 ≤ o i) : ∀ i < n, 0 ≤ x i := by
  intro j hj
  obtain ⟨i, hi, hmin⟩ := Finset.exists_min_image (Finset.range n) x ⟨j, Finset.mem_range.2 hj⟩
  have hi := Finset.mem_range.1 hi
  refine le_trans ?_ (hmin j (Finset.mem_range.2 hj))
  have h1 : a i * (x i - x (i - 1)) ≤ 0 := by
    rcases Nat.eq_zero_or_pos i with rfl | hpos
    · rw [ha0, zero_mul]
    · exact mul_nonpos_of_nonneg_of_nonpos (ha i hi) (sub_nonpos.2 (hmin (i - 1) (Finset.mem_range.2 (by omega))))
  have h2 : b i * (x i - x (i + 1)) ≤ 0 := by
    by_cases hl : i + 1 = n
    · rw [hbl i hl, zero_mul]
    · exact mul_nonpos_of_nonneg_of_nonpos (hb i hi) (sub_nonpos.2 (hmin (i + 1) (Finset.mem_range.2 (by omega))))
  have h3 : 0 ≤ p i * x i := by have := h i hi; have := ho i hi; linarith
  exact nonneg_of_mul_nonneg_right h3 (hp i hi)

theorem share_mono {P : Par K} (hdx : 0 ≤ P.dx) {i j : Nat} (h : i ≤ j) : share P i ≤ share P j := by
  unfold share
  have : (i : K) ≤ j := by exact_mod_cast h
  have := mul_le_mul_of_nonneg_left this hdx
  linarith

theorem half2_nonneg (P : Par K) : 0 ≤ half2 P := by unfold half2; split <;> positivity

variable {n : Nat} {P : Par K}

theorem Mild.share_nonneg (g : Mild n P) (i : Nat) : 0 ≤ share P i := by
  have := g.smin; have := g.dx
  unfold share; positivity

theorem Mild.drift_nonneg (g : Mild n P) : 0 ≤ drift P := by unfold drift; split <;> [exact g.r; exact le_rfl]
theorem Mild.rate_nonneg (g : Mild n P) : 0 ≤ rate P := by unfold rate; split <;> [exact g.r; exact le_rfl]

/-- The least that a node keeps. -/
def least (n : Nat) (P : Par K) : K := 1 - P.dt * (drift P * share P (n - 1) - rate P)

theorem Mild.least_pos (g : Mild n P) : 0 < least n P := sub_pos.2 g.short

theorem Mild.keep_ge (g : Mild n P) (i : Nat) (hi : i < n) : least n P ≤ keep n P i := by
  have h1 : drift P * share P i ≤ drift P * share P (n - 1) := mul_le_mul_of_nonneg_left (share_mono g.dx.le (by omega)) g.drift_nonneg
  have h2 := mul_le_mul_of_nonneg_left h1 g.dt.le
  have h3 : 0 ≤ P.dt * (drift P * share P (n - 1)) := mul_nonneg g.dt.le (mul_nonneg g.drift_nonneg (g.share_nonneg _))
  unfold least keep
  split <;> linarith

theorem Mild.down_nonneg (g : Mild n P) (i : Nat) : 0 ≤ down n P i := by
  unfold down
  split
  · exact le_rfl
  · rename_i h0
    refine mul_nonneg g.dt.le ?_
    split
    · rename_i hl
      have hc := g.calm i (by omega) hl
      have hs := g.share_nonneg i
      have hx := g.dx
      have : half2 P * share P i ^ 2 / P.dx ^ 2 - drift P * share P i / (2 * P.dx) = share P i * (2 * half2 P * share P i - drift P * P.dx) / (2 * P.dx ^ 2) := by field_simp
      rw [this]
      exact div_nonneg (mul_nonneg hs (by linarith)) (by positivity)
    · have := half2_nonneg P
      rw [sub_zero]; positivity

theorem Mild.up_nonneg (g : Mild n P) (i : Nat) : 0 ≤ up n P i := by
  unfold up
  have h1 := half2_nonneg P
  have h2 := g.drift_nonneg
  have h3 := g.share_nonneg i
  have h4 := g.dx
  have h5 := g.dt
  split <;> [(split <;> positivity); exact le_rfl]

theorem down_zero : down n P 0 = 0 := if_pos rfl
theorem up_last (i : Nat) (h : i + 1 = n) : up n P i = 0 := if_neg (by omega)

/-- Comparison for the scheme. -/
theorem Mild.above (g : Mild n P) (o x : Nat → K) (h : Scheme n P o x) (c : K) (hc : ∀ i < n, c * keep n P i ≤ o i) : ∀ i < n, c ≤ x i := by
  intro i hi
  refine sub_nonneg.1 (lower n (keep n P) (down n P) (up n P) (fun i => o i - c * keep n P i) (fun i => x i - c) (fun i hi => g.least_pos.trans_le (g.keep_ge i hi)) (fun i _ => g.down_nonneg i)
    (fun i _ => g.up_nonneg i) down_zero up_last (fun i hi => ?_) (fun i hi => sub_nonneg.2 (hc i hi)) i hi)
  have := scheme_rows n g.nodes P g.dx.ne' g.dt.ne' o x h i hi
  linear_combination this

theorem Scheme.neg {o x : Nat → K} (h : Scheme n P o x) : Scheme n P (fun i => -o i) (fun i => -x i) := by
  obtain ⟨h1, h2, h3⟩ := h
  refine ⟨fun i h0 hi => ?_, ?_, ?_⟩
  · linear_combination -(h1 i h0 hi)
  · linear_combination -h2
  · linear_combination -h3

theorem Mild.kernel (g : Mild n P) (z : Nat → K) (h : Scheme n P (fun _ => 0) z) : ∀ i < n, z i = 0 := by
  intro i hi
  have h1 := g.above _ _ h 0 (fun i _ => by simp) i hi
  have h2 := g.above _ _ h.neg 0 (fun i _ => by simp) i hi
  linarith

end BlackScholes
end ENigMA
