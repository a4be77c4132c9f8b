import Verif.Pde.Burgers

set_option linter.unusedSectionVars false
set_option autoImplicit false

namespace ENigMA
namespace Burgers
open FdmHeat (Sound)
open FvmHeat (Plain plain_ok plain_none)
variable {K : Type} [Field K] [LinearOrder K] [IsStrictOrderedRing K]

/-- Row `i` of the scheme; `c` is the velocity that carries. -/
def rowOf (n : Nat) (dx : K) (P : Par K) (c o x : Nat → K) (i : Nat) : K :=
  if i = 0 then 1 / P.dt * (x 0 - o 0) + c 0 * x 0 - P.mu * ((x 1 - x 0) / (dx * dx))
  else if i + 1 < n then 1 / P.dt * (x i - o i) + c i * ((x (i + 1) - x (i - 1)) / (2 * dx)) - P.mu * ((x (i - 1) - 2 * x i + x (i + 1)) / (dx * dx))
  else 1 / P.dt * (x i - o i) + c i * x i - P.mu * ((x (i - 1) - x i) / (dx * dx))

theorem scheme_iff (n : Nat) (hn : 2 ≤ n) (dx : K) (P : Par K) (o x : Nat → K) : Scheme n dx P o x ↔ ∀ i < n, rowOf n dx P o o x i = 0 := by
  obtain ⟨m, rfl⟩ : ∃ m, n = m + 2 := ⟨n - 2, by omega⟩
  constructor
  · rintro ⟨h1, h2, h3⟩ i hi
    unfold rowOf
    by_cases h : i = 0
    · subst h; rw [if_pos rfl]; linear_combination h2
    · rw [if_neg h]
      by_cases hl : i + 1 < m + 2
      · rw [if_pos hl]; linear_combination (h1 i (by omega) hl)
      · obtain rfl : i = m + 1 := by omega
        rw [if_neg hl]
        simp only [Nat.add_sub_cancel] at h3 ⊢
        simp only [show m + 2 - 1 = m + 1 by omega] at h3
        linear_combination h3
  · intro h
    refine ⟨fun i h0 hi => ?_, ?_, ?_⟩
    · have := h i (by omega)
      rw [rowOf, if_neg (by omega), if_pos hi] at this
      linear_combination this
    · have := h 0 (by omega)
      rw [rowOf, if_pos rfl] at this
      linear_combination this
    · have := h (m + 1) (by omega)
      rw [rowOf, if_neg (by omega), if_neg (by omega)] at this
      simp only [Nat.add_sub_cancel, show m + 2 - 1 = m + 1 by omega] at this ⊢
      linear_combination this

/-- One solve, given that the homogeneous system has only the trivial solution. -/
theorem solve_run (solver : Sys K → Nat → K) (hS : Sound solver) (junk : Nat → K) (n : Nat) (hn : 2 ≤ n) (dx : K) (hdx : dx ≠ 0) (P : Par K) (f : EqField K) (hf : Plain f) (hu : f.u.size = n)
    (hk : ∀ z, (∀ i < n, rowOf n dx P f.u.at' (fun _ => 0) z i = 0) → ∀ i < n, z i = 0) :
    ∃ u : EVec K, solveStep solver junk n dx P f = some { f with u := u } ∧ u.size = n ∧ Scheme n dx P f.u.at' u.at' ∧ ∀ y, Scheme n dx P f.u.at' y → ∀ i < n, y i = u.at' i := by
  obtain ⟨d, d1, d2, d3, d4⟩ := FdmHeat.ddt_residual f n (plain_ok hf _) hu.ge
  have d4 : ∀ x, ∀ i < n, d.residual x i = x i - f.u.at' i := fun x i hi => by rw [d4 x i hi, plain_none hf]; rfl
  obtain ⟨l, l1, l2, l3, l4⟩ := FdmHeat.laplacian_residual f n dx hn (plain_ok hf _)
  obtain ⟨g, g1, g2, g3⟩ := C55_divergence_interior true f n dx hn hdx two_ne_zero (plain_ok hf _) hu.ge 0 0 0 0
  obtain ⟨g', g1', g4⟩ := C55_divergence_ends_generic f n dx hn (plain_ok hf _) hu.ge
  rw [g1, Option.some.injEq] at g1'
  subst g1'
  have n1 : (Sys.smul (1 / P.dt) d).n = (Sys.vmul f.u.at' g).n := d2.trans g2.symm
  obtain ⟨s1, a1, a2, -⟩ := (C18_residuals _ _ n1 0 (fun _ => 0) (fun _ => 0)).1
  have n2 : s1.n = (Sys.smul P.mu l).n := (a2.trans d2).trans l2.symm
  obtain ⟨s, b1, b2, -⟩ := (C18_residuals _ _ n2 0 (fun _ => 0) (fun _ => 0)).2.1
  have hsn : s.n = n := (b2.trans a2).trans d2
  have hkind : s.kind ≠ .unknown := by
    have gk : g.kind = .sparse := by
      have g1 := g1
      unfold Fdm.divergence at g1
      simp only [Option.bind_eq_bind, Option.bind_eq_some_iff] at g1
      obtain ⟨fx, -, r, -, h⟩ := g1
      exact Sys.assemble_kind _ _ _ h
    have k1 : s1.kind = .sparse := BlackScholes.addKind _ _ _ a1 d3 (.inl gk)
    unfold Sys.sub at b1
    rw [if_pos n2, Option.some.injEq] at b1
    rw [← b1]
    simp only [Sys.smul, k1, l3]
    decide
  have hres : ∀ x, ∀ i < n, s.residual x i = rowOf n dx P f.u.at' f.u.at' x i := fun x i hi => by
    obtain ⟨s1', x1, -, x3⟩ := (C18_residuals _ _ n1 0 (fun _ => 0) x).1
    rw [a1, Option.some.injEq] at x1; subst x1
    obtain ⟨s', y1, -, y3⟩ := (C18_residuals _ _ n2 0 (fun _ => 0) x).2.1
    rw [b1, Option.some.injEq] at y1; subst y1
    rw [y3, x3, (C18_residuals d d rfl (1 / P.dt) (fun _ => 0) x).2.2.1.2, (C18_residuals g g rfl 0 f.u.at' x).2.2.2.2, (C18_residuals l l rfl P.mu (fun _ => 0) x).2.2.1.2, d4 x i hi, l4 x i hi]
    unfold rowOf FdmHeat.before FdmHeat.after
    rw [plain_none hf, plain_none hf]
    simp only [Option.getD_none]
    by_cases hz : i = 0
    · subst hz
      have := (g4 x).1
      rw [plain_none hf] at this
      simp only [add_zero] at this
      rw [this]
      simp only [if_true, if_neg (show ¬ 0 + 1 = n by omega)]
      ring
    · simp only [if_neg hz]
      by_cases hl : i + 1 < n
      · obtain ⟨q1, q2, -⟩ := g3 i (by omega) hl
        rw [if_pos hl, if_neg (by omega), Sys.residual, q1, q2]
        ring
      · obtain rfl : i = n - 1 := by omega
        have := (g4 x).2
        rw [plain_none hf] at this
        simp only [add_zero] at this
        rw [this, if_neg hl, if_pos (by omega)]
        ring
  have hsolve : ∀ x, s.Solves x ↔ Scheme n dx P f.u.at' x := fun x => by
    rw [FvmHeat.solves_residual, hsn, scheme_iff n hn]
    exact ⟨fun h i hi => (hres x i hi).symm.trans (h i hi), fun h i hi => (hres x i hi).trans (h i hi)⟩
  have hlin : ∀ z i, rowOf n dx P f.u.at' f.u.at' z i - rowOf n dx P f.u.at' f.u.at' (fun _ => 0) i = rowOf n dx P f.u.at' (fun _ => 0) z i := fun z i => by
    unfold rowOf; split_ifs <;> ring
  have hker : ∀ z : Nat → K, (∀ i < s.n, s.row z i = 0) → ∀ i < s.n, z i = 0 := by
    intro z hz
    rw [hsn] at hz ⊢
    refine hk z fun i hi => ?_
    rw [← hlin, ← hres z i hi, ← hres _ i hi, ← FvmHeat.residual_row]
    exact hz i hi
  obtain ⟨u, h1, h2, h3⟩ := FvmHeat.solve_run solver hS junk s hkind f hf hker
  refine ⟨u, ?_, h2.trans hsn, (hsolve _).1 h3, fun y hy i hi => ?_⟩
  · simp only [solveStep, d1, g1, l1, a1, b1, Option.bind_eq_bind, Option.bind_some]; exact h1
  · have hy := (hsolve y).2 hy
    have := hker (fun j => y j - u.at' j) (fun i hi => by
      have a := hy i hi
      have b := h3 i hi
      have : s.row (fun j => y j - u.at' j) i = s.row y i - s.row u.at' i := by simp only [Sys.row, mul_sub, Finset.sum_sub_distrib]
      rw [this, a, b, sub_self]) i (hsn ▸ hi)
    exact sub_eq_zero.1 this

/-! ### Comparison -/

/-- What a node keeps of its own, and what it exchanges with the node below and with the node above. -/
def keep (n : Nat) (P : Par K) (c : Nat → K) (i : Nat) : K := 1 + if i = 0 ∨ i + 1 = n then P.dt * c i else 0
def down (n : Nat) (dx : K) (P : Par K) (c : Nat → K) (i : Nat) : K := if i = 0 then 0 else P.dt * (P.mu / dx ^ 2 + if i + 1 < n then c i / (2 * dx) else 0)
def up (n : Nat) (dx : K) (P : Par K) (c : Nat → K) (i : Nat) : K := if i + 1 < n then P.dt * (P.mu / dx ^ 2 - if i = 0 then 0 else c i / (2 * dx)) else 0

theorem rows (n : Nat) (hn : 2 ≤ n) (dx : K) (P : Par K) (hdx : dx ≠ 0) (hdt : P.dt ≠ 0) (c o x : Nat → K) (i : Nat) (hi : i < n) (h : rowOf n dx P c o x i = 0) :
    keep n P c i * x i + down n dx P c i * (x i - x (i - 1)) + up n dx P c i * (x i - x (i + 1)) = o i := by
  unfold keep down up
  unfold rowOf at h
  by_cases h0 : i = 0
  · subst h0
    rw [if_pos rfl] at h
    rw [if_pos (Or.inl rfl), if_pos rfl, if_pos (by omega), if_pos rfl]
    field_simp at h ⊢
    linear_combination h
  · rw [if_neg h0] at h
    rw [if_neg h0]
    by_cases hl : i + 1 < n
    · rw [if_pos hl] at h
      rw [if_neg (by omega), if_pos hl, if_pos hl, if_neg h0]
      field_simp at h ⊢
      linear_combination h
    · rw [if_neg hl] at h
      rw [if_pos (by omega), if_neg hl, if_neg hl]
      field_simp at h ⊢
      linear_combination h

variable {n : Nat} {dx : K} {P : Par K} {c : Nat → K}

theorem Fine.keep_ge (g : Fine n dx P c) (i : Nat) (hi : i < n) : 1 ≤ keep n P c i := by
  unfold keep
  have := mul_nonneg g.time.le (g.forward i hi)
  split <;> linarith

theorem Fine.down_nonneg (g : Fine n dx P c) (i : Nat) (hi : i < n) : 0 ≤ down n dx P c i := by
  have h1 := g.time; have h2 := g.gap; have h3 := g.visc; have h4 := g.forward i hi
  unfold down
  split <;> [exact le_rfl; (split <;> positivity)]

theorem Fine.up_nonneg (g : Fine n dx P c) (i : Nat) (hi : i < n) : 0 ≤ up n dx P c i := by
  have h1 := g.time; have h2 := g.gap; have h3 := g.visc; have h4 := g.fine i hi
  unfold up
  split
  · refine mul_nonneg h1.le ?_
    split
    · rw [sub_zero]; positivity
    · have : P.mu / dx ^ 2 - c i / (2 * dx) = (2 * P.mu - c i * dx) / (2 * dx ^ 2) := by field_simp
      rw [this]
      exact div_nonneg (by linarith) (by positivity)
  · exact le_rfl

/-- Comparison for the scheme. -/
theorem Fine.above (g : Fine n dx P c) (o x : Nat → K) (h : ∀ i < n, rowOf n dx P c o x i = 0) (b : K) (hb : ∀ i < n, b * keep n P c i ≤ o i) : ∀ i < n, b ≤ x i := by
  intro i hi
  refine sub_nonneg.1 (BlackScholes.lower n (keep n P c) (down n dx P c) (up n dx P c) (fun i => o i - b * keep n P c i) (fun i => x i - b) (fun i hi => one_pos.trans_le (g.keep_ge i hi)) (fun i hi => g.down_nonneg i hi)
    (fun i hi => g.up_nonneg i hi) (if_pos rfl) (fun i hi => if_neg (by omega)) (fun i hi => ?_) (fun i hi => sub_nonneg.2 (hb i hi)) i hi)
  have := rows n g.nodes dx P g.gap.ne' g.time.ne' c o x i hi (h i hi)
  linear_combination this

theorem rowOf_neg (o x : Nat → K) (i : Nat) : rowOf n dx P c (fun i => -o i) (fun i => -x i) i = -rowOf n dx P c o x i := by
  unfold rowOf; split_ifs <;> ring

theorem Fine.below (g : Fine n dx P c) (o x : Nat → K) (h : ∀ i < n, rowOf n dx P c o x i = 0) (b : K) (hb : ∀ i < n, o i ≤ b * keep n P c i) : ∀ i < n, x i ≤ b := by
  intro i hi
  have := g.above _ _ (fun i hi => by rw [rowOf_neg, h i hi, neg_zero]) (-b) (fun i hi => by have := hb i hi; linarith) i hi
  linarith

theorem Fine.kernel (g : Fine n dx P c) (z : Nat → K) (h : ∀ i < n, rowOf n dx P c (fun _ => 0) z i = 0) : ∀ i < n, z i = 0 := fun i hi =>
  le_antisymm (g.below _ _ h 0 (fun i _ => by simp) i hi) (g.above _ _ h 0 (fun i _ => by simp) i hi)

end Burgers
end ENigMA
