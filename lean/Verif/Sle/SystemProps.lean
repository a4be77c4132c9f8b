import Verif.Sle.System
import Mathlib.Tactic.Ring
import Mathlib.Tactic.Linarith
import Mathlib.Tactic.NormNum

/-! # C18: algebra of linear systems -/

namespace ENigMA
open Sys
variable {K : Type} [Field K]

/-- **C18.** Sums, differences, multiples and row scalings of systems have the corresponding residuals, at every `x` and row. -/
theorem C18_residuals (s t : Sys K) (h : s.n = t.n) (c : K) (v x : Nat → K) :
    (∃ r, s.add t = some r ∧ r.n = s.n ∧ ∀ i, r.residual x i = s.residual x i + t.residual x i) ∧
    (∃ r, s.sub t = some r ∧ r.n = s.n ∧ ∀ i, r.residual x i = s.residual x i - t.residual x i) ∧
    ((smul c s).n = s.n ∧ ∀ i, (smul c s).residual x i = c * s.residual x i) ∧
    ((vmul v s).n = s.n ∧ ∀ i, (vmul v s).residual x i = v i * s.residual x i) := by
  refine ⟨?_, ?_, ⟨rfl, fun i => ?_⟩, ⟨rfl, fun i => ?_⟩⟩
  · refine ⟨_, if_pos h, rfl, fun i => ?_⟩
    simp only [residual, row, add_mul, Finset.sum_add_distrib, h]
    ring
  · refine ⟨_, if_pos h, rfl, fun i => ?_⟩
    simp only [residual, row, sub_mul, Finset.sum_sub_distrib, h]
    ring
  · simp only [residual, row, smul, mul_assoc, ← Finset.mul_sum]
    ring
  · simp only [residual, row, vmul]
    have : ∀ j, s.A i j * v i * x j = v i * (s.A i j * x j) := fun j => by ring
    simp only [this, ← Finset.mul_sum]
    ring

/-- **C18 (right-hand sides and constants).** `system = right` moves `right` to the right-hand side; `system ± c` is the system
of the operator with `± c` on the diagonal **and** `± c` added to the right-hand side; `c * field` is the operator `c·identity`. -/
theorem C18_constants (s : Sys K) (c : K) (v x : Nat → K) (i : Nat) (hi : i < s.n) :
    (s.assignReal c).residual x i = s.residual x i - c ∧
    (s.assignVec v).residual x i = s.residual x i - v i ∧
    (s.addReal c).residual x i = s.residual x i + c * x i - c ∧
    (s.subReal c).residual x i = s.residual x i - c * x i + c ∧
    (ofField c s.n).residual x i = c * x i := by
  have key : ∀ d : K, ∑ j ∈ Finset.range s.n, (if i = j then d * x j else 0) = d * x i := by
    intro d; rw [Finset.sum_ite_eq]; simp [hi]
  refine ⟨by simp only [residual, row, assignReal]; ring, by simp only [residual, row, assignVec]; ring, ?_, ?_, ?_⟩
  · have : ∀ j, (if i = j then s.A i j + c else s.A i j) * x j = s.A i j * x j + (if i = j then c * x j else 0) := by
      intro j; split_ifs <;> ring
    simp only [residual, row, addReal, this, Finset.sum_add_distrib, key]; ring
  · have : ∀ j, (if i = j then s.A i j - c else s.A i j) * x j = s.A i j * x j - (if i = j then c * x j else 0) := by
      intro j; split_ifs <;> ring
    simp only [residual, row, subReal, this, Finset.sum_sub_distrib, key]; ring
  · have : ∀ j, (if i = j then c else 0) * x j = if i = j then c * x j else 0 := by
      intro j; split_ifs <;> ring
    simp only [residual, row, ofField, this, key]; ring

/-- **C18 (matrix type).** The type of a sum or difference is the more general of the two, in the order unknown, sparse symmetric, sparse,
dense in which `solve` dispatches; sums, differences and multiples keep a true symmetry. -/
theorem C18_kind (s t : Sys K) (h : s.n = t.n) (c : K) :
    (∃ r, s.add t = some r ∧ s.kind.code ≤ r.kind.code ∧ t.kind.code ≤ r.kind.code ∧ (r.kind = s.kind ∨ r.kind = t.kind) ∧
      (s.Symmetric → t.Symmetric → r.Symmetric)) ∧
    (∃ r, s.sub t = some r ∧ s.kind.code ≤ r.kind.code ∧ t.kind.code ≤ r.kind.code ∧ (r.kind = s.kind ∨ r.kind = t.kind) ∧
      (s.Symmetric → t.Symmetric → r.Symmetric)) ∧
    ((smul c s).kind = s.kind ∧ (s.Symmetric → (smul c s).Symmetric)) := by
  have hj : ∀ l r : MatrixType, l.code ≤ (joinKind l r).code ∧ r.code ≤ (joinKind l r).code ∧
      (joinKind l r = l ∨ joinKind l r = r) := by
    intro l r
    unfold joinKind
    split_ifs with hlr
    · exact ⟨le_refl _, le_of_lt hlr, Or.inl rfl⟩
    · exact ⟨not_lt.1 hlr, le_refl _, Or.inr rfl⟩
  obtain ⟨h1, h2, h3⟩ := hj s.kind t.kind
  refine ⟨⟨_, if_pos h, h1, h2, h3, ?_⟩, ⟨_, if_pos h, h1, h2, h3, ?_⟩, rfl, ?_⟩
  · intro hs ht i hi j hj
    simp only at hi hj ⊢
    rw [hs i hi j hj, ht i (h ▸ hi) j (h ▸ hj)]
  · intro hs ht i hi j hj
    simp only at hi hj ⊢
    rw [hs i hi j hj, ht i (h ▸ hi) j (h ▸ hj)]
  · intro hs i hi j hj
    simp only [smul] at hi hj ⊢
    rw [hs i hi j hj]

/-- A 2×2 symmetric system over `ℚ`. -/
def sys2 : Sys ℚ := { kind := .sparseSymmetric, n := 2, A := fun i j => if i = j then 2 else 1, b := fun i => (i : ℚ) }

/-- **C18 (what fails).** Row scaling `v * s` keeps the type `MT_SPARSE_SYMMETRIC`, with which `solve` uses conjugate gradients, although the
scaled matrix is in general not symmetric. -/
theorem C18_row_scaling_breaks_symmetry : ∃ (v : Nat → ℚ) (s : Sys ℚ), s.Symmetric ∧
    (vmul v s).kind = .sparseSymmetric ∧ ¬ (vmul v s).Symmetric := by
  refine ⟨fun i => (i : ℚ) + 1, sys2, ?_, rfl, ?_⟩
  · intro i _ j _
    simp only [sys2]
    by_cases h : i = j
    · simp [h]
    · rw [if_neg h, if_neg (Ne.symm h)]
  · intro h
    have := h 0 (by decide) 1 (by decide)
    norm_num [vmul, sys2] at this

/-- A concrete case of C18. -/
example : sys2.residual (fun _ => 1) 1 = 2 ∧ (smul 3 sys2).residual (fun _ => 1) 1 = 6 ∧ sys2.n = sys2.n := by
  refine ⟨?_, ?_, rfl⟩ <;> norm_num [residual, row, sys2, smul, Finset.sum_range_succ]

end ENigMA
