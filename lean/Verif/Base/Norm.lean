import Verif.Base.Vec3
import Mathlib.Analysis.Real.Sqrt

/-!
# Lengths of vectors

`v.norm()` of Eigen is the square root of `v.squaredNorm()`. The models that need lengths take the length
function `nrm : Vec3 K → K` as an argument and the theorems assume `IsNorm nrm`: its value is non-negative and
squares to the sum of squares. `IsNorm` has exactly one solution when it has any (`IsNorm.unique`), and over the
reals it is the Euclidean norm (`isNorm_real`). Rounding of the floating-point square root is not modelled.
-/

set_option linter.unusedSectionVars false

namespace ENigMA

variable {K : Type} [Field K] [LinearOrder K] [IsStrictOrderedRing K]

/-- `nrm` is the Euclidean length. -/
structure IsNorm (nrm : Vec3 K → K) : Prop where
  nonneg : ∀ v, 0 ≤ nrm v
  sq : ∀ v, nrm v * nrm v = v.normSq

/-- The Euclidean length over the reals. -/
noncomputable def realNorm (v : Vec3 ℝ) : ℝ := Real.sqrt v.normSq

/-- The hypothesis `IsNorm` is met by the Euclidean norm of `ℝ³`. -/
theorem isNorm_real : IsNorm realNorm :=
  ⟨fun _ => Real.sqrt_nonneg _, fun v => Real.mul_self_sqrt (Vec3.normSq_nonneg v)⟩

namespace IsNorm
variable {nrm : Vec3 K → K} (h : IsNorm nrm)
include h

theorem eq_of_sq {v : Vec3 K} {c : K} (hc : 0 ≤ c) (hs : c * c = v.normSq) : nrm v = c := by
  have h1 := h.nonneg v
  have h2 := h.sq v
  nlinarith [mul_self_nonneg (nrm v - c), mul_self_eq_mul_self_iff.1 (h2.trans hs.symm)]

theorem unique {nrm' : Vec3 K → K} (h' : IsNorm nrm') : nrm = nrm' :=
  funext fun v => h.eq_of_sq (h'.nonneg v) (h'.sq v)

theorem zero : nrm 0 = 0 := h.eq_of_sq le_rfl (by simp [Vec3.normSq])

theorem eq_zero {v : Vec3 K} : nrm v = 0 ↔ v = 0 := by
  constructor
  · intro hv
    apply Vec3.normSq_eq_zero.1
    rw [← h.sq, hv]; ring
  · rintro rfl; exact h.zero

theorem pos {v : Vec3 K} (hv : v ≠ 0) : 0 < nrm v :=
  lt_of_le_of_ne (h.nonneg v) fun h0 => hv (h.eq_zero.1 h0.symm)

theorem smul (c : K) (v : Vec3 K) : nrm (c • v) = |c| * nrm v := by
  apply h.eq_of_sq (mul_nonneg (abs_nonneg c) (h.nonneg v))
  have := h.sq v
  calc |c| * nrm v * (|c| * nrm v) = (|c| * |c|) * (nrm v * nrm v) := by ring
    _ = (c * c) * v.normSq := by rw [abs_mul_abs_self, h.sq]
    _ = _ := by simp only [Vec3.normSq, Vec3.dot, Vec3.smul_x, Vec3.smul_y, Vec3.smul_z]; ring

theorem neg (v : Vec3 K) : nrm (-v) = nrm v := by
  apply h.eq_of_sq (h.nonneg v)
  rw [h.sq]; simp only [Vec3.normSq, Vec3.dot, Vec3.neg_x, Vec3.neg_y, Vec3.neg_z]; ring

theorem sub_comm (a b : Vec3 K) : nrm (a - b) = nrm (b - a) := by
  rw [← h.neg (a - b), neg_sub]

theorem le_iff {a b : Vec3 K} : nrm a ≤ nrm b ↔ a.normSq ≤ b.normSq := by
  rw [← h.sq, ← h.sq]
  exact mul_self_le_mul_self_iff (h.nonneg a) (h.nonneg b)

theorem lt_iff {a b : Vec3 K} : nrm a < nrm b ↔ a.normSq < b.normSq := by
  rw [← not_le, h.le_iff, not_le]

end IsNorm

end ENigMA
