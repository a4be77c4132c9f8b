import Verif.Pde.FemThermalProps
import Mathlib.Analysis.SpecialFunctions.Integrals.Basic

/-! # The specification of C115: `edgeProduct` is the integral of the product of two linear functions along an edge -/

set_option autoImplicit false

namespace ENigMA

open intervalIntegral in
/-- **C115, specification.** `edgeProduct l a b c d` is the integral along an edge of length `l` of the product of the linear functions with the
values `a`, `b` and `c`, `d` at the ends of the edge. -/
theorem C115_edgeProduct (l a b c d : ℝ) :
    l * ∫ t in (0 : ℝ)..1, ((1 - t) * a + t * b) * ((1 - t) * c + t * d) = FemThermalOp.edgeProduct l a b c d := by
  have e : ∀ t : ℝ, ((1 - t) * a + t * b) * ((1 - t) * c + t * d) =
      a * c + (a * (d - c) + (b - a) * c) * t + (b - a) * (d - c) * t ^ 2 := by intro t; ring
  simp only [e]
  have i1 : IntervalIntegrable (fun _ : ℝ => a * c) MeasureTheory.volume 0 1 := intervalIntegrable_const
  have i2 : IntervalIntegrable (fun t : ℝ => (a * (d - c) + (b - a) * c) * t) MeasureTheory.volume 0 1 := (continuous_const.mul continuous_id).intervalIntegrable _ _
  have i3 : IntervalIntegrable (fun t : ℝ => (b - a) * (d - c) * t ^ 2) MeasureTheory.volume 0 1 :=
    (continuous_const.mul (continuous_id.pow 2)).intervalIntegrable _ _
  rw [integral_add (i1.add i2) i3, integral_add i1 i2, integral_const, integral_const_mul, integral_const_mul, integral_id, integral_pow]
  unfold FemThermalOp.edgeProduct
  simp only [smul_eq_mul]
  push_cast
  ring

end ENigMA
