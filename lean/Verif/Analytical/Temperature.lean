import Mathlib.Analysis.SpecialFunctions.Trigonometric.Deriv
import Mathlib.Analysis.SpecialFunctions.Exp
import Mathlib.Analysis.Real.Pi.Bounds
import Mathlib.Analysis.SpecialFunctions.Sqrt

/-!
# Analytical temperatures

Model of `CAnaTemperature` (trunk/src/analytical/AnaTemperature_Imp.hpp), without `steadyStateHeatConvectionRadiation1D`, whose expression is parsed at run time. Numbers are real numbers; `expm1` is `exp` minus one.
-/

set_option linter.unusedSectionVars false
set_option autoImplicit false

open Real Finset

namespace ENigMA
namespace Ana

/-- `steadyStateHeatConduction1D(x)`: AnaTemperature_Imp.hpp:26-38. -/
def steady1 (x : ℝ) : ℝ := x

/-- `steadyStateHeatConduction2D`: AnaTemperature_Imp.hpp:40-60. -/
noncomputable def steady2 (x y : ℝ) : ℝ :=
  ∑ p ∈ range 25, 4 / π * sin ((2 * p + 1) * π * x) * sinh ((2 * p + 1) * π * y) / ((2 * p + 1) * sinh ((2 * p + 1) * π))

/-- `lambda`: AnaTemperature_Imp.hpp:83. -/
noncomputable def rate (p q : ℕ) : ℝ := √((2 * p + 1) * (2 * p + 1) * π * π + (2 * q + 1) * (2 * q + 1) * π * π)

/-- `steadyStateHeatConduction3D`: AnaTemperature_Imp.hpp:62-88. -/
noncomputable def steady3 (x y z : ℝ) : ℝ :=
  ∑ p ∈ range 10, ∑ q ∈ range 10, 16 / (π * π) * ((0.5 * sinh (rate p q * (1 - x)) + sinh (rate p q * x)) * sin ((2 * p + 1) * π * y) * sin ((2 * q + 1) * π * z)) /
    ((2 * p + 1) * (2 * q + 1) * sinh (rate p q))

/-- `m`: AnaTemperature_Imp.hpp:97. -/
noncomputable def finRate (h k perimeter area : ℝ) : ℝ := √(h * perimeter / (k * area))

/-- `steadyStateHeatConduction1D` with convection: AnaTemperature_Imp.hpp:90-103, with `m` for the rate. -/
noncomputable def finWith (m Ta Tb Tinf length x : ℝ) : ℝ :=
  let c1 := -(exp (m * length) * Tb - exp (2 * m * length) * Ta + Tinf * exp (2 * m * length) - Tinf * exp (m * length)) / (exp (2 * m * length) - 1)
  let c2 := (Ta - Tinf) - c1
  Tinf + c1 * exp (-m * x) + c2 * exp (m * x)

/-- `steadyStateHeatConduction1D` with convection: AnaTemperature_Imp.hpp:90-103. -/
noncomputable def fin (x Ta Tb h Tinf k perimeter area length : ℝ) : ℝ := finWith (finRate h k perimeter area) Ta Tb Tinf length x

/-- `transientHeatConduction1D`: AnaTemperature_Imp.hpp:134-150. The loop runs over `p` from 1 to 99; here `i` is `p - 1`. -/
noncomputable def transient1 (x t alpha : ℝ) : ℝ :=
  ∑ i ∈ range 99, 4 / π * (-1) ^ ((i + 1) + 1) / (2 * ((i + 1 : ℕ) : ℝ) - 1) * exp (-alpha * ((2 * ((i + 1 : ℕ) : ℝ) - 1) * π * 0.5) * ((2 * ((i + 1 : ℕ) : ℝ) - 1) * π * 0.5) * t) *
    cos ((2 * ((i + 1 : ℕ) : ℝ) - 1) * π * 0.5 * x)

/-- `transientHeatConduction2D`: AnaTemperature_Imp.hpp:152-173. -/
noncomputable def transient2 (x y t alpha : ℝ) : ℝ :=
  ∑ p ∈ range 50, ∑ q ∈ range 50, 16 / (π * π) * (-1) ^ (p + q) / ((2 * p + 1) * (2 * q + 1)) * (cos ((2 * p + 1) * π * x) * cos ((2 * q + 1) * π * y)) *
    exp (-(alpha * π * π * ((2 * p + 1) * (2 * p + 1) + (2 * q + 1) * (2 * q + 1))) * t)

/-- `transientHeatConduction3D`: AnaTemperature_Imp.hpp:175-197. -/
noncomputable def transient3 (x y z t alpha : ℝ) : ℝ :=
  ∑ p ∈ range 50, ∑ q ∈ range 50, ∑ r ∈ range 50, 64 / (π * π * π) * (-1) ^ (p + q) / ((2 * p + 1) * (2 * q + 1) * (2 * r + 1)) *
    cos ((2 * p + 1) * π * x) * cos ((2 * q + 1) * π * y) * cos ((2 * r + 1) * π * z) *
    exp (-(alpha * π * π * ((2 * p + 1) * (2 * p + 1) + (2 * q + 1) * (2 * q + 1) + (2 * r + 1) * (2 * r + 1))) * t)

end Ana
end ENigMA
