import Mathlib.Analysis.SpecialFunctions.Exp

/-!
# Analytical flow

Model of `CAnaFlow` (trunk/src/analytical/AnaFlow_Imp.hpp). Numbers are real numbers.
-/

set_option linter.unusedSectionVars false
set_option autoImplicit false

open Real

namespace ENigMA
namespace Ana

/-- `phi`: AnaFlow_Imp.hpp:22-26. -/
noncomputable def phi (x t L mu : ℝ) : ℝ :=
  exp (-(x - 4 * t) * (x - 4 * t) / (4 * mu * (t + 1))) + exp (-(x - 4 * t - L) * (x - 4 * t - L) / (4 * mu * (t + 1)))

/-- `viscousBurgersEquation`: AnaFlow_Imp.hpp:28-36. -/
noncomputable def burgers (x dx t L mu : ℝ) : ℝ :=
  let phi0 := phi x t L mu
  let phi1 := phi (x + dx) t L mu
  (-2 * mu / phi0 * (phi1 - phi0) / dx + 4)

end Ana
end ENigMA
