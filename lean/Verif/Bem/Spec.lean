import Verif.Base.Norm
import Mathlib.MeasureTheory.Integral.IntervalIntegral.Basic

/-!
# The potential of a triangle

The integral of `1 / |x - c|` over the flat triangle with the corners `c`, `p`, `q`, in the coordinates `x = c + r ((p - c) + t (q - p))` with `r` and `t` between 0 and 1. The
element of area is the length of the cross product of the two derivatives.
-/

set_option linter.unusedSectionVars false
set_option autoImplicit false

namespace ENigMA
namespace Bem

/-- The point with the coordinates `r` and `t`. -/
noncomputable def point (c p q : Vec3 ℝ) (r t : ℝ) : Vec3 ℝ := c + r • ((p - c) + t • (q - p))

/-- The derivative of `point` by `r`. -/
noncomputable def alongR (c p q : Vec3 ℝ) (t : ℝ) : Vec3 ℝ := (p - c) + t • (q - p)

/-- The derivative of `point` by `t`. -/
noncomputable def alongT (p q : Vec3 ℝ) (r : ℝ) : Vec3 ℝ := r • (q - p)

/-- The integral of `1 / |x - c|` over the triangle `c`, `p`, `q`. -/
noncomputable def potential (c p q : Vec3 ℝ) : ℝ :=
  ∫ r in (0 : ℝ)..1, ∫ t in (0 : ℝ)..1, realNorm (Vec3.cross (alongR c p q t) (alongT p q r)) / realNorm (point c p q r t - c)

end Bem
end ENigMA
