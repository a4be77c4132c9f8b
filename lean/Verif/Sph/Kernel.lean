import Verif.Base.Norm
import Mathlib.Analysis.SpecialFunctions.Pow.Real
import Mathlib.Analysis.SpecialFunctions.Trigonometric.Basic
import Mathlib.Analysis.SpecialFunctions.Exp

/-!
# The SPH kernels: trunk/src/sph

The five classes share their text: `q = r.norm() / h`; zero beyond a radius; the normalisation `m_C` chosen by the dimension; a function of `q`. The model has
one definition per function of that text and a case per class. `old` is the value `m_C` holds before the call, which is what it keeps when the dimension is not
1, 2 or 3. Numbers are reals.
-/

namespace ENigMA
namespace Sph

/-- The classes `CSphCubicSpline`, `CSphConvex`, `CSphQuintic`, `CSphSpiky`, `CSphGaussian`. -/
inductive Kind where
  | cubic | convex | quintic | spiky | gaussian
  deriving DecidableEq

/-- The comparison `if (q > …) return 0.0`: SphCubicSpline_Imp.hpp 48, SphConvex_Imp.hpp 48, SphQuintic_Imp.hpp 48, SphSpiky_Imp.hpp 52, SphGaussian_Imp.hpp 48. -/
noncomputable def support : Kind → ℝ
  | .cubic => 2 | .convex => 2 | .quintic => 2 | .spiky => 1 | .gaussian => 3

/-- `m_C`: SphCubicSpline_Imp.hpp 51-56, SphConvex_Imp.hpp 51-56, SphQuintic_Imp.hpp 51-56, SphSpiky_Imp.hpp 55-60, SphGaussian_Imp.hpp 51-56. -/
noncomputable def coef (old h : ℝ) : Kind → Int → ℝ
  | .cubic, 1 => 2 / (3 * h)
  | .cubic, 2 => 10 / (7 * Real.pi * h * h)
  | .cubic, 3 => 1 / (Real.pi * h * h * h)
  | .convex, 1 => 5 / (24 * h)
  | .convex, 2 => 15 / (64 * Real.pi * h * h)
  | .convex, 3 => 21 / (128 * Real.pi * h * h * h)
  | .quintic, 1 => 3 / (2 * h)
  | .quintic, 2 => 7 / (4 * Real.pi * h * h)
  | .quintic, 3 => 21 / (16 * Real.pi * h * h * h)
  | .spiky, 1 => 4 / h
  | .spiky, 2 => 10 / (Real.pi * h * h)
  | .spiky, 3 => 15 / (Real.pi * h * h * h)
  | .gaussian, 1 => 1 / (Real.sqrt Real.pi * h)
  | .gaussian, 2 => 1 / (Real.pi * h * h)
  | .gaussian, 3 => 1 / (Real.pi * Real.pi * Real.pi * h * h * h)
  | _, _ => old

/-- The function of `q` in `W`: SphCubicSpline_Imp.hpp 58-61, SphConvex_Imp.hpp 58, SphQuintic_Imp.hpp 58, SphSpiky_Imp.hpp 62, SphGaussian_Imp.hpp 58. -/
noncomputable def shape : Kind → ℝ → ℝ
  | .cubic, q =>
    if 0 ≤ q ∧ q < 1 then (2 - q) * (2 - q) * (2 - q) - 4 * (1 - q) * (1 - q) * (1 - q) else (2 - q) * (2 - q) * (2 - q)
  | .convex, q => (2 - q) ^ 3 * (1 / 2 * q + 1)
  | .quintic, q => (1 - 1 / 2 * q) ^ 4 * (2 * q + 1)
  | .spiky, q => (1 - q) ^ 3
  | .gaussian, q => Real.exp (-q * q)

/-- `W(r, h)`: SphCubicSpline_Imp.hpp 43-62 and the same function of the other classes. -/
noncomputable def W (κ : Kind) (dim : Int) (old : ℝ) (r : Vec3 ℝ) (h : ℝ) : ℝ :=
  let q := realNorm r / h
  if q > support κ then 0 else coef old h κ dim * shape κ q

/-- The factor of `r` in `gradientW`, apart from `m_C`: SphCubicSpline_Imp.hpp 82-85, SphConvex_Imp.hpp 79, SphQuintic_Imp.hpp 79, SphSpiky_Imp.hpp 84,
SphGaussian_Imp.hpp 79. `tol` is `aTolerance`. Division by `q = 0`, which the tolerance is there to prevent, is a division by zero. -/
noncomputable def gradShape (tol : ℝ) : Kind → ℝ → ℝ
  | .cubic, q => if tol ≤ q ∧ q < 1 then 3 * q * (1 - 3 / 4 * q) / q else 3 / 4 * (2 - q) * (2 - q) / q
  | .convex, q => -(((2 - q) ^ (3 / 2 : ℝ) - 3 * (2 - q) * (2 - q) * (1 / 2 * q + 1)) / q)
  | .quintic, q => -((2 * (1 - 1 / 2 * q) ^ 4 - 2 * (1 - 1 / 2 * q) ^ 3 * (2 * q + 1)) / q)
  | .spiky, q => 3 * (1 - q) ^ 2 / q
  | .gaussian, q => 2 * Real.exp (-q * q)

/-- `gradientW(r, h, aTolerance)`: SphCubicSpline_Imp.hpp 64-86 and the same function of the other classes. -/
noncomputable def gradientW (κ : Kind) (dim : Int) (old : ℝ) (r : Vec3 ℝ) (h tol : ℝ) : Vec3 ℝ :=
  let q := realNorm r / h
  let q := if q < tol then tol else q
  if q > support κ then 0 else (coef old h κ dim * gradShape tol κ q) • r

/-- `w` in `laplacianW`: SphCubicSpline_Imp.hpp 103-114, SphConvex_Imp.hpp 97, SphQuintic_Imp.hpp 97, SphSpiky_Imp.hpp 103, SphGaussian_Imp.hpp 97. -/
noncomputable def lapW : Kind → ℝ → ℝ
  | .cubic, q => if 0 ≤ q ∧ q < 1 then 1 - 3 / 2 * q * q * (1 - 1 / 2 * q) else 1 / 4 * (2 - q) * (2 - q) * (2 - q)
  | .convex, q => (2 - q) ^ 3 * (1 / 2 * q + 1)
  | .quintic, q => (1 - 1 / 2 * q) ^ 4 * (2 * q + 1)
  | .spiky, q => (1 - q) ^ 3
  | .gaussian, q => Real.exp (-q * q)

/-- `dw` in `laplacianW`: SphCubicSpline_Imp.hpp 103-114, SphConvex_Imp.hpp 98, SphQuintic_Imp.hpp 98, SphSpiky_Imp.hpp 104, SphGaussian_Imp.hpp 98. -/
noncomputable def lapDw : Kind → ℝ → ℝ
  | .cubic, q => if 0 ≤ q ∧ q < 1 then -3 * q * (1 - 3 / 4 * q) else -3 / 4 * (2 - q) * (2 - q)
  | .convex, q => (2 - q) ^ (3 / 2 : ℝ) - 3 * (2 - q) * (2 - q) * (1 / 2 * q + 1)
  | .quintic, q => 2 * (1 - 1 / 2 * q) ^ 4 - 2 * (1 - 1 / 2 * q) ^ 3 * (2 * q + 1)
  | .spiky, q => -3 * (1 - q) ^ 2
  | .gaussian, q => -2 * q * Real.exp (-q * q)

/-- `laplacianW(r, h)`: SphCubicSpline_Imp.hpp 88-117 and the same function of the other classes. -/
noncomputable def laplacianW (κ : Kind) (dim : Int) (old : ℝ) (r : Vec3 ℝ) (h : ℝ) : ℝ :=
  let q := realNorm r / h
  if q > support κ then 0 else coef old h κ dim * h * (-lapDw κ q * q + lapW κ q * dim)

end Sph
end ENigMA
