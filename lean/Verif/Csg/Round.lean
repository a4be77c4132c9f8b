import Verif.Csg.Bsp
import Verif.Geometry.Polygon
import Verif.Base.Norm
import Mathlib.Analysis.SpecialFunctions.Trigonometric.Basic

/-!
# The CSG sphere and cylinder

`CCsgSphere` and `CCsgCylinder` (trunk/src/csg/CsgSphere_Imp.hpp, CsgCylinder_Imp.hpp). The numbers are the real numbers, `std::acos(-1.0)` is
`π`. `eps` is the epsilon of `calculateNormal`.
-/

set_option linter.unusedSectionVars false
set_option autoImplicit false

namespace ENigMA
namespace Csg

/-- A polygon that is filled, closed and given its normal: `addVertex`, `close`, `calculateNormal`. -/
noncomputable def closedPoly (eps : ℝ) (vs : List (Vec3 ℝ)) : Poly ℝ :=
  ⟨closeExact vs, Polygon.normal realNorm eps (closeExact vs)⟩

/-- CsgSphere_Imp.hpp 20-31 `vertex`. -/
noncomputable def sphereVertex (c : Vec3 ℝ) (r theta phi : ℝ) : Vec3 ℝ :=
  let theta := theta * (Real.pi * 2)
  let phi := phi * Real.pi
  c + r • ⟨Real.cos theta * Real.sin phi, Real.cos phi, Real.sin theta * Real.sin phi⟩

/-- CsgSphere_Imp.hpp 42-57: the vertices of the polygon of slice `i` and stack `j`. -/
noncomputable def sphereFace (c : Vec3 ℝ) (r : ℝ) (nSlices nStacks i j : Nat) : List (Vec3 ℝ) :=
  let v1 := sphereVertex c r ((i : ℝ) / nSlices) ((j : ℝ) / nStacks)
  let v2 := sphereVertex c r ((i + 1 : ℝ) / nSlices) ((j : ℝ) / nStacks)
  let v3 := sphereVertex c r ((i + 1 : ℝ) / nSlices) ((j + 1 : ℝ) / nStacks)
  let v4 := sphereVertex c r ((i : ℝ) / nSlices) ((j + 1 : ℝ) / nStacks)
  [v1] ++ (if 0 < j then [v2] else []) ++ (if j < nStacks - 1 then [v3] else []) ++ [v4]

/-- CsgSphere_Imp.hpp 33-67 `create`. -/
noncomputable def sphere (eps : ℝ) (c : Vec3 ℝ) (r : ℝ) (nSlices nStacks : Nat) : List (Poly ℝ) :=
  (List.range nSlices).flatMap fun i => (List.range nStacks).map fun j => closedPoly eps (sphereFace c r nSlices nStacks i j)

/-- Eigen's `normalize`: a vector of length 0 is left as it is. -/
noncomputable def unit (v : Vec3 ℝ) : Vec3 ℝ := if 0 < v.normSq then (realNorm v)⁻¹ • v else v

/-- CsgCylinder_Imp.hpp 20-30 `point`. -/
noncomputable def cylinderPoint (start axisX axisY ray : Vec3 ℝ) (r stack slice : ℝ) : Vec3 ℝ :=
  let angle := slice * Real.pi * 2
  let out := Real.cos angle • axisX + Real.sin angle • axisY
  start + stack • ray + r • out

/-- CsgCylinder_Imp.hpp 38-40. -/
noncomputable def cylinderZ (start stop : Vec3 ℝ) : Vec3 ℝ := unit (stop - start)

/-- CsgCylinder_Imp.hpp 42-50. -/
noncomputable def cylinderX (start stop : Vec3 ℝ) : Vec3 ℝ :=
  let z := cylinderZ start stop
  unit (Vec3.cross (if 1 / 2 < |z.y| then ⟨1, 0, 0⟩ else ⟨0, 1, 0⟩) z)

/-- CsgCylinder_Imp.hpp 52-53. -/
noncomputable def cylinderY (start stop : Vec3 ℝ) : Vec3 ℝ :=
  unit (Vec3.cross (cylinderX start stop) (cylinderZ start stop))

/-- CsgCylinder_Imp.hpp 55-106: the three polygons of slice `i`. -/
noncomputable def cylinderSlice (eps : ℝ) (start stop : Vec3 ℝ) (r : ℝ) (nSlices i : Nat) : List (Poly ℝ) :=
  let t0 := (i : ℝ) / nSlices
  let t1 := (i + 1 : ℝ) / nSlices
  let pt := cylinderPoint start (cylinderX start stop) (cylinderY start stop) (stop - start) r
  [closedPoly eps [start, pt 0 t0, pt 0 t1], closedPoly eps [pt 0 t1, pt 0 t0, pt 1 t0, pt 1 t1], closedPoly eps [stop, pt 1 t1, pt 1 t0]]

/-- CsgCylinder_Imp.hpp 32-110 `create`. -/
noncomputable def cylinder (eps : ℝ) (start stop : Vec3 ℝ) (r : ℝ) (nSlices : Nat) : List (Poly ℝ) :=
  (List.range nSlices).flatMap (cylinderSlice eps start stop r nSlices)

end Csg
end ENigMA
