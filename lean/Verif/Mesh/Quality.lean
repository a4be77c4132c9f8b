import Verif.Mesh.Mesh
import Verif.Geometry.Solids
import Mathlib.Analysis.SpecialFunctions.Trigonometric.Inverse

/-!
# Quality of elements

trunk/src/mesh/MshTriangle_Imp.hpp, MshQuadrilateral_Imp.hpp, MshTetrahedron_Imp.hpp, MshTriangularPrism_Imp.hpp and `quality`, `meshQuality` of
MshMesh_Imp.hpp. The angles need the real numbers; `eps` is `numeric_limits<Real>::epsilon()`, and `realNorm` the length of a vector.
-/

set_option linter.unusedSectionVars false
set_option autoImplicit false

namespace ENigMA
namespace Quality

/-- `CGeoVector::angle`: GeoVector_Imp.hpp:17-32. -/
noncomputable def angle (eps : ℝ) (a b : Vec3 ℝ) : ℝ :=
  let rad := if a.normSq > eps ∧ b.normSq > eps then a.dot b / Real.sqrt (a.normSq * b.normSq) else 0
  let rad := if rad < -1 then -1 else rad
  let rad := if rad > 1 then 1 else rad
  Real.arccos rad

/-- `f * sin(a) * sin(b) * sin(c) / d` when `d > epsilon`, otherwise 0: MshTriangle_Imp.hpp:28-44 with `f = 4`, MshTriangularPrism_Imp.hpp:32-44 and 47-59 with `f = 2`. -/
noncomputable def corners (eps f : ℝ) (p0 p1 p2 : Vec3 ℝ) : ℝ :=
  let v0 := p1 - p0
  let v1 := p2 - p1
  let v2 := p0 - p2
  let a := angle eps v0 (-v2)
  let b := angle eps v1 (-v0)
  let c := angle eps v2 (-v1)
  let d := Real.sin a + Real.sin b + Real.sin c
  if d > eps then f * Real.sin a * Real.sin b * Real.sin c / d else 0

/-- `CMshTriangle::calculateQuality`: MshTriangle_Imp.hpp:27-45. -/
noncomputable def triangle (eps : ℝ) (t : Tri ℝ) : ℝ := corners eps 4 t.v0 t.v1 t.v2

/-- `CMshQuadrilateral::calculateQuality`: MshQuadrilateral_Imp.hpp:26-38. `none`: division of zero by zero. -/
noncomputable def quadrilateral (q : Quad ℝ) : Option ℝ :=
  let A := (q.normalArea realNorm).2
  let s := (q.v1 - q.v0).normSq + (q.v2 - q.v1).normSq + (q.v3 - q.v2).normSq + (q.v0 - q.v3).normSq
  if s = 0 then none else some (4 * A / s)

/-- `CGeoTetrahedron::calculateSurfaceArea`: GeoTetrahedron_Imp.hpp:50-79. -/
noncomputable def surfaceArea (t : Tet ℝ) : ℝ :=
  ((Tri.mk t.v0 t.v1 t.v2).normalArea realNorm).2 + ((Tri.mk t.v0 t.v1 t.v3).normalArea realNorm).2 +
    ((Tri.mk t.v1 t.v2 t.v3).normalArea realNorm).2 + ((Tri.mk t.v2 t.v0 t.v3).normalArea realNorm).2

/-- `maxL`: MshTetrahedron_Imp.hpp:34-41. -/
noncomputable def longest (t : Tet ℝ) : ℝ :=
  max (realNorm (t.v1 - t.v0)) (max (realNorm (t.v2 - t.v1)) (max (realNorm (t.v0 - t.v2)) (max (realNorm (t.v3 - t.v0))
    (max (realNorm (t.v3 - t.v1)) (realNorm (t.v3 - t.v2))))))

/-- `CMshTetrahedron::calculateQuality`: MshTetrahedron_Imp.hpp:26-47. -/
noncomputable def tetrahedron (t : Tet ℝ) : ℝ :=
  let S := surfaceArea t
  let V := t.volume
  if |S * longest t| > 0 then 6 * Real.sqrt 6 * |V| / |S * longest t| else 0

/-- `CMshTriangularPrism::calculateQuality`: MshTriangularPrism_Imp.hpp:26-60. -/
noncomputable def prism (eps : ℝ) (p : Prism ℝ) : ℝ := 0 + corners eps 2 p.v0 p.v1 p.v2 + corners eps 2 p.v3 p.v4 p.v5

/-- `CMshMesh::quality`: MshMesh_Imp.hpp:956-1029. `none`: the exception of `at` for an unknown element or node, an element with too few nodes (`m_vertices[k]` out of
range), or the division by zero. -/
noncomputable def ofElement (eps : ℝ) (m : Mesh ℝ) (id : Int) : Option ℝ := do
  let e ← m.elements.get? id
  match e.elementType with
  | .triangle =>
    match ← e.nodeIds.mapM m.nodes.get? with
    | a :: b :: c :: _ => some (triangle eps ⟨a, b, c⟩)
    | _ => none
  | .quadrilateral =>
    match ← e.nodeIds.mapM m.nodes.get? with
    | a :: b :: c :: d :: _ => quadrilateral ⟨a, b, c, d⟩
    | _ => none
  | .tetrahedron =>
    match ← e.nodeIds.mapM m.nodes.get? with
    | a :: b :: c :: d :: _ => some (tetrahedron ⟨a, b, c, d⟩)
    | _ => none
  | .triangularPrism =>
    match ← e.nodeIds.mapM m.nodes.get? with
    | a :: b :: c :: d :: x :: y :: _ => some (prism eps ⟨a, b, c, d, x, y⟩)
    | _ => none
  | _ => some 1

/-- The variables of the loop of `meshQuality`. -/
structure Acc where
  min : ℝ
  max : ℝ
  sum : ℝ
  n : Nat

/-- Body of the loop of `meshQuality`: MshMesh_Imp.hpp:1042-1054. -/
noncomputable def Acc.step (eps : ℝ) (m : Mesh ℝ) (a : Acc) (id : Int) : Option Acc := do
  let q ← ofElement eps m id
  return ⟨Min.min q a.min, Max.max q a.max, a.sum + q, a.n + 1⟩

/-- `CMshMesh::meshQuality`: MshMesh_Imp.hpp:1031-1058. Returns `aMinQ`, `aMaxQ`, `aAveQ`. -/
noncomputable def meshQuality (eps : ℝ) (m : Mesh ℝ) : Option (ℝ × ℝ × ℝ) := do
  let a ← m.elements.ids.foldlM (Acc.step eps m) ⟨1, 0, 0, 0⟩
  return (a.min, a.max, if a.n > 0 then a.sum / a.n else 0)

end Quality
end ENigMA
