import Verif.Pde.FemAssembly
import Verif.Pde.Field

/-!
# Finite element operators of structural problems

trunk/src/pde/fem/structural/FemStructuralOperators_Imp.hpp and the elements of trunk/src/fem/structural. `none` is an exception of `.at`, an
index outside a matrix or the use of an object without a value. `nrm` is the Euclidean length.

Divisions by zero of the elements, for a Poisson coefficient of `±1` or `1/2`, are those of `Verif.Fem.Elements`.
-/

set_option linter.unusedSectionVars false
set_option autoImplicit false

namespace ENigMA
open Matrix

variable {K : Type} [Field K] [LinearOrder K] [IsStrictOrderedRing K]

namespace FemStructuralOp

/-- How the thickness of an element got its value: MshElement_Imp.hpp:17-37, 405-408. -/
inductive Made (K : Type) where
  /-- `CMshElement()`: `m_thickness` is `1` (line 19). -/
  | plain
  /-- `CMshElement(anElementType)`: the member has no initializer (lines 34-37). -/
  | typed
  /-- `setThickness(v)` was called last (lines 405-408). -/
  | set (v : K)

/-- `thickness()`: MshElement_Imp.hpp:411-414. The copy constructor (24-31) copies the member. -/
def Made.thickness : Made K → Option K
  | .plain => some 1
  | .typed => none
  | .set v => some v

/-- The branches of `laplacian`: lines 54 (triangle) and 100 (tetrahedron), with the elastic modulus (4) and the Poisson coefficient (5) of the
material; the others are empty. The inner `none`: no branch, or an empty one, is taken. Only triangles read the thickness (line 60). -/
def elementStiffness (nrm : Vec3 K → K) (mat : Material K) (made : Made K) : ElementType → List (Vec3 K) → Option (Option (EMat K))
  | .triangle, [a, b, c] => do
    let th ← made.thickness
    let E := mat.propertyValue 4
    let v := E.2.propertyValue 5
    return some (.of (Fem.triStiffness nrm E.1 v.1 th ⟨a, b, c⟩))
  | .tetrahedron, [a, b, c, d] =>
    let E := mat.propertyValue 4
    let v := E.2.propertyValue 5
    some (some (.of (Fem.tetStiffness E.1 v.1 ⟨a, b, c, d⟩)))
  | _, _ => some none

/-- `laplacian`: FemStructuralOperators_Imp.hpp:32-147. The loops over nodes and degrees of freedom are those of the generic operators
(`FemOp.elementStamps`); `vectorB` is addressed with the node index, not with the degree of freedom (lines 93, 137), and the sources, of
size 3 and 12 (FemConstantStrainTriangle_Imp.hpp:24, FemConstantStrainTetrahedron_Imp.hpp:24), are zero. `made` tells for every element how it was
created. -/
def laplacian (nrm : Vec3 K → K) (mat : Material K) (made : Int → Made K) (nbDofs : Nat) (m : Mesh K) : Option (Sys K) := do
  let stamps ← FemOp.collect <| (List.range m.elements.count).map fun el => do
    let id ← m.elements.idAt? el
    let e ← m.elements.get? id
    FemOp.elementStamps (elementStiffness nrm mat (made id)) nbDofs true m e
  (Sys.zero .sparseSymmetric (m.nodes.count * nbDofs)).assemble stamps

/-- `ddt`, `divergence`: FemStructuralOperators_Imp.hpp:26-30, 149-153, empty bodies: the system is left as it is. -/
def ddt (s : Sys K) : Sys K := s

/-- See `ddt`. -/
def divergence (s : Sys K) : Sys K := s

/-- `source`: FemStructuralOperators_Imp.hpp:155-159, an empty body. -/
def source (b : Nat → K) (_a : K) : Nat → K := b

end FemStructuralOp
end ENigMA
