import Verif.Pde.FemStructural

/-!
# Finite element operators of flow problems

trunk/src/pde/fem/flow/FemFlowOperators_Imp.hpp and the elements of trunk/src/fem/flow. `none` is an exception of `.at`, an index outside a matrix
or the use of an object without a value. `nrm` is the Euclidean length.

The density and the viscosity set on the elements (the viscosity with the density, in `laplacian` and `gradient`) are not read by any of the
element terms and are left out. The thickness is copied in `divergence` and `gradient` too, but only the diffusion of the triangle reads it
(FemTriangle_Imp.hpp:118).
-/

set_option linter.unusedSectionVars false
set_option autoImplicit false

namespace ENigMA
open Matrix

variable {K : Type} [Field K] [LinearOrder K] [IsStrictOrderedRing K]

namespace FemFlowOp
open FemStructuralOp (Made)

/-- The branches of `ddt`: lines 46-72 and 77-103, with `m_dt = 1` (FemElement_Imp.hpp:18). -/
def elementDdt (nrm : Vec3 K → K) : ElementType → List (Vec3 K) → Option (Option (EMat K))
  | .triangle, [a, b, c] => some (some (.of (Fem.triDdt (Fem.triArea nrm ⟨a, b, c⟩) 1)))
  | .tetrahedron, [a, b, c, d] => some (some (.of (Fem.tetDdt (⟨a, b, c, d⟩ : Tet K).volume 1)))
  | _, _ => some none

/-- The branches of `laplacian`: lines 137-176 and 181-218. -/
def elementLaplacian (nrm : Vec3 K → K) (made : Made K) : ElementType → List (Vec3 K) → Option (Option (EMat K))
  | .triangle, [a, b, c] => do
    let th ← made.thickness
    return some (.of (Fem.triLaplacian nrm th ⟨a, b, c⟩))
  | .tetrahedron, [a, b, c, d] => some (some (.of (Fem.tetLaplacian ⟨a, b, c, d⟩)))
  | _, _ => some none

/-- `aField.u(aField.mesh().nodeIndex(aNodeId))`, for a field of the size of the mesh. -/
def nodeValue (m : Mesh K) (u : Nat → K) (x : Int) : Option K := (m.nodes.indexOf? x).map fun I => u I.toNat

/-- The branch of `divergence` with two velocities: lines 301-351; the other branches are empty. `e` is the element, whose nodes give `ue`, `ve`. -/
def elementConvection2 (nrm : Vec3 K → K) (dt : K) (m : Mesh K) (u v : Nat → K) (e : Elem) :
    ElementType → List (Vec3 K) → Option (Option (EMat K))
  | .triangle, [a, b, c] => do
    let ue ← e.nodeIds.mapM (nodeValue m u)
    let ve ← e.nodeIds.mapM (nodeValue m v)
    return some (.of (Fem.triConvection nrm dt (fun i => ue.getD i 0) (fun i => ve.getD i 0) ⟨a, b, c⟩))
  | _, _ => some none

/-- The branch of `divergence` with three velocities: lines 403-452. -/
def elementConvection3 (dt : K) (m : Mesh K) (u v w : Nat → K) (e : Elem) :
    ElementType → List (Vec3 K) → Option (Option (EMat K))
  | .tetrahedron, [a, b, c, d] => do
    let ue ← e.nodeIds.mapM (nodeValue m u)
    let ve ← e.nodeIds.mapM (nodeValue m v)
    let we ← e.nodeIds.mapM (nodeValue m w)
    return some (.of (Fem.tetConvection dt (fun i => ue.getD i 0) (fun i => ve.getD i 0) (fun i => we.getD i 0) ⟨a, b, c, d⟩))
  | _, _ => some none

/-- The branches of `gradient`: lines 488-527 and 532-569. For a component the class does not know, the matrix `gradient` of the new element keeps
its size zero (FemFlowTriangle_Imp.hpp:94-133, FemFlowTetrahedron_Imp.hpp:143-204). -/
def elementGradient (nrm : Vec3 K → K) (c : Int) : ElementType → List (Vec3 K) → Option (Option (EMat K))
  | .triangle, [p, q, r] =>
    if c = 0 ∨ c = 1 then some (some (.of (Fem.triGradient nrm c 0 ⟨p, q, r⟩))) else some (some ⟨0, fun _ _ => 0⟩)
  | .tetrahedron, [o, p, q, r] =>
    if c = 0 ∨ c = 1 ∨ c = 2 then some (some (.of (Fem.tetGradient c 0 ⟨o, p, q, r⟩))) else some (some ⟨0, fun _ _ => 0⟩)
  | _, _ => some none

/-- The loops of the operators but `ddt`: the elements by id, the loops over nodes and degrees of freedom (`FemOp.elementStamps`), a system with one
row per node. -/
def assembleBy (mat : Int → Elem → ElementType → List (Vec3 K) → Option (Option (EMat K))) (nbDofs : Nat) (kind : MatrixType) (m : Mesh K) :
    Option (Sys K) := do
  let stamps ← FemOp.collect <| (List.range m.elements.count).map fun el => do
    let id ← m.elements.idAt? el
    let e ← m.elements.get? id
    FemOp.elementStamps (mat id e) nbDofs true m e
  (Sys.zero kind m.nodes.count).assemble stamps

/-- `ddt`: FemFlowOperators_Imp.hpp:26-113. The element is looked up with its position (line 40) and `vectorB` is addressed with node ids (lines 70,
100), as in the generic operator. -/
def ddt (nrm : Vec3 K → K) (m : Mesh K) (u : Nat → K) : Option (Sys K) := do
  let stamps ← FemOp.collect <| (List.range m.elements.count).map fun (el : Nat) => do
    let e ← m.elements.get? (el : Int)
    FemOp.elementStamps (elementDdt nrm) 1 false m e
  let s ← (Sys.zero .sparseSymmetric m.nodes.count).assemble stamps
  return { s with b := fun i => s.b i + s.row u i }

/-- `laplacian`: FemFlowOperators_Imp.hpp:115-230. `made` tells for every element how it was created. -/
def laplacian (nrm : Vec3 K → K) (made : Int → Made K) (nbDofs : Nat) (m : Mesh K) : Option (Sys K) :=
  assembleBy (fun id _ => elementLaplacian nrm (made id)) nbDofs .sparseSymmetric m

/-- `divergence(system, field)`: FemFlowOperators_Imp.hpp:232-277: all branches are empty; ids are looked up. -/
def divergence (m : Mesh K) : Option (Sys K) :=
  assembleBy (fun _ _ _ _ => some none) 1 .sparse m

/-- `divergence(system, field1, field2, dt)`: FemFlowOperators_Imp.hpp:279-371. -/
def divergence2 (nrm : Vec3 K → K) (dt : K) (nbDofs : Nat) (m : Mesh K) (u v : Nat → K) : Option (Sys K) :=
  assembleBy (fun _ => elementConvection2 nrm dt m u v) nbDofs .sparse m

/-- `divergence(system, field1, field2, field3, dt)`: FemFlowOperators_Imp.hpp:373-464. -/
def divergence3 (dt : K) (nbDofs : Nat) (m : Mesh K) (u v w : Nat → K) : Option (Sys K) :=
  assembleBy (fun _ => elementConvection3 dt m u v w) nbDofs .sparse m

/-- `gradient(system, field, component)`: FemFlowOperators_Imp.hpp:466-581; `CP_X`, `CP_Y`, `CP_Z` are 0, 1, 2 (PdeEquation.hpp:19-24). -/
def gradient (nrm : Vec3 K → K) (c : Int) (nbDofs : Nat) (m : Mesh K) : Option (Sys K) :=
  assembleBy (fun _ _ => elementGradient nrm c) nbDofs .sparse m

/-- `source`: FemFlowOperators_Imp.hpp:583-587, an empty body. -/
def source (b : Nat → K) (_a : K) : Nat → K := b

end FemFlowOp
end ENigMA
