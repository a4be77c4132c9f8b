import Verif.Pde.Assembly
import Verif.Mesh.Mesh
import Verif.Fem.Isoparametric

/-!
# Finite element operators

trunk/src/pde/fem/generic/FemGenericOperators_Imp.hpp. `none` is an exception of `.at`, an index outside a matrix, or a division by zero in
the inverse of a Jacobian. `nrm` is the Euclidean length and `r` is `1 / sqrt(3)`.

The elements are created with their defaults: `dt = 1`, coefficients, thickness and section area `1`. `update()` also computes the diffusion
matrix when only `ddt` is used; a division by zero there leaves `ddt` as it is and is not modelled.
-/

set_option linter.unusedSectionVars false

namespace ENigMA
open Matrix

variable {K : Type} [Field K] [LinearOrder K] [IsStrictOrderedRing K]

/-- A dynamically sized square matrix of an element. -/
structure EMat (K : Type) where
  n : Nat
  at_ : Nat → Nat → K

namespace EMat

/-- The dynamic matrix holding `M`. -/
def of {n : Nat} (M : Matrix (Fin n) (Fin n) K) : EMat K := ⟨n, fun i j => if h : i < n ∧ j < n then M ⟨i, h.1⟩ ⟨j, h.2⟩ else 0⟩

/-- `operator()(i, j)` of Eigen; outside the matrix it is an assertion. -/
def get? (m : EMat K) (i j : Nat) : Option K := if i < m.n ∧ j < m.n then some (m.at_ i j) else none

end EMat

namespace FemOp

/-- The branches of `laplacian`: lines 215, 250, 285, 320, 355, 390 (the type and the number of nodes select the class), then `update()` and its
`laplacian`. The inner `none`: no branch is taken. -/
def elementLaplacian (nrm : Vec3 K → K) (r : K) : ElementType → List (Vec3 K) → Option (Option (EMat K))
  | .beam, [p, q] => some (some (.of (Fem.beamLaplacian 1 (nrm (q - p)) 1)))
  | .triangle, [a, b, c] => some (some (.of (Fem.triLaplacian nrm 1 ⟨a, b, c⟩)))
  | .quadrilateral, [a, b, c, d] => (Fem.quadLaplacian nrm 1 ⟨a, b, c, d⟩).map fun m => some (.of m)
  | .tetrahedron, [a, b, c, d] => some (some (.of (Fem.tetLaplacian ⟨a, b, c, d⟩)))
  | .triangularPrism, [a, b, c, d, e, f] => (Fem.prismLaplacian r ⟨a, b, c, d, e, f⟩).map fun m => some (.of m)
  | .hexahedron, [a, b, c, d, e, f, g, h] => (Fem.hexLaplacian ⟨a, b, c, d, e, f, g, h⟩).map fun m => some (.of m)
  | _, _ => some none

/-- The branches of `ddt`: lines 45, 74, 103, 132, 161; there is none for prisms. -/
def elementDdt (nrm : Vec3 K → K) : ElementType → List (Vec3 K) → Option (Option (EMat K))
  | .beam, [p, q] => some (some (.of (Fem.beamDdt (nrm (q - p)) 1 1)))
  | .triangle, [a, b, c] => some (some (.of (Fem.triDdt (Fem.triArea nrm ⟨a, b, c⟩) 1)))
  | .quadrilateral, [a, b, c, d] => some (some (.of (Fem.quadDdt nrm 1 1 ⟨a, b, c, d⟩)))
  | .tetrahedron, [a, b, c, d] => some (some (.of (Fem.tetDdt (⟨a, b, c, d⟩ : Tet K).volume 1)))
  | .hexahedron, [a, b, c, d, e, f, g, h] => some (some (.of (Fem.hexDdt 1 ⟨a, b, c, d, e, f, g, h⟩)))
  | _, _ => some none

/-- The branches of `divergence`: line 448; the other branches are empty. -/
def elementDivergence (nrm : Vec3 K → K) : ElementType → List (Vec3 K) → Option (Option (EMat K))
  | .beam, [_, _] => some (some (.of (Fem.beamDivergence 1)))
  | _, _ => some none

/-- Run a list of partial results and concatenate them. -/
def collect {α : Type} : List (Option (List α)) → Option (List α)
  | [] => some []
  | x :: t => do return (← x) ++ (← collect t)

/-- The four nested loops that add an element matrix to the system, for example lines 231-247: `idx` are the node indices and `bidx` the indices
used for `vectorB`. The source terms of a new element are zero. -/
def scatter (nbDofs : Nat) (idx bidx : List Int) (m : EMat K) : Option (List (Stamp K)) :=
  collect <| idx.zipIdx.map fun (I, i) => do
    let es ← collect <| (List.range nbDofs).map fun k =>
      collect <| idx.zipIdx.map fun (J, j) =>
        collect <| (List.range nbDofs).map fun l => do
          let v ← m.get? (i * nbDofs + k) (j * nbDofs + l)
          return [Stamp.addA (I * nbDofs + k) (J * nbDofs + l) v]
    let I' ← bidx[i]?
    return es ++ [Stamp.addB I' 0]

/-- The body of the loop over the elements. -/
def elementStamps (mat : ElementType → List (Vec3 K) → Option (Option (EMat K))) (nbDofs : Nat) (byIndex : Bool) (m : Mesh K) (e : Elem) :
    Option (List (Stamp K)) := do
  let ps ← e.nodeIds.mapM m.nodes.get?
  match ← mat e.elementType ps with
  | none => return []
  | some M =>
    let idx ← e.nodeIds.mapM m.nodes.indexOf?
    scatter nbDofs idx (if byIndex then idx else e.nodeIds) M

/-- `laplacian`: FemGenericOperators_Imp.hpp:197-427. -/
def laplacian (nrm : Vec3 K → K) (r : K) (nbDofs : Nat) (m : Mesh K) : Option (Sys K) := do
  let stamps ← collect <| (List.range m.elements.count).map fun el => do
    let id ← m.elements.idAt? el
    let e ← m.elements.get? id
    elementStamps (elementLaplacian nrm r) nbDofs true m e
  (Sys.zero .sparseSymmetric m.nodes.count).assemble stamps

/-- `divergence`: FemGenericOperators_Imp.hpp:430-506. -/
def divergence (nrm : Vec3 K → K) (nbDofs : Nat) (m : Mesh K) : Option (Sys K) := do
  let stamps ← collect <| (List.range m.elements.count).map fun el => do
    let id ← m.elements.idAt? el
    let e ← m.elements.get? id
    elementStamps (elementDivergence nrm) nbDofs true m e
  (Sys.zero .sparse m.nodes.count).assemble stamps

/-- `ddt`: FemGenericOperators_Imp.hpp:29-195. The element is looked up with its position in place of its id (line 43), and `vectorB` is
addressed with node ids (lines 71, 100, 129, 158, 187). `u` is the field (of the size of the mesh); its products with the matrix are added to `vectorB`. -/
def ddt (nrm : Vec3 K → K) (m : Mesh K) (u : Nat → K) : Option (Sys K) := do
  let stamps ← collect <| (List.range m.elements.count).map fun (el : Nat) => do
    let e ← m.elements.get? (el : Int)
    elementStamps (elementDdt nrm) 1 false m e
  let s ← (Sys.zero .sparseSymmetric m.nodes.count).assemble stamps
  return { s with b := fun i => s.b i + s.row u i }

/-- The types and numbers of nodes for which `source` has a branch: lines 520, 544, 568, 592, 616; there is none for prisms. -/
def hasSource : ElementType → Nat → Bool
  | .beam, 2 => true
  | .triangle, 3 => true
  | .quadrilateral, 4 => true
  | .tetrahedron, 4 => true
  | .hexahedron, 8 => true
  | _, _ => false

/-- `source`: FemGenericOperators_Imp.hpp:508-640. `setSourceOnNode(i, aSource)` for every node, then each is added to the vector. -/
def source (m : Mesh K) (a : K) : Option (Nat → K) := do
  let stamps ← collect <| (List.range m.elements.count).map fun el => do
    let id ← m.elements.idAt? el
    let e ← m.elements.get? id
    let _ ← e.nodeIds.mapM m.nodes.get?
    if hasSource e.elementType e.nodeIds.length then
      let idx ← e.nodeIds.mapM m.nodes.indexOf?
      return idx.map fun I => Stamp.addB I a
    else return []
  let s ← (Sys.zero .sparse m.nodes.count).assemble stamps
  return s.b

end FemOp
end ENigMA
