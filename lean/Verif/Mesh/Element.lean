import Mathlib.Data.List.Basic
import Mathlib.Data.Int.Order.Basic
import Verif.Base.Arr

/-!
# `CMshElement`, `CMshFace`: trunk/src/mesh/MshElement(.hpp,_Imp.hpp), MshFace(.hpp,_Imp.hpp)
-/

namespace ENigMA

/-- `EElementType`: MshElement.hpp:17-28. -/
inductive ElementType where
  | none | node | beam | triangle | quadrilateral | tetrahedron | triangularPrism | hexahedron | polyhedron
  deriving DecidableEq, Repr

/-- `EFaceType`: MshFace.hpp:20-27. -/
inductive FaceType where
  | none | point | line | triangle | quadrilateral
  deriving DecidableEq, Repr

/-- `CMshFace`: MshFace.hpp:29-39, with the defaults of the constructor MshFace_Imp.hpp:16-23. -/
structure Face where
  faceType : FaceType := .none
  hasPair : Bool := false
  pairFaceId : Int := 0
  elementId : Int := 0
  nodeIds : List Int := []
  deriving DecidableEq, Repr

/-- `setPairFaceId`: MshFace_Imp.hpp:74-79 (also sets `m_hasPair`). -/
def Face.setPair (f : Face) (id : Int) : Face := { f with hasPair := true, pairFaceId := id }

/-- `CMshElement`: MshElement.hpp:30-38. The member `m_thickness` is not modelled. -/
structure Elem where
  elementType : ElementType := .none
  nodeIds : List Int := []
  faceIds : List Int := []
  deriving DecidableEq, Repr

namespace Elem

/-- The sequences of `aFace.addNodeId(m_nodeIds[k])` in the `switch` of `CMshElement::generateFaces`:
MshElement_Imp.hpp:115-357. -/
def faceTemplate : ElementType → List (FaceType × List Nat)
  | .none => []
  | .node => []
  | .beam => [(.point, [0]), (.point, [1])]
  | .triangle => [(.line, [0, 1]), (.line, [1, 2]), (.line, [2, 0])]
  | .quadrilateral => [(.line, [0, 1]), (.line, [1, 2]), (.line, [2, 3]), (.line, [3, 0])]
  | .tetrahedron =>
    [(.triangle, [0, 1, 2]), (.triangle, [1, 3, 2]), (.triangle, [0, 3, 1]), (.triangle, [0, 2, 3])]
  | .triangularPrism =>
    [(.triangle, [0, 1, 2]), (.triangle, [5, 4, 3]), (.quadrilateral, [1, 0, 3, 4]),
     (.quadrilateral, [2, 1, 4, 5]), (.quadrilateral, [0, 2, 5, 3])]
  | .hexahedron =>
    [(.quadrilateral, [0, 1, 2, 3]), (.quadrilateral, [7, 6, 5, 4]), (.quadrilateral, [5, 1, 0, 4]),
     (.quadrilateral, [3, 2, 6, 7]), (.quadrilateral, [6, 2, 1, 5]), (.quadrilateral, [3, 7, 4, 0])]
  | .polyhedron => []

/-- `generateFaces(sFaces)` with `sFaces` initially empty: MshElement_Imp.hpp:110-360. Reading `m_nodeIds[k]` past the
end is undefined behaviour (`none`). The face ids of the element are cleared. -/
def generateFaces (e : Elem) : Option (List Face × Elem) := do
  let fs ← (faceTemplate e.elementType).mapM fun t => do
    let ids ← t.2.mapM (fun k => e.nodeIds[k]?)
    return ({ faceType := t.1, nodeIds := ids } : Face)
  return (fs, { e with faceIds := [] })

/-- Swap two entries of a vector accessed with `[]`. -/
def swapAt (l : List Int) (i j : Nat) : Option (List Int) := do
  let a ← l[i]?
  let b ← l[j]?
  return (l.set i b).set j a

/-- `invert()`: MshElement_Imp.hpp:362-402. -/
def invert (e : Elem) : Option Elem :=
  match e.elementType with
  | .beam => (swapAt e.nodeIds 0 1).map fun l => { e with nodeIds := l }
  | .triangle => (swapAt e.nodeIds 1 2).map fun l => { e with nodeIds := l }
  | .quadrilateral => (swapAt e.nodeIds 1 3).map fun l => { e with nodeIds := l }
  | .tetrahedron => (swapAt e.nodeIds 1 2).map fun l => { e with nodeIds := l }
  | _ => some e

end Elem

/-! ### Specification -/

/-- The number of nodes an element of the given type has. -/
def ElementType.nbNodes : ElementType → Nat
  | .none => 0
  | .node => 1
  | .beam => 2
  | .triangle => 3
  | .quadrilateral => 4
  | .tetrahedron => 4
  | .triangularPrism => 6
  | .hexahedron => 8
  | .polyhedron => 0

/-- The number of nodes a face of the given type has. -/
def FaceType.nbNodes : FaceType → Nat
  | .none => 0
  | .point => 1
  | .line => 2
  | .triangle => 3
  | .quadrilateral => 4

/-- The directed edges of a polygon given by its cycle of nodes: each node followed by its successor. -/
def cycleEdges {β : Type} (l : List β) : List (β × β) := l.zip (l.rotate 1)

/-- All directed edges of a list of polygonal faces. -/
def Face.allEdges (fs : List Face) : List (Int × Int) := fs.flatMap fun f => cycleEdges f.nodeIds

end ENigMA
