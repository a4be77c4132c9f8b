import Verif.Mesh.Mesh
import Verif.Geometry.BBox

/-!
# Closing short unpaired edges, scaling, bounding boxes

`collapseNakedEdges`, `scale` and the two `boundingBox` of trunk/src/mesh/MshMesh_Imp.hpp. `none` stands for an exception of `at` or a read past the end
of a vector. `nrm` is the length of a vector and `big` is `std::numeric_limits<Real>::max()`.
-/

set_option linter.unusedSectionVars false
set_option autoImplicit false

namespace ENigMA
namespace Mesh
variable {K : Type} [Field K] [LinearOrder K]

/-- The first loop of `collapseNakedEdges`: `sFaces` and `minDistance`: MshMesh_Imp.hpp:812-841. -/
def nakedLoop (nrm : Vec3 K → K) (m : Mesh K) : List Int → List Int × K → Option (List Int × K)
  | [], s => some s
  | id :: t, s => do
    let f ← m.faces.get? id
    if f.faceType ≠ .line then nakedLoop nrm m t s
    else if f.hasPair then nakedLoop nrm m t s
    else do
      let n1 ← f.nodeIds[0]?
      let n2 ← f.nodeIds[1]?
      let p1 ← m.nodes.get? n1
      let p2 ← m.nodes.get? n2
      nakedLoop nrm m t (s.1 ++ [id], min s.2 (nrm (p2 - p1)))

/-- The second loop of `collapseNakedEdges`; `d` is `minDistance`: MshMesh_Imp.hpp:845-863. -/
def closeLoop (nrm : Vec3 K → K) (faces : Cont Face) (d : K) : List Int → Cont (Vec3 K) → Option (Cont (Vec3 K))
  | [], nodes => some nodes
  | id :: t, nodes => do
    let f ← faces.get? id
    let n1 ← f.nodeIds[0]?
    let n2 ← f.nodeIds[1]?
    let p1 ← nodes.get? n1
    let p2 ← nodes.get? n2
    if nrm (p2 - p1) < d then do
      let nodes ← nodes.modify n1 fun _ => some p2
      closeLoop nrm faces d t nodes
    else closeLoop nrm faces d t nodes

/-- `collapseNakedEdges(tolerance)`: MshMesh_Imp.hpp:810-864. -/
def collapseNakedEdges (nrm : Vec3 K → K) (big : K) (m : Mesh K) (tol : K) : Option (Mesh K) := do
  let s ← nakedLoop nrm m m.faces.ids ([], big)
  let nodes ← closeLoop nrm m.faces (s.2 + tol) s.1 m.nodes
  return { m with nodes := nodes }

/-- `scale(factor)`: MshMesh_Imp.hpp:476-483. -/
def scale (m : Mesh K) (c : K) : Mesh K := { m with nodes := m.nodes.mapPayload fun _ p => c • p }

/-- The loops of `boundingBox(elementId)` and `boundingBox()`: MshMesh_Imp.hpp:1064-1070 and 1080-1086. -/
def boxLoop (m : Mesh K) : List Int → BBox K → Option (BBox K)
  | [], b => some b
  | id :: t, b => do
    let p ← m.nodes.get? id
    boxLoop m t (b.addCoordinate p)

/-- `boundingBox(elementId)`: MshMesh_Imp.hpp:1060-1073. -/
def elementBox (big : K) (m : Mesh K) (id : Int) : Option (BBox K) := do
  let e ← m.elements.get? id
  boxLoop m e.nodeIds (BBox.reset big)

/-- `boundingBox()`: MshMesh_Imp.hpp:1075-1089. The loop counts to the number of stored nodes and takes the ids from the list of ids. -/
def box (big : K) (m : Mesh K) : Option (BBox K) := do
  let l ← if m.nodes.map.entries.length ≤ m.nodes.ids.length then some (m.nodes.ids.take m.nodes.map.entries.length) else none
  boxLoop m l (BBox.reset big)

end Mesh
end ENigMA
