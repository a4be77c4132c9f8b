import Verif.Mesh.Query
import Verif.Mesh.BasicMesher

/-!
# `CMshExtrudedMesher`: trunk/src/mesh/MshExtrudedMesher_Imp.hpp

`nrm` is the Euclidean length. `none` is an exception of `.at` or an access to `m_vertices` past its end.
-/

set_option linter.unusedSectionVars false

namespace ENigMA
namespace Extrude

variable {K : Type} [Field K] [LinearOrder K] [IsStrictOrderedRing K]

/-- `aTriangle.reset(); addVertex …; calculateNormal(true); aTriangle.normal()`: lines 44-53. All the nodes of the element are added, the first three are used. -/
def elemNormal (nrm : Vec3 K → K) (s : Mesh K) (eid : Int) : Option (Vec3 K) := do
  let e ← s.elements.get? eid
  let ps ← e.nodeIds.mapM s.nodes.get?
  let a ← ps[0]?
  let b ← ps[1]?
  let c ← ps[2]?
  return Tri.normal nrm ⟨a, b, c⟩

/-- The normal of one node, `-aNormal` of line 57: lines 38-57. -/
def nodeNormal (nrm : Vec3 K → K) (s : Mesh K) (q : MeshQuery) (n : Int) : Option (Vec3 K) := do
  let ns ← (q.sharingNode n).2.mapM (elemNormal nrm s)
  return -(BasicMesher.unit nrm (ns.foldl (· + ·) 0))

/-- The first loop: lines 36-58. `q` is changed by each query. -/
def normalsLoop (nrm : Vec3 K → K) (s : Mesh K) : List Int → MeshQuery → SMap Int (Vec3 K) → Option (SMap Int (Vec3 K))
  | [], _, d => some d
  | n :: t, q, d => do
    let v ← nodeNormal nrm s q n
    normalsLoop nrm s t (q.sharingNode n).1 (d.insert n v)

/-- `aNodeId = m_mesh.nextNodeId(); m_mesh.addNode(aNodeId, aNode)` for each of a list: the ids, and the nodes after. -/
def push (c : Cont (Vec3 K)) : List (Vec3 K) → List Int × Cont (Vec3 K)
  | [] => ([], c)
  | p :: t =>
    let r := push (c.add c.nextId p) t
    (c.nextId :: r.1, r.2)

/-- The order in which the top nodes of a hexahedron are added to it: lines 151-154. -/
def hexTop : List Int → List Int
  | [t5, t6, t7, t8] => [t5, t8, t7, t6]
  | l => l

/-- The body of the second loop: lines 63-157. The two branches only differ in the number of nodes, the type and the order of the top nodes. -/
def element (normals : SMap Int (Vec3 K)) (s : Mesh K) (delta : K) (m : Mesh K) (eid : Int) : Option (Mesh K) := do
  let e ← s.elements.get? eid
  let go (k : Nat) (ty : ElementType) (order : List Int → List Int) : Option (Mesh K) := do
    let ids ← (List.range k).mapM fun j => e.nodeIds[j]?
    let bottom ← ids.mapM s.nodes.get?
    let d ← ids.mapM normals.find?
    let (ids1, c1) := push m.nodes bottom
    let (ids2, c2) := push c1 ((bottom.zip d).map fun p => p.1 + delta • p.2)
    return { m with
      nodes := c2
      elements := m.elements.add m.elements.nextId { elementType := ty, nodeIds := ids1 ++ order ids2 } }
  match e.elementType with
  | .triangle => go 3 .triangularPrism id
  | .quadrilateral => go 4 .hexahedron hexTop
  | _ => some m

/-- The second loop: lines 60-158. -/
def elementsLoop (normals : SMap Int (Vec3 K)) (s : Mesh K) (delta : K) : List Int → Mesh K → Option (Mesh K)
  | [], m => some m
  | eid :: t, m => do
    let m ← element normals s delta m eid
    elementsLoop normals s delta t m

/-- The third loop: lines 160-167. -/
def moveLoop (normals : SMap Int (Vec3 K)) (delta : K) : List Int → Cont (Vec3 K) → Option (Cont (Vec3 K))
  | [], c => some c
  | n :: t, c => do
    let v ← normals.find? n
    let c ← c.modify n fun p => some (p + delta • v)
    moveLoop normals delta t c

/-- `generate(aSurfaceMesh, aDelta, aTolerance)`: lines 26-170. `m` is the mesh of the mesher, which is not reset. Returns it and the surface after the call. -/
def generate (nrm : Vec3 K → K) (m s : Mesh K) (delta : K) : Option (Mesh K × Mesh K) := do
  let q ← MeshQuery.ofMesh s
  let normals ← normalsLoop nrm s s.nodes.ids q SMap.empty
  let m ← elementsLoop normals s delta s.elements.ids m
  let nodes ← moveLoop normals delta s.nodes.ids s.nodes
  return (m, { s with nodes := nodes })

end Extrude
end ENigMA
