import Verif.Mesh.Smooth

/-!
# Collapsing short sides, fixing boundary edges

`collapseEdges` and `applyFixedBoundary` of trunk/src/mesh/MshTriangleMesher_Imp.hpp. `none` stands for an exception of `at` or a read past the end of a vector.
-/

set_option linter.unusedSectionVars false
set_option autoImplicit false

namespace ENigMA
namespace Collapse
variable {K : Type} [Field K] [LinearOrder K]

/-- The loop over the sides of a triangle: MshTriangleMesher_Imp.hpp:1537-1557. The second component says that a side was collapsed. -/
def sides (nrm : Vec3 K → K) (size : K) (bnd : SMap Int Bool) (e : Elem) : List Nat → Cont (Vec3 K) → Option (Cont (Vec3 K) × Bool)
  | [], nodes => some (nodes, false)
  | j :: t, nodes => do
    let n1 ← e.nodeIds[j % 3]?
    let n2 ← e.nodeIds[(j + 1) % 3]?
    let p1 ← nodes.get? n1
    let p2 ← nodes.get? n2
    let b ← bnd.find? n2
    if b then sides nrm size bnd e t nodes
    else if nrm (p1 - p2) < size * (3 / 4) then do
      let nodes ← nodes.modify n2 fun _ => some p1
      some (nodes, true)
    else sides nrm size bnd e t nodes

/-- The loop over the elements: MshTriangleMesher_Imp.hpp:1529-1558. -/
def elements (nrm : Vec3 K → K) (size : K) (bnd : SMap Int Bool) : List Int → Cont (Vec3 K) × Cont Elem → Option (Cont (Vec3 K) × Cont Elem)
  | [], s => some s
  | id :: t, s => do
    let e ← s.2.get? id
    if e.elementType ≠ .triangle then elements nrm size bnd t s
    else do
      let r ← sides nrm size bnd e (List.range e.nodeIds.length) s.1
      let els ← s.2.modify id fun e => some (if r.2 then { e with elementType := .none } else e)
      elements nrm size bnd t (r.1, els)

/-- The loop that deletes: MshTriangleMesher_Imp.hpp:1561-1570. After a removal the next element moves to the index that was just looked at, and is skipped. The first
argument bounds the number of rounds; the number of elements at the start is enough, as the index grows in each round. -/
def delete : Nat → Nat → Cont Elem → Option (Cont Elem)
  | 0, _, els => some els
  | fuel + 1, i, els =>
    match els.ids[i]? with
    | none => some els
    | some id => do
      let e ← els.get? id
      let els ← if e.elementType = .none then els.remove id else some els
      delete fuel (i + 1) els

/-- The loop that makes triangles of the rest: MshTriangleMesher_Imp.hpp:1575-1584. -/
def restore : List Int → Cont Elem → Option (Cont Elem)
  | [], els => some els
  | id :: t, els => do
    let els ← els.modify id fun e => some (if e.elementType = .none then { e with elementType := .triangle } else e)
    restore t els

variable [FloorRing K]

/-- `collapseEdges`: MshTriangleMesher_Imp.hpp:1504-1587. -/
def collapseEdges (nrm : Vec3 K → K) (mc : HashGrid.Machine K) (m : Mesh K) (size tol : K) : Option (Mesh K) := do
  let b ← Smooth.markBoundary m.faces m.faces.ids (Mesh.setAll false m.nodes.ids SMap.empty)
  let s ← elements nrm size b m.elements.ids (m.nodes, m.elements)
  let els ← delete s.2.ids.length 0 s.2
  let m ← Mesh.mergeNodes mc { m with nodes := s.1, elements := els } tol
  let m ← m.renumber
  let els ← restore m.elements.ids m.elements
  Mesh.generateFaces mc { m with elements := els } tol

/-- The loop over the faces that were found: MshTriangleMesher_Imp.hpp:1210-1214. -/
def unpair : List Int → Cont Face → Option (Cont Face)
  | [], faces => some faces
  | fid :: t, faces => do
    let faces ← faces.modify fid fun f => some { f with hasPair := false }
    unpair t faces

/-- The loop over the elements of the edge mesh: MshTriangleMesher_Imp.hpp:1187-1215. -/
def fixLoop (find : Vec3 K → Option (List Int)) (edge : Mesh K) : List Int → Cont Face → Option (Cont Face)
  | [], faces => some faces
  | id :: t, faces => do
    let e ← edge.elements.get? id
    let c ← Mesh.centroid edge.nodes e.nodeIds
    let l ← find c
    let faces ← unpair l faces
    fixLoop find edge t faces

/-- `applyFixedBoundary`: MshTriangleMesher_Imp.hpp:1155-1216. -/
def applyFixedBoundary (mc : HashGrid.Machine K) (m edge : Mesh K) (tol : K) : Option (Mesh K) := do
  let objs ← m.faces.ids.mapM fun id => do
    let f ← m.faces.get? id
    let c ← Mesh.centroid m.nodes f.nodeIds
    return (id, c)
  let g ← HashGrid.ofList mc objs
  let faces ← fixLoop (fun q => g.find mc q tol) edge edge.elements.ids m.faces
  some { m with faces := faces }

end Collapse
end ENigMA
