import Verif.Mesh.Container
import Verif.Mesh.Element
import Verif.Geometry.HashGrid
import Mathlib.Data.List.Sort

/-!
# `CMshMesh`: trunk/src/mesh/MshMesh.hpp, MshMesh_Imp.hpp

Everything is in `Option`: `none` is an exception of `.at` or undefined behaviour. The members `m_dx, m_dy, m_dz` are in
`Verif/Mesh/BasicMesher.lean` (`Gen`); the centroid caches are not modelled.
-/

namespace ENigMA

/-- `m[id] = f(m.at(id))`: in-place change of one payload. -/
def Cont.modify {α : Type} (c : Cont α) (id : Int) (f : α → Option α) : Option (Cont α) := do
  let a ← c.get? id
  let a' ← f a
  return { c with map := c.map.insert id a' }

/-- `CMshMesh`: MshMesh.hpp. -/
structure Mesh (K : Type) where
  nodes : Cont (Vec3 K)
  faces : Cont Face
  elements : Cont Elem
  nbBoundary : Nat

namespace Mesh
variable {K : Type}

/-- Constructor and `reset()`: MshMesh_Imp.hpp:23-33, 70-95. -/
def empty : Mesh K := ⟨Cont.empty, Cont.empty, Cont.empty, 0⟩

/-! ### addMesh: MshMesh_Imp.hpp:161-204 -/

/-- First loop of `addMesh`. The state is the target's nodes and `sNewNodeIds`. -/
def addNodesLoop (b : Cont (Vec3 K)) : List Int → Cont (Vec3 K) × SMap Int Int → Option (Cont (Vec3 K) × SMap Int Int)
  | [], s => some s
  | id :: t, (c, new) => do
    let v ← b.get? id
    let nid := c.nextId
    addNodesLoop b t (c.add nid v, new.insert id nid)

/-- Second and third loop of `addMesh`: the copy is added under a new id and then its node ids are replaced in place,
`f` (below: `sNewNodeIds.at` for each node id). -/
def addLoop {α : Type} (b : Cont α) (f : α → Option α) : List Int → Cont α → Option (Cont α)
  | [], c => some c
  | id :: t, c => do
    let a ← b.get? id
    let nid := c.nextId
    let c ← (c.add nid a).modify nid f
    addLoop b f t c

/-- `aFace.setNodeId(j, new.at(aFace.nodeId(j)))` for all `j`. -/
def remapFace (new : SMap Int Int) (f : Face) : Option Face := do
  let ids ← f.nodeIds.mapM new.find?
  return { f with nodeIds := ids }

/-- `anElement.setNodeId(j, new.at(anElement.nodeId(j)))` for all `j`. -/
def remapElem (new : SMap Int Int) (e : Elem) : Option Elem := do
  let ids ← e.nodeIds.mapM new.find?
  return { e with nodeIds := ids }

/-- `a.addMesh(b)`, for `b` another object than `a` (for `a.addMesh(a)` the loops would never end):
MshMesh_Imp.hpp:161-204. -/
def addMesh (a b : Mesh K) : Option (Mesh K) := do
  let (nodes, new) ← addNodesLoop b.nodes b.nodes.ids (a.nodes, SMap.empty)
  let faces ← addLoop b.faces (remapFace new) b.faces.ids a.faces
  let elements ← addLoop b.elements (remapElem new) b.elements.ids a.elements
  return { a with nodes := nodes, faces := faces, elements := elements }

/-! ### Removals driven by a `std::map<Integer, bool>` -/

/-- `for (it = bDelete.begin(); …) if (it->second) remove(it->first)`: MshMesh_Imp.hpp:597-603, 684-690, 718-724, 800-806. -/
def deleteLoop {α : Type} : List (Int × Bool) → Cont α → Option (Cont α)
  | [], c => some c
  | (id, d) :: t, c => do
    let c ← if d then c.remove id else some c
    deleteLoop t c

/-- `std::adjacent_find(l.begin(), l.end()) != l.end()`. -/
def hasAdjacentEqual : List Int → Bool
  | a :: b :: t => a == b || hasAdjacentEqual (b :: t)
  | _ => false

/-- The test of `removeInvalidElements`: MshMesh_Imp.hpp:706-714. -/
def repeatsNode (e : Elem) : Bool := hasAdjacentEqual (e.nodeIds.insertionSort (· ≤ ·))

/-- First loop of `removeInvalidElements`: MshMesh_Imp.hpp:698-715. -/
def invalidFlags (els : Cont Elem) : List Int → SMap Int Bool → Option (SMap Int Bool)
  | [], d => some d
  | id :: t, d => do
    let d := d.insert id false
    let e ← els.get? id
    let d := if repeatsNode e then d.insert id true else d
    invalidFlags els t d

/-- `removeInvalidElements()`: MshMesh_Imp.hpp:694-726. -/
def removeInvalidElements (m : Mesh K) : Option (Mesh K) := do
  let d ← invalidFlags m.elements m.elements.ids SMap.empty
  let els ← deleteLoop d.entries m.elements
  return { m with elements := els }

/-- `rebuildIndices()`: MshMesh_Imp.hpp:728-760. -/
def rebuildIndices (m : Mesh K) : Mesh K :=
  { m with nodes := m.nodes.rebuild, faces := m.faces.rebuild, elements := m.elements.rebuild }

/-- Setting every entry of a list of ids to a value in a map. -/
def setAll {β : Type} (v : β) : List Int → SMap Int β → SMap Int β
  | [], d => d
  | id :: t, d => setAll v t (d.insert id v)

/-- Loop over faces or elements clearing the deletion flags of their nodes: MshMesh_Imp.hpp:773-797. -/
def keepLoop {α : Type} (c : Cont α) (nodesOf : α → List Int) : List Int → SMap Int Bool → Option (SMap Int Bool)
  | [], d => some d
  | id :: t, d => do
    let a ← c.get? id
    keepLoop c nodesOf t (setAll false (nodesOf a) d)

/-- `removeDanglingNodes()`: MshMesh_Imp.hpp:762-808. -/
def removeDanglingNodes (m : Mesh K) : Option (Mesh K) := do
  let d := setAll true m.nodes.ids SMap.empty
  let d ← keepLoop m.faces Face.nodeIds m.faces.ids d
  let d ← keepLoop m.elements Elem.nodeIds m.elements.ids d
  let nodes ← deleteLoop d.entries m.nodes
  return { m with nodes := nodes }

/-! ### renumber: MshMesh_Imp.hpp:866-943 -/

/-- One of the three loops building the new map: position `i` counts up from 0. `f` is the change of the payload. -/
def renumberLoop {α : Type} (c : Cont α) (f : α → Option α) :
    List Int → Int → SMap Int Int × SMap Int α → Option (SMap Int Int × SMap Int α)
  | [], _, s => some s
  | id :: t, i, (new, map) => do
    let a ← c.get? id
    let a ← f a
    renumberLoop c f t (i + 1) (new.insert id i, map.insert i a)

/-- `ids.clear(); for (i = 0; i < n; ++i) ids.emplace_back(i)`. -/
def iota (n : Nat) : List Int := (List.range n).map Int.ofNat

/-- `renumber()`: MshMesh_Imp.hpp:866-943. -/
def renumber (m : Mesh K) : Option (Mesh K) := do
  let (newN, nodes) ← renumberLoop m.nodes some m.nodes.ids 0 (SMap.empty, SMap.empty)
  let (newF, faces) ← renumberLoop m.faces (remapFace newN) m.faces.ids 0 (SMap.empty, SMap.empty)
  let (_, elements) ← renumberLoop m.elements (fun e => do
      let e ← remapElem newN e
      let fids ← e.faceIds.mapM newF.find?
      return { e with faceIds := fids }) m.elements.ids 0 (SMap.empty, SMap.empty)
  return ({ m with
    nodes := { m.nodes with ids := iota m.nodes.count, map := nodes }
    faces := { m.faces with ids := iota m.faces.count, map := faces }
    elements := { m.elements with ids := iota m.elements.count, map := elements } } : Mesh K).rebuildIndices

/-! ### invert: MshMesh_Imp.hpp:945-954 -/

/-- The loop of `invert()`. -/
def invertLoop : List Int → Cont Elem → Option (Cont Elem)
  | [], c => some c
  | id :: t, c => do
    let c ← c.modify id Elem.invert
    invertLoop t c

/-- `invert()`. -/
def invert (m : Mesh K) : Option (Mesh K) := do
  let els ← invertLoop m.elements.ids m.elements
  return { m with elements := els }

/-! ### Algorithms using the hash grid -/

variable [Field K] [LinearOrder K] [FloorRing K]

/-- Sum of the nodes, divided by their number if there are any: MshMesh_Imp.hpp:278-291, 622-633, 660-670. -/
def centroid (nodes : Cont (Vec3 K)) (ids : List Int) : Option (Vec3 K) := do
  let pts ← ids.mapM nodes.get?
  let s := pts.foldl (· + ·) (0 : Vec3 K)
  return if 0 < ids.length then ((ids.length : K)⁻¹) • s else s

/-- Inner loop of `generateFaces`: MshMesh_Imp.hpp:260-266. -/
def addFacesOf (eid : Int) : List Face → Cont Elem × Cont Face → Option (Cont Elem × Cont Face)
  | [], s => some s
  | f :: t, (els, faces) => do
    let fid := faces.nextId
    let faces := faces.add fid { f with elementId := eid }
    let els ← els.modify eid fun e => some { e with faceIds := e.faceIds ++ [fid] }
    addFacesOf eid t (els, faces)

/-- Outer loop of `generateFaces`: MshMesh_Imp.hpp:252-267. -/
def genFacesLoop : List Int → Cont Elem × Cont Face → Option (Cont Elem × Cont Face)
  | [], s => some s
  | eid :: t, (els, faces) => do
    let e ← els.get? eid
    let (fs, e') ← e.generateFaces
    let els ← els.modify eid fun _ => some e'
    let s ← addFacesOf eid fs (els, faces)
    genFacesLoop t s

/-- The comparison of two faces: MshMesh_Imp.hpp:311-329. -/
def sameFace (f g : Face) : Bool :=
  decide (f.faceType = g.faceType) && decide (f.nodeIds.insertionSort (· ≤ ·) = g.nodeIds.insertionSort (· ≤ ·))

/-- Search for the partner of a face among the candidates: MshMesh_Imp.hpp:305-336. -/
def pairOne (fid : Int) : List Int → Cont Face → Option (Cont Face)
  | [], faces => some faces
  | j :: t, faces =>
    if j ≠ fid then do
      let f ← faces.get? fid
      let g ← faces.get? j
      if sameFace f g then do
        let faces ← faces.modify fid fun f => some (f.setPair j)
        faces.modify j fun g => some (g.setPair fid)
      else pairOne fid t faces
    else pairOne fid t faces

/-- Loop over the faces: MshMesh_Imp.hpp:297-337. `find` is the search of the hash grid. -/
def pairLoop (find : Vec3 K → Option (List Int)) : List (Int × Vec3 K) → Cont Face → Option (Cont Face)
  | [], faces => some faces
  | (fid, c) :: t, faces => do
    let cands ← find c
    let faces ← pairOne fid cands faces
    pairLoop find t faces

/-- `generateFaces(tol)`: MshMesh_Imp.hpp:242-346. -/
def generateFaces (mc : HashGrid.Machine K) (m : Mesh K) (tol : K) : Option (Mesh K) := do
  let (els, faces) ← genFacesLoop m.elements.ids (m.elements, Cont.empty)
  let centers ← faces.ids.mapM fun fid => do
    let f ← faces.get? fid
    let c ← centroid m.nodes f.nodeIds
    return (fid, c)
  let g ← HashGrid.ofList mc centers
  let faces ← pairLoop (fun q => g.find mc q tol) centers faces
  return { m with
    elements := els
    faces := faces
    nbBoundary := (faces.map.entries.filter (fun p => !p.2.hasPair)).length }

/-- `for k: if (sNodes.at(k) > aNodeId) { bDelete[…] = true; sNew[…] = aNodeId; }`: MshMesh_Imp.hpp:553-561. -/
def mergeMark (id : Int) : List Int → SMap Int Bool × SMap Int Int → SMap Int Bool × SMap Int Int
  | [], s => s
  | k :: t, (del, new) =>
    if k > id then mergeMark id t (del.insert k true, new.insert k id) else mergeMark id t (del, new)

/-- Loop over the nodes of `mergeNodes`: MshMesh_Imp.hpp:538-563. -/
def mergeLoop (nodes : Cont (Vec3 K)) (find : Vec3 K → Option (List Int)) :
    List Int → SMap Int Bool × SMap Int Int → Option (SMap Int Bool × SMap Int Int)
  | [], s => some s
  | id :: t, (del, new) => do
    let d ← del.find? id
    if d then mergeLoop nodes find t (del, new)
    else do
      let p ← nodes.get? id
      let found ← find p
      mergeLoop nodes find t (if found.length > 1 then mergeMark id found (del, new) else (del, new))

/-- `bDelete[id] = false; sNew[id] = id` for all ids: MshMesh_Imp.hpp:530-536. -/
def mergeInit : List Int → SMap Int Bool × SMap Int Int → SMap Int Bool × SMap Int Int
  | [], s => s
  | id :: t, (del, new) => mergeInit t (del.insert id false, new.insert id id)

/-- Replace node ids of elements or faces through `sNewNodeIds.at`: MshMesh_Imp.hpp:565-595. -/
def remapLoop {α : Type} (f : α → Option α) : List Int → Cont α → Option (Cont α)
  | [], c => some c
  | id :: t, c => do
    let c ← c.modify id f
    remapLoop f t c

/-- `mergeNodes(tol)`: MshMesh_Imp.hpp:512-610. -/
def mergeNodes (mc : HashGrid.Machine K) (m : Mesh K) (tol : K) : Option (Mesh K) := do
  let objs ← m.nodes.ids.mapM fun id => do
    let p ← m.nodes.get? id
    return (id, p)
  let g ← HashGrid.ofList mc objs
  let (del, new) ← mergeLoop m.nodes (fun q => g.find mc q tol) m.nodes.ids
    (mergeInit m.nodes.ids (SMap.empty, SMap.empty))
  let els ← remapLoop (remapElem new) m.elements.ids m.elements
  let faces ← remapLoop (remapFace new) m.faces.ids m.faces
  let nodes ← deleteLoop del.entries m.nodes
  let m ← removeInvalidElements { m with nodes := nodes, faces := faces, elements := els }
  return m.rebuildIndices

/-- Loop over the elements of `mergeElements`: MshMesh_Imp.hpp:650-681. -/
def mergeElemLoop (nodes : Cont (Vec3 K)) (els : Cont Elem) (find : Vec3 K → Option (List Int)) :
    List Int → SMap Int Bool → Option (SMap Int Bool)
  | [], d => some d
  | id :: t, d => do
    let e ← els.get? id
    let b ← d.find? id
    if b then mergeElemLoop nodes els find t d
    else do
      let c ← centroid nodes e.nodeIds
      let found ← find c
      mergeElemLoop nodes els find t (if found.length > 1 then setAll true found d else d)

/-- `mergeElements(tol)`: MshMesh_Imp.hpp:612-692. -/
def mergeElements (mc : HashGrid.Machine K) (m : Mesh K) (tol : K) : Option (Mesh K) := do
  let objs ← m.elements.ids.mapM fun id => do
    let e ← m.elements.get? id
    let c ← centroid m.nodes e.nodeIds
    return (id, c)
  let g ← HashGrid.ofList mc objs
  let d ← mergeElemLoop m.nodes m.elements (fun q => g.find mc q tol) m.elements.ids
    (setAll false m.elements.ids SMap.empty)
  let els ← deleteLoop d.entries m.elements
  return { m with elements := els }

/-- Element type for a boundary face: MshMesh_Imp.hpp:369-378. -/
def boundaryType : FaceType → ElementType
  | .line => .beam
  | .triangle => .triangle
  | .quadrilateral => .quadrilateral
  | _ => .none

/-- Loop over the faces of `extractBoundary`: MshMesh_Imp.hpp:359-386. -/
def boundaryLoop (faces : Cont Face) : List Int → Int → Cont Elem → Option (Cont Elem)
  | [], _, els => some els
  | fid :: t, eid, els => do
    let f ← faces.get? fid
    if !f.hasPair then
      boundaryLoop faces t (eid + 1) (els.add eid { elementType := boundaryType f.faceType, nodeIds := f.nodeIds })
    else boundaryLoop faces t eid els

/-- Loop over the nodes of `extractBoundary`: MshMesh_Imp.hpp:388-393. -/
def copyNodesLoop (nodes : Cont (Vec3 K)) : List Int → Cont (Vec3 K) → Option (Cont (Vec3 K))
  | [], c => some c
  | id :: t, c => do
    let p ← nodes.get? id
    copyNodesLoop nodes t (c.add id p)

/-- `extractBoundary(tol)`: MshMesh_Imp.hpp:350-396; returns the boundary mesh and the changed mesh. -/
def extractBoundary (mc : HashGrid.Machine K) (m : Mesh K) (tol : K) : Option (Mesh K × Mesh K) := do
  let m ← generateFaces mc m tol
  let els ← boundaryLoop m.faces m.faces.ids 0 Cont.empty
  let nodes ← copyNodesLoop m.nodes m.nodes.ids Cont.empty
  return ({ nodes := nodes, faces := Cont.empty, elements := els, nbBoundary := 0 }, m)

end Mesh
end ENigMA
