import Verif.Mesh.Query
import Verif.Mesh.TriangleMesherSpec

/-!
# Flipping edges and moving nodes of a triangle mesh

`flipEdges` and `relaxNodes` of trunk/src/mesh/MshTriangleMesher_Imp.hpp. `nrm` is the length of a vector and `quality` is
`CMshTriangle::calculateQuality`. `none` stands for an exception of `at` or a read past the end of a vector.
-/

set_option linter.unusedSectionVars false
set_option autoImplicit false

namespace ENigMA
namespace Smooth
variable {K : Type} [Field K] [LinearOrder K]

/-- The numerical functions and the tolerance. -/
structure Par (K : Type) where
  nrm : Vec3 K → K
  quality : Tri K → K
  tol : K

variable (P : Par K)

/-- `normal().z() > aTolerance` after `calculateArea`: GeoTriangle_Imp.hpp:58-78. -/
def up (t : Tri K) : Prop := P.tol < (Tri.normal P.nrm t).z

instance (t : Tri K) : Decidable (up P t) := by unfold up; infer_instance

/-- The first node of the element that is neither `a` nor `b`: MshTriangleMesher_Imp.hpp:1250-1262 and 1281-1293. -/
def third (e : Elem) (a b : Int) : Option Int := e.nodeIds.find? fun n => decide (n ≠ a) && decide (n ≠ b)

/-- `setNodeId(0, a); setNodeId(1, b); setNodeId(2, c)`: MshElement_Imp.hpp:55-59. -/
def setThree (a b c : Int) (e : Elem) : Option Elem :=
  if 3 ≤ e.nodeIds.length then some { e with nodeIds := a :: b :: c :: e.nodeIds.drop 3 } else none

/-- The test before the flip: MshTriangleMesher_Imp.hpp:1300-1338. -/
def better (p1 p2 p3 p4 : Vec3 K) : Prop :=
  min (P.quality ⟨p1, p2, p3⟩) (P.quality ⟨p2, p1, p4⟩) < min (P.quality ⟨p3, p4, p2⟩) (P.quality ⟨p4, p3, p1⟩) ∧
    up P ⟨p3, p4, p2⟩ ∧ up P ⟨p4, p3, p1⟩

instance (p1 p2 p3 p4 : Vec3 K) : Decidable (better P p1 p2 p3 p4) := by unfold better; infer_instance

/-- The state of the loop: the elements and `sFlipped`. -/
abbrev St := Cont Elem × SMap Int Bool

/-- The flip of the side `n1`, `n2` between two elements: MshTriangleMesher_Imp.hpp:1295-1352. -/
def flipPair (nodes : Cont (Vec3 K)) (s : St) (id1 id2 n1 n2 n3 n4 : Int) : Option St := do
  let p1 ← nodes.get? n1
  let p2 ← nodes.get? n2
  let p3 ← nodes.get? n3
  let p4 ← nodes.get? n4
  if better P p1 p2 p3 p4 then do
    let els ← s.1.modify id1 (setThree n3 n4 n2)
    let els ← els.modify id2 (setThree n4 n3 n1)
    some (els, (s.2.insert id1 true).insert id2 true)
  else some s

/-- The part of the loop for a face with a pair: MshTriangleMesher_Imp.hpp:1267-1353. -/
def flipAcross (m : Mesh K) (s : St) (f : Face) (n1 n2 n3 : Int) : Option St := do
  let g ← m.faces.get? f.pairFaceId
  let done ← s.2.find? g.elementId
  if done then some s
  else do
    let e ← s.1.get? g.elementId
    if e.elementType ≠ .triangle then some s
    else
      match third e n1 n2 with
      | none => some s
      | some n4 => flipPair P m.nodes s f.elementId g.elementId n1 n2 n3 n4

/-- One round of the loop over the faces: MshTriangleMesher_Imp.hpp:1228-1354. The nodes and the faces of `m` do not change in the loop. -/
def flipFace (m : Mesh K) (s : St) (fid : Int) : Option St := do
  let f ← m.faces.get? fid
  if f.faceType ≠ .line then some s
  else do
    let done ← s.2.find? f.elementId
    if done then some s
    else do
      let e ← s.1.get? f.elementId
      if e.elementType ≠ .triangle then some s
      else do
        let n1 ← f.nodeIds[0]?
        let n2 ← f.nodeIds[1]?
        match third e n1 n2 with
        | none => some s
        | some n3 => if f.hasPair then flipAcross P m s f n1 n2 n3 else some s

/-- The loop over the faces. -/
def flipLoop (m : Mesh K) : List Int → St → Option St
  | [], s => some s
  | fid :: t, s => do
    let s ← flipFace P m s fid
    flipLoop m t s

/-- `flipEdges`: MshTriangleMesher_Imp.hpp:1218-1357. -/
def flipEdges [FloorRing K] (mc : HashGrid.Machine K) (m : Mesh K) : Option (Mesh K) := do
  let s ← flipLoop P m m.faces.ids (m.elements, Mesh.setAll false m.elements.ids SMap.empty)
  Mesh.generateFaces mc { m with elements := s.1 } P.tol

/-! ### Moving nodes -/

/-- `bBoundaryNode`: MshTriangleMesher_Imp.hpp:1362-1384. -/
def markBoundary (faces : Cont Face) : List Int → SMap Int Bool → Option (SMap Int Bool)
  | [], s => some s
  | fid :: t, s => do
    let f ← faces.get? fid
    markBoundary faces t (if f.hasPair then s else Mesh.setAll true f.nodeIds s)

/-- The loop over the nodes of an element: MshTriangleMesher_Imp.hpp:1423-1429. -/
def pushNew (l : List Int) (n : Int) : List Int := if n ∈ l then l else l ++ [n]

/-- The nodes of the triangles at a node: MshTriangleMesher_Imp.hpp:1412-1430. -/
def star (els : Cont Elem) : List Int → List Int → Option (List Int)
  | [], l => some l
  | id :: t, l => do
    let e ← els.get? id
    star els t (if e.elementType ≠ .triangle then l else e.nodeIds.foldl pushNew l)

/-- A corner of the triangle after the move: MshTriangleMesher_Imp.hpp:1469-1476. -/
def corner (n : Int) (new : Vec3 K) (id : Int) (p : Vec3 K) : Vec3 K := if id = n then new else p

/-- The loop over the triangles at a node: the sums of the qualities before and after the move, or `some none` if a triangle would not face
up: MshTriangleMesher_Imp.hpp:1446-1498. -/
def judge (nodes : Cont (Vec3 K)) (els : Cont Elem) (n : Int) (new : Vec3 K) : List Int → K × K → Option (Option (K × K))
  | [], q => some (some q)
  | id :: t, q => do
    let e ← els.get? id
    if e.elementType ≠ .triangle then judge nodes els n new t q
    else do
      let i ← e.nodeIds[0]?
      let j ← e.nodeIds[1]?
      let k ← e.nodeIds[2]?
      let a ← nodes.get? i
      let b ← nodes.get? j
      let c ← nodes.get? k
      let t2 : Tri K := ⟨corner n new i a, corner n new j b, corner n new k c⟩
      if up P t2 then judge nodes els n new t (q.1 + P.quality ⟨a, b, c⟩, q.2 + P.quality t2) else some none

/-- The mean of the nodes: MshTriangleMesher_Imp.hpp:1434-1439. -/
def mean (nodes : Cont (Vec3 K)) (ids : List Int) : Option (Vec3 K) := do
  let pts ← ids.mapM nodes.get?
  some (((ids.length : K)⁻¹) • pts.foldl (· + ·) (0 : Vec3 K))

/-- One round of the loop over the nodes: MshTriangleMesher_Imp.hpp:1398-1503. `query` is the mesh query, whose answers do not depend on earlier
questions (C34). -/
def relaxNode (query : Int → List Int) (boundary : SMap Int Bool) (els : Cont Elem) (nodes : Cont (Vec3 K)) (n : Int) : Option (Cont (Vec3 K)) := do
  let _ ← nodes.get? n
  let b ← boundary.find? n
  if b then some nodes
  else do
    let ids := query n
    let l ← star els ids [n]
    if 1 < l.length then do
      let new ← mean nodes l
      match ← judge P nodes els n new ids (0, 0) with
      | none => some nodes
      | some (q1, q2) => if q1 < q2 then nodes.modify n (fun _ => some new) else some nodes
    else some nodes

/-- The loop over the nodes. -/
def relaxLoop (query : Int → List Int) (boundary : SMap Int Bool) (els : Cont Elem) : List Int → Cont (Vec3 K) → Option (Cont (Vec3 K))
  | [], nodes => some nodes
  | n :: t, nodes => do
    let nodes ← relaxNode P query boundary els nodes n
    relaxLoop query boundary els t nodes

/-- `relaxNodes`: MshTriangleMesher_Imp.hpp:1359-1506. -/
def relaxNodes (m : Mesh K) : Option (Mesh K) := do
  let b ← markBoundary m.faces m.faces.ids (Mesh.setAll false m.nodes.ids SMap.empty)
  let q ← MeshQuery.ofMesh m
  let nodes ← relaxLoop P (fun n => (q.sharingNode n).2) b m.elements m.nodes.ids m.nodes
  some { m with nodes := nodes }

end Smooth
end ENigMA
