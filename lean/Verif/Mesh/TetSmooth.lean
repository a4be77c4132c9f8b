import Verif.Mesh.Smooth
import Verif.Geometry.Solids

/-!
# Flipping faces and moving nodes of a mesh of tetrahedra

`flipEdges23` and `relaxNodes` of trunk/src/mesh/MshTetrahedronMesher_Imp.hpp. `quality` is `CMshTetrahedron::calculateQuality`. `none` stands for an exception
of `at` or a read past the end of a vector.
-/

set_option linter.unusedSectionVars false
set_option autoImplicit false

namespace ENigMA
namespace TetSmooth
variable {K : Type} [Field K] [LinearOrder K]

/-- The measure of quality and the tolerance. -/
structure Par (K : Type) where
  quality : Tet K → K
  tol : K

variable (P : Par K)

/-- `sFlipped[id]`: `operator[]` of a `std::map` gives `false` for an id that is not there. -/
def flag (s : SMap Int Bool) (id : Int) : Bool := (s.find? id).getD false

/-- The first node of the element that is none of `a`, `b` and `c`: MshTetrahedronMesher_Imp.hpp:1551-1566 and 1583-1598. -/
def fourth (e : Elem) (a b c : Int) : Option Int := e.nodeIds.find? fun n => decide (n ≠ a) && decide (n ≠ b) && decide (n ≠ c)

/-- Four calls of `setNodeId`: MshElement_Imp.hpp:55-59. -/
def setFour (a b c d : Int) (e : Elem) : Option Elem :=
  if 4 ≤ e.nodeIds.length then some { e with nodeIds := a :: b :: c :: d :: e.nodeIds.drop 4 } else none

/-- `volume() > aTolerance * aTolerance * aTolerance`. -/
def large (t : Tet K) : Prop := P.tol * P.tol * P.tol < t.volume

instance (t : Tet K) : Decidable (large P t) := by unfold large; infer_instance

/-- The test before the flip: MshTetrahedronMesher_Imp.hpp:1606-1656. -/
def better (p1 p2 p3 p4 p5 : Vec3 K) : Prop :=
  min (P.quality ⟨p1, p2, p3, p4⟩) (P.quality ⟨p3, p2, p1, p5⟩) <
    min (P.quality ⟨p1, p2, p5, p4⟩) (min (P.quality ⟨p2, p3, p5, p4⟩) (P.quality ⟨p1, p3, p4, p5⟩)) ∧
  large P ⟨p1, p2, p5, p4⟩ ∧ large P ⟨p2, p3, p5, p4⟩ ∧ large P ⟨p1, p3, p4, p5⟩

instance (p1 p2 p3 p4 p5 : Vec3 K) : Decidable (better P p1 p2 p3 p4 p5) := by unfold better; infer_instance

/-- The state of the loop: the elements and `sFlipped`. -/
abbrev St := Cont Elem × SMap Int Bool

/-- Two tetrahedra on the two sides of the triangle `n1`, `n2`, `n3` become three around the line from `n4` to `n5`: MshTetrahedronMesher_Imp.hpp:1600-1687. -/
def flipPair (nodes : Cont (Vec3 K)) (s : St) (id1 id2 n1 n2 n3 n4 n5 : Int) : Option St := do
  let p1 ← nodes.get? n1
  let p2 ← nodes.get? n2
  let p3 ← nodes.get? n3
  let p4 ← nodes.get? n4
  let p5 ← nodes.get? n5
  if better P p1 p2 p3 p4 p5 then do
    let els ← s.1.modify id1 (setFour n1 n2 n5 n4)
    let els ← els.modify id2 (setFour n2 n3 n5 n4)
    let new := els.nextId
    some (els.add new ⟨.tetrahedron, [n1, n3, n4, n5], []⟩, ((s.2.insert id1 true).insert id2 true).insert new true)
  else some s

/-- The part of the loop for a face with a pair: MshTetrahedronMesher_Imp.hpp:1568-1688. -/
def flipAcross (m : Mesh K) (s : St) (f : Face) (n1 n2 n3 n4 : Int) : Option St := do
  let g ← m.faces.get? f.pairFaceId
  if flag s.2 g.elementId then some s
  else do
    let e ← s.1.get? g.elementId
    if e.elementType ≠ .tetrahedron then some s
    else
      match fourth e n1 n2 n3 with
      | none => some s
      | some n5 => flipPair P m.nodes s f.elementId g.elementId n1 n2 n3 n4 n5

/-- One round of the loop over the faces: MshTetrahedronMesher_Imp.hpp:1529-1689. The nodes and the faces of `m` do not change in the loop. -/
def flipFace (m : Mesh K) (s : St) (fid : Int) : Option St := do
  let f ← m.faces.get? fid
  if f.faceType ≠ .triangle then some s
  else if flag s.2 f.elementId then some s
  else do
    let e ← s.1.get? f.elementId
    if e.elementType ≠ .tetrahedron then some s
    else do
      let n1 ← f.nodeIds[0]?
      let n2 ← f.nodeIds[1]?
      let n3 ← f.nodeIds[2]?
      match fourth e n1 n2 n3 with
      | none => some s
      | some n4 => if f.hasPair then flipAcross P m s f n1 n2 n3 n4 else some s

/-- The loop over the faces. -/
def flipLoop (m : Mesh K) : List Int → St → Option St
  | [], s => some s
  | fid :: t, s => do
    let s ← flipFace P m s fid
    flipLoop m t s

/-- `flipEdges23`: MshTetrahedronMesher_Imp.hpp:1518-1691. -/
def flipEdges23 [FloorRing K] (mc : HashGrid.Machine K) (m : Mesh K) : Option (Mesh K) := do
  let s ← flipLoop P m m.faces.ids (m.elements, Mesh.setAll false m.elements.ids SMap.empty)
  Mesh.generateFaces mc { m with elements := s.1 } P.tol

/-! ### Moving nodes -/

/-- The loop over the tetrahedra at a node, with `aNewNode` and `aTotalVolume`: MshTetrahedronMesher_Imp.hpp:1390-1422. The sum of the corners so far is divided by
four and multiplied by the volume in every round. -/
def gather (nodes : Cont (Vec3 K)) (els : Cont Elem) : List Int → Vec3 K × K → Option (Vec3 K × K)
  | [], s => some s
  | id :: t, s => do
    let e ← els.get? id
    if e.elementType ≠ .tetrahedron then gather nodes els t s
    else do
      let i ← e.nodeIds[0]?
      let j ← e.nodeIds[1]?
      let k ← e.nodeIds[2]?
      let l ← e.nodeIds[3]?
      let a ← nodes.get? i
      let b ← nodes.get? j
      let c ← nodes.get? k
      let d ← nodes.get? l
      let vol := Tet.volume ⟨a, b, c, d⟩
      gather nodes els t (vol • ((1 / 4 : K) • (s.1 + a + b + c + d)), s.2 + vol)

/-- The loop over the tetrahedra at a node: the least qualities before and after the move, or `some none` if a volume would fall below the tolerance:
MshTetrahedronMesher_Imp.hpp:1442-1507. -/
def judge (nodes : Cont (Vec3 K)) (els : Cont Elem) (n : Int) (new : Vec3 K) : List Int → K × K → Option (Option (K × K))
  | [], q => some (some q)
  | id :: t, q => do
    let e ← els.get? id
    if e.elementType ≠ .tetrahedron then judge nodes els n new t q
    else do
      let i ← e.nodeIds[0]?
      let j ← e.nodeIds[1]?
      let k ← e.nodeIds[2]?
      let l ← e.nodeIds[3]?
      let a ← nodes.get? i
      let b ← nodes.get? j
      let c ← nodes.get? k
      let d ← nodes.get? l
      let t2 : Tet K := ⟨Smooth.corner n new i a, Smooth.corner n new j b, Smooth.corner n new k c, Smooth.corner n new l d⟩
      if t2.volume < P.tol * P.tol * P.tol then some none
      else judge nodes els n new t (min q.1 (P.quality ⟨a, b, c, d⟩), min q.2 (P.quality t2))

/-- The loop over the two new places: MshTetrahedronMesher_Imp.hpp:1433-1514. -/
def attempt (els : Cont Elem) (ids : List Int) (nodes : Cont (Vec3 K)) (n : Int) : List (Vec3 K) → Option (Cont (Vec3 K))
  | [] => some nodes
  | new :: t => do
    match ← judge P nodes els n new ids (1, 1) with
    | none => attempt els ids nodes n t
    | some (q1, q2) => if q1 ≤ q2 then nodes.modify n (fun _ => some new) else attempt els ids nodes n t

/-- One round of the loop over the nodes: MshTetrahedronMesher_Imp.hpp:1376-1515. -/
def relaxNode (factor : K) (query : Int → List Int) (boundary : SMap Int Bool) (els : Cont Elem) (nodes : Cont (Vec3 K)) (n : Int) : Option (Cont (Vec3 K)) := do
  let p ← nodes.get? n
  let b ← boundary.find? n
  if b then some nodes
  else do
    let ids := query n
    let s ← gather nodes els ids (0, 0)
    let new := if 0 < s.2 then (1 / s.2) • s.1 else s.1
    let v := new - p
    attempt P els ids nodes n [p + factor • v, p - factor • v]

/-- The loop over the nodes. -/
def relaxLoop (factor : K) (query : Int → List Int) (boundary : SMap Int Bool) (els : Cont Elem) : List Int → Cont (Vec3 K) → Option (Cont (Vec3 K))
  | [], nodes => some nodes
  | n :: t, nodes => do
    let nodes ← relaxNode P factor query boundary els nodes n
    relaxLoop factor query boundary els t nodes

/-- `relaxNodes`: MshTetrahedronMesher_Imp.hpp:1346-1516. The marks of the boundary nodes are those of the triangle mesher. -/
def relaxNodes (factor : K) (m : Mesh K) : Option (Mesh K) := do
  let b ← Smooth.markBoundary m.faces m.faces.ids (Mesh.setAll false m.nodes.ids SMap.empty)
  let q ← MeshQuery.ofMesh m
  let nodes ← relaxLoop P factor (fun n => (q.sharingNode n).2) b m.elements m.nodes.ids m.nodes
  some { m with nodes := nodes }

end TetSmooth
end ENigMA
