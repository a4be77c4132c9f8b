import Verif.Mesh.Smooth
import Verif.Mesh.QuadMesher

/-!
# Flipping edges and moving nodes of a mesh of triangles and quadrilaterals

`flipEdges` and `relaxNodes` of trunk/src/mesh/MshQuadrilateralMesher_Imp.hpp. `none` stands for an exception of `at` or a read past the end of a vector.
-/

set_option linter.unusedSectionVars false
set_option autoImplicit false

namespace ENigMA
namespace QuadSmooth
open Smooth (St third pushNew mean corner)
variable {K : Type} [Field K] [LinearOrder K] [IsStrictOrderedRing K]

/-- The length of a vector, `calculateQuality` of a triangle and of a quadrilateral, and the tolerance. -/
structure Par (K : Type) where
  nrm : Vec3 K → K
  triQ : Tri K → K
  quadQ : Quad K → K
  tol : K

variable (P : Par K)

/-- `normal().z() > aTolerance` of a triangle. -/
def up (t : Tri K) : Prop := P.tol < (Tri.normal P.nrm t).z

instance (t : Tri K) : Decidable (up P t) := by unfold up; infer_instance

/-- `normal().z() > aTolerance` of a quadrilateral. -/
def upQuad (q : Quad K) : Prop := P.tol < (Quad.normalArea P.nrm q).1.z

instance (q : Quad K) : Decidable (upQuad P q) := by unfold upQuad; infer_instance

/-- `wIndex`, `aNodeId4` and `aNodeId5`: MshQuadrilateralMesher_Imp.hpp:945-961. The quadrilateral `a`, `b`, `c`, `d` runs from `n2` to `n1`; the result is the node before `n2` and the one after `n1`. -/
def opposite (a b c d n1 n2 : Int) : Option (Int × Int) :=
  if b = n1 ∧ a = n2 then some (d, c)
  else if c = n1 ∧ b = n2 then some (a, d)
  else if d = n1 ∧ c = n2 then some (b, a)
  else if a = n1 ∧ d = n2 then some (c, b)
  else none

/-- `setNodeId` for the first nodes: MshElement_Imp.hpp:55-59. -/
def setNodes (l : List Int) (e : Elem) : Option Elem :=
  if l.length ≤ e.nodeIds.length then some { e with nodeIds := l ++ e.nodeIds.drop l.length } else none

/-- The tests before a flip, `old` is the smaller of the qualities before: MshQuadrilateralMesher_Imp.hpp:1005-1027 and 1067-1089. -/
def good (old : K) (t : Tri K) (q : Quad K) : Prop :=
  old < min (P.triQ t) (P.quadQ q) ∧ up P t ∧ upQuad P q ∧ QuadMesher.notConvex q.v0 q.v1 q.v2 q.v3 = none

instance (old : K) (t : Tri K) (q : Quad K) : Decidable (good P old t q) := by unfold good; infer_instance

/-- The elements with new nodes and their marks in `sFlipped`: MshQuadrilateralMesher_Imp.hpp:1031-1043 and 1093-1104. -/
def store (s : St) (id1 id2 : Int) (t q : List Int) : Option St := do
  let els ← s.1.modify id1 (setNodes t)
  let els ← els.modify id2 (setNodes q)
  some (els, (s.2.insert id1 true).insert id2 true)

/-- The triangle `1 2 3` and the quadrilateral `2 1 5 4` are exchanged for `2 3 4` and `1 5 4 3`, or for `1 5 3` and `3 5 4 2`, if that is better: MshQuadrilateralMesher_Imp.hpp:963-1106. -/
def flipPair (nodes : Cont (Vec3 K)) (s : St) (id1 id2 n1 n2 n3 n4 n5 : Int) : Option St := do
  let p1 ← nodes.get? n1
  let p2 ← nodes.get? n2
  let p3 ← nodes.get? n3
  let p4 ← nodes.get? n4
  let p5 ← nodes.get? n5
  let old := min (P.triQ ⟨p1, p2, p3⟩) (P.quadQ ⟨p2, p1, p5, p4⟩)
  if good P old ⟨p2, p3, p4⟩ ⟨p1, p5, p4, p3⟩ then store s id1 id2 [n2, n3, n4] [n1, n5, n4, n3]
  else if good P old ⟨p1, p5, p3⟩ ⟨p3, p5, p4, p2⟩ then store s id1 id2 [n1, n5, n3] [n3, n5, n4, n2]
  else some s

/-- The part of the loop for a face with a pair: MshQuadrilateralMesher_Imp.hpp:929-1106. A quadrilateral has four nodes. -/
def flipAcross (m : Mesh K) (s : St) (f : Face) (n1 n2 n3 : Int) : Option St := do
  let g ← m.faces.get? f.pairFaceId
  let done ← s.2.find? g.elementId
  if done then some s
  else do
    let e ← s.1.get? g.elementId
    if e.elementType ≠ .quadrilateral then some s
    else
      match e.nodeIds with
      | [a, b, c, d] =>
        match opposite a b c d n1 n2 with
        | none => some s
        | some (n4, n5) => flipPair P m.nodes s f.elementId g.elementId n1 n2 n3 n4 n5
      | _ => none

/-- One round of the loop over the faces: MshQuadrilateralMesher_Imp.hpp:892-1107. The nodes and the faces of `m` do not change in the loop. -/
def flipFace (m : Mesh K) (s : St) (fid : Int) : Option St := do
  let f ← m.faces.get? fid
  if f.faceType ≠ .line then some s
  else do
    let done ← s.2.find? f.elementId
    if done then some s
    else do
      let e ← s.1.get? f.elementId
      if e.elementType ≠ .triangle then some s
      else do
        let n1 ← f.nodeIds[0]?
        let n2 ← f.nodeIds[1]?
        match third e n1 n2 with
        | none => some s
        | some n3 => if f.hasPair then flipAcross P m s f n1 n2 n3 else some s

/-- The loop over the faces. -/
def flipLoop (m : Mesh K) : List Int → St → Option St
  | [], s => some s
  | fid :: t, s => do
    let s ← flipFace P m s fid
    flipLoop m t s

/-- `flipEdges`: MshQuadrilateralMesher_Imp.hpp:882-1110. -/
def flipEdges [FloorRing K] (mc : HashGrid.Machine K) (m : Mesh K) : Option (Mesh K) := do
  let s ← flipLoop P m m.faces.ids (m.elements, Mesh.setAll false m.elements.ids SMap.empty)
  Mesh.generateFaces mc { m with elements := s.1 } P.tol

/-! ### Moving nodes -/

/-- What the walk around a node finds: a face without a pair, the nodes and elements that it has met, `return` after more than 1000 steps, or a step that
repeats for ever. -/
inductive Walk where
  | rim
  | ring (nodes elements : List Int)
  | tooLong
  | never
  deriving DecidableEq

/-- `aNextFaceId`: MshQuadrilateralMesher_Imp.hpp:1171-1180. The face after face `k` is `(k + 1) % 3`, also for a quadrilateral. -/
def nextFace (faceIds : List Int) (g first : Int) : Option Int :=
  match faceIds.findIdx? (fun f => decide (f = g)) with
  | some k => faceIds[(k + 1) % 3]?
  | none => some first

/-- The loop around a node: MshQuadrilateralMesher_Imp.hpp:1139-1187. `continue` in it goes on with the same face, for ever unless that is the first. -/
def walk (m : Mesh K) (first : Int) : Nat → Int → List Int → List Int → Option Walk
  | 0, _, _, _ => some .tooLong
  | fuel + 1, cur, ns, es => do
    let f ← m.faces.get? cur
    if f.hasPair then do
      let g ← m.faces.get? f.pairFaceId
      let e ← m.elements.get? g.elementId
      if e.elementType ≠ .triangle ∧ e.elementType ≠ .quadrilateral then some (if cur = first then .ring ns es else .never)
      else do
        let next ← nextFace e.faceIds f.pairFaceId first
        if fuel = 0 then some .tooLong
        else if next = first then some (.ring (g.nodeIds.foldl pushNew ns) (es ++ [g.elementId]))
        else walk m first fuel next (g.nodeIds.foldl pushNew ns) (es ++ [g.elementId])
    else some .rim

/-- The loop over the elements around a node, each taken as the triangle of its first three nodes; `some none` if one would be turned over: MshQuadrilateralMesher_Imp.hpp:1204-1257. -/
def judge (nodes : Cont (Vec3 K)) (els : Cont Elem) (n : Int) (new : Vec3 K) : List Int → K × K → Option (Option (K × K))
  | [], q => some (some q)
  | id :: t, q => do
    let e ← els.get? id
    let i ← e.nodeIds[0]?
    let j ← e.nodeIds[1]?
    let k ← e.nodeIds[2]?
    let a ← nodes.get? i
    let b ← nodes.get? j
    let c ← nodes.get? k
    let t2 : Tri K := ⟨corner n new i a, corner n new j b, corner n new k c⟩
    if (Tri.normal P.nrm t2).z < P.tol then some none else judge nodes els n new t (q.1 + P.triQ ⟨a, b, c⟩, q.2 + P.triQ t2)

/-- What follows the walk: MshQuadrilateralMesher_Imp.hpp:1189-1261. -/
def moveNode (m : Mesh K) (nodes : Cont (Vec3 K)) (n : Int) (ns es : List Int) : Option (Cont (Vec3 K)) :=
  if 1 < ns.length then do
    let new ← mean nodes ns
    match ← judge P nodes m.elements n new es (0, 0) with
    | none => some nodes
    | some (q1, q2) => if q1 < q2 then nodes.modify n (fun _ => some new) else some nodes
  else some nodes

/-- The result of the loops: the nodes, and whether the function has returned. `hang`: it never does. -/
inductive Res (K : Type) where
  | go (nodes : Cont (Vec3 K))
  | stop (nodes : Cont (Vec3 K))
  | hang

/-- The loop over the nodes of an element: MshQuadrilateralMesher_Imp.hpp:1125-1262. -/
def relaxCorners (m : Mesh K) : List (Int × Int) → Cont (Vec3 K) → Option (Res K)
  | [], nodes => some (.go nodes)
  | (n, fid) :: t, nodes => do
    let _ ← nodes.get? n
    match ← walk m fid 1001 fid [n] [] with
    | .rim => relaxCorners m t nodes
    | .ring ns es => do
      let nodes ← moveNode P m nodes n ns es
      relaxCorners m t nodes
    | .tooLong => some (.stop nodes)
    | .never => some .hang

/-- The loop over the elements: MshQuadrilateralMesher_Imp.hpp:1117-1263. Every node of an element has a face (`faceId(j)`). -/
def relaxElements (m : Mesh K) : List Int → Cont (Vec3 K) → Option (Res K)
  | [], nodes => some (.go nodes)
  | id :: t, nodes => do
    let e ← m.elements.get? id
    if e.elementType ≠ .triangle ∧ e.elementType ≠ .quadrilateral then relaxElements m t nodes
    else if e.nodeIds.length ≤ e.faceIds.length then
      match ← relaxCorners P m (e.nodeIds.zip e.faceIds) nodes with
      | .go nodes => relaxElements m t nodes
      | r => some r
    else none

/-- `relaxNodes`: MshQuadrilateralMesher_Imp.hpp:1112-1265. `some none`: the call does not return. -/
def relaxNodes (m : Mesh K) : Option (Option (Mesh K)) := do
  match ← relaxElements P m m.elements.ids m.nodes with
  | .go nodes => some (some { m with nodes := nodes })
  | .stop nodes => some (some { m with nodes := nodes })
  | .hang => some none

end QuadSmooth
end ENigMA
