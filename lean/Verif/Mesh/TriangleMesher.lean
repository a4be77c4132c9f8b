import Verif.Geometry.LineLine
import Verif.Geometry.Rtree
import Verif.Geometry.Solids
import Verif.Mesh.Mesh

/-!
# The advancing front mesher of plane regions

Model of `CMshTriangleMesher::generate` and of the functions it calls: trunk/src/mesh/MshTriangleMesher.hpp,
MshTriangleMesher_Imp.hpp. The members `boundary`, `elementId` and `nodeNotId3` of an edge of the front are written but never
read by this class and are left out. `checkDelaunay` is never reached from `generate` (`bCheckDelaunay` is `false` in the three
calls) and is left out. The times and counters of `checkUpdate` and the printed messages are left out; what the callback can do
to the mesher, namely calling `stopMeshing`, is the parameter `stop`.
-/

set_option linter.unusedSectionVars false
set_option autoImplicit false

namespace ENigMA
namespace TriMesher

variable {K : Type} [Field K] [LinearOrder K] [IsStrictOrderedRing K]

/-- The ways in which a call can fail to return. -/
inductive Err
  /-- An exception of a container (`at`) or undefined behaviour. -/
  | undefined
  /-- `throw std::runtime_error("Boundary is open!")`. -/
  | openBoundary
  /-- `throw(m_anAdvFront)` after "Max number of elements reached". -/
  | maxElements
  /-- `throw std::runtime_error("Node is outside boundary!")`. -/
  | outside
  /-- `throw(m_anAdvFront)` after "Meshing error!": edges are left in the front. -/
  | unfinished
  /-- The loop over the front, which grows while it is walked, has not ended after the given number of rounds. -/
  | fuel
  deriving DecidableEq, Repr

/-- The result of a call: a value, or the reason why it did not return. -/
abbrev R (α : Type) := Except Err α

/-- A value, or an exception. -/
def lift {α : Type} : Option α → R α
  | some a => .ok a
  | none => .error .undefined

/-- `SMshAdvancingFrontEdge`: MshTriangleMesher.hpp:25-50. `prev`, `next` are `neighborId[0]` and `neighborId[1]`; `none` stands
for `numeric_limits<Integer>::max()` and for a member that was not set. -/
structure Edge (K : Type) where
  id : Nat
  remove : Bool
  n0 : Int
  n1 : Int
  prev : Option Nat
  next : Option Nat
  line : GLine K

/-- The members of the mesher: MshTriangleMesher.hpp:55-73. An interior node is its node id and its flag `remove`
(MshSNode.hpp). -/
structure St (K : Type) where
  front : List (Edge K)
  tree : Rtree.Node K
  mesh : Mesh K
  interior : List (Int × Bool)
  nextEdge : Nat
  box : BBox K

/-- What a call depends on: the arguments of `generate` (`maxElem = 0` or negative means no limit) and the numerical functions of the machine: the
length of a vector, `numeric_limits` `epsilon` and `max`, the cosine of 3.14/180, the square root of 3, the quality of a
triangle (`CMshTriangle::calculateQuality`), the volume of a box in the tree, and the callback. -/
structure Par (K : Type) where
  nrm : Vec3 K → K
  eps : K
  big : K
  cos1 : K
  sqrt3 : K
  quality : Tri K → K
  vol : BBox K → K
  tol : K
  size : K
  minSize : K
  maxSize : K
  maxElem : Int
  stop : St K → Bool

variable (P : Par K)

/-- `m_anAdvFront.at(k)`. -/
def edgeAt (front : List (Edge K)) (k : Nat) : R (Edge K) := lift front[k]?

/-- `m_surfaceMesh.node(id)`. -/
def nodeAt (m : Mesh K) (id : Int) : R (Vec3 K) := lift (m.nodes.get? id)

/-- The box of an edge: MshTriangleMesher_Imp.hpp:82-85 and 96-99. -/
def edgeBox (a b : Vec3 K) : BBox K := (BBox.ofPoints P.big [a, b]).grow P.tol

/-- `addEdgeToRtree`: MshTriangleMesher_Imp.hpp:73-88. -/
def addToTree (st : St K) (e : Edge K) : R (St K) := do
  let a ← nodeAt st.mesh e.n0
  let b ← nodeAt st.mesh e.n1
  let t ← lift (Rtree.add P.vol e.id (edgeBox P a b) st.tree)
  pure { st with tree := t }

/-- `removeEdge` of the edge at position `k` with `removeEdgeFromRtree`: MshTriangleMesher_Imp.hpp:66-71, 90-102. -/
def removeEdge (st : St K) (k : Nat) : R (St K) := do
  let e ← edgeAt st.front k
  let a ← nodeAt st.mesh e.n0
  let b ← nodeAt st.mesh e.n1
  let t ← lift (Rtree.remove P.vol e.id (edgeBox P a b) st.tree)
  pure { st with front := st.front.set k { e with remove := true }, tree := t }

/-- The comparison of the sorted node ids in `edgeExists`: MshTriangleMesher_Imp.hpp:107-112, 122-129. -/
def sameNodes (e o : Edge K) : Bool := decide (min o.n0 o.n1 = min e.n0 e.n1) && decide (max o.n0 o.n1 = max e.n0 e.n1)

/-- `edgeExists`: MshTriangleMesher_Imp.hpp:104-137, the duplicate or `none` for `false`. -/
def edgeExists (front : List (Edge K)) (e : Edge K) : List Nat → R (Option Nat)
  | [] => pure none
  | j :: js =>
    if j = e.id then edgeExists front e js
    else do
      let o ← edgeAt front j
      if sameNodes e o then pure (some j) else edgeExists front e js

/-- `edgeOk` for the segment from `a` to `b`: MshTriangleMesher_Imp.hpp:139-173. -/
def edgeOk (front : List (Edge K)) (e : Edge K) (a b : Vec3 K) : List Nat → R Bool
  | [] => pure true
  | j :: js =>
    if j = e.id then edgeOk front e a b js
    else do
      let o ← edgeAt front j
      if o.remove then edgeOk front e a b js
      else
        match (GLine.mk2 a b).intersects P.nrm P.eps P.big P.cos1 o.line P.tol with
        | some (_, .itInternal) => pure false
        | _ => edgeOk front e a b js

/-- `push` of a node id that is not in the list yet. -/
def pushNew (l : List Int) (n : Int) : List Int := if n ∈ l then l else l ++ [n]

/-- The first loop of `findClosestNodes`: MshTriangleMesher_Imp.hpp:179-191. -/
def closestLoop (front : List (Edge K)) : List Nat → List Int → R (List Int)
  | [], l => pure l
  | j :: js, l => do
    let e ← edgeAt front j
    if e.remove then closestLoop front js l else closestLoop front js (pushNew (pushNew l e.n0) e.n1)

/-- `findClosestNodes`: MshTriangleMesher_Imp.hpp:174-203. -/
def findClosestNodes (st : St K) (sEdges : List Nat) : R (List Int) := do
  let l ← closestLoop st.front sEdges []
  pure ((st.interior.filter fun p => !p.2).foldl (fun l p => pushNew l p.1) l)

/-- `findShortestDistance`: MshTriangleMesher_Imp.hpp:205-232, from the running minimum. -/
def shortestLoop (front : List (Edge K)) (line : GLine K) (cur : Nat) : List Nat → K → R K
  | [], d => pure d
  | j :: js, d =>
    if j = cur then shortestLoop front line cur js d
    else do
      let e ← edgeAt front j
      if e.remove then shortestLoop front line cur js d
      else
        match e.line.intersects P.nrm P.eps P.big P.cos1 line P.tol with
        | some (p, _) =>
          let dist := P.nrm (p - line.startP)
          shortestLoop front line cur js (if dist < d then dist else d)
        | none => shortestLoop front line cur js d

/-- `triangleContainsNode`: MshTriangleMesher_Imp.hpp:234-264. -/
def containsNode (m : Mesh K) (a b c : Vec3 K) : List Int → R Bool
  | [] => pure false
  | n :: ns => do
    let p ← nodeAt m n
    if P.nrm (p - a) < P.tol ∨ P.nrm (p - b) < P.tol ∨ P.nrm (p - c) < P.tol then containsNode m a b c ns
    else
      let r := Tri.contains P.nrm P.big ⟨a, b, c⟩ p P.tol
      if r = .internal ∨ r = .edge then pure true else containsNode m a b c ns

/-- The inner loop of `adjustConnectivity`, for the edge `e` at position `i`: MshTriangleMesher_Imp.hpp:323-346. -/
def adjustInner (i : Nat) (e : Edge K) : List Nat → List (Edge K) → R (List (Edge K))
  | [], front => pure front
  | j :: js, front =>
    if j = e.id then adjustInner i e js front
    else do
      let o ← edgeAt front j
      if o.remove then adjustInner i e js front
      else if e.n0 = o.n1 then do
        let x ← edgeAt front i
        let front := front.set i { x with prev := some j }
        let y ← edgeAt front j
        adjustInner i e js (front.set j { y with next := some i })
      else if e.n1 = o.n0 then do
        let x ← edgeAt front i
        let front := front.set i { x with next := some j }
        let y ← edgeAt front j
        adjustInner i e js (front.set j { y with prev := some i })
      else adjustInner i e js front

/-- One round of the outer loop of `adjustConnectivity`: MshTriangleMesher_Imp.hpp:298-348. A neighbour out of range is an
exception, thrown by the code or by `at`. -/
def adjustOne (sEdges : List Nat) (front : List (Edge K)) (i : Nat) : R (List (Edge K)) := do
  let e ← edgeAt front i
  if e.remove then pure front
  else if e.n0 = e.n1 then pure (front.set i { e with remove := true })
  else do
    let p ← lift (e.prev.bind fun k => front[k]?)
    let q ← lift (e.next.bind fun k => front[k]?)
    if p.remove ∨ q.remove then adjustInner i e sEdges front else pure front

/-- `adjustConnectivity`: MshTriangleMesher_Imp.hpp:295-349. -/
def adjustConnectivity (sEdges : List Nat) (front : List (Edge K)) : R (List (Edge K)) :=
  (List.range front.length).foldlM (adjustOne sEdges) front

/-- One of the two rounds of `cleanDuplicateEdges`, for the edge at position `k`; the second part of the result tells whether
a pair was removed: MshTriangleMesher_Imp.hpp:360-380. -/
def cleanOne (sEdges : List Nat) (st : St K) (k : Nat) : R (St K × Bool) := do
  let e ← edgeAt st.front k
  if e.remove then pure (st, false)
  else
    match ← edgeExists st.front e sEdges with
    | some j => do
      let st ← removeEdge P st k
      let st ← removeEdge P st j
      pure (st, true)
    | none => pure (st, false)

/-- `cleanDuplicateEdges`: MshTriangleMesher_Imp.hpp:351-384. -/
def cleanDuplicateEdges (sEdges : List Nat) (st : St K) : R (St K) :=
  if st.nextEdge < 2 then pure st
  else do
    let (st, b1) ← cleanOne P sEdges st (st.nextEdge - 0 - 1)
    let (st, b2) ← cleanOne P sEdges st (st.nextEdge - 1 - 1)
    if b1 || b2 then do
      let front ← adjustConnectivity sEdges st.front
      pure { st with front := front }
    else pure st

/-- A new edge of the front, with its line (`build`, MshTriangleMesher.hpp:43-49). -/
def newEdge (m : Mesh K) (id : Nat) (a b : Int) (prev next : Option Nat) : R (Edge K) := do
  let p ← nodeAt m a
  let q ← nodeAt m b
  pure ⟨id, false, a, b, prev, next, GLine.mk2 p q⟩

/-- The mesh with one more triangle: MshTriangleMesher_Imp.hpp:399-409. -/
def withTriangle (m : Mesh K) (a b c : Int) : Mesh K :=
  let e : Elem := ⟨.triangle, [a, b, c], []⟩
  { m with elements := m.elements.add m.elements.nextId e }

/-- `addTriangle` on the edge at position `k` with the third node `n3`: MshTriangleMesher_Imp.hpp:386-464. -/
def addTriangle (sEdges : List Nat) (st : St K) (k : Nat) (n3 : Int) : R (St K) := do
  let e ← edgeAt st.front k
  if n3 = e.n0 ∨ n3 = e.n1 then pure st
  else do
    let st := { st with mesh := withTriangle st.mesh e.n0 e.n1 n3 }
    let ip ← lift e.prev
    let iq ← lift e.next
    let p ← edgeAt st.front ip
    let _ ← edgeAt st.front iq
    let id1 := st.nextEdge
    let id2 := st.nextEdge + 1
    let e1 ← newEdge st.mesh id1 e.n0 n3 e.prev (some id2)
    let st := { st with front := st.front.set ip { p with next := some id1 } }
    let st ← addToTree P st e1
    -- `anAdvEdge` is read again: it is the previous edge as well when an edge is its own neighbour
    let e' ← edgeAt st.front k
    let e2 ← newEdge st.mesh id2 n3 e.n1 (some id1) e'.next
    let q ← edgeAt st.front iq
    let st := { st with front := st.front.set iq { q with prev := some id2 } }
    let st ← addToTree P st e2
    let st ← removeEdge P st k
    cleanDuplicateEdges P sEdges { st with front := st.front ++ [e1, e2], nextEdge := st.nextEdge + 2 }

/-- The constants of one of the three calls of `advancingFrontTriMeshing`. -/
structure Pass (K : Type) where
  sizeFactor : K
  shrinkFactor : K
  expandFactor : K
  minQuality : K
  addNodes : Bool

/-- `v.rotate(pi * 0.5)` for a vector in space: GeoVector_Imp.hpp:34-44. Turning by a right angle in the plane exchanges the first two
coordinates and changes a sign; `z` is kept. -/
def quarter (v : Vec3 K) : Vec3 K := ⟨-v.y, v.x, v.z⟩

/-- `angle > pi * 0.5`, with the angle of GeoVector_Imp.hpp:17-32: the cosine is negative. -/
def obtuse (a b : Vec3 K) : Bool := decide (P.eps < a.normSq) && decide (P.eps < b.normSq) && decide (a.dot b < 0)

/-- `normal().z()` of the triangle is larger than the tolerance. -/
def facesUp (a b c : Vec3 K) : Prop := P.tol < (Tri.normal P.nrm ⟨a, b, c⟩).z

instance (a b c : Vec3 K) : Decidable (facesUp P a b c) := by unfold facesUp; infer_instance

/-- The quality of the triangle, lowered by 2 for each failing test as long as it is above `bound`:
MshTriangleMesher_Imp.hpp:1031-1045 and 1091-1105. -/
def score (st : St K) (e : Edge K) (sEdges : List Nat) (sNodes : List Int) (a b c : Vec3 K) (bound : K) : R K := do
  let q := P.quality ⟨a, b, c⟩
  let q ← if bound < q then do pure (if ← edgeOk P st.front e a c sEdges then q else q - 2) else pure q
  let q ← if bound < q then do pure (if ← edgeOk P st.front e b c sEdges then q else q - 2) else pure q
  if bound < q then do pure (if ← containsNode P st.mesh a b c sNodes then q - 2 else q) else pure q

/-- The loop over the nodes in the vicinity, from the best quality so far and its node: MshTriangleMesher_Imp.hpp:990-1055. `reach` is
`baseHeightSize * sizeFactor * expandFactor`. -/
def bestNode (st : St K) (e e1 e2 : Edge K) (sEdges : List Nat) (sNodes : List Int) (a b new : Vec3 K) (reach : K) :
    List Int → K × Int → R (K × Int)
  | [], best => pure best
  | n :: ns, best =>
    if n = e.n0 ∨ n = e.n1 then bestNode st e e1 e2 sEdges sNodes a b new reach ns best
    else do
      let p ← nodeAt st.mesh n
      let d := P.nrm (p - new)
      let f : K := if n = e1.n0 ∧ obtuse P e.line.vec e1.line.vec then 2 else 1
      let f : K := if n = e2.n1 ∧ obtuse P e.line.vec e2.line.vec then 2 else f
      if d < reach * f ∧ facesUp P a b p then do
        let q ← score P st e sEdges sNodes a b p best.1
        bestNode st e e1 e2 sEdges sNodes a b new reach ns (if best.1 < q then (q, n) else best)
      else bestNode st e e1 e2 sEdges sNodes a b new reach ns best

/-- `m_interiorNodes[k].remove = true` for the nodes with this id: MshTriangleMesher_Imp.hpp:1059-1066. -/
def markInterior (l : List (Int × Bool)) (n : Int) : List (Int × Bool) := l.map fun p => if p.1 = n then (p.1, true) else p

/-- Lines 1073-1124 of MshTriangleMesher_Imp.hpp: a new node in front of the edge at position `i`, if its triangle is good enough. -/
def tryNew (c : Pass K) (st : St K) (i : Nat) (e : Edge K) (sEdges : List Nat) (sNodes : List Int) (a b mid v new : Vec3 K) (base : K) : R (St K) := do
  let newId := st.mesh.nodes.nextId
  let dmin ← shortestLoop P st.front (GLine.mk2 mid new) i sEdges P.big
  let new := if base * c.sizeFactor * c.shrinkFactor * (1 / 4) < dmin ∧ dmin < base * c.sizeFactor * c.expandFactor
    then mid + (dmin * (1 / 2)) • v else new
  if facesUp P a b new then do
    let q ← score P st e sEdges sNodes a b new (3 / 2 * c.minQuality)
    if 3 / 2 * c.minQuality < q then do
      let st ← addTriangle P sEdges { st with mesh := { st.mesh with nodes := st.mesh.nodes.add newId new } } i newId
      if st.box.containsPt new P.tol then pure st else .error .outside
    else pure st
  else pure st

/-- The local size of the triangles at an edge of the length `len`: MshTriangleMesher_Imp.hpp:922-930. (With `len` and the tolerance zero the code divides by zero and
multiplies the result, limited to 2, by zero.) -/
def localSize (len : K) : K :=
  min (max (len * max (min (P.size / (len + P.tol * P.tol)) 2) (1 / 2)) P.minSize) P.maxSize

/-- The test whether the edge and its two neighbours enclose a triangular hole: MshTriangleMesher_Imp.hpp:961-976. -/
def closes (st : St K) (e : Edge K) (sEdges : List Nat) (sNodes : List Int) (a b : Vec3 K) (n3 n4 : Int) : R Bool :=
  if n3 = n4 then do
    let p ← nodeAt st.mesh n3
    if facesUp P a b p then
      if ← edgeOk P st.front e a p sEdges then
        if ← edgeOk P st.front e b p sEdges then do
          let r ← containsNode P st.mesh a b p sNodes
          pure (!r)
        else pure false
      else pure false
    else pure false
  else pure false

/-- One round of the loop of `advancingFrontTriMeshing` for an edge that has not been removed, after the checks of lines 886-901: MshTriangleMesher_Imp.hpp:903-1124. -/
def advance (c : Pass K) (st : St K) (i : Nat) (e : Edge K) : R (St K) := do
  let a ← nodeAt st.mesh e.n0
  let b ← nodeAt st.mesh e.n1
  let e1 ← lift (e.prev.bind fun k => st.front[k]?)
  let e2 ← lift (e.next.bind fun k => st.front[k]?)
  let n3 := e1.n0
  let n4 := e2.n1
  let mid := (1 / 2 : K) • (a + b)
  let base := localSize P (P.nrm (b - a)) * P.sqrt3 / 2
  let w := quarter (b - a)
  let v := if 0 < P.nrm w then (P.nrm w)⁻¹ • w else w
  let new := mid + (base * c.sizeFactor) • v
  let q := (BBox.ofPoints P.big [a, b, new]).grow base
  let found ← lift (Rtree.find [] q 0 st.tree)
  let sEdges := (found.map Int.toNat).filter (· ≠ i)
  let sNodes ← findClosestNodes st sEdges
  let close ← closes P st e sEdges sNodes a b n3 n4
  if close then addTriangle P sEdges st i n3
  else do
    let best ← bestNode P st e e1 e2 sEdges sNodes a b new (base * c.sizeFactor * c.expandFactor) sNodes (0, 0)
    if c.minQuality < best.1 then
      addTriangle P sEdges { st with interior := markInterior st.interior best.2 } i best.2
    else if c.addNodes then tryNew P c st i e sEdges sNodes a b mid v new base
    else pure st

/-- `advancingFrontTriMeshing`: MshTriangleMesher_Imp.hpp:855-1131. The loop runs over a vector that grows; `fuel` bounds its rounds. -/
def pass (c : Pass K) : Nat → Nat → St K → R (St K)
  | 0, _, _ => .error .fuel
  | fuel + 1, i, st =>
    match st.front[i]? with
    | none => pure st
    | some e =>
      if e.remove then pass c fuel (i + 1) st
      else if P.stop st then pure st
      else if 0 < P.maxElem ∧ P.maxElem ≤ st.mesh.elements.count then .error .maxElements
      else do
        let st ← advance P c st i e
        pass c fuel (i + 1) st

/-- The three calls of `generate`: MshTriangleMesher_Imp.hpp:824-826. -/
def pass1 : Pass K := ⟨3 / 5, 1, 3 / 4, 1 / 50, false⟩
def pass2 : Pass K := ⟨4 / 5, 1, 21 / 20, 1 / 100, true⟩
def pass3 : Pass K := ⟨1, 3 / 4, 2, 0, true⟩

/-- The first loop of `generate`: MshTriangleMesher_Imp.hpp:706-715. -/
def copyNodes (src : Mesh K) : List Int → Mesh K × BBox K → R (Mesh K × BBox K)
  | [], s => pure s
  | id :: ids, s => do
    let p ← nodeAt src id
    copyNodes src ids ({ s.1 with nodes := s.1.nodes.add id p }, s.2.addCoordinate p)

/-- The map `newEdgeIds`: MshTriangleMesher_Imp.hpp:726-737. It counts all the elements, not the beams alone. -/
def edgeIds (src : Mesh K) : List Int → Nat → SMap Int Nat → R (SMap Int Nat)
  | [], _, s => pure s
  | id :: ids, i, s => do
    let e ← lift (src.elements.get? id)
    edgeIds src ids (i + 1) (if e.elementType = .beam then s.insert id i else s)

/-- The neighbour of a beam across one of its faces: MshTriangleMesher_Imp.hpp:766-789. -/
def neighbour (src : Mesh K) (ids : SMap Int Nat) (fid : Int) : R (Option Nat) := do
  let f ← lift (src.faces.get? fid)
  if f.hasPair then do
    let g ← lift (src.faces.get? f.pairFaceId)
    pure (ids.find? g.elementId)
  else .error .openBoundary

/-- The loop over the beams: MshTriangleMesher_Imp.hpp:744-801. A beam without exactly two nodes and two faces writes past the
arrays of the edge or leaves them unset. -/
def addBeams (src : Mesh K) (ids : SMap Int Nat) : List Int → St K → R (St K)
  | [], st => pure st
  | id :: rest, st => do
    let el ← lift (src.elements.get? id)
    if el.elementType = .beam then
      match el.nodeIds, el.faceIds with
      | [a, b], [f, g] => do
        let e ← newEdge src st.nextEdge a b none none
        let p ← neighbour src ids f
        let n ← neighbour src ids g
        let e := { e with prev := p, next := n }
        let st ← addToTree P { st with front := st.front ++ [e], nextEdge := st.nextEdge + 1 } e
        addBeams src ids rest st
      | _, _ => .error .undefined
    else addBeams src ids rest st

/-- The loop over the interior points: MshTriangleMesher_Imp.hpp:804-819. -/
def addInterior : List (Vec3 K) → St K → St K
  | [], st => st
  | p :: ps, st =>
    let id := st.mesh.nodes.nextId
    addInterior ps { st with mesh := { st.mesh with nodes := st.mesh.nodes.add id p }, interior := st.interior ++ [(id, false)] }

/-- Lines 698-819 of `generate`: the front at the start. `m_interiorNodes` is not cleared: `old` is what an earlier call left in it. -/
def start (src : Mesh K) (points : List (Vec3 K)) (old : List (Int × Bool)) : R (St K) := do
  let (m, box) ← copyNodes src src.nodes.ids (Mesh.empty, BBox.reset P.big)
  let ids ← edgeIds src src.elements.ids 0 SMap.empty
  let st ← addBeams P src ids src.elements.ids ⟨[], Rtree.empty, m, old, 0, box.grow P.tol⟩
  pure (addInterior points st)

/-- `frontSize() > 0`: MshTriangleMesher_Imp.hpp:828-832, 841-853. -/
def unfinished (st : St K) : Bool := st.front.any fun e => !e.remove

/-- The front and the mesh after the three passes: MshTriangleMesher_Imp.hpp:821-832. -/
def passes (fuel : Nat) (st : St K) : R (St K) := do
  let st ← pass P pass1 fuel 0 st
  let st ← pass P pass2 fuel 0 st
  let st ← pass P pass3 fuel 0 st
  if unfinished st then .error .unfinished else pure st

/-- `generate`: MshTriangleMesher_Imp.hpp:695-839. The second part of the result is `m_interiorNodes` for the next call. -/
def generate [FloorRing K] (mc : HashGrid.Machine K) (fuel : Nat) (src : Mesh K) (points : List (Vec3 K)) (old : List (Int × Bool)) : R (Mesh K × List (Int × Bool)) := do
  let st ← start P src points old
  let st ← passes P fuel st
  let m ← lift st.mesh.removeDanglingNodes
  let m ← lift m.renumber
  let m ← lift (m.generateFaces mc P.tol)
  pure (m, st.interior)

end TriMesher
end ENigMA
