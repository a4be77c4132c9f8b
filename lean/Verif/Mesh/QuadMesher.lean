import Verif.Mesh.TriangleMesher

/-!
# The advancing front mesher of plane regions with quadrilaterals

Model of `CMshQuadrilateralMesher::generate` and of the functions it calls: trunk/src/mesh/MshQuadrilateralMesher.hpp,
MshQuadrilateralMesher_Imp.hpp. The class is derived from the triangle mesher, whose members and functions it uses (`Verif.Mesh.TriangleMesher`); what is left
out there is left out here. The parameters `bCheckDelaunay` and the results `res` are not used by the code.
-/

set_option linter.unusedSectionVars false
set_option autoImplicit false

namespace ENigMA
namespace QuadMesher
open TriMesher (Par R St Edge Pass lift edgeAt nodeAt)

variable {K : Type} [Field K] [LinearOrder K] [IsStrictOrderedRing K]

/-- The members of the mesher, and two records of what has happened that the code does not keep: `lost`, an edge of the front was cancelled against an edge that had been removed
before; `again`, a node was stored under an id in use. -/
structure QSt (K : Type) where
  st : St K
  lost : Bool
  again : Bool

variable (P : Par K)

/-- `CMshQuadrilateral::calculateQuality`: MshQuadrilateral_Imp.hpp:25-38. -/
def quality (q : Quad K) : K :=
  4 * (Quad.normalArea P.nrm q).2 / ((q.v1 - q.v0).normSq + (q.v2 - q.v1).normSq + (q.v3 - q.v2).normSq + (q.v0 - q.v3).normSq)

/-- `CGeoQuadrilateral::contains(point, type, tolerance)`: GeoQuadrilateral_Imp.hpp:92-114. -/
def locate (q : Quad K) (p : Vec3 K) : Tri.Loc :=
  let r := Tri.contains P.nrm P.big ⟨q.v0, q.v1, q.v2⟩ p P.tol
  if r = .outside then Tri.contains P.nrm P.big ⟨q.v0, q.v2, q.v3⟩ p P.tol else r

/-- `normal().z()` of the quadrilateral is larger than the tolerance. -/
def facesUp (q : Quad K) : Prop := P.tol < (Quad.normalArea P.nrm q).1.z

instance (q : Quad K) : Decidable (facesUp P q) := by unfold facesUp; infer_instance

/-- `quadrilateralContainsNode`: MshQuadrilateralMesher_Imp.hpp:68-97. -/
def containsNode (m : Mesh K) (q : Quad K) : List Int → R Bool
  | [] => pure false
  | n :: ns => do
    let p ← nodeAt m n
    if P.nrm (p - q.v0) < P.tol ∨ P.nrm (p - q.v1) < P.tol ∨ P.nrm (p - q.v2) < P.tol ∨ P.nrm (p - q.v3) < P.tol then containsNode m q ns
    else if locate P q p = .internal ∨ locate P q p = .edge then pure true else containsNode m q ns

/-- One of the three rounds of `cleanDuplicateEdges`, for the edge at position `k`; the second part of the result tells whether
a pair was removed: MshQuadrilateralMesher_Imp.hpp:43-62. -/
def cleanOne (sEdges : List Nat) (q : QSt K) (k : Nat) : R (QSt K × Bool) := do
  let e ← edgeAt q.st.front k
  if e.remove then pure (q, false)
  else
    match ← TriMesher.edgeExists q.st.front e sEdges with
    | some j => do
      let o ← edgeAt q.st.front j
      let st ← TriMesher.removeEdge P q.st k
      let st ← TriMesher.removeEdge P st j
      pure ({ q with st := st, lost := q.lost || o.remove }, true)
    | none => pure (q, false)

/-- `cleanDuplicateEdges`: MshQuadrilateralMesher_Imp.hpp:34-66. The last three edges of the front are looked at, also after a triangle, which adds two. -/
def cleanDuplicateEdges (sEdges : List Nat) (q : QSt K) : R (QSt K) :=
  if q.st.nextEdge < 3 then pure q
  else do
    let (q, b1) ← cleanOne P sEdges q (q.st.nextEdge - 0 - 1)
    let (q, b2) ← cleanOne P sEdges q (q.st.nextEdge - 1 - 1)
    let (q, b3) ← cleanOne P sEdges q (q.st.nextEdge - 2 - 1)
    if b1 || b2 || b3 then do
      let front ← TriMesher.adjustConnectivity sEdges q.st.front
      pure { q with st := { q.st with front := front } }
    else pure q

/-- `v1.cross(v2).z()` at the corner `b`: MshQuadrilateralMesher_Imp.hpp:184-187. -/
def turn (a b c : Vec3 K) : K := (Vec3.cross (b - a) (c - b)).z

/-- `wIndex`, with `none` for `-1`: MshQuadrilateralMesher_Imp.hpp:180-194. -/
def notConvex (a b c d : Vec3 K) : Option Nat :=
  if turn a b c ≤ 0 then some 0
  else if turn b c d ≤ 0 then some 1
  else if turn c d a ≤ 0 then some 2
  else if turn d a b ≤ 0 then some 3
  else none

/-- `sNodes[i % 4]`. -/
def corner {α : Type} (a b c d : α) (i : Nat) : α :=
  match i % 4 with
  | 0 => a
  | 1 => b
  | 2 => c
  | _ => d

/-- The mesh with one more element. -/
def withElem (m : Mesh K) (e : Elem) : Mesh K := { m with elements := m.elements.add m.elements.nextId e }

/-- One more quadrilateral, or two more triangles if it is not convex: MshQuadrilateralMesher_Imp.hpp:177-232. -/
def withQuad (m : Mesh K) (a b c d : Int) : R (Mesh K) := do
  let pa ← nodeAt m a
  let pb ← nodeAt m b
  let pc ← nodeAt m c
  let pd ← nodeAt m d
  match notConvex pa pb pc pd with
  | none => pure (withElem m ⟨.quadrilateral, [a, b, c, d], []⟩)
  | some w =>
    pure (withElem (withElem m ⟨.triangle, [corner a b c d (w + 0), corner a b c d (w + 1), corner a b c d (w + 3)], []⟩)
      ⟨.triangle, [corner a b c d (w + 1), corner a b c d (w + 2), corner a b c d (w + 3)], []⟩)

/-- The two edges that replace the edge `e` at position `k` after a triangle: MshQuadrilateralMesher_Imp.hpp:123-171. -/
def twoEdges (st : St K) (k : Nat) (e : Edge K) (n3 : Int) : R (St K) := do
  let ip ← lift e.prev
  let iq ← lift e.next
  let p ← edgeAt st.front ip
  let _ ← edgeAt st.front iq
  let id1 := st.nextEdge
  let id2 := st.nextEdge + 1
  let e1 ← TriMesher.newEdge st.mesh id1 e.n0 n3 e.prev (some id2)
  let st := { st with front := st.front.set ip { p with next := some id1 } }
  let st ← TriMesher.addToTree P st e1
  -- `anAdvEdge` is read again: it is the previous edge as well when an edge is its own neighbour
  let e' ← edgeAt st.front k
  let e2 ← TriMesher.newEdge st.mesh id2 n3 e.n1 (some id1) e'.next
  let q ← edgeAt st.front iq
  let st := { st with front := st.front.set iq { q with prev := some id2 } }
  let st ← TriMesher.addToTree P st e2
  let st ← TriMesher.removeEdge P st k
  pure { st with front := st.front ++ [e1, e2], nextEdge := st.nextEdge + 2 }

/-- The three edges that replace the edge `e` at position `k` after a quadrilateral or two triangles: MshQuadrilateralMesher_Imp.hpp:234-300. -/
def threeEdges (st : St K) (k : Nat) (e : Edge K) (n3 n4 : Int) : R (St K) := do
  let ip ← lift e.prev
  let iq ← lift e.next
  let p ← edgeAt st.front ip
  let _ ← edgeAt st.front iq
  let id1 := st.nextEdge
  let id2 := st.nextEdge + 1
  let id3 := st.nextEdge + 2
  let e1 ← TriMesher.newEdge st.mesh id1 e.n0 n3 e.prev (some id2)
  let st := { st with front := st.front.set ip { p with next := some id1 } }
  let st ← TriMesher.addToTree P st e1
  let e2 ← TriMesher.newEdge st.mesh id2 n3 n4 (some id1) (some id3)
  let st ← TriMesher.addToTree P st e2
  -- `anAdvEdge` is read again: it is the previous edge as well when an edge is its own neighbour
  let e' ← edgeAt st.front k
  let e3 ← TriMesher.newEdge st.mesh id3 n4 e.n1 (some id2) e'.next
  let q ← edgeAt st.front iq
  let st := { st with front := st.front.set iq { q with prev := some id3 } }
  let st ← TriMesher.addToTree P st e3
  let st ← TriMesher.removeEdge P st k
  pure { st with front := st.front ++ [e1, e2, e3], nextEdge := st.nextEdge + 3 }

/-- `addQuadrilateral` on the edge at position `k`: MshQuadrilateralMesher_Imp.hpp:99-304. `n3` follows the first node of the edge and `n4` the second. -/
def addQuadrilateral (sEdges : List Nat) (q : QSt K) (k : Nat) (n3 n4 : Int) : R (QSt K) := do
  let e ← edgeAt q.st.front k
  if n3 = e.n0 ∨ n3 = e.n1 ∨ n4 = e.n0 ∨ n4 = e.n1 then pure q
  else if n3 = n4 then do
    let st ← twoEdges P { q.st with mesh := withElem q.st.mesh ⟨.triangle, [e.n0, e.n1, n3], []⟩ } k e n3
    cleanDuplicateEdges P sEdges { q with st := st }
  else do
    let m ← withQuad q.st.mesh e.n0 e.n1 n4 n3
    let st ← threeEdges P { q.st with mesh := m } k e n3 n4
    cleanDuplicateEdges P sEdges { q with st := st }

/-- The quality `q`, lowered by 2 if a test fails, as long as it is above `bound`. -/
def penalty (bound q : K) (test : R Bool) : R K :=
  if bound < q then do pure (if ← test then q else q - 2) else pure q

/-- The two loops that look for a node in the vicinity, from the best quality so far and its node: MshQuadrilateralMesher_Imp.hpp:630-676 and 688-734. `s` is the end of the edge
that the node would be joined to, `mk` the quadrilateral with the node, `new` the wanted position and `reach` is `baseHeightSize * sizeFactor * expandFactor * 0.75`. -/
def bestNode (st : St K) (e : Edge K) (sEdges : List Nat) (box : BBox K) (a b s new : Vec3 K) (mk : Vec3 K → Quad K) (reach : K) :
    List Int → K × Int × Vec3 K → R (K × Int × Vec3 K)
  | [], best => pure best
  | n :: ns, best =>
    if n = e.n0 ∨ n = e.n1 then bestNode st e sEdges box a b s new mk reach ns best
    else do
      let p ← nodeAt st.mesh n
      if box.containsPt p P.tol ∧ TriMesher.facesUp P a b p then do
        let q ← penalty best.1 (quality P (mk p)) (TriMesher.edgeOk P st.front e s p sEdges)
        bestNode st e sEdges box a b s new mk reach ns (if P.nrm (p - new) < reach ∧ best.1 < q then (q, n, p) else best)
      else bestNode st e sEdges box a b s new mk reach ns best

/-- `q3max`: MshQuadrilateralMesher_Imp.hpp:742-780. -/
def score3 (st : St K) (e : Edge K) (sEdges : List Nat) (sNodes : List Int) (a b new1 new2 : Vec3 K) : R K :=
  if facesUp P ⟨a, b, new2, new1⟩ then do
    let q := quality P ⟨a, b, new2, new1⟩
    let q ← penalty 0 q (TriMesher.edgeOk P st.front e a new1 sEdges)
    let q ← penalty 0 q (TriMesher.edgeOk P st.front e b new2 sEdges)
    let q ← penalty 0 q (TriMesher.edgeOk P st.front e a new2 sEdges)
    let q ← penalty 0 q (TriMesher.edgeOk P st.front e b new1 sEdges)
    let q ← penalty 0 q (TriMesher.edgeOk P st.front e new1 new2 sEdges)
    penalty 0 q (do pure (!(← containsNode P st.mesh ⟨a, b, new2, new1⟩ sNodes)))
  else pure 0

/-- `q4`: MshQuadrilateralMesher_Imp.hpp:837-854. -/
def score4 (st : St K) (e : Edge K) (sEdges : List Nat) (sNodes : List Int) (a b new1 new2 : Vec3 K) (bound : K) : R K := do
  let q := quality P ⟨a, b, new1, new2⟩
  let q ← penalty bound q (TriMesher.edgeOk P st.front e a new1 sEdges)
  let q ← penalty bound q (TriMesher.edgeOk P st.front e b new2 sEdges)
  let q ← penalty bound q (TriMesher.edgeOk P st.front e new1 new2 sEdges)
  penalty bound q (do pure (!(← containsNode P st.mesh ⟨a, b, new2, new1⟩ sNodes)))

/-- The nodes with one more node. -/
def withNode (m : Mesh K) (id : Int) (p : Vec3 K) : Mesh K := { m with nodes := m.nodes.add id p }

/-- Lines 782-806 of MshQuadrilateralMesher_Imp.hpp: the quadrilateral with the two nodes found or invented. -/
def takeNodes (sEdges : List Nat) (q : QSt K) (i : Nat) (id1 id2 : Int) (new1 new2 : Vec3 K) : R (QSt K) :=
  let next := q.st.mesh.nodes.nextId
  let m := if id1 = next + 0 then withNode q.st.mesh id1 new1 else q.st.mesh
  let m := if id2 = next + 1 then withNode m id2 new2 else m
  addQuadrilateral P sEdges
    { q with st := { q.st with mesh := m, interior := TriMesher.markInterior (TriMesher.markInterior q.st.interior id1) id2 } } i id1 id2

/-- Lines 807-876 of MshQuadrilateralMesher_Imp.hpp: the last resort. The two nodes are stored under their ids whether they are new or not, and the quadrilateral whose
normal and quality are looked at has its last two corners exchanged. -/
def tryNew (c : Pass K) (sEdges : List Nat) (sNodes : List Int) (q : QSt K) (i : Nat) (e : Edge K) (a b mid v : Vec3 K) (base : K) (id1 id2 : Int) (new1 new2 : Vec3 K) : R (QSt K) := do
  let st := q.st
  let low := base * c.sizeFactor * c.shrinkFactor * (1 / 4)
  let high := base * c.sizeFactor * c.expandFactor
  let dmin1 ← TriMesher.shortestLoop P st.front (GLine.mk2 mid new1) i sEdges P.big
  let new1 := if low < dmin1 ∧ dmin1 < high then a + (dmin1 * (1 / 2)) • v else new1
  let dmin2 ← TriMesher.shortestLoop P st.front (GLine.mk2 mid new2) i sEdges P.big
  let new2 := if low < dmin2 ∧ dmin2 < high then b + (dmin2 * (1 / 2)) • v else new2
  if facesUp P ⟨a, b, new1, new2⟩ then do
    let q4 ← score4 P st e sEdges sNodes a b new1 new2 (3 / 2 * c.minQuality)
    if 3 / 2 * c.minQuality < q4 then do
      let m1 := withNode st.mesh id1 new1
      let used := (st.mesh.nodes.get? id1).isSome || (m1.nodes.get? id2).isSome
      let q ← addQuadrilateral P sEdges { q with st := { st with mesh := withNode m1 id2 new2 }, again := q.again || used } i id1 id2
      if q.st.box.containsPt new1 P.tol then
        if q.st.box.containsPt new2 P.tol then pure q else .error .outside
      else .error .outside
    else pure q
  else pure q

/-- The test whether the edge and its two neighbours enclose a triangular hole: MshQuadrilateralMesher_Imp.hpp:592-623. -/
def closes (st : St K) (e : Edge K) (sEdges : List Nat) (sNodes : List Int) (a b : Vec3 K) (n3 n4 : Int) : R Bool :=
  if n3 = n4 then do
    let p ← nodeAt st.mesh n3
    if TriMesher.facesUp P a b p then do
      let q ← penalty 0 (1 : K) (TriMesher.edgeOk P st.front e a p sEdges)
      let q ← penalty 0 q (TriMesher.edgeOk P st.front e b p sEdges)
      let r ← containsNode P st.mesh ⟨a, b, p, p⟩ sNodes
      pure (!r && decide (0 < q))
    else pure false
  else pure false

/-- The search for the two nodes and what is done with them: MshQuadrilateralMesher_Imp.hpp:625-876. -/
def search (c : Pass K) (sEdges : List Nat) (sNodes : List Int) (q : QSt K) (i : Nat) (e : Edge K) (box : BBox K) (a b mid v : Vec3 K) (base : K) (new1 new2 : Vec3 K) : R (QSt K) := do
  let st := q.st
  let id1 := st.mesh.nodes.nextId + 0
  let id2 := st.mesh.nodes.nextId + 1
  let reach := base * c.sizeFactor * c.expandFactor * (3 / 4)
  let best1 ← bestNode P st e sEdges box a b a new1 (fun p => ⟨a, b, new2, p⟩) reach sNodes (0, id1, new1)
  let r1 := if c.minQuality < best1.1 then best1.2 else (id1, new1)
  let best2 ← bestNode P st e sEdges box a b b new2 (fun p => ⟨a, b, p, r1.2⟩) reach sNodes (0, id2, new2)
  let r2 := if c.minQuality < best2.1 then best2.2 else (id2, new2)
  let q3 ← score3 P st e sEdges sNodes a b r1.2 r2.2
  if c.minQuality < q3 then takeNodes P sEdges q i r1.1 r2.1 r1.2 r2.2
  else if c.addNodes then tryNew P c sEdges sNodes q i e a b mid v base r1.1 r2.1 r1.2 r2.2
  else pure q

/-- One round of the loop of `advancingFrontQuadMeshing` for an edge that has not been removed, after the checks of lines 490-508: MshQuadrilateralMesher_Imp.hpp:510-876. -/
def advance (c : Pass K) (q : QSt K) (i : Nat) (e : Edge K) : R (QSt K) := do
  let st := q.st
  let a ← nodeAt st.mesh e.n0
  let b ← nodeAt st.mesh e.n1
  let e1 ← lift (e.prev.bind fun k => st.front[k]?)
  let e2 ← lift (e.next.bind fun k => st.front[k]?)
  let e5 ← lift (e1.prev.bind fun k => st.front[k]?)
  let e6 ← lift (e2.next.bind fun k => st.front[k]?)
  let n3 := e1.n0
  let n4 := e2.n1
  let n5 := e5.n0
  let n6 := e6.n1
  if (e.n0 = n6 ∨ e.n1 = n5) ∧ e.prev ≠ e2.next ∧ e.next ≠ e1.prev then pure q
  else do
    let mid := (1 / 2 : K) • (a + b)
    let base := TriMesher.localSize P (P.nrm (b - a))
    let w := if 0 < P.nrm (b - a) then (P.nrm (b - a))⁻¹ • (b - a) else b - a
    let v := TriMesher.quarter w
    let new1 := mid - (base * c.sizeFactor * (1 / 2)) • w + (base * c.sizeFactor) • v
    let new2 := mid + (base * c.sizeFactor * (1 / 2)) • w + (base * c.sizeFactor) • v
    let box := (BBox.ofPoints P.big [a, b, new1, new2]).grow base
    let found ← lift (Rtree.find [] box 0 st.tree)
    let sEdges := found.map Int.toNat
    let sNodes ← TriMesher.findClosestNodes st sEdges
    if (n3 = n5 ∧ n4 = n6) ∨ (n3 = n6 ∧ n4 = n5) then addQuadrilateral P sEdges q i n3 n4
    else do
      let close ← closes P st e sEdges sNodes a b n3 n4
      if close then addQuadrilateral P sEdges q i n3 n4
      else search P c sEdges sNodes q i e box a b mid v base new1 new2

/-- `advancingFrontQuadMeshing`: MshQuadrilateralMesher_Imp.hpp:451-880. The loop runs over a vector that grows; `fuel` bounds its rounds. -/
def pass (c : Pass K) : Nat → Nat → QSt K → R (QSt K)
  | 0, _, _ => .error .fuel
  | fuel + 1, i, q =>
    match q.st.front[i]? with
    | none => pure q
    | some e =>
      if e.remove then pass c fuel (i + 1) q
      else if P.stop q.st then pure q
      else if 0 < P.maxElem ∧ P.maxElem ≤ q.st.mesh.elements.count then .error .maxElements
      else do
        let q ← advance P c q i e
        pass c fuel (i + 1) q

/-- The six calls of `generate`: MshQuadrilateralMesher_Imp.hpp:431-436. -/
def passList : List (Pass K) :=
  [⟨1, 1, 3 / 4, 1 / 20, false⟩, ⟨1, 1, 3 / 4, 1 / 20, true⟩, ⟨1, 1, 1, 1 / 50, true⟩, ⟨1, 1, 3 / 2, 0, true⟩, ⟨1, 1, 5 / 2, 0, true⟩, ⟨1, 1, 7 / 2, 0, true⟩]

/-- Passes one after the other. -/
def runPasses (fuel : Nat) : List (Pass K) → QSt K → R (QSt K)
  | [], q => pure q
  | c :: cs, q => do
    let q ← pass P c fuel 0 q
    runPasses fuel cs q

/-- The front and the mesh after the six passes: MshQuadrilateralMesher_Imp.hpp:425-442. -/
def passes (fuel : Nat) (q : QSt K) : R (QSt K) := do
  let q ← runPasses P fuel passList q
  if TriMesher.unfinished q.st then .error .unfinished else pure q

/-- What a call returns: the surface mesh, `m_interiorNodes` for the next call, and the two records. -/
structure Out (K : Type) where
  mesh : Mesh K
  interior : List (Int × Bool)
  lost : Bool
  again : Bool

/-- `generate`: MshQuadrilateralMesher_Imp.hpp:306-449. Lines 309-423 are those of the triangle mesher; `m_interiorNodes` is not cleared, `old` is what an earlier call left in it. -/
def generate [FloorRing K] (mc : HashGrid.Machine K) (fuel : Nat) (src : Mesh K) (points : List (Vec3 K)) (old : List (Int × Bool)) : R (Out K) := do
  let st ← TriMesher.start P src points old
  let q ← passes P fuel ⟨st, false, false⟩
  let m ← lift q.st.mesh.removeDanglingNodes
  let m ← lift m.renumber
  let m ← lift (m.generateFaces mc P.tol)
  pure ⟨m, q.st.interior, q.lost, q.again⟩

end QuadMesher
end ENigMA
