import Verif.Mesh.TriangleMesher

/-!
# The advancing front mesher of solids

Model of `CMshTetrahedronMesher::generate` and of the functions it calls: trunk/src/mesh/MshTetrahedronMesher.hpp,
MshTetrahedronMesher_Imp.hpp. The members `boundary` and `nodeNotId4` of a triangle of the front are written but never read and
are left out. `checkDelaunay` is never reached from `generate` (`bCheckDelaunay` is `false` in all the calls) and `reduceFront` is never called; both are left
out. The times and counters of `checkUpdate` and the printed messages are left out; the callback may call `stopMeshing` whenever
it is called: `stop n` tells whether it does so at the `n`-th opportunity. The intersections of two triangles and of a triangle and a line, and the
quality of a tetrahedron, are parameters: the theorems hold whatever these functions answer.
-/

set_option linter.unusedSectionVars false
set_option autoImplicit false

namespace ENigMA
namespace TetMesher
open TriMesher (Err R lift nodeAt pushNew markInterior Pass)

variable {K : Type} [Field K] [LinearOrder K] [IsStrictOrderedRing K]

/-- An array of three members: `nodeId[3]`, `neighborId[3]`, `nodeNotId[3]`. -/
structure T3 (α : Type) where
  a : α
  b : α
  c : α
  deriving DecidableEq, Repr

/-- Reading the array. -/
def T3.get {α : Type} (t : T3 α) : Nat → α
  | 0 => t.a
  | 1 => t.b
  | _ => t.c

/-- Writing to the array. -/
def T3.set {α : Type} (t : T3 α) (k : Nat) (x : α) : T3 α :=
  match k with
  | 0 => { t with a := x }
  | 1 => { t with b := x }
  | _ => { t with c := x }

/-- `SMshAdvancingFrontTriangle`: MshTetrahedronMesher.hpp:28-53. `nb` is `neighborId`, where `none` stands for `numeric_limits<Integer>::max()` and for a
member that was not set; `no` is `nodeNotId`, where `none` stands for a member that was not set; `el` is `elementId`, where `none` stands for `max()`. -/
structure Fr (K : Type) where
  id : Nat
  remove : Bool
  n : T3 Int
  nb : T3 (Option Nat)
  no : T3 (Option Nat)
  el : Option Int
  tri : Tri K

/-- The members of the mesher: MshTetrahedronMesher.hpp:58-85. `ticks` counts the calls of `checkUpdate`, `stopped` is `m_bStop`. `upset` is not a member: it records
that `repair` removed an odd number of equal triangles or was stopped between adding the faces of elements and removing the elements. -/
structure St (K : Type) where
  front : List (Fr K)
  tree : Rtree.Node K
  mesh : Mesh K
  inner : List (Int × Bool)
  nextTri : Nat
  box : BBox K
  ticks : Nat
  stopped : Bool
  upset : Bool

/-- What a call depends on: the arguments of `generate` (`maxElem = 0` or negative means no limit), the numerical functions of the machine (the length of a vector,
`numeric_limits` `max`, the square root of 2/3, the quality of a tetrahedron, `crosses`: two triangles intersect with the type `IT_INTERNAL` or `IT_SWAP`,
`hit`: the point in which a triangle and a line intersect, the volume of a box in the tree), and the callback. -/
structure Par (K : Type) where
  nrm : Vec3 K → K
  big : K
  sqrt23 : K
  quality : Tet K → K
  crosses : Tri K → Tri K → Bool
  hit : Tri K → GLine K → Option (Vec3 K)
  vol : BBox K → K
  tol : K
  size : K
  minSize : K
  maxSize : K
  maxElem : Int
  stop : Nat → Bool

variable (P : Par K)

/-- `checkUpdate` and the callback: MshTetrahedronMesher_Imp.hpp:40-61. -/
def tick (st : St K) : St K := { st with ticks := st.ticks + 1, stopped := st.stopped || P.stop st.ticks }

/-- `m_anAdvFront.at(k)`. -/
def triAt (front : List (Fr K)) (k : Nat) : R (Fr K) := lift front[k]?

/-- The box of a triangle: MshTetrahedronMesher_Imp.hpp:82-86 and 98-102. -/
def triBox (a b c : Vec3 K) : BBox K := (BBox.ofPoints P.big [a, b, c]).grow P.tol

/-- `addTriangleToRtree`: MshTetrahedronMesher_Imp.hpp:71-89. -/
def addToTree (st : St K) (x : Fr K) : R (St K) := do
  let a ← nodeAt st.mesh x.n.a
  let b ← nodeAt st.mesh x.n.b
  let c ← nodeAt st.mesh x.n.c
  let t ← lift (Rtree.add P.vol x.id (triBox P a b c) st.tree)
  pure { st with tree := t }

/-- `removeTriangle` of the triangle at position `k` with `removeTriangleFromRtree`: MshTetrahedronMesher_Imp.hpp:63-69, 91-105. -/
def removeTri (st : St K) (k : Nat) : R (St K) := do
  let x ← triAt st.front k
  let a ← nodeAt st.mesh x.n.a
  let b ← nodeAt st.mesh x.n.b
  let c ← nodeAt st.mesh x.n.c
  let t ← lift (Rtree.remove P.vol x.id (triBox P a b c) st.tree)
  pure { st with front := st.front.set k { x with remove := true }, tree := t }

/-- The sorted node ids: MshTetrahedronMesher_Imp.hpp:110-116, 126-132 and 1280-1286, 1297-1303. -/
def sorted (n : T3 Int) : List Int := [n.a, n.b, n.c].insertionSort (· ≤ ·)

/-- `triangleExists`: MshTetrahedronMesher_Imp.hpp:107-142, the duplicate or `none` for `false`. -/
def triangleExists (front : List (Fr K)) (x : Fr K) : List Nat → R (Option Nat)
  | [] => pure none
  | j :: js =>
    if j = x.id then triangleExists front x js
    else do
      let o ← triAt front j
      if sorted o.n = sorted x.n then pure (some j) else triangleExists front x js

/-- `triangleOk` for the triangle `a`, `b`, `c`: MshTetrahedronMesher_Imp.hpp:144-176. -/
def triangleOk (front : List (Fr K)) (x : Fr K) (a b c : Vec3 K) : List Nat → R Bool
  | [] => pure true
  | j :: js =>
    if j = x.id then triangleOk front x a b c js
    else do
      let o ← triAt front j
      if o.remove then triangleOk front x a b c js
      else if P.crosses ⟨a, b, c⟩ o.tri then pure false
      else triangleOk front x a b c js

/-- The first loop of `findClosestNodes`: MshTetrahedronMesher_Imp.hpp:181-193. -/
def closestLoop (front : List (Fr K)) : List Nat → List Int → R (List Int)
  | [], l => pure l
  | j :: js, l => do
    let x ← triAt front j
    if x.remove then closestLoop front js l else closestLoop front js (pushNew (pushNew (pushNew l x.n.a) x.n.b) x.n.c)

/-- `findClosestNodes`: MshTetrahedronMesher_Imp.hpp:178-205. -/
def findClosestNodes (st : St K) (sTris : List Nat) : R (List Int) := do
  let l ← closestLoop st.front sTris []
  pure ((st.inner.filter fun p => !p.2).foldl (fun l p => pushNew l p.1) l)

/-- `findShortestDistance`: MshTetrahedronMesher_Imp.hpp:207-234, from the running minimum. -/
def shortestLoop (front : List (Fr K)) (line : GLine K) (cur : Nat) : List Nat → K → R K
  | [], d => pure d
  | j :: js, d =>
    if j = cur then shortestLoop front line cur js d
    else do
      let x ← triAt front j
      if x.remove then shortestLoop front line cur js d
      else
        match P.hit x.tri line with
        | some p =>
          let dist := P.nrm (p - line.startP)
          shortestLoop front line cur js (if dist < d then dist else d)
        | none => shortestLoop front line cur js d

/-- `tetrahedronContainsNode`: MshTetrahedronMesher_Imp.hpp:236-260. -/
def containsNode (m : Mesh K) (a b c d : Vec3 K) : List Int → R Bool
  | [] => pure false
  | n :: ns => do
    let p ← nodeAt m n
    if P.nrm (p - a) < P.tol ∨ P.nrm (p - b) < P.tol ∨ P.nrm (p - c) < P.tol ∨ P.nrm (p - d) < P.tol then containsNode m a b c d ns
    else if Tet.contains P.big ⟨a, b, c, d⟩ p P.tol then pure true
    else containsNode m a b c d ns

/-- The test in `pairEdges` whether side `k` of one triangle is side `l` of the other: MshTetrahedronMesher_Imp.hpp:299. -/
def sameSide (x y : T3 Int) (k l : Nat) : Bool :=
  (decide (x.get k = y.get l) && decide (x.get ((k + 1) % 3) = y.get ((l + 1) % 3))) ||
  (decide (x.get k = y.get ((l + 1) % 3)) && decide (x.get ((k + 1) % 3) = y.get l))

/-- One round of the outer loop of `pairEdges`: MshTetrahedronMesher_Imp.hpp:295-310. -/
def pairAt (p : Fr K × Fr K) (k : Nat) : Fr K × Fr K :=
  let x := p.1
  let y := p.2
  match [0, 1, 2].find? (sameSide x.n y.n k) with
  | none => (x, y)
  | some l =>
    ({ x with nb := x.nb.set k (some y.id), no := x.no.set k (some ((l + 2) % 3)) },
     { y with nb := y.nb.set l (some x.id), no := y.no.set l (some ((k + 2) % 3)) })

/-- `pairEdges`: MshTetrahedronMesher_Imp.hpp:292-313. -/
def pairEdges (x y : Fr K) : Fr K × Fr K := [0, 1, 2].foldl pairAt (x, y)

/-- The inner loop of `adjustConnectivity` and of `rebuildConnectivity`, for the triangle at position `i`: MshTetrahedronMesher_Imp.hpp:341-355 and 1029-1043. -/
def pairLoop (i : Nat) : List Nat → List (Fr K) → R (List (Fr K))
  | [], front => pure front
  | j :: js, front => do
    let x ← triAt front i
    if j = x.id then pairLoop i js front
    else do
      let y ← triAt front j
      if y.remove then pairLoop i js front
      else pairLoop i js ((front.set i (pairEdges x y).1).set j (pairEdges x y).2)

/-- One of the neighbours is `max()`. -/
def Fr.lone (x : Fr K) : Bool := x.nb.a.isNone || x.nb.b.isNone || x.nb.c.isNone

/-- The check at the end of a round of `adjustConnectivity` and of `rebuildConnectivity`: MshTetrahedronMesher_Imp.hpp:357-360 and 1045-1048. -/
def checkOpen (i : Nat) (front : List (Fr K)) : R (List (Fr K)) := do
  let x ← triAt front i
  if x.lone then .error .openBoundary else pure front

/-- One round of the outer loop of `adjustConnectivity`: MshTetrahedronMesher_Imp.hpp:318-362. A neighbour out of range is an exception. -/
def adjustOne (sTris : List Nat) (front : List (Fr K)) (i : Nat) : R (List (Fr K)) := do
  let x ← triAt front i
  if x.remove then pure front
  else if x.n.a = x.n.b ∨ x.n.b = x.n.c ∨ x.n.c = x.n.a then pure (front.set i { x with remove := true })
  else do
    let p ← lift (x.nb.a.bind fun k => front[k]?)
    let q ← lift (x.nb.b.bind fun k => front[k]?)
    let r ← lift (x.nb.c.bind fun k => front[k]?)
    if p.remove ∨ q.remove ∨ r.remove then do
      let front ← pairLoop i sTris front
      checkOpen i front
    else pure front

/-- `adjustConnectivity`: MshTetrahedronMesher_Imp.hpp:315-363. -/
def adjustConnectivity (sTris : List Nat) (front : List (Fr K)) : R (List (Fr K)) :=
  (List.range front.length).foldlM (adjustOne sTris) front

/-- One of the three rounds of `cleanDuplicateTriangles`, for the triangle at position `k`; the second part of the result tells whether
a pair was removed: MshTetrahedronMesher_Imp.hpp:376-393. -/
def cleanOne (sTris : List Nat) (st : St K) (k : Nat) : R (St K × Bool) := do
  let x ← triAt st.front k
  if x.remove then pure (st, false)
  else
    match ← triangleExists st.front x sTris with
    | some j => do
      let st ← removeTri P st k
      let st ← removeTri P st j
      pure (st, true)
    | none => pure (st, false)

/-- `cleanDuplicateTriangles`: MshTetrahedronMesher_Imp.hpp:365-398. -/
def cleanDuplicates (sTris : List Nat) (st : St K) : R (St K) :=
  if st.nextTri < 3 then pure st
  else do
    let (st, b1) ← cleanOne P sTris st (st.nextTri - 0 - 1)
    let (st, b2) ← cleanOne P sTris st (st.nextTri - 1 - 1)
    let (st, b3) ← cleanOne P sTris st (st.nextTri - 2 - 1)
    if b1 || b2 || b3 then do
      let front ← adjustConnectivity sTris st.front
      pure { st with front := front }
    else pure st

/-- A new triangle of the front, with its corners (`build`, MshTetrahedronMesher.hpp:45-52). -/
def newTri (m : Mesh K) (id : Nat) (n : T3 Int) (nb no : T3 (Option Nat)) (el : Option Int) : R (Fr K) := do
  let p ← nodeAt m n.a
  let q ← nodeAt m n.b
  let r ← nodeAt m n.c
  pure ⟨id, false, n, nb, no, el, ⟨p, q, r⟩⟩

/-- The mesh with one more tetrahedron: MshTetrahedronMesher_Imp.hpp:414-424. -/
def withTet (m : Mesh K) (a b c d : Int) : Mesh K :=
  let e : Elem := ⟨.tetrahedron, [a, b, c, d], []⟩
  { m with elements := m.elements.add m.elements.nextId e }

/-- The neighbour at position `q` is told about the new triangle `id`, across from its corner `s`: MshTetrahedronMesher_Imp.hpp:452-454, 478-480 and 504-506. -/
def attach (front : List (Fr K)) (q s id : Nat) : R (List (Fr K)) := do
  let y ← triAt front q
  pure (front.set q { y with nb := y.nb.set ((s + 1) % 3) (some id), no := y.no.set ((s + 1) % 3) (some 2) })

/-- `addTetrahedron` on the triangle at position `k` with the fourth node `n4`: MshTetrahedronMesher_Imp.hpp:400-520. The triangle is read again after each change: it is its own neighbour in the worst case. -/
def addTet (sTris : List Nat) (st : St K) (k : Nat) (n4 : Int) : R (St K) := do
  let x ← triAt st.front k
  if n4 = x.n.a ∨ n4 = x.n.b ∨ n4 = x.n.c then pure st
  else do
    let el := some st.mesh.elements.nextId
    let st := { st with mesh := withTet st.mesh x.n.a x.n.b x.n.c n4 }
    let q1 ← lift x.nb.a
    let q2 ← lift x.nb.b
    let q3 ← lift x.nb.c
    let _ ← triAt st.front q1
    let _ ← triAt st.front q2
    let _ ← triAt st.front q3
    let id := st.nextTri
    let t1 ← newTri st.mesh id ⟨x.n.a, x.n.b, n4⟩ ⟨x.nb.a, some (id + 1), some (id + 2)⟩ ⟨x.no.a, some 1, some 0⟩ el
    let s1 ← lift x.no.a
    let front ← attach st.front q1 s1 id
    let st ← addToTree P { st with front := front } t1
    let x ← triAt st.front k
    let t2 ← newTri st.mesh (id + 1) ⟨x.n.b, x.n.c, n4⟩ ⟨x.nb.b, some (id + 2), some id⟩ ⟨x.no.b, some 1, some 0⟩ el
    let s2 ← lift x.no.b
    let front ← attach st.front q2 s2 (id + 1)
    let st ← addToTree P { st with front := front } t2
    let x ← triAt st.front k
    let t3 ← newTri st.mesh (id + 2) ⟨x.n.c, x.n.a, n4⟩ ⟨x.nb.c, some id, some (id + 1)⟩ ⟨x.no.c, some 1, some 0⟩ el
    let s3 ← lift x.no.c
    let front ← attach st.front q3 s3 (id + 2)
    let st ← addToTree P { st with front := front } t3
    let st ← removeTri P st k
    cleanDuplicates P sTris { st with front := st.front ++ [t1, t2, t3], nextTri := id + 3 }

/-- `volume() > aTolerance * aTolerance * aTolerance` for the tetrahedron on these corners. -/
def bulky (a b c d : Vec3 K) : Prop := P.tol * P.tol * P.tol < Tet.volume ⟨a, b, c, d⟩

instance (a b c d : Vec3 K) : Decidable (bulky P a b c d) := by unfold bulky; infer_instance

/-- The quality of the tetrahedron, lowered by 2 for each failing test as long as it is above `bound`: MshTetrahedronMesher_Imp.hpp:882-899 and 953-969. -/
def score (st : St K) (x : Fr K) (sTris : List Nat) (sNodes : List Int) (a b c d : Vec3 K) (bound : K) : R K := do
  let q := P.quality ⟨a, b, c, d⟩
  let q ← if bound < q then do pure (if ← triangleOk P st.front x a b d sTris then q else q - 2) else pure q
  let q ← if bound < q then do pure (if ← triangleOk P st.front x b c d sTris then q else q - 2) else pure q
  let q ← if bound < q then do pure (if ← triangleOk P st.front x c a d sTris then q else q - 2) else pure q
  if bound < q then do pure (if ← containsNode P st.mesh a b c d sNodes then q - 2 else q) else pure q

/-- The loop over the nodes in the vicinity, from the best quality so far and its node: MshTetrahedronMesher_Imp.hpp:855-910. `reach` is
`baseHeightSize * sizeFactor * expandFactor`. -/
def bestNode (st : St K) (x : Fr K) (sTris : List Nat) (sNodes : List Int) (a b c new : Vec3 K) (reach : K) : List Int → K × Int → R (K × Int)
  | [], best => pure best
  | n :: ns, best =>
    if n = x.n.a ∨ n = x.n.b ∨ n = x.n.c then bestNode st x sTris sNodes a b c new reach ns best
    else do
      let p ← nodeAt st.mesh n
      if P.nrm (p - new) < reach ∧ bulky P a b c p then do
        let q ← score P st x sTris sNodes a b c p best.1
        bestNode st x sTris sNodes a b c new reach ns (if best.1 < q then (q, n) else best)
      else bestNode st x sTris sNodes a b c new reach ns best

/-- Lines 928-985 of MshTetrahedronMesher_Imp.hpp: a new node in front of the triangle at position `i`, if its tetrahedron is good enough. -/
def tryNew (c : Pass K) (st : St K) (i : Nat) (x : Fr K) (sTris : List Nat) (sNodes : List Int) (n1 n2 n3 mid v new : Vec3 K) (base : K) : R (St K) := do
  let newId := st.mesh.nodes.nextId
  let dmin ← shortestLoop P st.front (GLine.mk2 mid new) i sTris P.big
  let new := if base * c.sizeFactor * c.shrinkFactor * (1 / 4) < dmin ∧ dmin < base * c.sizeFactor * c.expandFactor
    then mid + (dmin * (1 / 2)) • v else new
  if bulky P n1 n2 n3 new then do
    let q ← score P st x sTris sNodes n1 n2 n3 new (3 / 2 * c.minQuality)
    if 3 / 2 * c.minQuality < q then do
      let st ← addTet P sTris { st with mesh := { st.mesh with nodes := st.mesh.nodes.add newId new } } i newId
      if st.box.containsPt new P.tol then pure st else .error .outside
    else pure st
  else pure st

/-- The local size of the tetrahedra at a triangle with a side of the length `len`: MshTetrahedronMesher_Imp.hpp:784-791. -/
def localSize (len : K) : K :=
  min (max (len * max (min (P.size / (len + P.tol * P.tol)) 2) (1 / 2)) P.minSize) P.maxSize

/-- The test whether the triangle and its three neighbours enclose a hole: MshTetrahedronMesher_Imp.hpp:828-848. -/
def closes (st : St K) (x : Fr K) (sTris : List Nat) (sNodes : List Int) (a b c d : Vec3 K) (n4 n5 n6 : Int) : R Bool :=
  if n4 = n5 ∧ n5 = n6 then
    if bulky P a b c d then do
      if ← triangleOk P st.front x a b d sTris then
        if ← triangleOk P st.front x b c d sTris then
          if ← triangleOk P st.front x c a d sTris then do
            let r ← containsNode P st.mesh a b c d sNodes
            pure (!r)
          else pure false
        else pure false
      else pure false
    else pure false
  else pure false

/-- The corner of the neighbour `k` that is not on the common side: MshTetrahedronMesher_Imp.hpp:766-768. -/
def opposite (front : List (Fr K)) (x : Fr K) (k : Nat) : R Int := do
  let y ← lift ((x.nb.get k).bind fun j => front[j]?)
  let s ← lift (x.no.get k)
  pure (y.n.get s)

/-- One round of the loop of `advancingFrontTetraMeshing` for a triangle that has not been removed, after the checks of lines 745-760: MshTetrahedronMesher_Imp.hpp:758-987. -/
def advance (c : Pass K) (st : St K) (i : Nat) (x : Fr K) : R (St K) := do
  let n1 ← nodeAt st.mesh x.n.a
  let n2 ← nodeAt st.mesh x.n.b
  let n3 ← nodeAt st.mesh x.n.c
  let i4 ← opposite st.front x 0
  let i5 ← opposite st.front x 1
  let i6 ← opposite st.front x 2
  let n4 ← nodeAt st.mesh i4
  let mid := (1 / 3 : K) • (n1 + n2 + n3)
  let base := localSize P (P.nrm (n2 - n1)) * P.sqrt23
  let w := -(Vec3.cross (n2 - n1) (n3 - n1))
  let v := if 0 < P.nrm w then (P.nrm w)⁻¹ • w else w
  let new := mid + (base * c.sizeFactor) • v
  let aux := mid + (base * c.sizeFactor * (3 / 2)) • v
  let q := (BBox.ofPoints P.big [n1, n2, n3, aux]).grow base
  let found ← lift (Rtree.find [] q 0 st.tree)
  let sTris := (found.map Int.toNat).filter (· ≠ i)
  let sNodes ← findClosestNodes st sTris
  let close ← closes P st x sTris sNodes n1 n2 n3 n4 i4 i5 i6
  if close then addTet P sTris st i i4
  else do
    let best ← bestNode P st x sTris sNodes n1 n2 n3 new (base * c.sizeFactor * c.expandFactor) sNodes (0, 0)
    if c.minQuality < best.1 then
      addTet P sTris { st with inner := markInterior st.inner best.2 } i best.2
    else if c.addNodes then tryNew P c st i x sTris sNodes n1 n2 n3 mid v new base
    else pure st

/-- `advancingFrontTetraMeshing`: MshTetrahedronMesher_Imp.hpp:715-996. The loop runs over a vector that grows; `fuel` bounds its rounds. The callback is called once more at the end. -/
def pass (c : Pass K) : Nat → Nat → St K → R (St K)
  | 0, _, _ => .error .fuel
  | fuel + 1, i, st =>
    match st.front[i]? with
    | none => pure (tick P st)
    | some x =>
      if x.remove ∨ x.lone then pass c fuel (i + 1) st
      else
        let st := tick P st
        if st.stopped then pure st
        else if 0 < P.maxElem ∧ P.maxElem ≤ st.mesh.elements.count then .error .maxElements
        else do
          let st ← advance P c st i x
          pass c fuel (i + 1) st

/-! ### repair -/

/-- One round of the outer loop of `rebuildConnectivity`: MshTetrahedronMesher_Imp.hpp:1004-1049. -/
def rebuildOne (m : Mesh K) (tree : Rtree.Node K) (front : List (Fr K)) (i : Nat) : R (List (Fr K)) := do
  let x ← triAt front i
  if x.remove then pure front
  else do
    let a ← nodeAt m x.n.a
    let b ← nodeAt m x.n.b
    let c ← nodeAt m x.n.c
    let found ← lift (Rtree.find [] (triBox P a b c) 0 tree)
    let front ← pairLoop i (found.map Int.toNat) front
    checkOpen i front

/-- `rebuildConnectivity`: MshTetrahedronMesher_Imp.hpp:998-1052. -/
def rebuildConnectivity (st : St K) : R (St K) := do
  let front ← (List.range st.front.length).foldlM (rebuildOne P st.mesh st.tree) st.front
  pure { st with front := front }

/-- `sSteinerPoints` and `sElementsToRemove`. -/
structure Plan (K : Type) where
  pts : List (Vec3 K)
  els : List Int

/-- The body of the two innermost loops over the sides `k` and `l` of two triangles: MshTetrahedronMesher_Imp.hpp:1138-1193. -/
def scanSides (m : Mesh K) (x y : Fr K) (r : Plan K) (kl : Nat × Nat) : R (Plan K) := do
  let i1 := x.n.get kl.1
  let i2 := x.n.get ((kl.1 + 1) % 3)
  let n1 ← nodeAt m i1
  let n2 ← nodeAt m i2
  let i3 := y.n.get kl.2
  let i4 := y.n.get ((kl.2 + 1) % 3)
  if i1 = i3 ∨ i1 = i4 ∨ i2 = i3 ∨ i2 = i4 then pure r
  else do
    let n3 ← nodeAt m i3
    let n4 ← nodeAt m i4
    match (GLine.mk2 n1 n2).distanceLine P.nrm (GLine.mk2 n3 n4) P.tol with
    | none => pure r
    | some (p5, p6, d) =>
      let len := (P.nrm (n2 - n1) + P.nrm (n4 - n3)) * (1 / 2)
      if d < len * (1 / 5) then
        let new := (1 / 2 : K) • (p6 + p5)
        if r.pts.any fun s => decide (P.nrm (s - new) < len * (1 / 2)) then pure r else pure { r with pts := r.pts ++ [new] }
      else pure r

/-- The body of the loop over the second triangle: MshTetrahedronMesher_Imp.hpp:1122-1194. -/
def scanTwo (m : Mesh K) (x : Fr K) (r : Plan K) (y : Fr K) : R (Plan K) :=
  if y.remove then pure r
  else
    match x.el, y.el with
    | some e, some f =>
      [(0, 0), (0, 1), (0, 2), (1, 0), (1, 1), (1, 2), (2, 0), (2, 1), (2, 2)].foldlM (scanSides P m x y) { r with els := pushNew (pushNew r.els e) f }
    | _, _ => pure r

/-- The first loop of `repair`, over the rest of the front; `none` when it was stopped: MshTetrahedronMesher_Imp.hpp:1106-1196. -/
def scan : List (Fr K) → St K → Plan K → R (St K × Option (Plan K))
  | [], st, r => pure (st, some r)
  | x :: rest, st, r =>
    let st := tick P st
    if st.stopped then pure (st, none)
    else if x.remove ∨ x.el = none then scan rest st r
    else do
      let r ← rest.foldlM (scanTwo P st.mesh x) r
      scan rest st r

/-- The loop over the elements around one point: MshTetrahedronMesher_Imp.hpp:1213-1232. -/
def around (m : Mesh K) (ball : Ball K) (els : List Int) (id : Int) : R (List Int) := do
  let e ← lift (m.elements.get? id)
  let ps ← e.nodeIds.mapM (nodeAt m)
  pure (if ps.any fun p => ball.contains P.nrm p P.tol then pushNew els id else els)

/-- The second loop of `repair`; `none` when it was stopped: MshTetrahedronMesher_Imp.hpp:1198-1233. -/
def collect (factor : K) : List (Vec3 K) → St K → List Int → R (St K × Option (List Int))
  | [], st, els => pure (st, some els)
  | p :: ps, st, els =>
    let st := tick P st
    if st.stopped then pure (st, none)
    else do
      let els ← st.mesh.elements.ids.foldlM (around P st.mesh ⟨p, P.size * factor⟩) els
      collect factor ps st els

/-- A face of an element becomes a triangle of the front: MshTetrahedronMesher_Imp.hpp:1248-1272. -/
def addFace (st : St K) (f : Face) : R (St K) :=
  match f.nodeIds with
  | a :: b :: c :: _ => do
    let x ← newTri st.mesh st.nextTri ⟨a, b, c⟩ ⟨none, none, none⟩ ⟨none, none, none⟩ none
    addToTree P { st with front := st.front ++ [x], nextTri := st.nextTri + 1 } x
  | _ => .error .undefined

/-- The third loop of `repair`; `false` when it was stopped: MshTetrahedronMesher_Imp.hpp:1235-1273. -/
def openElems : List Int → St K → R (St K × Bool)
  | [], st => pure (st, true)
  | id :: ids, st =>
    let st := tick P st
    if st.stopped then pure (st, false)
    else do
      let e ← lift (st.mesh.elements.get? id)
      let fs ← lift e.generateFaces
      let st ← fs.1.foldlM (addFace P) st
      openElems ids st

/-- The inner loop of the fourth loop of `repair`, for the triangle at position `i`, which the loop does not stop comparing once it is removed; the second part of the result
counts the triangles equal to it: MshTetrahedronMesher_Imp.hpp:1288-1311. -/
def dedupInner (i : Nat) : List Nat → St K → Nat → R (St K × Nat)
  | [], st, c => pure (st, c)
  | j :: js, st, c => do
    let x ← triAt st.front i
    let y ← triAt st.front j
    if y.remove then dedupInner i js st c
    else if sorted x.n = sorted y.n then do
      let st ← removeTri P st i
      let st ← removeTri P st j
      dedupInner i js st (c + 1)
    else dedupInner i js st c

/-- The fourth loop of `repair`; `false` when it was stopped: MshTetrahedronMesher_Imp.hpp:1275-1312. -/
def dedup : List Nat → St K → R (St K × Bool)
  | [], st => pure (st, true)
  | i :: is, st =>
    let st := tick P st
    if st.stopped then pure (st, false)
    else do
      let x ← triAt st.front i
      if x.remove then dedup is st
      else do
        let (st, c) ← dedupInner P i (List.range' (i + 1) (st.front.length - (i + 1))) st 0
        dedup is { st with upset := st.upset || (decide (0 < c) && decide (c % 2 = 0)) }

/-- The last loop of `repair`: MshTetrahedronMesher_Imp.hpp:1316-1317. -/
def dropElems : List Int → St K → R (St K)
  | [], st => pure st
  | id :: ids, st => do
    let els ← lift (st.mesh.elements.remove id)
    dropElems ids { st with mesh := { st.mesh with elements := els } }

/-- `repair` with this `sizeFactor`: MshTetrahedronMesher_Imp.hpp:1097-1320. The result of the call is not used. -/
def repair (factor : K) (st : St K) : R (St K) := do
  let (st, r) ← scan P st.front st ⟨[], []⟩
  match r with
  | none => pure st
  | some r => do
    let (st, els) ← collect P factor r.pts st r.els
    match els with
    | none => pure st
    | some els => do
      let (st, go) ← openElems P els st
      if go then do
        let (st, go) ← dedup P (List.range st.front.length) st
        if go then do
          let st ← rebuildConnectivity P st
          dropElems els st
        else pure { st with upset := true }
      else pure { st with upset := true }

/-! ### generate -/

/-- The map `newTriangleIds`: MshTetrahedronMesher_Imp.hpp:553-563. -/
def triIds (src : Mesh K) : List Int → Nat → SMap Int Nat → R (SMap Int Nat)
  | [], _, s => pure s
  | id :: ids, i, s => do
    let e ← lift (src.elements.get? id)
    if e.elementType = .triangle then triIds src ids (i + 1) (s.insert id i) else triIds src ids i s

/-- The neighbour of a triangle across one of its faces, and the corner of the neighbour that is not on the face: MshTetrahedronMesher_Imp.hpp:592-622. -/
def neighbour (src : Mesh K) (ids : SMap Int Nat) (fid : Int) : R (Option Nat × Option Nat) := do
  let f ← lift (src.faces.get? fid)
  if f.hasPair then do
    let g ← lift (src.faces.get? f.pairFaceId)
    match ids.find? g.elementId with
    | none => pure (none, none)
    | some k => do
      let e ← lift (src.elements.get? g.elementId)
      match f.nodeIds with
      | a :: b :: _ => pure (some k, e.nodeIds.findIdx? fun n => decide (n ≠ a) && decide (n ≠ b))
      | _ => .error .undefined
  else .error .openBoundary

/-- The loop over the triangles: MshTetrahedronMesher_Imp.hpp:567-629. A triangle without exactly three nodes and three faces writes past the arrays or leaves them unset. -/
def addTris (src : Mesh K) (ids : SMap Int Nat) : List Int → St K → R (St K)
  | [], st => pure st
  | id :: rest, st => do
    let e ← lift (src.elements.get? id)
    if e.elementType = .triangle then
      match e.nodeIds, e.faceIds with
      | [a, b, c], [f, g, h] => do
        let x ← newTri src st.nextTri ⟨a, b, c⟩ ⟨none, none, none⟩ ⟨none, none, none⟩ none
        let p ← neighbour src ids f
        let q ← neighbour src ids g
        let r ← neighbour src ids h
        let x := { x with nb := ⟨p.1, q.1, r.1⟩, no := ⟨p.2, q.2, r.2⟩ }
        let st ← addToTree P { st with front := st.front ++ [x], nextTri := st.nextTri + 1 } x
        addTris src ids rest st
      | _, _ => .error .undefined
    else addTris src ids rest st

/-- The loop over the interior points: MshTetrahedronMesher_Imp.hpp:632-649. -/
def addInner : List (Vec3 K) → St K → St K
  | [], st => st
  | p :: ps, st =>
    let id := st.mesh.nodes.nextId
    addInner ps { st with mesh := { st.mesh with nodes := st.mesh.nodes.add id p }, inner := st.inner ++ [(id, false)] }

/-- Lines 524-649 of `generate`: the front at the start. The first loop, lines 531-541, is that of the triangle mesher. `m_innerNodes` is not cleared: `old` is what an earlier call left in it. -/
def start (src : Mesh K) (points : List (Vec3 K)) (old : List (Int × Bool)) : R (St K) := do
  let (m, box) ← TriMesher.copyNodes src src.nodes.ids (Mesh.empty, BBox.reset P.big)
  let ids ← triIds src src.elements.ids 0 SMap.empty
  let st ← addTris P src ids src.elements.ids ⟨[], Rtree.empty, m, old, 0, box.grow P.tol, 0, false, false⟩
  pure (addInner points st)

/-- `frontSize() != 0`: MshTetrahedronMesher_Imp.hpp:701-713. -/
def unfinished (st : St K) : Bool := st.front.any fun x => !x.remove

/-- The constants of the calls of `advancingFrontTetraMeshing` in the `i`-th round of repairs: MshTetrahedronMesher_Imp.hpp:669-685. -/
def roundPasses (i : Nat) : List (Pass K) :=
  (if i < 4 then [⟨1, 1, 1, 15 / 100, false⟩, ⟨1, 1, 1, 15 / 100, true⟩]
   else if i < 8 then [⟨1 - 5 / 100 * i, 1, 1, 15 / 100, false⟩, ⟨1 - 5 / 100 * i, 1, 1, 15 / 100, true⟩]
   else []) ++
  [⟨1, 1 / 2, 3 / 2, 0, false⟩, ⟨1, 1 / 2, 3 / 2, 0, true⟩, ⟨1, 1 / 4, 5 / 2, 0, false⟩, ⟨1, 1 / 4, 5 / 2, 0, true⟩]

/-- The constants of the first three calls: MshTetrahedronMesher_Imp.hpp:655-657. -/
def firstPasses : List (Pass K) := [⟨1, 1, 1, 10 / 100, false⟩, ⟨1, 1, 1, 10 / 100, true⟩, ⟨1, 1 / 2, 3 / 2, 1 / 100, true⟩]

/-- The calls of `advancingFrontTetraMeshing` one after the other. -/
def runPasses (fuel : Nat) : List (Pass K) → St K → R (St K)
  | [], st => pure st
  | c :: cs, st => do
    let st ← pass P c fuel 0 st
    runPasses fuel cs st

/-- The loop of repairs: MshTetrahedronMesher_Imp.hpp:659-686. -/
def rounds (fuel : Nat) : List Nat → St K → R (St K)
  | [], st => pure st
  | i :: is, st =>
    if unfinished st then do
      let st ← repair P (if i < 10 then 90 / 100 + i * (5 / 100) else 120 / 100 - i * (5 / 100)) st
      let st ← runPasses P fuel (roundPasses i) st
      rounds fuel is st
    else pure st

/-- The front and the mesh after all the passes: MshTetrahedronMesher_Imp.hpp:651-692. -/
def passes (fuel : Nat) (st : St K) : R (St K) := do
  let st ← runPasses P fuel firstPasses st
  let st ← rounds P fuel (List.range 12) st
  if unfinished st then .error .unfinished else pure st

/-- What a call that returns leaves: `mesh()`, `m_innerNodes` for the next call, and the record `upset`. -/
structure Out (K : Type) where
  mesh : Mesh K
  inner : List (Int × Bool)
  upset : Bool

/-- `generate`: MshTetrahedronMesher_Imp.hpp:521-699. -/
def generate [FloorRing K] (mc : HashGrid.Machine K) (fuel : Nat) (src : Mesh K) (points : List (Vec3 K)) (old : List (Int × Bool)) : R (Out K) := do
  let st ← start P src points old
  let st ← passes P fuel st
  let m ← lift st.mesh.removeDanglingNodes
  let m ← lift m.renumber
  let m ← lift (m.generateFaces mc P.tol)
  pure ⟨m, st.inner, st.upset⟩

end TetMesher
end ENigMA
