import Verif.Geometry.BBox

/-!
# The R-tree: trunk/src/geometry/GeoRtree_Imp.hpp and trunk/dependencies/rtree/RTree.h

`CGeoRtree` wraps `RTree<Integer, Real, 3, Real>`, so MAXNODES = 8 and MINNODES = 4. A node holds its branches in a list (the first `m_count` entries of
`m_branch`); a branch is a rectangle with either an id or a child. `none` stands for undefined behaviour: a variable read before it is set, a null child, or
more steps down than the root has levels. `ASSERT`s are not modelled as such (they are off in a release build). Memory release is left out.
-/

namespace ENigMA

set_option autoImplicit false

namespace Rtree

variable {K : Type} [Field K] [LinearOrder K]

/-- `MAXNODES`: RTree.h:46-58 with the default `TMAXNODES = 8`. -/
def maxNodes : Nat := 8

/-- `MINNODES`: RTree.h:46-58 with the default `TMINNODES = TMAXNODES / 2`. -/
def minNodes : Nat := 4

/-- `Node` and `Branch`: RTree.h:247-270. In a branch, `inl` is `m_data` of a leaf entry, `inr` is `m_child` of an inner entry. -/
inductive Node (K : Type) where
  | mk (level : Nat) (bs : List (BBox K × (Int ⊕ Node K)))

/-- `m_level`. -/
def Node.level : Node K → Nat
  | .mk l _ => l

/-- The branches in use. -/
def Node.bs : Node K → List (BBox K × (Int ⊕ Node K))
  | .mk _ bs => bs

/-- A branch. -/
abbrev Branch (K : Type) := BBox K × (Int ⊕ Node K)

/-- `CombineRect`: RTree.h:788-810. -/
def combine (a b : BBox K) : BBox K :=
  ⟨⟨min a.min.x b.min.x, min a.min.y b.min.y, min a.min.z b.min.z⟩, ⟨max a.max.x b.max.x, max a.max.y b.max.y, max a.max.z b.max.z⟩⟩

/-- `Overlap`: RTree.h:1242-1257. -/
def overlap (a b : BBox K) : Bool :=
  !(decide (a.min.x > b.max.x) || decide (b.min.x > a.max.x)) && !(decide (a.min.y > b.max.y) || decide (b.min.y > a.max.y)) &&
    !(decide (a.min.z > b.max.z) || decide (b.min.z > a.max.z))

/-- `RectSphericalVolume` in three dimensions: RTree.h:882-913. `c` is `m_unitSphereVolume`. -/
def sphericalVolume (sqrt : K → K) (c : K) (r : BBox K) : K :=
  let hx := (r.max.x - r.min.x) * (1 / 2)
  let hy := (r.max.y - r.min.y) * (1 / 2)
  let hz := (r.max.z - r.min.z) * (1 / 2)
  let radius := sqrt (hx * hx + hy * hy + hz * hz)
  radius * radius * radius * c

section
variable {α : Type}

/-- `NodeCover`: RTree.h:687-699. A node without branches would read an uninitialised rectangle. -/
def nodeCover : List (BBox K × α) → Option (BBox K)
  | [] => none
  | b :: l => some (l.foldl (fun r e => combine r e.1) b.1)

/-- One step of the loop of `PickBranch`: RTree.h:763-783. The state is `(best, bestArea, bestIncr)`, `none` while `firstTime`. -/
def pickStep (vol : BBox K → K) (r : BBox K) (st : Option (Nat × K × K)) (e : (BBox K × α) × Nat) : Option (Nat × K × K) :=
  let area := vol e.1.1
  let increase := vol (combine r e.1.1) - area
  match st with
  | none => some (e.2, area, increase)
  | some (best, bestArea, bestIncr) =>
    if increase < bestIncr then some (e.2, area, increase)
    else if increase = bestIncr ∧ area < bestArea then some (e.2, area, increase)
    else some (best, bestArea, bestIncr)

/-- `PickBranch`: RTree.h:750-785. `none`: `best` is not initialised. -/
def pickBranch (vol : BBox K → K) (r : BBox K) (bs : List (BBox K × α)) : Option Nat :=
  (bs.zipIdx.foldl (pickStep vol r) none).map (·.1)

/-- `PartitionVars`, the part that changes while a partition is chosen: RTree.h:279-294. A group is a `Bool` (`false` is group 0); in `part`, `none` is
NOT_TAKEN. `cover` is not initialised in the code; it is read for a group only after a rectangle was put into the group. -/
structure Part (K : Type) where
  part : List (Option Bool)
  count : Bool → Nat
  cover : Bool → BBox K
  area : Bool → K

/-- `InitParVars`: RTree.h:1068-1082. -/
def initPart (total : Nat) : Part K := ⟨List.replicate total none, fun _ => 0, fun _ => ⟨0, 0⟩, fun _ => 0⟩

/-- `Classify`: RTree.h:1118-1139. -/
def classify (vol : BBox K → K) (buf : List (BBox K × α)) (i : Nat) (g : Bool) (s : Part K) : Option (Part K) :=
  match buf[i]? with
  | none => none
  | some b =>
    let cov := if s.count g = 0 then b.1 else combine b.1 (s.cover g)
    some ⟨s.part.set i (some g), Function.update s.count g (s.count g + 1), Function.update s.cover g cov, Function.update s.area g (vol cov)⟩

/-- One step of the double loop of `PickSeeds`: RTree.h:1099-1110. The state is `worst` and the seeds, `none` while they are not initialised. -/
def seedStep (vol : BBox K → K) (st : K × Option (Nat × Nat)) (e : ((BBox K × α) × Nat) × ((BBox K × α) × Nat)) : K × Option (Nat × Nat) :=
  let waste := vol (combine e.1.1.1 e.2.1.1) - vol e.1.1.1 - vol e.2.1.1
  if waste > st.1 then (waste, some (e.1.2, e.2.2)) else st

/-- The pairs of the double loop: `indexA` from 0, `indexB` from `indexA + 1`. -/
def seedPairs {β : Type} : List β → List (β × β)
  | [] => []
  | a :: l => l.map (fun b => (a, b)) ++ seedPairs l

/-- `GetBranches`, the rectangle of all the branches: RTree.h:946-952; `PickSeeds`, the choice of the seeds: RTree.h:1085-1112. -/
def pickSeeds (vol : BBox K → K) (buf : List (BBox K × α)) : Option (Nat × Nat) :=
  match nodeCover buf with
  | none => none
  | some cov => ((seedPairs buf.zipIdx).foldl (seedStep vol) (-vol cov - 1, none)).2

/-- One step of the scan in `ChoosePartition`: RTree.h:985-1016. The state is `biggestDiff` and `(chosen, betterGroup)`, `none` while not initialised. -/
def scanStep (vol : BBox K → K) (s : Part K) (st : K × Option (Nat × Bool)) (e : ((BBox K × α) × Option Bool) × Nat) : K × Option (Nat × Bool) :=
  match e.1.2 with
  | some _ => st
  | none =>
    let growth0 := vol (combine e.1.1.1 (s.cover false)) - s.area false
    let growth1 := vol (combine e.1.1.1 (s.cover true)) - s.area true
    let diff := growth1 - growth0
    let group := if diff ≥ 0 then false else true
    let diff := if diff ≥ 0 then diff else -diff
    if diff > st.1 then (diff, some (e.2, group))
    else
      match st.2 with
      | none => st
      | some (_, better) => if diff = st.1 ∧ s.count group < s.count better then (st.1, some (e.2, group)) else st

/-- The `while` loop of `ChoosePartition`: RTree.h:980-1018. The first argument bounds the number of passes. -/
def partLoop (vol : BBox K → K) (buf : List (BBox K × α)) (minFill : Nat) : Nat → Part K → Option (Part K)
  | 0, s => if s.count false + s.count true < buf.length ∧ s.count false < buf.length - minFill ∧ s.count true < buf.length - minFill then none else some s
  | n + 1, s =>
    if s.count false + s.count true < buf.length ∧ s.count false < buf.length - minFill ∧ s.count true < buf.length - minFill then
      match ((buf.zip s.part).zipIdx.foldl (scanStep vol s) (-1, none)).2 with
      | none => none
      | some (chosen, better) => (classify vol buf chosen better s).bind (partLoop vol buf minFill n)
    else some s

/-- One pass of the last loop of `ChoosePartition`: RTree.h:1030-1036. -/
def restStep (vol : BBox K → K) (buf : List (BBox K × α)) (group : Bool) (s : Part K) (i : Nat) : Option (Part K) :=
  if s.part[i]? = some none then classify vol buf i group s else some s

/-- `ChoosePartition` (with `InitParVars` and `PickSeeds`): RTree.h:968-1042. -/
def choosePartition (vol : BBox K → K) (buf : List (BBox K × α)) (minFill : Nat) : Option (Part K) := do
  let (seed0, seed1) ← pickSeeds vol buf
  let s ← classify vol buf seed0 false (initPart buf.length)
  let s ← classify vol buf seed1 true s
  let s ← partLoop vol buf minFill buf.length s
  if s.count false + s.count true < buf.length then
    (List.range buf.length).foldlM (restStep vol buf (if s.count false ≥ buf.length - minFill then true else false)) s
  else some s

/-- One pass of `LoadNodes`: RTree.h:1046-1064. A branch that was put in no group would be added to a node outside the array; a full node would be split with no place for
the new node. -/
def loadStep (st : List (BBox K × α) × List (BBox K × α)) (e : (BBox K × α) × Option Bool) : Option (List (BBox K × α) × List (BBox K × α)) :=
  match e.2 with
  | none => none
  | some false => if st.1.length < maxNodes then some (st.1 ++ [e.1], st.2) else none
  | some true => if st.2.length < maxNodes then some (st.1, st.2 ++ [e.1]) else none

/-- `SplitNode` with `GetBranches` and `LoadNodes`: RTree.h:818-843. -/
def splitNode (vol : BBox K → K) (bs : List (BBox K × α)) (b : BBox K × α) : Option (List (BBox K × α) × List (BBox K × α)) := do
  let buf := bs ++ [b]
  let s ← choosePartition vol buf minNodes
  (buf.zip s.part).foldlM loadStep ([], [])

/-- `DisconnectBranch`: RTree.h:729-742. -/
def disconnect (bs : List (BBox K × α)) (i : Nat) : List (BBox K × α) :=
  match bs.getLast? with
  | none => bs
  | some l => (bs.set i l).dropLast

end

/-- `AddBranch`: RTree.h:706-725. Returns the node and the new node when it was split. -/
def addBranch (vol : BBox K → K) (b : Branch K) (node : Node K) : Option (Node K × Option (Node K)) :=
  if node.bs.length < maxNodes then some (.mk node.level (node.bs ++ [b]), none)
  else do
    let (l, r) ← splitNode vol node.bs b
    some (.mk node.level l, some (.mk node.level r))

/-- `InsertRectRec`: RTree.h:588-637. The first argument bounds the depth. -/
def insertRec (vol : BBox K → K) (b : Branch K) (lvl : Nat) : Nat → Node K → Option (Node K × Option (Node K))
  | f, node =>
    if node.level > lvl then
      match f with
      | 0 => none
      | f + 1 => do
        let i ← pickBranch vol b.1 node.bs
        let br ← node.bs[i]?
        match br.2 with
        | .inl _ => none
        | .inr c => do
          let (c', other) ← insertRec vol b lvl f c
          match other with
          | none => some (.mk node.level (node.bs.set i (combine b.1 br.1, .inr c')), none)
          | some d => do
            let r ← nodeCover c'.bs
            let r' ← nodeCover d.bs
            addBranch vol (r', .inr d) (.mk node.level (node.bs.set i (r, .inr c')))
    else if node.level = lvl then addBranch vol b node
    else some (node, none)

/-- `InsertRect`: RTree.h:647-684. -/
def insertRect (vol : BBox K → K) (b : Branch K) (root : Node K) (lvl : Nat) : Option (Node K) := do
  let (r, other) ← insertRec vol b lvl root.level root
  match other with
  | none => some r
  | some d => do
    let c1 ← nodeCover r.bs
    let c2 ← nodeCover d.bs
    some (.mk (r.level + 1) [(c1, .inr r), (c2, .inr d)])

/-- The loop over the branches of an inner node in `RemoveRectRec`: RTree.h:1199-1221. `rec` is the recursive call, `i` the index of the first of the remaining branches. -/
def removeLoop (rec : Node K → List (Node K) → Option (Option (Node K × List (Node K)))) (rect : BBox K) (node : Node K) (acc : List (Node K)) :
    Nat → List (Branch K) → Option (Option (Node K × List (Node K)))
  | _, [] => some none
  | i, br :: rest =>
    if overlap rect br.1 then
      match br.2 with
      | .inl _ => none
      | .inr c => do
        match ← rec c acc with
        | none => removeLoop rec rect node acc (i + 1) rest
        | some (c', acc') =>
          if c'.bs.length ≥ minNodes then do
            let r ← nodeCover c'.bs
            some (some (.mk node.level (node.bs.set i (r, .inr c')), acc'))
          else some (some (.mk node.level (disconnect node.bs i), c' :: acc'))
    else removeLoop rec rect node acc (i + 1) rest

/-- `RemoveRectRec`: RTree.h:1191-1238. The result `some none` is "record not found"; otherwise the node and the list of the nodes to be reinserted. -/
def removeRec (rect : BBox K) (id : Int) : Nat → Node K → List (Node K) → Option (Option (Node K × List (Node K)))
  | f, node, acc =>
    if node.level > 0 then
      match f with
      | 0 => none
      | f + 1 => removeLoop (removeRec rect id f) rect node acc 0 node.bs
    else
      match node.bs.findIdx? (fun b => match b.2 with | .inl d => d == id | .inr _ => false) with
      | none => some none
      | some i => some (some (.mk node.level (disconnect node.bs i), acc))

/-- The reinsertion loop of `RemoveRect`: RTree.h:1153-1171. -/
def reinsert (vol : BBox K → K) (root : Node K) (l : List (Node K)) : Option (Node K) :=
  l.foldlM (fun r n => n.bs.foldlM (fun r b => insertRect vol b r n.level) r) root

/-- `RemoveRect`: RTree.h:1145-1183. -/
def removeRect (vol : BBox K → K) (rect : BBox K) (id : Int) (root : Node K) : Option (Node K) := do
  match ← removeRec rect id root.level root [] with
  | none => some root
  | some (root', l) => do
    let r ← reinsert vol root' l
    if r.bs.length = 1 ∧ r.level > 0 then
      match r.bs with
      | (_, .inr c) :: _ => some c
      | _ => none
    else some r

/-- `Search`: RTree.h:1274-1316 (the callback is gone, so the search never stops early). -/
def search (rect : BBox K) : Nat → Node K → Option (List Int)
  | f, node =>
    if node.level > 0 then
      match f with
      | 0 => none
      | f + 1 => node.bs.foldlM (fun found b =>
          if overlap rect b.1 then
            match b.2 with
            | .inl _ => none
            | .inr c => (search rect f c).map (found ++ ·)
          else some found) []
    else node.bs.foldlM (fun found b =>
          if overlap rect b.1 then
            match b.2 with
            | .inl id => some (found ++ [id])
            | .inr _ => none
          else some found) []

/-- `RTree()`: RTree.h:346-376; `RemoveAll`: RTree.h:484-492. -/
def empty : Node K := .mk 0 []

/-- `CGeoRtree::addGeometricObject`: GeoRtree_Imp.hpp:34-48; `Insert`: RTree.h:386-409. -/
def add (vol : BBox K → K) (id : Int) (box : BBox K) (t : Node K) : Option (Node K) := insertRect vol (box, .inl id) t 0

/-- `CGeoRtree::removeGeometricObject`: GeoRtree_Imp.hpp:50-64; `Remove`: RTree.h:412-430. -/
def remove (vol : BBox K → K) (id : Int) (box : BBox K) (t : Node K) : Option (Node K) := removeRect vol box id t

/-- `CGeoRtree::find`: GeoRtree_Imp.hpp:72-88; `Search`: RTree.h:433-456. The tolerance is not used; the list given is cleared first. -/
def find (_ids : List Int) (box : BBox K) (_tol : K) (t : Node K) : Option (List Int) := search box t.level t

end Rtree
end ENigMA
