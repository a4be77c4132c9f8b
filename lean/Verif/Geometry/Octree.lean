import Verif.Geometry.BBox
import Mathlib.Data.Fin.Basic

/-!
# The octree: trunk/src/geometry/GeoOctree_Imp.hpp, GeoOctreeNode_Imp.hpp

One `build()` of a new tree after `addGeometricObject` calls. (`reset` keeps the root and the bounding box, and a second `build` adds the points to the old lists;
neither is modelled.) `eps` is `numeric_limits<Real>::epsilon()`, `big` is `numeric_limits<Real>::max()`, `nrm` the Euclidean length. The `double` variables of
the code are taken to have the precision of `Real`. `none` is undefined behaviour or recursion deeper than the fuel.
-/

namespace ENigMA

set_option autoImplicit false

namespace Octree

variable {K : Type} [Field K] [LinearOrder K]

/-- The box and the middle of a node: GeoOctreeNode.hpp:32-33. -/
structure Cell (K : Type) where
  min : Vec3 K
  max : Vec3 K
  mid : Vec3 K

/-- `CGeoOctreeNode`: GeoOctreeNode.hpp:20-45. `bare` is a node whose vector `nodes` is empty, `full` one with eight entries. -/
inductive Node (K : Type) where
  | bare (coords : List Nat) (cell : Cell K)
  | full (coords : List Nat) (isLeaf : Bool) (cell : Cell K) (nodes : Fin 8 → Node K)

/-- `m_coordinateList`. -/
def Node.coords : Node K → List Nat
  | .bare c _ => c
  | .full c _ _ _ => c

/-- The middle. -/
def Node.cell : Node K → Cell K
  | .bare _ c => c
  | .full _ _ c _ => c

/-- `isLeaf()`: a new node is a leaf, GeoOctreeNode_Imp.hpp:17-20. -/
def Node.isLeaf : Node K → Bool
  | .bare _ _ => true
  | .full _ l _ _ => l

/-- `nodes[i]`; `none` is an index out of range. -/
def Node.child : Node K → Fin 8 → Option (Node K)
  | .bare _ _, _ => none
  | .full _ _ _ n, i => some (n i)

/-- `createNode`, the cell of the i-th child: lines 32-116. The bits of `i` (GeoOctree.hpp:23-33) are: right, front, top. -/
def childCell (c : Cell K) (i : Fin 8) : Cell K :=
  let right := i.val % 2 = 1
  let front := i.val / 2 % 2 = 1
  let top := i.val / 4 = 1
  let lo : Vec3 K := ⟨if right then c.mid.x else c.min.x, if front then c.mid.y else c.min.y, if top then c.mid.z else c.min.z⟩
  let hi : Vec3 K := ⟨if right then c.max.x else c.mid.x, if front then c.max.y else c.mid.y, if top then c.max.z else c.mid.z⟩
  ⟨lo, hi, ⟨(lo.x + hi.x) * (1 / 2), (lo.y + hi.y) * (1 / 2), (lo.z + hi.z) * (1 / 2)⟩⟩

/-- `dispatch`: lines 118-159. The case left, front, top gives `OL_BACK_TOP_LEFT`, as in the code (line 139). -/
def dispatch (mid : Vec3 K) (x y z : K) : Fin 8 :=
  if x < mid.x then
    if y < mid.y then (if z < mid.z then 0 else 4) else (if z < mid.z then 2 else 4)
  else
    if y < mid.y then (if z < mid.z then 1 else 5) else (if z < mid.z then 3 else 7)

/-- The flags `ok` for one point: lines 176-223. -/
def goesTo (eps : K) (mid p : Vec3 K) (m : Fin 8) : Bool :=
  let xm := p.x - eps
  let xp := p.x + eps
  let ym := p.y - eps
  let yp := p.y + eps
  let zm := p.z - eps
  let zp := p.z + eps
  decide (dispatch mid xm ym zm = m) || decide (dispatch mid xm ym zp = m) || decide (dispatch mid xm yp zm = m) || decide (dispatch mid xm yp zp = m) ||
  decide (dispatch mid xp ym zm = m) || decide (dispatch mid xp ym zp = m) || decide (dispatch mid xp yp zm = m) || decide (dispatch mid xp yp zp = m)

/-- The points a child receives: lines 174-231 (each point once, in order). `pt` is `m_geometricObjects`. -/
def childCoords (eps : K) (pt : Nat → Vec3 K) (cell : Cell K) (coords : List Nat) (m : Fin 8) : List Nat :=
  coords.filter fun i => goesTo eps cell.mid (pt i) m

/-- The loop over the children: lines 233-245. `nb` is `nbCoordinates()` of the node, `rec` is `createRecursive` of a child. Returns the new children and whether
one was subdivided. -/
def split (max : Nat) (cs : Fin 8 → List Nat) (cells : Fin 8 → Cell K) (rec : List Nat → Cell K → Option (Node K)) :
    List (Fin 8) → Nat → (Fin 8 → Node K) → Bool → Option ((Fin 8 → Node K) × Bool)
  | [], _, nodes, done => some (nodes, done)
  | i :: t, nb, nodes, done =>
    if (cs i).length ≠ nb ∧ max < (cs i).length then do
      let n ← rec (cs i) (cells i)
      split max cs cells rec t 0 (Function.update nodes i n) true
    else split max cs cells rec t nb nodes done

/-- `createRecursive`: lines 161-246. The node is given by its list and its cell; `max` is `MAX_NB_ELEMENTS_PER_NODE`. -/
def create (max : Nat) (eps : K) (pt : Nat → Vec3 K) : Nat → List Nat → Cell K → Option (Node K)
  | 0, _, _ => none
  | fuel + 1, coords, cell => do
    let cs := childCoords eps pt cell coords
    let cells := childCell cell
    let (nodes, done) ← split max cs cells (create max eps pt fuel) (List.finRange 8) coords.length (fun i => .bare (cs i) (cells i)) false
    return .full (if done then [] else coords) (!done) cell nodes

/-- The cell of the root in `build`: lines 251-268. The upper corner is made from the lower one, as in the code. -/
def rootCell (eps : K) (b : BBox K) : Cell K :=
  ⟨⟨b.min.x - eps, b.min.y - eps, b.min.z - eps⟩, ⟨b.min.x + eps, b.min.y + eps, b.min.z + eps⟩,
   ⟨(b.min.x + b.max.x) * (1 / 2), (b.min.y + b.max.y) * (1 / 2), (b.min.z + b.max.z) * (1 / 2)⟩⟩

/-- `MAX_NB_ELEMENTS_PER_NODE`: GeoOctree.hpp:21. -/
def maxPerNode : Nat := 1000

/-- `build()`: lines 248-276. `pts` are the ids and points added. -/
def build (fuel : Nat) (big eps : K) (pts : List (Int × Vec3 K)) : Option (Node K) :=
  create maxPerNode eps (fun i => (pts.map (·.2)).getD i ⟨0, 0, 0⟩) fuel (List.range pts.length) (rootCell eps (BBox.ofPoints big (pts.map (·.2))))

/-- `findRecursive`: lines 278-287. What the recursive call returns is not used, but it is made. -/
def findRec (q : Vec3 K) : Node K → Option (Node K)
  | .bare _ _ => none
  | .full _ isLeaf cell nodes =>
    let loc := dispatch cell.mid q.x q.y q.z
    if isLeaf then some (nodes loc) else (findRec q (nodes loc)).bind fun _ => some (nodes loc)

/-- `find(coordinateIds, aCoordinate, aTolerance)`: lines 289-304. The ids are added to the vector. -/
def find (nrm : Vec3 K → K) (pts : List (Int × Vec3 K)) (root : Node K) (q : Vec3 K) (tol : K) (out : List Int) : Option (List Int) := do
  let n ← findRec q root
  return out ++ (n.coords.filterMap fun i => (pts[i]?).bind fun e => if nrm (e.2 - q) ≤ tol then some e.1 else none)

end Octree
end ENigMA
