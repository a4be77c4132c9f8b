import Verif.Geometry.BBox
import Mathlib.Data.Fin.VecNotation

/-!
# The alternating digital tree: trunk/src/geometry/GeoAdtree_Imp.hpp

A node is reached from the root by a path of left/right steps and never moves, so a pointer is modelled by its path. `fatherNode` and `nbChildren` are
written but never read by any search and are left out. Memory release (`deleteChildren`, destructor) is left out.
-/

namespace ENigMA

set_option autoImplicit false

namespace Adtree

variable {K : Type} [Field K] [LinearOrder K]

/-- `CGeoAdtreeNode6`: GeoAdtree.hpp:22-40. `nil` is the null pointer. `data` of a node that never held an id is not initialised in the code and never read. -/
inductive Tree (K : Type) where
  | nil
  | node (id : Int) (sep : K) (data : Fin 6 → K) (left right : Tree K)

/-- `CGeoAdtree6`: GeoAdtree.hpp:42-62. `nodes` is `m_nodes`, the node of the i-th insertion. -/
structure Adt6 (K : Type) where
  root : Tree K
  cmin : Fin 6 → K
  cmax : Fin 6 → K
  nodes : List (List Bool)

/-- The constructor of a node, `id = -1` and no children, with the given `sep`: lines 18-28. -/
def fresh (sep : K) : Tree K := .node (-1) sep (fun _ => 0) .nil .nil

/-- `set`: lines 53-61 (`m_nodes` is not cleared: the tree is fresh when `set` is first called). -/
def set (nodes : List (List Bool)) (cmin cmax : Fin 6 → K) : Adt6 K := ⟨fresh ((cmin 0 + cmax 0) / 2), cmin, cmax, nodes⟩

/-- `reset`: lines 63-71. -/
def Adt6.reset (t : Adt6 K) : Adt6 K := ⟨fresh ((t.cmin 0 + t.cmax 0) / 2), t.cmin, t.cmax, []⟩

/-- `insert`, the descent and the new node: lines 80-151. Returns the new tree and the path of the node that took the data (`true` is right). -/
def insertT (p : Fin 6 → K) (id : Int) : Fin 6 → (Fin 6 → K) → (Fin 6 → K) → Tree K → Tree K × List Bool
  | dir, bmin, bmax, .nil => (.node id ((bmin dir + bmax dir) / 2) p .nil .nil, [])
  | dir, bmin, bmax, .node nid sep data l r =>
    if nid = -1 then (.node id sep p l r, [])
    else if p dir < sep then
      let x := insertT p id (dir + 1) bmin (Function.update bmax dir sep) l
      (.node nid sep data x.1 r, false :: x.2)
    else
      let x := insertT p id (dir + 1) (Function.update bmin dir sep) bmax r
      (.node nid sep data l x.1, true :: x.2)

/-- `insert(p, anId)`: lines 80-151. -/
def Adt6.insert (t : Adt6 K) (p : Fin 6 → K) (id : Int) : Adt6 K :=
  let x := insertT p id 0 t.cmin t.cmax t.root
  { t with root := x.1, nodes := t.nodes ++ [x.2] }

/-- `node->id = -1` through a pointer: line 158. -/
def kill : List Bool → Tree K → Tree K
  | _, .nil => .nil
  | [], .node _ sep data l r => .node (-1) sep data l r
  | false :: w, .node id sep data l r => .node id sep data (kill w l) r
  | true :: w, .node id sep data l r => .node id sep data l (kill w r)

/-- `remove(anId)`: lines 153-167. The argument is used as a position in `m_nodes`; `none` is an index out of its range (undefined behaviour). -/
def Adt6.remove (t : Adt6 K) (id : Int) : Option (Adt6 K) :=
  if 0 ≤ id then (t.nodes[id.toNat]?).map fun w => { t with root := kill w t.root } else none

/-- The test at a node: line 196. -/
def hit (bmin bmax data : Fin 6 → K) : Bool :=
  data 0 ≤ bmax 0 && data 1 ≤ bmax 1 && data 2 ≤ bmax 2 && bmin 3 ≤ data 3 && bmin 4 ≤ data 4 && bmin 5 ≤ data 5

/-- The number of nodes of a tree. -/
def Tree.size : Tree K → Nat
  | .nil => 0
  | .node _ _ _ l r => l.size + r.size + 1

/-- The pointer is not null. -/
def Tree.isNode : Tree K → Bool
  | .nil => false
  | .node .. => true

/-- The loop of `getIntersecting`: lines 187-233, `max` is `maxDepth = 1024`. The stack is the list of the entries up to `stacks`, top first; its length is
`stacks + 1`. The recursion is on a fuel that `getIntersecting` sets to the number of nodes, more than the number of rounds. A null pointer is never pushed. -/
def walk (max : Nat) (bmin bmax : Fin 6 → K) : Nat → List (Tree K × Fin 6) → List Int → List Int
  | 0, _, out => out
  | _ + 1, [], out => out
  | _ + 1, (.nil, _) :: _, out => out
  | n + 1, (.node id sep data l r, dir) :: st, out =>
    let out := if id ≠ -1 ∧ hit bmin bmax data = true then out ++ [id] else out
    let goL := l.isNode && decide (bmin dir ≤ sep)
    let goR := r.isNode && decide (sep ≤ bmax dir)
    if goL = true ∧ max ≤ st.length then out
    else
      let st := if goL then (l, dir + 1) :: st else st
      if goR = true ∧ max ≤ st.length then out
      else walk max bmin bmax n (if goR then (r, dir + 1) :: st else st) out

/-- `getIntersecting(bmin, bmax, sIds)` with an empty `sIds`: lines 169-234. -/
def Adt6.getIntersecting (t : Adt6 K) (max : Nat) (bmin bmax : Fin 6 → K) : List Int := walk max bmin bmax t.root.size [(t.root, 0)] []

/-- The six numbers of a pair of corners. -/
def six (a b : Vec3 K) : Fin 6 → K := ![a.x, a.y, a.z, b.x, b.y, b.z]

/-- `CGeoAdtree`: GeoAdtree.hpp:64-88. -/
structure Adt (K : Type) where
  tree : Adt6 K
  box : BBox K

/-- `CGeoAdtree::set` on a new object: lines 246-262. -/
def Adt.set (b : BBox K) : Adt K := ⟨Adtree.set [] (six b.min b.min) (six b.max b.max), b⟩

/-- `addGeometricObject`: lines 271-285. -/
def Adt.add (t : Adt K) (id : Int) (b : BBox K) : Adt K := { t with tree := t.tree.insert (six b.min b.max) id }

/-- `removeGeometricObject`: lines 287-291. -/
def Adt.remove (t : Adt K) (id : Int) : Option (Adt K) := (t.tree.remove id).map fun x => { t with tree := x }

/-- `reset`: lines 264-269 (the container's own lists are not used by this class). -/
def Adt.reset (t : Adt K) : Adt K := { t with tree := t.tree.reset }

/-- `maxDepth`: line 172. -/
def maxDepth : Nat := 1024

/-- `find(boundingBoxIds, aBoundingBox, aTolerance)`: lines 298-325. The tolerance is not used. -/
def Adt.find (t : Adt K) (q : BBox K) (_tol : K) : List Int :=
  t.tree.getIntersecting maxDepth (six t.box.min q.min) (six q.max t.box.max)

end Adtree
end ENigMA
