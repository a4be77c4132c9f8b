import Verif.Geometry.Line
import Verif.Geometry.VertexList

/-!
# Constructive solid geometry on BSP trees

Model of `CCsgBspNode`, `CCsgBoolean` and `CCsgCube` (trunk/src/csg/CsgBspNode_Imp.hpp, CsgBoolean_Imp.hpp,
CsgCube_Imp.hpp). A `CGeoPolygon` is reduced to the two parts this code uses: the vertices of its polyline and the
normal it carries. Pointers to child nodes are a tree: no two nodes of one tree are shared. The destructor and
`clear` (memory only) are not modelled. The recursion of `build` need not end: it takes a number of levels it may
use and answers `none` when they are used up.
-/

set_option linter.unusedSectionVars false

namespace ENigMA
namespace Csg

/-- A `CGeoPolygon`: the vertices of its polyline and `m_normal`. -/
structure Poly (K : Type) where
  vs : List (Vec3 K)
  normal : Vec3 K
  deriving DecidableEq

/-- CsgBspNode_Imp.hpp 160-162: the types of a vertex. -/
inductive Side where
  | coplanar
  | front
  | back
  deriving DecidableEq, Repr

/-- What one call of `splitPolygon` appends to its four lists. -/
structure Split (K : Type) where
  coFront : List (Poly K) := []
  coBack : List (Poly K) := []
  front : List (Poly K) := []
  back : List (Poly K) := []
  deriving DecidableEq

/-- `CCsgBspNode`; `nil` is the null pointer. `plane = none` is the default-constructed `m_plane`, whose `m_d` is
not initialised (GeoPlane_Imp.hpp 17-20). All nodes of a tree carry the same tolerance, which is a parameter. -/
inductive Bsp (K : Type) where
  | nil
  | node (plane : Option (GPlane K)) (polys : List (Poly K)) (front back : Bsp K)

variable {K : Type} [Field K] [LinearOrder K] [IsStrictOrderedRing K]

/-- GeoPolygon_Imp.hpp 177-183 `invert`: the polyline is reversed and the normal negated. -/
def Poly.invert (p : Poly K) : Poly K := ⟨p.vs.reverse, -p.normal⟩

/-- CsgBspNode_Imp.hpp 171-174: the type of a vertex. -/
def side (tol : K) (pl : GPlane K) (v : Vec3 K) : Side :=
  let t := pl.normal.dot v - pl.d
  if t < -tol then .back else if tol < t then .front else .coplanar

/-- CsgBspNode_Imp.hpp 220-221: the point where the edge from `vi` to `vj` meets the plane. -/
def crossing (pl : GPlane K) (vi vj : Vec3 K) : Vec3 K :=
  vi + ((pl.d - pl.normal.dot vi) / pl.normal.dot (vj - vi)) • (vj - vi)

/-- CsgBspNode_Imp.hpp 218: the types of the two ends are front and back, in either order. -/
def spans (a b : Side) : Bool := (a == .front && b == .back) || (a == .back && b == .front)

/-- CsgBspNode_Imp.hpp 202-226: the loop over the edges, which fills the front and the back polyline. `first` is
vertex 0, the successor of the last vertex. -/
def splitLoop (tol : K) (pl : GPlane K) (first : Vec3 K) : List (Vec3 K) → List (Vec3 K) × List (Vec3 K)
  | [] => ([], [])
  | vi :: rest =>
    let vj := rest.headD first
    let ti := side tol pl vi
    let tj := side tol pl vj
    let r := splitLoop tol pl first rest
    let x := if spans ti tj then [crossing pl vi vj] else []
    ((if ti ≠ .back then [vi] else []) ++ x ++ r.1, (if ti ≠ .front then [vi] else []) ++ x ++ r.2)

/-- GeoPolyline_Imp.hpp 111-121 `close()` with its default tolerance 0, for at least three vertices:
`(last - first).norm() > 0` is `last ≠ first` (`closeExact_eq`). -/
def closeExact (vs : List (Vec3 K)) : List (Vec3 K) :=
  match vs.head?, vs.getLast? with
  | some a, some b => if b ≠ a then vs ++ [a] else vs
  | _, _ => vs

/-- CsgBspNode_Imp.hpp 228-234 and 236-242: a piece is kept if it has more than two vertices; it is closed and
carries the normal of the polygon. -/
def piece (normal : Vec3 K) (vs : List (Vec3 K)) : List (Poly K) :=
  if 2 < vs.length then [⟨closeExact vs, normal⟩] else []

/-- CsgBspNode_Imp.hpp 157-246 `splitPolygon`. -/
def splitPolygon (tol : K) (pl : GPlane K) (p : Poly K) : Split K :=
  let hasFront := p.vs.any fun v => side tol pl v == .front
  let hasBack := p.vs.any fun v => side tol pl v == .back
  match hasFront, hasBack with
  | false, false => if 0 < pl.normal.dot p.normal then { coFront := [p] } else { coBack := [p] }
  | true, false => { front := [p] }
  | false, true => { back := [p] }
  | true, true =>
    match p.vs with
    | [] => {}
    | v0 :: rest =>
      let r := splitLoop tol pl v0 (v0 :: rest)
      { front := piece p.normal r.1, back := piece p.normal r.2 }

namespace Bsp

/-- CsgBspNode_Imp.hpp 43-58 `invert`. -/
def invert : Bsp K → Bsp K
  | nil => nil
  | node pl ps f b => node (pl.map GPlane.invert) (ps.map Poly.invert) b.invert f.invert

/-- CsgBspNode_Imp.hpp 60-86 `clipPolygons`. `none` when a polygon is compared with a plane that was never set.
(For a polygon without vertices the code would not read the plane's `m_d`; this case is `none` as well.) The null
pointer stands for the branch not taken: a missing front child keeps everything, a missing back child nothing. -/
def clipPolygons (tol : K) (removeCoplanarFront : Bool) : Bsp K → List (Poly K) → Option (List (Poly K))
  | nil, ps => some ps
  | node pl _ f b, ps => do
    let pieces ← (if ps = [] then some [] else pl.map fun pl => ps.map (splitPolygon tol pl))
    let sFront := pieces.flatMap fun s => (if removeCoplanarFront then [] else s.coFront) ++ s.front
    let sBack := pieces.flatMap fun s => (if removeCoplanarFront then s.coFront else []) ++ s.coBack ++ s.back
    let sFront ← f.clipPolygons tol removeCoplanarFront sFront
    let sBack ← (match b with
      | nil => some []
      | node .. => b.clipPolygons tol removeCoplanarFront sBack)
    some (sFront ++ sBack)

/-- CsgBspNode_Imp.hpp 88-98 `clipTo`. -/
def clipTo (tol : K) (other : Bsp K) (removeCoplanarFront : Bool) : Bsp K → Option (Bsp K)
  | nil => some nil
  | node pl ps f b => do
    let ps ← other.clipPolygons tol removeCoplanarFront ps
    let f ← clipTo tol other removeCoplanarFront f
    let b ← clipTo tol other removeCoplanarFront b
    some (node pl ps f b)

/-- CsgBspNode_Imp.hpp 100-120 `allPolygons`: returns the polygons of the node and of its children and, as a side
effect, stores them all in the node. The result is the list and the changed tree. -/
def allPolygons : Bsp K → List (Poly K) × Bsp K
  | nil => ([], nil)
  | node pl ps f b =>
    let rf := f.allPolygons
    let rb := b.allPolygons
    (ps ++ rf.1 ++ rb.1, node pl (ps ++ rf.1 ++ rb.1) rf.2 rb.2)

/-- The members of a node, or those of a newly created one (CsgBspNode_Imp.hpp 30-36). -/
def parts : Bsp K → Option (GPlane K) × List (Poly K) × Bsp K × Bsp K
  | nil => (none, [], nil, nil)
  | node pl ps f b => (pl, ps, f, b)

/-- CsgBspNode_Imp.hpp 122-155 `build`, on a node that exists or (`nil`, 142-143 and 150-151) is created first.
`none` if more than `fuel` levels of recursion are needed. -/
def build (tol : K) : Nat → Bsp K → List (Poly K) → Option (Bsp K)
  | 0, _, _ => none
  | fuel + 1, t, ps =>
    let (pl0, own, f, b) := t.parts
    match ps with
    | [] => some (node pl0 own f b)
    | p :: _ =>
      match p.vs with
      | [] => some (node pl0 own f b)
      | v :: _ => do
        let pl : GPlane K := ⟨p.normal, p.normal.dot v⟩
        let pieces := ps.map (splitPolygon tol pl)
        let own := own ++ pieces.flatMap fun s => s.coFront ++ s.coBack
        let sFront := pieces.flatMap Split.front
        let sBack := pieces.flatMap Split.back
        let f ← (if sFront = [] then some f else build tol fuel f sFront)
        let b ← (if sBack = [] then some b else build tol fuel b sBack)
        some (node (some pl) own f b)

/-- CsgBspNode_Imp.hpp 20-28: the constructor from polygons. -/
def ofPolygons (tol : K) (fuel : Nat) (ps : List (Poly K)) : Option (Bsp K) := build tol fuel nil ps

end Bsp

open Bsp

/-- CsgBoolean_Imp.hpp 72-90 `add`: the polygons of the result. The operands are copied (72, 75-76: the constructor
copies the polygons into the tree), which is why the model needs no result for them. -/
def add (tol : K) (fuel : Nat) (pa pb : List (Poly K)) : Option (List (Poly K)) := do
  let a ← ofPolygons tol fuel pa
  let b ← ofPolygons tol fuel pb
  let a ← clipTo tol b false a
  let b ← clipTo tol a false b
  let b := b.invert
  let b ← clipTo tol a false b
  let b := b.invert
  let a ← a.build tol fuel b.allPolygons.1
  some a.allPolygons.1

/-- CsgBoolean_Imp.hpp 106-123 `subtract`. -/
def subtract (tol : K) (fuel : Nat) (pa pb : List (Poly K)) : Option (List (Poly K)) := do
  let a ← ofPolygons tol fuel pa
  let b ← ofPolygons tol fuel pb
  let a := a.invert
  let a ← clipTo tol b false a
  let b ← clipTo tol a true b
  let a ← a.build tol fuel b.allPolygons.1
  some a.invert.allPolygons.1

/-- CsgBoolean_Imp.hpp 139-158 `intersect`. -/
def intersect (tol : K) (fuel : Nat) (pa pb : List (Poly K)) : Option (List (Poly K)) := do
  let a ← ofPolygons tol fuel pa
  let b ← ofPolygons tol fuel pb
  let a := a.invert
  let b ← clipTo tol a false b
  let b := b.invert
  let a ← clipTo tol b false a
  let b ← clipTo tol a false b
  let a ← a.build tol fuel b.allPolygons.1
  some a.invert.allPolygons.1

/-- CsgCube_Imp.hpp 25-34: vertex `i` of the cube. -/
def cubeVertex (c r : Vec3 K) (i : Nat) : Vec3 K :=
  ⟨c.x + r.x * (if i &&& 1 = 0 then -1 else 1), c.y + r.y * (if i &&& 2 = 0 then -1 else 1),
    c.z + r.z * (if i &&& 4 = 0 then -1 else 1)⟩

/-- CsgCube_Imp.hpp 38-96: the corners of the six faces. -/
def cubeFaces : List (List Nat) :=
  [[0, 4, 6, 2], [1, 3, 7, 5], [0, 1, 5, 4], [2, 6, 7, 3], [0, 2, 3, 1], [4, 5, 7, 6]]

/-- CsgCube_Imp.hpp 21-104 `create`; `normal` is `CGeoPolygon::calculateNormal` on the closed polyline. -/
def cube (normal : List (Vec3 K) → Vec3 K) (c r : Vec3 K) : List (Poly K) :=
  cubeFaces.map fun f =>
    let vs := closeExact (f.map (cubeVertex c r))
    ⟨vs, normal vs⟩

end Csg
end ENigMA
