import Verif.Stl.File

/-!
# Neighbours of facets and the mesh of a surface: StlUtils_Imp.hpp:549-736
-/

set_option linter.unusedSectionVars false
set_option autoImplicit false

namespace ENigMA
namespace Stl
variable {K : Type}

/-- The edges of the facets, in the order of the loops over `i` and `j`: StlUtils_Imp.hpp:559-563, 593-597. -/
def corners (s : File K) : List (Int × Nat) := s.ids.flatMap fun id => [(id, 0), (id, 1), (id, 2)]

section
variable [Field K] [LinearOrder K]

/-- The middle of edge `j`: StlUtils_Imp.hpp:565, 599. -/
def Facet.mid (f : Facet K) (j : Nat) : Option (Vec3 K) := do
  let a ← f.vertex? (j % 3)
  let b ← f.vertex? ((j + 1) % 3)
  return (1 / 2 : K) • (a + b)

/-- A change to one facet for each edge in the list. -/
def forEdges (step : Int → Nat → Facet K → Option (Facet K)) : List (Int × Nat) → File K → Option (File K)
  | [], s => some s
  | c :: t, s => do
    let s ← s.modify c.1 (step c.1 c.2)
    forEdges step t s

/-- No neighbour: StlUtils_Imp.hpp:586-587. -/
def clearStep (_ : Int) (j : Nat) (f : Facet K) : Option (Facet K) := do
  let e ← f.edges[j]?
  return { f with edges := f.edges.set j { e with neighbor := -1, whichNot := -1 } }

/-- The first other edge found: StlUtils_Imp.hpp:599-617. -/
def linkStep (find : Vec3 K → Option (List Int)) (id : Int) (j : Nat) (f : Facet K) : Option (Facet K) := do
  let c ← f.mid j
  let l ← find c
  match l.find? (· ≠ id * 3 + j) with
  | none => return f
  | some x => do
    let e ← f.edges[j]?
    return { f with edges := f.edges.set j { e with neighbor := x.tdiv 3, whichNot := (x.tmod 3 + 2).tmod 3 } }

variable [FloorRing K]

/-- `generateConnectivity`: StlUtils_Imp.hpp:549-622. -/
def generateConnectivity (mc : HashGrid.Machine K) (s : File K) (tol : K) : Option (File K) := do
  let objs ← (corners s).mapM fun c => do
    let f ← s.get? c.1
    let p ← f.mid c.2
    return (c.1 * 3 + (c.2 : Int), p)
  let g ← HashGrid.ofList mc objs
  let s ← forEdges clearStep (corners s) s
  forEdges (linkStep fun q => g.find mc q tol) (corners s) s
end

/-- The pivot vertex, the next edge and the direction: StlUtils_Imp.hpp:676-705. The direction is `true` for 1. -/
def turn (dir : Bool) (v : Int) : Int × Int × Bool :=
  if 2 < v then
    if dir then ((v + 1).tmod 3, v.tmod 3, false) else ((v + 2).tmod 3, (v + 2).tmod 3, true)
  else
    if dir then ((v + 2).tmod 3, (v + 2).tmod 3, true) else ((v + 1).tmod 3, v, false)

/-- `element(f).setNodeId(p, n)`: StlUtils_Imp.hpp:707; trunk/src/mesh/MshElement_Imp.hpp `setNodeId`. -/
def setCorner (n : Int) (m : Mesh K) (c : Int × Nat) : Option (Mesh K) := do
  let es ← m.elements.modify c.1 fun e => if c.2 < e.nodeIds.length then some { e with nodeIds := e.nodeIds.set c.2 n } else none
  return { m with elements := es }

/-- The walk around a vertex: StlUtils_Imp.hpp:674-734. -/
def walk (s : File K) (n first : Int) (j : Nat) : Nat → Bool → Bool → Int → Int → Mesh K → Option (Mesh K)
  | 0, _, _, _, _, m => some m
  | k + 1, dir, rev, facet, v, m => do
    let t := turn dir v
    let p ← if 0 ≤ t.1 then some t.1.toNat else none
    let ed ← if 0 ≤ t.2.1 then some t.2.1.toNat else none
    let m ← setCorner n m (facet, p)
    let f ← s.get? facet
    let e ← f.edges[ed]?
    if e.neighbor = -1 then
      if rev then some m else walk s n first j k true true first ((j + 1) % 3 : Nat) m
    else if e.neighbor ≠ first then walk s n first j k t.2.2 rev e.neighbor e.whichNot m
    else some m

/-- The loop over the corners: StlUtils_Imp.hpp:647-734. `top` is the greatest `Integer`, `n` the id of the next node. -/
def meshLoop (s : File K) (top : Int) : List (Int × Nat) → Int → Mesh K → Option (Mesh K)
  | [], _, m => some m
  | c :: t, n, m => do
    let e ← m.elements.get? c.1
    let i ← e.nodeIds[c.2]?
    if i ≠ top then meshLoop s top t n m
    else do
      let f ← s.get? c.1
      let v ← f.vertex? c.2
      let m ← walk s n c.1 c.2 100 false false c.1 ((c.2 + 2) % 3 : Nat) { m with nodes := m.nodes.add n v }
      meshLoop s top t (n + 1) m

/-- The elements before they have nodes: StlUtils_Imp.hpp:630-645. -/
def elementsLoop (top : Int) : List Int → Mesh K → Mesh K
  | [], m => m
  | id :: t, m => elementsLoop top t { m with elements := m.elements.add id ⟨.triangle, [top, top, top], []⟩ }

/-- `mesh()`: StlUtils_Imp.hpp:624-736. -/
def toMesh (s : File K) (top : Int) : Option (Mesh K) :=
  meshLoop s top (corners s) 0 (elementsLoop top s.ids { nodes := Cont.empty, faces := Cont.empty, elements := Cont.empty, nbBoundary := 0 })

end Stl
end ENigMA
