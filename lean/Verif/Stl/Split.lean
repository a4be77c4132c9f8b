import Verif.Stl.Orient
import Mathlib.Algebra.Order.Floor.Ring

/-!
# Splitting long edges of a surface: StlUtils_Imp.hpp:738-939

`none` stands for an exception of `at`, or for an index outside an array.
-/

set_option linter.unusedSectionVars false
set_option autoImplicit false

namespace ENigMA
namespace Stl
variable {K : Type} [Field K] [LinearOrder K]

/-- How facets are measured: the length of a vector, the quality of a facet (StlUtils_Imp.hpp:780-789: four times the product of the sines of its angles over their sum, zero when the sum is small) and its normal
(trunk/src/geometry/GeoTriangle_Imp.hpp:55-75), as functions of the corners. -/
structure Gauge (K : Type) where
  norm : Vec3 K → K
  quality : Vec3 K → Vec3 K → Vec3 K → K
  normal : Vec3 K → Vec3 K → Vec3 K → Vec3 K

/-- The longest edge and its length: StlUtils_Imp.hpp:741-764. -/
def bigEdge (g : Gauge K) (p0 p1 p2 : Vec3 K) : Nat × K :=
  let d0 := g.norm (p1 - p0)
  let d1 := g.norm (p2 - p1)
  let d2 := g.norm (p0 - p2)
  let r := if d0 < d1 then (1, d1) else (0, d0)
  if r.2 < d2 then (2, d2) else r

/-- Where the edge is split: StlUtils_Imp.hpp:825-836. `ai` is the quotient cut to an integer; the constants are not rounded here. The quotient is never negative where it matters. -/
def fraction [FloorRing K] (size dmax : K) : K :=
  let ai := ⌊dmax / size⌋
  if 1 < ai ∧ ai < 10 then (if ai % 2 ≠ 0 then 1 / 2 - 1 / 2 / ai else 1 / 2) else 1 / 2

/-- `p[j % 3]`. -/
def pick (p0 p1 p2 : Vec3 K) (j : Nat) : Vec3 K := if j % 3 = 0 then p0 else if j % 3 = 1 then p1 else p2

/-- Tell the neighbour across an edge that the facet there is now facet `n`, with its edge 1: StlUtils_Imp.hpp:879-887 and 921-928. -/
def relink (s : File K) (e : Edge) : Option (File K) :=
  if e.neighbor ≠ -1 then do
    let j ← idx ((e.whichNot + 1).tmod 3)
    setEdge s e.neighbor j fun e' => { e' with neighbor := s.count, whichNot := 0 }
  else some s

/-- The facet across the edge is split as well: StlUtils_Imp.hpp:897-936. `e` is the data of the edge, `pn` the new point, `b` the end of the edge. -/
def splitOther (g : Gauge K) (s : File K) (e : Edge) (n1 n2 : Int) (pn b : Vec3 K) : Option (File K) := do
  let w ← idx e.whichNot
  let p3 ← vertexOf s e.neighbor w
  let e2 ← edge? s e.neighbor (w % 3)
  let f2 : Facet K := ⟨[pn, p3, b], g.normal pn p3 b, (0, 0), [⟨e.neighbor, ((w + 2) % 3 : Nat), false⟩, ⟨e2.neighbor, e2.whichNot, false⟩, ⟨n1, 2, false⟩]⟩
  let s ← relink s e2
  let s ← setVert s e.neighbor ((w + 1) % 3) pn
  let s ← setEdge s e.neighbor (w % 3) fun e' => { e' with neighbor := s.count, whichNot := 2 }
  some (s.add n2 f2)

/-- Facet `id`, at position `i`, is split along the edge `k` from `a` to `b`; `c` is the third corner: StlUtils_Imp.hpp:850-936. The edges of the new facets are not marked as naked. -/
def splitAt (g : Gauge K) (s : File K) (i : Nat) (id : Int) (k : Nat) (e : Edge) (pn b c : Vec3 K) : Option (File K) := do
  let n1 := s.nextId
  let n2 := s.nextId + 1
  let e1 ← edge? s id ((k + 1) % 3)
  let f1 : Facet K := ⟨[pn, b, c], g.normal pn b c, (0, 0), [⟨if e.neighbor ≠ -1 then n2 else -1, 1, false⟩, ⟨e1.neighbor, e1.whichNot, false⟩, ⟨(i : Int), (k : Int), false⟩]⟩
  let s ← relink s e1
  let s ← setVert s id ((k + 1) % 3) pn
  let s ← setEdge s id ((k + 1) % 3) fun e' => { e' with neighbor := s.count, whichNot := 1 }
  let s := s.add n1 f1
  if e.neighbor ≠ -1 then splitOther g s e n1 n2 pn b else some s

/-- One round of the loop: StlUtils_Imp.hpp:809-937. -/
def splitFacet [FloorRing K] (g : Gauge K) (size fq : K) (s : File K) (i : Nat) : Option (File K) := do
  let id ← s.idAt? i
  let p0 ← vertexOf s id 0
  let p1 ← vertexOf s id 1
  let p2 ← vertexOf s id 2
  let (k, dmax) := bigEdge g p0 p1 p2
  if fq ≤ g.quality p0 p1 p2 ∧ size < dmax then do
    let fr := fraction size dmax
    if fr = 1 then some s
    else do
      let a := pick p0 p1 p2 k
      let b := pick p0 p1 p2 (k + 1)
      let c := pick p0 p1 p2 (k + 2)
      let pn : Vec3 K := ⟨a.x + (b.x - a.x) * fr, a.y + (b.y - a.y) * fr, a.z + (b.z - a.z) * fr⟩
      let e ← edge? s id k
      if 2 < e.whichNot ∨ e.whichNot < 0 then some s else splitAt g s i id k e pn b c
  else some s

/-- `rounds` rounds of the loop of `splitFacets(size, fq)` from position `i` on, or fewer if it ends before: StlUtils_Imp.hpp:809-939. Gives the file and the position reached; the call has returned when this is the number of facets. -/
def splitLoop [FloorRing K] (g : Gauge K) (size fq : K) : Nat → Nat → File K → Option (File K × Nat)
  | 0, i, s => some (s, i)
  | rounds + 1, i, s =>
    if i < s.count then do
      let s ← splitFacet g size fq s i
      splitLoop g size fq rounds (i + 1) s
    else some (s, i)

end Stl
end ENigMA
