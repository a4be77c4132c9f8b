import Verif.Stl.File

/-!
# Making the facets of a surface run the same way: StlUtils_Imp.hpp:1399-1508

`none` stands for an exception of `at`, or for an index outside an array.
-/

set_option linter.unusedSectionVars false
set_option autoImplicit false

namespace ENigMA
namespace Stl
variable {K : Type}

/-- An `Integer` used as an index. -/
def idx (i : Int) : Option Nat := if 0 ≤ i then some i.toNat else none

/-- `facet(id).edge(j)`: trunk/src/stl/StlFile_Imp.hpp:88-92, 106-110. -/
def edge? (s : File K) (id : Int) (j : Nat) : Option Edge := do
  let f ← s.get? id
  f.edges[j]?

/-- `facet(id).vertex(j)`: trunk/src/geometry/GeoVertexList_Imp.hpp:65-74. -/
def vertexOf (s : File K) (id : Int) (j : Nat) : Option (Vec3 K) := do
  let f ← s.get? id
  f.vertex? j

/-- `facet(id).setVertex(j, v)`: GeoVertexList_Imp.hpp:59-63. -/
def setVert (s : File K) (id : Int) (j : Nat) (v : Vec3 K) : Option (File K) :=
  s.modify id fun f => if f.verts.length = 0 then none else some { f with verts := f.verts.set (j % f.verts.length) v }

/-- `facet(id).edge(j).setNeighbor(..)` and `setWhichVertexNot(..)`: StlFile_Imp.hpp:52-62. -/
def setEdge (s : File K) (id : Int) (j : Nat) (g : Edge → Edge) : Option (File K) :=
  s.modify id fun f => (f.edges[j]?).map fun e => { f with edges := f.edges.set j (g e) }

/-- What `invertFacet` does with the edge of a neighbour: StlUtils_Imp.hpp:1414-1428. The vertex that is not on the edge moves by `k` places. -/
def fixNot (s : File K) (e : Edge) (k : Int) : Option (File K) :=
  if e.whichNot ≠ -1 then do
    let j ← idx ((e.whichNot + 1).tmod 3)
    if e.neighbor ≠ -1 then setEdge s e.neighbor j fun e' => { e' with whichNot := (e'.whichNot + k).tmod 3 }
    else setEdge s e.neighbor j fun e' => { e' with whichNot := -1 }
  else some s

/-- `invertFacet(id, v)`: StlUtils_Imp.hpp:1399-1437. -/
def invertFacet (s : File K) (id : Int) (v : Int) : Option (File K) := do
  let j2 ← idx ((v + 2).tmod 3)
  let j1 ← idx ((v + 1).tmod 3)
  let j3 ← idx ((v + 3).tmod 3)
  let a ← vertexOf s id j2
  let b ← vertexOf s id j1
  let s ← setVert s id j2 b
  let s ← setVert s id j1 a
  let e2 ← edge? s id j2
  let e3 ← edge? s id j3
  let s ← fixNot s e2 4
  let s ← fixNot s e3 2
  let s ← setEdge s id j2 fun e => { e with neighbor := e3.neighbor }
  let s ← setEdge s id j3 fun e => { e with neighbor := e2.neighbor }
  let s ← setEdge s id j2 fun e => { e with whichNot := e3.whichNot }
  setEdge s id j3 fun e => { e with whichNot := e2.whichNot }

section
variable [Field K] [LinearOrder K]

/-- One edge of a facet whose neighbours are to follow it: StlUtils_Imp.hpp:1450-1468. The list is `sFacetsToFix`. -/
def orientEdge (nrm : Vec3 K → K) (tol : K) (id : Int) (st : File K × List Int) (j : Nat) : Option (File K × List Int) := do
  let e ← edge? st.1 id j
  if e.neighbor = -1 then some st
  else if e.neighbor ∈ st.2 then some st
  else do
    let k1 ← idx ((e.whichNot + 1).tmod 3)
    let k2 ← idx ((e.whichNot + 2).tmod 3)
    let a1 ← vertexOf st.1 e.neighbor k1
    let b1 ← vertexOf st.1 id (j % 3)
    let a2 ← vertexOf st.1 e.neighbor k2
    let b2 ← vertexOf st.1 id ((j + 1) % 3)
    if nrm (a1 - b1) ≤ tol ∧ nrm (a2 - b2) ≤ tol then do
      let s ← invertFacet st.1 e.neighbor e.whichNot
      some (s, st.2 ++ [e.neighbor])
    else some (st.1, st.2 ++ [e.neighbor])

/-- The loop over the growing list: StlUtils_Imp.hpp:1446-1470. `none` also stands for more than `fuel` rounds. -/
def orientLoop (nrm : Vec3 K → K) (tol : K) : Nat → Nat → File K × List Int → Option (File K)
  | 0, i, st => if i < st.2.length then none else some st.1
  | fuel + 1, i, st =>
    match st.2[i]? with
    | none => some st.1
    | some id => do
      let st ← [0, 1, 2].foldlM (orientEdge nrm tol id) st
      orientLoop nrm tol fuel (i + 1) st

/-- `setOrientation(pivot, tol)`: StlUtils_Imp.hpp:1439-1472. -/
def setOrientation (nrm : Vec3 K → K) (tol : K) (fuel : Nat) (pivot : Int) (s : File K) : Option (File K) :=
  orientLoop nrm tol fuel 0 (s, [pivot])

/-- The loop of `setOrientation(bool)`: StlUtils_Imp.hpp:1491-1500. `aFacet` is a reference to the first facet: the assignment in the loop overwrites that facet. Gives the file, the last id and the number of intersections; `hit` says whether
the line meets a facet (C56, C58 deal with such tests). -/
def countHits (nrm : Vec3 K → K) (hit : Facet K → Bool) (first : Int) : List Int → File K × Int × Nat → Option (File K × Int × Nat)
  | [], r => some r
  | id :: t, r => do
    let g ← r.1.get? id
    let g ← g.measured nrm
    let s ← r.1.modify first fun _ => some g
    countHits nrm hit first t (s, id, if hit g then r.2.2 + 1 else r.2.2)

/-- `setOrientation(pointOut, tol)`: StlUtils_Imp.hpp:1474-1508. The argument `bPointOut` is not used. `meets` says whether a facet meets the line from the middle of the first facet along its normal, `size` long. -/
def setOrientationOut (nrm : Vec3 K → K) (meets : Vec3 K → Vec3 K → Facet K → Bool) (size tol : K) (fuel : Nat) (s : File K) : Option (File K) := do
  let first ← s.idAt? 0
  let s ← s.modify first (Facet.measured nrm)
  let f ← s.get? first
  let c ← f.centroid
  let r ← countHits nrm (meets c (c + size • f.normal)) first (s.ids.drop 1) (s, first, 0)
  let s ← if r.2.2 % 2 ≠ 0 then invertFacet r.1 r.2.1 0 else some r.1
  setOrientation nrm tol fuel r.2.1 s
end

end Stl
end ENigMA
