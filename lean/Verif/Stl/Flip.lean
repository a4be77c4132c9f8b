import Verif.Stl.Split

/-!
# Edges of a surface: marks (StlUtils_Imp.hpp:1064-1101) and flips (StlUtils_Imp.hpp:1103-1266)

`none` stands for an exception of `at`, or for an index outside an array.
-/

set_option linter.unusedSectionVars false
set_option autoImplicit false

namespace ENigMA
namespace Stl
variable {K : Type}

/-- What the normals and areas that the facets (by id) keep give: trunk/src/geometry/GeoTriangle_Imp.hpp:58-80. `calculateNormal()` and `calculateArea()` compute them for a facet only once, and copies of a facet keep them when vertices are inserted (GeoVertexList_Imp.hpp:47-51),
so they are those of a facet before the call. `bend` is the absolute value of the angle between two normals. -/
structure Kept (K : Type) where
  bend : Int → Int → K
  area : Int → K

/-- The edges that `checkEdges(angle)` marks as outline: StlUtils_Imp.hpp:1087-1094. -/
def isOutline [LinearOrder K] (k : Kept K) (angle : K) (s : File K) (x : Int × Nat) : Bool :=
  match edge? s x.1 x.2 with
  | none => false
  | some e => decide (e.neighbor ≠ -1 ∧ angle < k.bend x.1 e.neighbor)

/-- One edge: StlUtils_Imp.hpp:1079-1096. The start and the end kept with the edge are left out. -/
def checkEdge (s : File K) (x : Int × Nat) : Option (File K) := do
  let _ ← vertexOf s x.1 ((x.2 + 0) % 3)
  let _ ← vertexOf s x.1 ((x.2 + 1) % 3)
  let e ← edge? s x.1 x.2
  if e.neighbor ≠ -1 then do
    let s' ← setEdge s x.1 x.2 fun e => { e with naked := false }
    let _ ← s'.get? e.neighbor
    some s'
  else setEdge s x.1 x.2 fun e => { e with naked := true }

/-- `checkEdges(angle)`: StlUtils_Imp.hpp:1064-1101. The marks of the outline (`isOutline`) are kept apart from the file. -/
def checkEdges (s : File K) : Option (File K) :=
  (List.range s.count).foldlM (fun s i => do
    let id ← s.idAt? i
    [0, 1, 2].foldlM (fun s j => checkEdge s (id, j)) s) s

/-- The first three vertices of the two facets after the flip of edge `j`: StlUtils_Imp.hpp:1160-1199. -/
def flipped (p0 p1 p2 p3 : Vec3 K) (j : Nat) : (Vec3 K × Vec3 K × Vec3 K) × (Vec3 K × Vec3 K × Vec3 K) :=
  if j = 0 then ((p0, p3, p2), (p1, p2, p3)) else if j = 1 then ((p0, p1, p3), (p0, p3, p2)) else ((p0, p1, p3), (p1, p2, p3))

/-- `insertVertex` at 0, 1, 2: the vertices there before stay behind the new ones (GeoVertexList_Imp.hpp:47-51). -/
def putFront (s : File K) (id : Int) (t : Vec3 K × Vec3 K × Vec3 K) : Option (File K) :=
  s.modify id fun f => some { f with verts := t.1 :: t.2.1 :: t.2.2 :: f.verts }

/-- Edge `j` of facet `id` with corners `p0 p1 p2`: StlUtils_Imp.hpp:1129-1258. `some none` if the edge is not flipped.
The angles between a normal and the same normal (lines 1240-1245) are always below 2.5, and the areas compared are the same two (lines 1217-1224), so what is left of these tests is that the sum of the areas is positive. -/
def flipEdge [LinearOrder K] [Zero K] [Add K] (g : Gauge K) (k : Kept K) (swap tiny : K) (s : File K) (marks : List Int) (id : Int) (p0 p1 p2 : Vec3 K) (j : Nat) : Option (Option (File K × List Int)) := do
  let e ← edge? s id j
  if e.neighbor = -1 then some none
  else do
    let _ ← s.get? e.neighbor
    if e.neighbor ∈ marks ∨ e.whichNot < 0 ∨ 2 < e.whichNot then some none
    else do
      let w ← idx e.whichNot
      let p3 ← vertexOf s e.neighbor w
      if k.bend id e.neighbor < swap ∨ k.area id < tiny then do
        let n0 ← vertexOf s e.neighbor 0
        let n1 ← vertexOf s e.neighbor 1
        let n2 ← vertexOf s e.neighbor 2
        let qi := min (g.quality p0 p1 p2) (g.quality n0 n1 n2)
        let t := flipped p0 p1 p2 p3 j
        let qf := min (g.quality t.1.1 t.1.2.1 t.1.2.2) (g.quality t.2.1 t.2.2.1 t.2.2.2)
        if qi < qf ∧ 0 < k.area id + k.area e.neighbor then do
          let s ← putFront s id t.1
          let s ← putFront s e.neighbor t.2
          some (some (s, id :: e.neighbor :: marks))
        else some none
      else some none

/-- The edges of a facet, up to the first flip: StlUtils_Imp.hpp:1127-1261. -/
def flipEdgesOf [LinearOrder K] [Zero K] [Add K] (g : Gauge K) (k : Kept K) (swap tiny : K) (st : File K × List Int) (id : Int) (p0 p1 p2 : Vec3 K) : List Nat → Option (File K × List Int)
  | [] => some st
  | j :: js => do
    match ← flipEdge g k swap tiny st.1 st.2 id p0 p1 p2 j with
    | some st' => some st'
    | none => flipEdgesOf g k swap tiny st id p0 p1 p2 js

/-- One facet: StlUtils_Imp.hpp:1113-1262. `marks` are the ids of the facets marked with `'c'`. -/
def flipFacet [LinearOrder K] [Zero K] [Add K] (g : Gauge K) (k : Kept K) (swap tiny : K) (st : File K × List Int) (i : Nat) : Option (File K × List Int) := do
  let id ← st.1.idAt? i
  if id ∈ st.2 then some st
  else do
    let p0 ← vertexOf st.1 id 0
    let p1 ← vertexOf st.1 id 1
    let p2 ← vertexOf st.1 id 2
    flipEdgesOf g k swap tiny st id p0 p1 p2 [0, 1, 2]

/-- `flipEdges(swapAngle)`: StlUtils_Imp.hpp:1103-1266; `tiny` is `numeric_limits<Real>::min()`. -/
def flipEdges [LinearOrder K] [Zero K] [Add K] (g : Gauge K) (k : Kept K) (swap tiny : K) (s : File K) : Option (File K) := do
  let st ← (List.range s.count).foldlM (fun st i => flipFacet g k swap tiny st i) (s, [])
  some st.1

end Stl
end ENigMA
