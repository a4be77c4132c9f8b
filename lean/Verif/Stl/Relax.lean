import Verif.Stl.Split

/-!
# Moving the vertices of a surface: StlUtils_Imp.hpp:941-1062 and 1268-1397

`none` stands for an exception of `at`, or for an index outside an array.
-/

set_option linter.unusedSectionVars false
set_option autoImplicit false

namespace ENigMA
namespace Stl
variable {K : Type}

/-- The walk around the vertex at which edge `j` of facet `id` starts: StlUtils_Imp.hpp:981-1024 and 1323-1358. Gives the facets met, each with the number of its corner that is not on the edge crossed; `some none` if the vertex stays.
`outline` tells the edges marked as outline (none in `collapseEdges`, which does not look at them); the walk stops after 100 facets, or when it is back at facet `i`, the position of the facet it started from. -/
def ringWalk (outline : Int × Nat → Bool) (s : File K) (i : Nat) : Nat → Int → Nat → List (Int × Nat) → Option (Option (List (Int × Nat)))
  | 0, _, _, _ => some none
  | fuel + 1, id, j, acc =>
    if id = -1 ∨ outline (id, j) = true then some none
    else do
      let e ← edge? s id j
      if e.neighbor = -1 then some none
      else do
        let w ← idx e.whichNot
        if fuel = 0 then some none
        else if e.neighbor ≠ (i : Int) then ringWalk outline s i fuel e.neighbor ((w + 2) % 3) (acc ++ [(e.neighbor, w)])
        else some (some (acc ++ [(e.neighbor, w)]))

/-- The corners of the ring at the vertex are set: StlUtils_Imp.hpp:1053-1057 and 1385-1389. -/
def moveRing (s : File K) (ring : List (Int × Nat)) (p : Vec3 K) : Option (File K) := ring.foldlM (fun s x => setVert s x.1 (((x.2 + 1) % 3 + 1) % 3) p) s

/-- The mean of the corners of the ring: StlUtils_Imp.hpp:1029-1037. -/
def ringMean [Field K] (ps : List (Vec3 K)) : Vec3 K := ((ps.length : K)⁻¹) • ps.foldl (· + ·) 0

/-- One corner: StlUtils_Imp.hpp:965-1058. `accept` decides whether the normals of the facets turn by too much when their corners (numbers) move to a point: a function of the facets as stored, because `calculateNormal` uses normals kept from before. -/
def relaxCorner [Field K] (outline : Int × Nat → Bool) (accept : List (Facet K × Nat) → Vec3 K → Bool) (s : File K) (i : Nat) (id : Int) (j : Nat) : Option (File K) :=
  if outline (id, j) = true then some s
  else do
    match ← ringWalk outline s i 100 id j [] with
    | none => some s
    | some ring => do
      let ps ← ring.mapM fun x => vertexOf s x.1 x.2
      let fs ← ring.mapM fun x => (s.get? x.1).map fun f => (f, ((x.2 + 1) % 3 + 1) % 3)
      let p := ringMean ps
      if accept fs p = true then moveRing s ring p else some s

/-- `relaxVertices()`: StlUtils_Imp.hpp:941-1062. The marks in `extra` are not used afterwards and left out. -/
def relaxVertices [Field K] (outline : Int × Nat → Bool) (accept : List (Facet K × Nat) → Vec3 K → Bool) (s : File K) : Option (File K) :=
  (List.range s.count).foldlM (fun s i => do
    let id ← s.idAt? i
    [0, 1, 2].foldlM (fun s j => relaxCorner outline accept s i id j) s) s

/-- The shortest edge: StlUtils_Imp.hpp:748-778. -/
def smallEdge [Field K] [LinearOrder K] (g : Gauge K) (p0 p1 p2 : Vec3 K) : Nat :=
  let d0 := g.norm (p1 - p0)
  let d1 := g.norm (p2 - p1)
  let d2 := g.norm (p0 - p2)
  let r := if d1 < d0 then (1, d1) else (0, d0)
  if d2 < r.2 then 2 else r.1

/-- One facet: StlUtils_Imp.hpp:1285-1394. `marks` are the ids of the facets marked with `'c'`. `accept` as above; here the normals are computed anew. -/
def collapseFacet [Field K] [LinearOrder K] (g : Gauge K) (least : K) (accept : List (Facet K × Nat) → Vec3 K → Bool) (st : File K × List Int) (i : Nat) : Option (File K × List Int) := do
  let s := st.1
  let id ← s.idAt? i
  if id ∈ st.2 then some st
  else do
    let p0 ← vertexOf s id 0
    let p1 ← vertexOf s id 1
    let p2 ← vertexOf s id 2
    let k := smallEdge g p0 p1 p2
    if least < g.quality p0 p1 p2 then some st
    else do
      let e ← edge? s id k
      if e.neighbor = -1 then some st
      else do
        let _ ← vertexOf s e.neighbor 0
        match ← ringWalk (fun _ => false) s i 100 id ((k + 1) % 3) [] with
        | none => some st
        | some ring => do
          let p ← vertexOf s id k
          let fs ← ring.mapM fun x => (s.get? x.1).map fun f => (f, ((x.2 + 1) % 3 + 1) % 3)
          if accept fs p = true then do
            let s' ← moveRing s ring p
            some (s', id :: e.neighbor :: st.2)
          else some st

/-- `collapseEdges(minQuality, maxAngle)`: StlUtils_Imp.hpp:1268-1397. -/
def collapseEdges [Field K] [LinearOrder K] (g : Gauge K) (least : K) (accept : List (Facet K × Nat) → Vec3 K → Bool) (s : File K) : Option (File K) := do
  let st ← (List.range s.count).foldlM (fun st i => collapseFacet g least accept st i) (s, [])
  some st.1

end Stl
end ENigMA
