import Verif.Geometry.Solids
import Verif.Geometry.LineLine

/-!
# Two triangles

Model of the part of `CGeoTriangle` (trunk/src/geometry/GeoTriangle_Imp.hpp) that tells whether a triangle meets another triangle or
a segment. The cached normals and boxes are those of fresh objects.
-/

set_option linter.unusedSectionVars false
set_option autoImplicit false

namespace ENigMA

variable {K : Type} [Field K] [LinearOrder K] [IsStrictOrderedRing K]

/-- `CGeoIntersectionType`, the values set by the test of two triangles. -/
inductive TriHit
  | coincident | internal | swap | edge | vertex
  deriving DecidableEq, Repr

namespace Tri

/-- The edge from vertex `k` to vertex `k + 1`, `CGeoLine(vertex((k + 0) % 3), vertex((k + 1) % 3))`. -/
def edgeLine (t : Tri K) (k : Nat) : GLine K := GLine.mk2 (t.v k) (t.v (k + 1))

/-- `nVertex`: GeoTriangle_Imp.hpp 137-148. -/
def nearVertices (nrm : Vec3 K → K) (t u : Tri K) (tol : K) : Nat :=
  ([0, 1, 2].flatMap fun i => [0, 1, 2].filter fun j => decide (nrm (t.v i - u.v j) < tol)).length

/-- The plane `CGeoPlane(normal(), d)`, with `d` the height of vertex 0: GeoTriangle_Imp.hpp 111, 125, 203, 227, 269. -/
def plane (nrm : Vec3 K → K) (t : Tri K) : GPlane K := ⟨t.normal nrm, (t.normal nrm).dot t.v0⟩

/-- Are all three signed distances on one side: GeoTriangle_Imp.hpp 118, 132. -/
def oneSide (tol s0 s1 s2 : K) : Bool :=
  (decide (tol < s0) && decide (tol < s1) && decide (tol < s2)) || (decide (s0 < -tol) && decide (s1 < -tol) && decide (s2 < -tol))

/-- One of the loops over the edges of `u`: GeoTriangle_Imp.hpp 205-223 and 229-247. -/
def pierced (nrm : Vec3 K → K) (big : K) (t u : Tri K) (tol : K) : Bool :=
  [0, 1, 2].any fun k =>
    match (u.edgeLine k).intersectsPlane (t.plane nrm) tol with
    | some (x, _) => decide (t.contains nrm big x tol = .internal ∨ t.contains nrm big x tol = .edge)
    | none => false

/-- The loops over the pairs of edges of triangles in one plane: GeoTriangle_Imp.hpp 161-184. -/
def edgesCross (nrm : Vec3 K → K) (eps big cos1 : K) (t u : Tri K) (tol : K) : Bool :=
  [0, 1, 2].any fun k => [0, 1, 2].any fun l =>
    decide (((t.edgeLine k).intersects nrm eps big cos1 (u.edgeLine l) tol).map (·.2) = some ITy.itInternal)

/-- All vertices of `u` pass the test `t.contains`: GeoTriangle_Imp.hpp 257. -/
def containsAll (nrm : Vec3 K → K) (big : K) (t u : Tri K) (tol : K) : Bool :=
  decide (t.contains nrm big u.v0 tol ≠ .outside) && decide (t.contains nrm big u.v1 tol ≠ .outside) &&
    decide (t.contains nrm big u.v2 tol ≠ .outside)

/-- The last part: GeoTriangle_Imp.hpp 249-263. -/
def hitTail (nrm : Vec3 K → K) (big : K) (t u : Tri K) (tol : K) (nv : Nat) : Option TriHit :=
  if nv = 1 then some .vertex
  else if t.containsAll nrm big u tol || u.containsAll nrm big t tol then some .internal
  else none

/-- `intersects(triangle, type, tolerance)`: GeoTriangle_Imp.hpp 97-264: the kind, or `none` for `false`. The second test on
one side (lines 127-135) is made, as in the code, with the vertices of `u` itself. -/
def intersects (nrm : Vec3 K → K) (eps big cos1 : K) (t u : Tri K) (tol : K) : Option TriHit :=
  if !((t.bbox big).intersects (u.bbox big) tol) then none
  else
    let n1 := t.normal nrm
    let d1 := n1.dot t.v0
    if oneSide tol (n1.dot u.v0 - d1) (n1.dot u.v1 - d1) (n1.dot u.v2 - d1) then none
    else
      let n2 := u.normal nrm
      let d2 := n2.dot u.v0
      if oneSide tol (n2.dot u.v0 - d2) (n2.dot u.v1 - d2) (n2.dot u.v2 - d2) then none
      else
        let nv := nearVertices nrm t u tol
        if nv = 3 then some .coincident
        else if nrm (Vec3.cross n1 n2) ≤ tol ∧ |d1 - d2| ≤ tol then
          if edgesCross nrm eps big cos1 t u tol then some (if nv = 2 then .swap else .internal)
          else if nv = 2 then some .edge
          else hitTail nrm big t u tol nv
        else if nv = 2 then some .edge
        else if pierced nrm big t u tol || pierced nrm big u t tol then some .internal
        else hitTail nrm big t u tol nv

/-- `intersects(line, point, type, tolerance)`: GeoTriangle_Imp.hpp 266-278: the point, or `none` for `false`. The code reads
`normal()` without computing it; the model takes the normal as computed before. -/
def intersectsLine (nrm : Vec3 K → K) (big : K) (t : Tri K) (l : GLine K) (tol : K) : Option (Vec3 K × Loc) :=
  match l.intersectsPlane (t.plane nrm) tol with
  | some (x, _) => if t.contains nrm big x tol = .outside then none else some (x, t.contains nrm big x tol)
  | none => none

end Tri
end ENigMA
