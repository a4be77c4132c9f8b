import Verif.Geometry.VertexList
import Mathlib.Algebra.BigOperators.Group.Finset.Basic

/-!
# Polygons

Model of `CGeoPolygon` (trunk/src/geometry/GeoPolygon_Imp.hpp). The polygon is its polyline plus the cached
normal and area with their flags. `nrm` is the Euclidean length, `eps` is `numeric_limits<Real>::epsilon()`.
-/

set_option linter.unusedSectionVars false

namespace ENigMA

open Finset in
/-- Auxiliary reading of `m_polyline.vertex(i)` in code guarded by a non-empty polyline: index modulo the size.
(Equal to `VertexList.vertex` there, `vtx_eq`.) -/
def vtx {K : Type} [Zero K] (vs : List (Vec3 K)) (i : Nat) : Vec3 K :=
  vs.getD (i % vs.length) ⟨0, 0, 0⟩

namespace Polygon

variable {K : Type} [Field K] [LinearOrder K] [IsStrictOrderedRing K]

/-- GeoPolygon_Imp.hpp 45-62 `calculateCentroid`: the mean of vertices 1..n-1. -/
def centroid (vs : List (Vec3 K)) : Vec3 K :=
  if 1 < vs.length then ((vs.length : K) - 1)⁻¹ • (vs.drop 1).sum else 0

/-- The loop of GeoPolygon_Imp.hpp 72-85 `calculateNormal`: `cur` is the vector computed last; stops at the
first corner whose cross product is longer than `eps`, and normalises it. -/
def normalLoop (nrm : Vec3 K → K) (eps : K) : Vec3 K → List (Vec3 K) → Vec3 K
  | _, a :: b :: c :: l =>
    let n := Vec3.cross (b - a) (c - a)
    if eps < nrm n then (nrm n)⁻¹ • n else normalLoop nrm eps n (b :: c :: l)
  | cur, _ => cur

/-- GeoPolygon_Imp.hpp 64-91 `calculateNormal`. A polygon with fewer than three vertices leaves the local
normal uninitialised (Eigen default constructor); the model gives the zero vector there. -/
def normal (nrm : Vec3 K → K) (eps : K) (vs : List (Vec3 K)) : Vec3 K := normalLoop nrm eps 0 vs

/-- GeoPolygon_Imp.hpp 106-115: which coordinate is dropped. -/
def dropped (n : Vec3 K) : Nat :=
  if |n.y| < |n.x| then (if |n.z| < |n.x| then 1 else 3)
  else if |n.z| < |n.y| then 2 else 3

/-- GeoPolygon_Imp.hpp 117-133: the projected sum over `i = 1 .. nbVertices`, with cyclic vertex access. -/
def projectedSum (coord : Nat) (vs : List (Vec3 K)) : K :=
  ∑ k ∈ Finset.range vs.length,
    match coord with
    | 1 => (vtx vs (k + 1)).y * ((vtx vs (k + 2)).z - (vtx vs k).z)
    | 2 => (vtx vs (k + 1)).z * ((vtx vs (k + 2)).x - (vtx vs k).x)
    | _ => (vtx vs (k + 1)).x * ((vtx vs (k + 2)).y - (vtx vs k).y)

/-- GeoPolygon_Imp.hpp 93-152 `calculateArea`, as a function of the vertices and the normal. -/
def areaWith (nrm : Vec3 K → K) (eps : K) (n : Vec3 K) (vs : List (Vec3 K)) : K :=
  if 1 < vs.length then
    if eps < nrm n then
      match dropped n with
      | 1 => projectedSum 1 vs * (nrm n / (2 * n.x))
      | 2 => projectedSum 2 vs * (nrm n / (2 * n.y))
      | _ => projectedSum 3 vs * (nrm n / (2 * n.z))
    else 0
  else 0

/-- `calculateArea` of a fresh polygon: the normal is calculated from the same vertices. -/
def area (nrm : Vec3 K → K) (eps : K) (vs : List (Vec3 K)) : K :=
  areaWith nrm eps (normal nrm eps vs) vs

end Polygon

/-- A `CGeoPolygon` object: polyline, cached normal and area with their flags (GeoPolygon.hpp, GeoNormal.hpp,
GeoArea.hpp). The centroid and bounding box caches are not part of the model. -/
structure Polygon (K : Type) where
  vs : List (Vec3 K)
  m_normal : Vec3 K
  bNormal : Bool
  m_area : K
  bArea : Bool

namespace Polygon

variable {K : Type} [Field K] [LinearOrder K] [IsStrictOrderedRing K]

/-- A polygon constructed by `setPolyline` on a fresh object (lines 39-43). -/
def ofPolyline (vs : List (Vec3 K)) : Polygon K := ⟨vs, 0, false, 0, false⟩

/-- Lines 39-43 `setPolyline`: no cache is invalidated. -/
def setPolyline (p : Polygon K) (vs : List (Vec3 K)) : Polygon K := { p with vs := vs }

/-- Lines 64-91 `calculateNormal(bReCalculate)`. -/
def calculateNormal (nrm : Vec3 K → K) (eps : K) (re : Bool) (p : Polygon K) : Polygon K :=
  if !p.bNormal || re then { p with m_normal := normal nrm eps p.vs, bNormal := true } else p

/-- Lines 93-152 `calculateArea(bReCalculate)`. -/
def calculateArea (nrm : Vec3 K → K) (eps : K) (re : Bool) (p : Polygon K) : Polygon K :=
  if !p.bArea || re then
    let q := if 1 < p.vs.length then p.calculateNormal nrm eps re else p
    { q with m_area := areaWith nrm eps q.m_normal q.vs, bArea := true }
  else p

/-- Lines 177-183 `invert`: reverses the polyline and negates the cached normal; the flags and the cached area
are left as they are. -/
def invert (p : Polygon K) : Polygon K := { p with vs := p.vs.reverse, m_normal := -p.m_normal }

/-- Lines 218-252, the inner loop of `triangulate`: over the positions of the chain, with the best angle so far
and the corresponding `(p1, p2, p3, wi)`. -/
def bestEar (ang : Vec3 K → Vec3 K → K) (vs : List (Vec3 K)) (chain : List Nat) :
    List Nat → K → Nat × Nat × Nat × Nat → Nat × Nat × Nat × Nat
  | [], _, best => best
  | i :: is, minAngle, best =>
    let ii := chain.getD i 0
    let im := if i = 0 then chain.getD (chain.length - 1) 0 else chain.getD (i - 1) 0
    let ip := if i = 0 then chain.getD 1 0 else chain.getD ((i + 1) % chain.length) 0
    let angle := |ang (vtx vs im - vtx vs ii) (vtx vs ip - vtx vs ii)|
    if angle < minAngle then bestEar ang vs chain is angle (ii, ip, im, i)
    else bestEar ang vs chain is minAngle best

/-- Lines 212-265, the outer loop of `triangulate`, by fuel = chain size; `p` are the variables `p1, p2, p3`
that survive from one round to the next. `maxAngle` is the literal `2 * 3.142`. -/
def triLoop (ang : Vec3 K → Vec3 K → K) (maxAngle : K) (vs : List (Vec3 K)) :
    Nat → List Nat → Nat × Nat × Nat → List (Vec3 K × Vec3 K × Vec3 K)
  | 0, _, _ => []
  | k + 1, chain, p =>
    if 2 < chain.length then
      let b := bestEar ang vs chain (List.range chain.length) maxAngle (p.1, p.2.1, p.2.2, 0)
      (vtx vs b.1, vtx vs b.2.1, vtx vs b.2.2.1) ::
        triLoop ang maxAngle vs k (chain.eraseIdx b.2.2.2) (b.1, b.2.1, b.2.2.1)
    else []

/-- Lines 203-268 `triangulate`: the chain is `0 .. nbVertices - 2`. The while loop removes one element per
round, so fuel equal to the chain length is enough (`triLoop` never stops for lack of fuel). -/
def triangulate (ang : Vec3 K → Vec3 K → K) (maxAngle : K) (vs : List (Vec3 K)) :
    List (Vec3 K × Vec3 K × Vec3 K) :=
  triLoop ang maxAngle vs (vs.length - 1) (List.range (vs.length - 1)) (0, 1, 2)

end Polygon
end ENigMA
