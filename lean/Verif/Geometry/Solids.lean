import Verif.Geometry.BBox
import Verif.Geometry.Line

/-!
# Triangles, quadrilaterals, tetrahedra, prisms, hexahedra, spheres and circles

Model of trunk/src/geometry/GeoTriangle_Imp.hpp, GeoQuadrilateral_Imp.hpp, GeoTetrahedron_Imp.hpp,
GeoTriangularPrism_Imp.hpp, GeoHexahedron_Imp.hpp, GeoSphere_Imp.hpp and GeoCircle_Imp.hpp. The `m_b...` cache flags
are those of fresh objects (nothing cached); `nrm` is the Euclidean length, `big` is `numeric_limits<Real>::max()`.
-/

set_option linter.unusedSectionVars false

namespace ENigMA

variable {K : Type} [Field K] [LinearOrder K] [IsStrictOrderedRing K]

/-- Determinant of the 3x3 matrix with columns (or rows) `a`, `b`, `c`. -/
def det3 (a b c : Vec3 K) : K := a.dot (Vec3.cross b c)

/-- `determinant()` of the 4x4 matrix with columns (or rows) `(a, p)`, `(b, q)`, `(c, r)`, `(d, s)`, expanded along
the last entries. That this is the determinant is checked against Mathlib's in `det4_eq_det`. -/
def det4 (a : Vec3 K) (p : K) (b : Vec3 K) (q : K) (c : Vec3 K) (r : K) (d : Vec3 K) (s : K) : K :=
  -p * det3 b c d + q * det3 a c d - r * det3 a b d + s * det3 a b c

/-- The determinant with last entries 1. -/
def det4one (a b c d : Vec3 K) : K := det4 a 1 b 1 c 1 d 1

/-! ### Tetrahedron -/

/-- A `CGeoTetrahedron` with its four vertices. -/
structure Tet (K : Type) where
  v0 : Vec3 K
  v1 : Vec3 K
  v2 : Vec3 K
  v3 : Vec3 K
  deriving DecidableEq

namespace Tet

/-- GeoTetrahedron_Imp.hpp 35-48 `calculateCentroid`. -/
def centroid (t : Tet K) : Vec3 K := (1 / 4 : K) • (t.v0 + t.v1 + t.v2 + t.v3)

/-- GeoTetrahedron_Imp.hpp 81-97 `calculateVolume`. -/
def volume (t : Tet K) : K := det4one t.v0 t.v1 t.v2 t.v3 / 6

/-- GeoTetrahedron_Imp.hpp 99-113 `calculateBoundingBox`. -/
def bbox (big : K) (t : Tet K) : BBox K := BBox.ofPoints big [t.v0, t.v1, t.v2, t.v3]

/-- GeoTetrahedron_Imp.hpp 115-189 `contains(point, tolerance)`, with its early exits. -/
def contains (big : K) (t : Tet K) (p : Vec3 K) (tol : K) : Bool :=
  if !((t.bbox big).containsPt p tol) then false
  else
    let det0 := det4one t.v0 t.v1 t.v2 t.v3
    if det0 ≤ 0 then false
    else
      let s := det4one p t.v1 t.v2 t.v3 / det0
      if s < 0 then false
      else
        let t' := det4one t.v0 p t.v2 t.v3 / det0
        if t' < 0 then false
        else
          let u := det4one t.v0 t.v1 p t.v3 / det0
          if u < 0 then false
          else
            let v := det4one t.v0 t.v1 t.v2 p / det0
            if v < 0 then false
            else
              let x := s + t' + u + v
              if x < -tol ∨ 1 + tol < x then false else true

end Tet

/-! ### Hexahedron, prism, quadrilateral -/

/-- A `CGeoHexahedron` with its eight vertices. -/
structure Hex (K : Type) where
  v0 : Vec3 K
  v1 : Vec3 K
  v2 : Vec3 K
  v3 : Vec3 K
  v4 : Vec3 K
  v5 : Vec3 K
  v6 : Vec3 K
  v7 : Vec3 K
  deriving DecidableEq

/-- GeoHexahedron_Imp.hpp 54-68 `calculateVolume`. -/
def Hex.volume (h : Hex K) : K := (h.v4 - h.v0).dot (Vec3.cross (h.v3 - h.v0) (h.v1 - h.v0))

/-- GeoHexahedron_Imp.hpp 70-128 `decimate`: six tetrahedra are appended to the list. -/
def Hex.decimate (h : Hex K) (ts : List (Tet K)) : List (Tet K) :=
  ts ++ [⟨h.v0, h.v1, h.v3, h.v7⟩, ⟨h.v0, h.v4, h.v1, h.v7⟩, ⟨h.v1, h.v4, h.v5, h.v7⟩,
    ⟨h.v1, h.v2, h.v3, h.v7⟩, ⟨h.v1, h.v6, h.v2, h.v7⟩, ⟨h.v1, h.v5, h.v6, h.v7⟩]

/-- A `CGeoTriangularPrism` with its six vertices. -/
structure Prism (K : Type) where
  v0 : Vec3 K
  v1 : Vec3 K
  v2 : Vec3 K
  v3 : Vec3 K
  v4 : Vec3 K
  v5 : Vec3 K

/-- GeoTriangularPrism_Imp.hpp 46-60 `calculateVolume`. -/
def Prism.volume (h : Prism K) : K := 1 / 2 * (h.v3 - h.v0).dot (Vec3.cross (h.v2 - h.v0) (h.v1 - h.v0))

/-- A `CGeoTriangle` with its three vertices. -/
structure Tri (K : Type) where
  v0 : Vec3 K
  v1 : Vec3 K
  v2 : Vec3 K
  deriving DecidableEq

/-- A `CGeoQuadrilateral` with its four vertices. -/
structure Quad (K : Type) where
  v0 : Vec3 K
  v1 : Vec3 K
  v2 : Vec3 K
  v3 : Vec3 K
  deriving DecidableEq

namespace Quad

/-- GeoQuadrilateral_Imp.hpp 52-70 `calculateNormal`: the unit normal and the area. -/
def normalArea (nrm : Vec3 K → K) (q : Quad K) : Vec3 K × K :=
  let n := Vec3.cross (q.v2 - q.v0) (q.v3 - q.v1)
  let area := nrm n * (1 / 2)
  (if 0 < area then (nrm n)⁻¹ • n else n, area)

/-- GeoQuadrilateral_Imp.hpp 36-50 `calculateCentroid`. -/
def centroid (q : Quad K) : Vec3 K := (1 / 4 : K) • (q.v0 + q.v1 + q.v2 + q.v3)

/-- GeoQuadrilateral_Imp.hpp 116-134 `decimate`. -/
def decimate (q : Quad K) (ts : List (Tri K)) : List (Tri K) :=
  ts ++ [⟨q.v0, q.v1, q.v2⟩, ⟨q.v0, q.v2, q.v3⟩]

end Quad

/-! ### Triangle -/

namespace Tri

/-- The vector computed at GeoTriangle_Imp.hpp 65, before normalisation. -/
def rawNormal (t : Tri K) : Vec3 K := Vec3.cross (t.v1 - t.v0) (t.v2 - t.v0)

/-- GeoTriangle_Imp.hpp 60-75 `calculateNormal`: the normal (normalised when the area is positive) and the area. -/
def normalArea (nrm : Vec3 K → K) (t : Tri K) : Vec3 K × K :=
  let n := t.rawNormal
  let area := nrm n * (1 / 2)
  (if 0 < area then (nrm n)⁻¹ • n else n, area)

/-- `normal()` after `calculateNormal`. -/
def normal (nrm : Vec3 K → K) (t : Tri K) : Vec3 K := (t.normalArea nrm).1

/-- GeoTriangle_Imp.hpp 45-58 `calculateCentroid`. -/
def centroid (t : Tri K) : Vec3 K := (1 / 3 : K) • (t.v0 + t.v1 + t.v2)

/-- GeoTriangle_Imp.hpp 83-95 `calculateBoundingBox`. -/
def bbox (big : K) (t : Tri K) : BBox K := BBox.ofPoints big [t.v0, t.v1, t.v2]

/-- `m_vertices[k % 3]`. -/
def v (t : Tri K) (k : Nat) : Vec3 K := if k % 3 = 0 then t.v0 else if k % 3 = 1 then t.v1 else t.v2

/-- The value `s[k]` of GeoTriangle_Imp.hpp line 308. -/
def side (nrm : Vec3 K → K) (t : Tri K) (p : Vec3 K) (k : Nat) : K :=
  (Vec3.cross (t.v (k + 1) - t.v k) (p - t.v k)).dot (t.normal nrm)

/-- What `contains` reports. -/
inductive Loc
  | outside | vertex | edge | internal
  deriving DecidableEq, Repr

/-- GeoTriangle_Imp.hpp 280-326 `contains(point, type, tolerance)`: the loop over `k = 0, 1, 2` with its exits, then
the classification by the smallest side `w`. `smin` starts at `big`. -/
def contains (nrm : Vec3 K → K) (big : K) (t : Tri K) (p : Vec3 K) (tol : K) : Loc :=
  if !((t.bbox big).containsPt p tol) then .outside
  else
    let s := t.side nrm p
    if nrm (p - t.v0) ≤ tol then .vertex
    else if s 0 ≤ -tol then .outside
    else
      let m0 : K × Nat := if s 0 < big then (s 0, 0) else (big, 0)
      if nrm (p - t.v1) ≤ tol then .vertex
      else if s 1 ≤ -tol then .outside
      else
        let m1 : K × Nat := if s 1 < m0.1 then (s 1, 1) else m0
        if nrm (p - t.v2) ≤ tol then .vertex
        else if s 2 ≤ -tol then .outside
        else
          let m2 : K × Nat := if s 2 < m1.1 then (s 2, 2) else m1
          let w := m2.2
          if |s (w % 3) - (s ((w + 1) % 3) + s ((w + 2) % 3))| < tol then .edge else .internal

/-- The loop over the vertices of GeoTriangle_Imp.hpp 344-355, from the running best. -/
def nearestVertex (nrm : Vec3 K → K) (p : Vec3 K) : List (Vec3 K) → Vec3 K × K → Vec3 K × K
  | [], best => best
  | v :: vs, best => nearestVertex nrm p vs (if nrm (p - v) < best.2 then (v, nrm (p - v)) else best)

/-- GeoTriangle_Imp.hpp 328-359 `distance(point, newPoint, distance, tolerance)`. -/
def distance (nrm : Vec3 K → K) (big : K) (t : Tri K) (p : Vec3 K) (tol : K) : Vec3 K × K :=
  let n := t.normal nrm
  let (d, q) := GPlane.project ⟨n, n.dot t.v0⟩ p
  if t.contains nrm big q tol = .outside then nearestVertex nrm p [t.v0, t.v1, t.v2] (q, big)
  else (q, d)

end Tri

/-! ### Sphere and circle -/

/-- `m_center`, `m_radius`. -/
structure Ball (K : Type) where
  center : Vec3 K
  radius : K
  deriving DecidableEq

/-- GeoSphere_Imp.hpp 14-61, the sphere through four points. -/
def sphere4 (sqrt : K → K) (p1 p2 p3 p4 : Vec3 K) (tol : K) : Ball K :=
  let m11 := det4 p1 1 p2 1 p3 1 p4 1
  let rx := fun p : Vec3 K => (⟨p.normSq, p.y, p.z⟩ : Vec3 K)
  let ry := fun p : Vec3 K => (⟨p.x, p.normSq, p.z⟩ : Vec3 K)
  let rz := fun p : Vec3 K => (⟨p.x, p.y, p.normSq⟩ : Vec3 K)
  let r5 := fun p : Vec3 K => (⟨p.normSq, p.x, p.y⟩ : Vec3 K)
  let m12 := det4 (rx p1) 1 (rx p2) 1 (rx p3) 1 (rx p4) 1
  let m13 := det4 (ry p1) 1 (ry p2) 1 (ry p3) 1 (ry p4) 1
  let m14 := det4 (rz p1) 1 (rz p2) 1 (rz p3) 1 (rz p4) 1
  let m15 := det4 (r5 p1) p1.z (r5 p2) p2.z (r5 p3) p3.z (r5 p4) p4.z
  if |m11| ≤ tol * tol then ⟨⟨0, 0, 0⟩, 0⟩
  else
    let c : Vec3 K := ⟨1 / 2 * m12 / m11, 1 / 2 * m13 / m11, 1 / 2 * m14 / m11⟩
    ⟨c, sqrt (c.normSq - m15 / m11)⟩

/-- GeoSphere_Imp.hpp 136-145 and GeoCircle_Imp.hpp 119-128 `contains(point, tolerance)`. -/
def Ball.contains (nrm : Vec3 K → K) (b : Ball K) (p : Vec3 K) (tol : K) : Bool :=
  decide (nrm (p - b.center) ≤ b.radius + tol)

/-- Division as the source performs it: `none` stands for the infinite or not-a-number result of dividing by zero. -/
def fdiv (a b : K) : Option K := if b = 0 then none else some (a / b)

/-- GeoCircle_Imp.hpp 14-49, the circle through three points. `none` when the source divides by zero, which leaves a
not-a-number centre (infinite slopes meet as `inf / inf` or `inf - inf`, and a zero slope as `0 / 0`). -/
def circle3 (nrm : Vec3 K → K) (p1 p2 p3 : Vec3 K) (tol : K) : Option (Ball K) :=
  let xa := p2.x - p1.x
  let ya := p2.y - p1.y
  let xb := p3.x - p2.x
  let yb := p3.y - p2.y
  if |xa| ≤ tol * tol ∧ |yb| ≤ tol * tol then
    let c : Vec3 K := ⟨1 / 2 * (p2.x + p3.x), 1 / 2 * (p1.y + p2.y), p1.z⟩
    some ⟨c, nrm (p1 - c)⟩
  else do
    let sa ← fdiv ya xa
    let sb ← fdiv yb xb
    if |sa - sb| ≤ tol * tol then some ⟨⟨0, 0, 0⟩, 0⟩
    else
      let cx ← fdiv (sa * sb * (p1.y - p3.y) + sb * (p1.x + p2.x) - sa * (p2.x + p3.x)) (2 * (sb - sa))
      let t ← fdiv (-(cx - (p1.x + p2.x) * (1 / 2))) sa
      let c : Vec3 K := ⟨cx, t + (p1.y + p2.y) * (1 / 2), p1.z⟩
      some ⟨c, nrm (p1 - c)⟩

end ENigMA
