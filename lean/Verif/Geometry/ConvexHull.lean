import Verif.Base.Norm

/-!
# Planar convex hull

Model of `CGeoConvexHull<Real>::set` (trunk/src/geometry/GeoConvexHull.hpp, GeoConvexHull_Imp.hpp). The array
`sNewExtVertices[0 .. k-1]` is represented as a stack, last element first. `std::sort` is not modelled: `ofSorted`
takes the sorted array, and the theorems hold for every sorted permutation.
-/

namespace ENigMA
namespace Hull

variable {K : Type} [Field K] [LinearOrder K] [IsStrictOrderedRing K]

/-- `SVertex`, GeoConvexHull.hpp 21-31: plane coordinates and the original point. -/
structure SVertex (K : Type) where
  v2D : Vec3 K
  v3D : Vec3 K
  deriving DecidableEq

/-- `SVertex::operator<`, GeoConvexHull.hpp 27-30. -/
def SVertex.lt (a b : SVertex K) : Prop :=
  a.v2D.x < b.v2D.x ∨ (a.v2D.x = b.v2D.x ∧ a.v2D.y < b.v2D.y)

/-- The value `c` of GeoConvexHull_Imp.hpp lines 76 and 92, for `a = [k-2]`, `b = [k-1]` and the new point. -/
def turn (a b p : SVertex K) : K := (Vec3.cross (a.v2D - b.v2D) (a.v2D - p.v2D)).z

/-- The inner `while (k >= t)` loops, lines 74-82 and 90-98. -/
def popWhile {α : Type} (turn : α → α → α → K) (t : Nat) (q : α) : List α → List α
  | b :: a :: rest =>
    if t ≤ rest.length + 2 ∧ ¬ turn a b q ≤ 0 then popWhile turn t q (a :: rest) else b :: a :: rest
  | s => s

/-- One round of the outer loops: pop, then `sNewExtVertices[k++] = sExtVertices[i]`. -/
def push {α : Type} (turn : α → α → α → K) (t : Nat) (s : List α) (q : α) : List α := q :: popWhile turn t q s

/-- GeoConvexHull_Imp.hpp 72-103: the lower loop over `i = 0 .. n-1` with `t = 2`, the upper loop over
`i = n-2 .. 0` with `t = k + 1`, and `resize(k - 1)`; the result in array order. -/
def monotone {α : Type} (turn : α → α → α → K) (sorted : List α) : List α :=
  let low := sorted.foldl (push turn 2) []
  let both := sorted.reverse.tail.foldl (push turn (low.length + 1)) low
  both.tail.reverse

/-- GeoConvexHull_Imp.hpp 33-49: the columns of the coordinate system, from the first three points. -/
def frame (nrm : Vec3 K → K) (p0 p1 p2 : Vec3 K) : Vec3 K × Vec3 K × Vec3 K :=
  let normalize := fun v : Vec3 K => (nrm v)⁻¹ • v
  let vx := normalize (p1 - p0)
  let vz := normalize (Vec3.cross vx (p2 - p0))
  let vy := normalize (Vec3.cross vz vx)
  (vx, vy, vz)

/-- `transform(cs)` is `cs * v` (GeoCoordinate_Imp.hpp 16-20): the combination of the columns. -/
def transform (f : Vec3 K × Vec3 K × Vec3 K) (v : Vec3 K) : Vec3 K := v.x • f.1 + v.y • f.2.1 + v.z • f.2.2

/-- GeoConvexHull_Imp.hpp 51-64: the extended vertices before sorting. -/
def extended (nrm : Vec3 K → K) (pts : List (Vec3 K)) : List (SVertex K) :=
  match pts with
  | p0 :: p1 :: p2 :: _ => pts.map fun p => ⟨transform (frame nrm p0 p1 p2) p, p⟩
  | _ => []

/-- GeoConvexHull_Imp.hpp 27-107 `set`, with the array as `std::sort` leaves it; the hull is appended to what the object
already holds. -/
def set (old : List (Vec3 K)) (pts : List (Vec3 K)) (sorted : List (SVertex K)) : List (Vec3 K) :=
  if pts.length < 3 then old else old ++ (monotone turn sorted).map SVertex.v3D

end Hull
end ENigMA
