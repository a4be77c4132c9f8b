import Verif.Base.Norm

/-!
# Segments and planes

Model of `CGeoLine` and `CGeoPlane` (trunk/src/geometry/GeoLine_Imp.hpp, GeoPlane_Imp.hpp). The cached length and
bounding box are not part of the model.
-/

set_option linter.unusedSectionVars false

namespace ENigMA

/-- `CGeoPlane`: the points `x` with `normal . x = d`. -/
structure GPlane (K : Type) where
  normal : Vec3 K
  d : K

/-- `CGeoLine`: the three members `m_startPoint`, `m_endPoint`, `m_vector`. -/
structure GLine (K : Type) where
  startP : Vec3 K
  endP : Vec3 K
  vec : Vec3 K
  deriving DecidableEq

/-- `CGeoIntersectionType`, the values used by lines and planes. -/
inductive ITy
  | itNone | itVertex | itInternal | itCoincident
  deriving DecidableEq, Repr

variable {K : Type} [Field K] [LinearOrder K] [IsStrictOrderedRing K]

namespace GPlane

/-- GeoPlane_Imp.hpp 59-64 `invert`. -/
def invert (p : GPlane K) : GPlane K := ⟨-p.normal, -p.d⟩

/-- GeoPlane_Imp.hpp 66-71 `distance(point)`. -/
def distance (p : GPlane K) (x : Vec3 K) : K := |p.normal.dot x - p.d|

/-- GeoPlane_Imp.hpp 73-79 `distance(point, newPoint)`: the distance and the foot point. -/
def project (p : GPlane K) (x : Vec3 K) : K × Vec3 K :=
  (|p.normal.dot x - p.d|, x - (p.normal.dot x - p.d) • p.normal)

end GPlane

namespace GLine

/-- GeoLine_Imp.hpp 24-30, the constructor from two points. -/
def mk2 (a b : Vec3 K) : GLine K := ⟨a, b, b - a⟩

/-- GeoLine_Imp.hpp 42-46 `setStartPoint`: the direction is not updated. -/
def setStart (l : GLine K) (a : Vec3 K) : GLine K := { l with startP := a }

/-- GeoLine_Imp.hpp 48-53 `setEndPoint`: the direction is recomputed from the current start point. -/
def setEnd (l : GLine K) (b : Vec3 K) : GLine K := { l with endP := b, vec := b - l.startP }

/-- GeoLine_Imp.hpp 73-77 `midPoint(factor)`. -/
def midPoint (l : GLine K) (t : K) : Vec3 K := l.startP + t • l.vec

/-- GeoLine_Imp.hpp 473-480 `invert`. -/
def invert (l : GLine K) : GLine K := ⟨l.startP + l.vec, l.endP - l.vec, -l.vec⟩

/-- GeoLine_Imp.hpp 104-163 `clip(plane, tolerance)`. -/
def clip (l : GLine K) (p : GPlane K) (tol : K) : GLine K :=
  let den := p.normal.dot l.vec
  let num := p.normal.dot l.startP
  let pts : Vec3 K × Vec3 K :=
    if tol < |den| then
      let alpha := (p.d - num) / den
      if 0 ≤ alpha ∧ alpha ≤ 1 then
        if 0 < den then (l.startP, l.startP + alpha • l.vec)
        else (l.startP + alpha • l.vec, l.startP + l.vec)
      else if num < p.d then (l.startP, l.startP + l.vec)
      else (l.startP, l.startP)
    else if num < p.d then (l.startP, l.startP + l.vec)
    else (l.startP, l.startP)
  mk2 pts.1 pts.2

/-- GeoLine_Imp.hpp 165-197 `intersects(plane, point, type, tolerance)`: the point and the kind of intersection, or
`none` for `false`. -/
def intersectsPlane (l : GLine K) (p : GPlane K) (tol : K) : Option (Vec3 K × ITy) :=
  let p3 := p.d • p.normal
  let u := p3 - l.startP
  let d := p.normal.dot l.vec
  if |d| ≤ tol * tol then none
  else
    let s := p.normal.dot u / d
    if -tol ≤ s ∧ s ≤ 1 + tol then
      some (l.startP + s • l.vec, if s ≤ tol ∨ 1 - tol ≤ s then ITy.itVertex else ITy.itInternal)
    else none

/-- GeoLine_Imp.hpp 404-429 `distance(point, newPoint, distance, tolerance)`: new point and distance, or `none`
for `false`. -/
def distancePoint (nrm : Vec3 K → K) (l : GLine K) (x : Vec3 K) (tol : K) : Option (Vec3 K × K) :=
  let v := l.vec
  let w := x - l.startP
  let d := v.dot v
  if tol * tol < |d| then
    let s := w.dot v / d
    let q := if -tol ≤ s ∧ s ≤ 1 + tol then l.startP + s • v
      else if s < -tol then l.startP
      else l.endP
    some (q, nrm (x - q))
  else none

/-- GeoLine_Imp.hpp 432-470 `distance(line, point1, point2, distance, tolerance)`. Only the parameter on the first
line is clamped. -/
def distanceLine (nrm : Vec3 K → K) (l m : GLine K) (tol : K) : Option (Vec3 K × Vec3 K × K) :=
  let v21 := l.vec
  let v43 := m.vec
  let v13 := l.startP - m.startP
  let d4343 := v43.dot v43
  let d1343 := v13.dot v43
  let d4321 := v43.dot v21
  let d1321 := v13.dot v21
  let d2121 := v21.dot v21
  let den := d2121 * d4343 - d4321 * d4321
  let num := d1343 * d4321 - d1321 * d4343
  if |den| ≤ tol then none
  else
    let mua0 := num / den
    let mua1 := if mua0 < -tol then 0 else mua0
    let mua := if 1 + tol < mua1 then 1 else mua1
    let mub := (d1343 + d4321 * mua) / d4343
    let p1 := l.startP + mua • v21
    let p2 := m.startP + mub • v43
    some (p1, p2, nrm (p2 - p1))

end GLine
end ENigMA
