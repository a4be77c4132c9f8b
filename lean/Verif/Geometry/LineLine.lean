import Verif.Geometry.BBox
import Verif.Geometry.Line

/-!
# Two segments

Model of the part of `CGeoLine` (trunk/src/geometry/GeoLine_Imp.hpp) that finds the common point of two segments, and of
`CGeoVector::angle` as it is used there. The cached bounding boxes are those of fresh objects.
-/

set_option linter.unusedSectionVars false
set_option autoImplicit false

namespace ENigMA

variable {K : Type} [Field K] [LinearOrder K] [IsStrictOrderedRing K]

/-- The test `!(angle > 3.14 / 180.0)` of GeoLine_Imp.hpp 382-385 with `angle` of GeoVector_Imp.hpp 17-32. The arc cosine is
decreasing, so the angle is compared through its cosine: `cos1` stands for the cosine of 3.14/180, and the square root of
the product of the squared lengths is avoided by squaring. When one of the squared lengths is not above `eps` the code takes
the arc cosine of 0, a right angle. That this is the comparison of the angles is `withinDegree_iff`. -/
def withinDegree (eps cos1 : K) (a b : Vec3 K) : Bool :=
  decide (eps < a.normSq) && decide (eps < b.normSq) && decide (0 ≤ a.dot b) &&
    decide (cos1 * cos1 * (a.normSq * b.normSq) ≤ a.dot b * a.dot b)

namespace GLine

/-- GeoLine_Imp.hpp 92-102 `calculateBoundingBox`. -/
def bbox (big : K) (l : GLine K) : BBox K := BBox.ofPoints big [l.startP, l.endP]

/-- GeoLine_Imp.hpp 374-403 `contains(point, type, tolerance)`: the kind, or `none` for `false`. -/
def contains (nrm : Vec3 K → K) (eps cos1 : K) (l : GLine K) (x : Vec3 K) (tol : K) : Option ITy :=
  let v := x - l.startP
  if !withinDegree eps cos1 l.vec v then none
  else
    let n := (nrm l.vec)⁻¹ • l.vec
    let s := n.dot v / nrm l.vec
    if -tol ≤ s ∧ s ≤ 1 + tol then
      some (if s ≤ tol ∨ 1 - tol ≤ s then .itVertex else .itInternal)
    else none

/-- GeoLine_Imp.hpp 216-372 `intersects(line, point, type, tolerance)`: the point and the kind, or `none` for `false`. -/
def intersects (nrm : Vec3 K → K) (eps big cos1 : K) (l m : GLine K) (tol : K) : Option (Vec3 K × ITy) :=
  if !((l.bbox big).intersects (m.bbox big) tol) then none
  else
    let da := l.vec
    let db := m.vec
    let dc := m.startP - l.startP
    let dd := Vec3.cross da db
    if tol < |dc.dot dd| then none
    else
      let d1 := nrm (l.startP - m.startP)
      let d2 := nrm (l.endP - m.endP)
      if d1 ≤ tol ∧ d2 ≤ tol then some (l.startP, .itCoincident)
      else
        let d3 := nrm (l.startP - m.endP)
        let d4 := nrm (l.endP - m.startP)
        if d3 ≤ tol ∧ d4 ≤ tol then some (l.startP, .itCoincident)
        else
          let d := dd.normSq
          if d ≤ tol * tol then
            if d1 ≤ tol ∨ d2 ≤ tol then
              if tol * tol ≤ db.dot da then some (l.startP, .itInternal)
              else some (if d2 ≤ tol then l.endP else l.startP, .itVertex)
            else if d3 ≤ tol ∨ d4 ≤ tol then
              if tol * tol ≤ -db.dot da then some (l.startP, .itInternal)
              else some (if d4 ≤ tol then l.endP else l.startP, .itVertex)
            else if (l.contains nrm eps cos1 m.startP tol).isSome then some (m.startP, .itInternal)
            else if (l.contains nrm eps cos1 m.endP tol).isSome then some (m.endP, .itInternal)
            else if (m.contains nrm eps cos1 l.startP tol).isSome then some (l.startP, .itInternal)
            else if (m.contains nrm eps cos1 l.endP tol).isSome then some (l.endP, .itInternal)
            else none
          else if d1 ≤ tol ∨ d2 ≤ tol then some (if d2 ≤ tol then l.endP else l.startP, .itVertex)
          else if d3 ≤ tol ∨ d4 ≤ tol then some (if d4 ≤ tol then l.endP else l.startP, .itVertex)
          else
            let s := (Vec3.cross dc db).dot dd / d
            if -tol ≤ s ∧ s ≤ 1 + tol then
              let p := l.startP + s • l.vec
              match m.contains nrm eps cos1 p tol with
              | some ty => some (p, if tol < s ∧ s < 1 - tol then .itInternal else ty)
              | none => none
            else none

end GLine
end ENigMA
