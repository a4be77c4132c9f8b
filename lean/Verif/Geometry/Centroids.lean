import Verif.Geometry.Polyhedron
import Verif.Geometry.Solids

/-!
# Centroids and boxes of polyhedra, spheres and circles

Model of the remaining `calculateCentroid`, `calculateBoundingBox`, `calculateNormal`, `calculateArea`, `calculateVolume` functions of `CGeoPolyhedron`, `CGeoSphere`
and `CGeoCircle` (trunk/src/geometry/GeoPolyhedron_Imp.hpp, GeoSphere_Imp.hpp, GeoCircle_Imp.hpp), on objects whose caches are empty. `pi` is `std::acos(-1.0)`,
`big` is `numeric_limits<Real>::max()`.
-/

set_option linter.unusedSectionVars false
set_option autoImplicit false

namespace ENigMA

variable {K : Type} [Field K] [LinearOrder K] [IsStrictOrderedRing K]

namespace Polyhedron

/-- GeoPolyhedron_Imp.hpp 306-324 `calculateCentroid`: the sum of the centroids of the polygons of the map, divided by the number of ids. -/
def centroid (p : Polyhedron K) : Vec3 K :=
  let s := (p.polygons.entries.map fun e => Polygon.centroid e.2.vs).sum
  if 0 < p.polygons.entries.length then ((p.ids.length : K))⁻¹ • s else s

/-- GeoPolyhedron_Imp.hpp 379-396 `calculateBoundingBox`. -/
def bbox (big : K) (p : Polyhedron K) : BBox K := BBox.ofPoints big (p.polygons.entries.flatMap fun e => e.2.vs)

end Polyhedron

namespace Ball

/-- GeoSphere_Imp.hpp 87-95 and GeoCircle_Imp.hpp 75-79 `calculateCentroid`. -/
def centroid (b : Ball K) : Vec3 K := b.center

/-- GeoSphere_Imp.hpp 97-106 `calculateSurfaceArea`. -/
def sphereArea (pi : K) (b : Ball K) : K := 4 * pi * b.radius * b.radius

/-- GeoSphere_Imp.hpp 108-117 `calculateVolume`. -/
def sphereVolume (pi : K) (b : Ball K) : K := 4 / 3 * pi * b.radius * b.radius * b.radius

/-- GeoSphere_Imp.hpp 119-134 `calculateBoundingBox`: the centre is not used. -/
def sphereBox (big : K) (b : Ball K) : BBox K :=
  BBox.ofPoints big [⟨-b.radius, -b.radius, -b.radius⟩, ⟨b.radius, b.radius, b.radius⟩]

/-- GeoCircle_Imp.hpp 81-89 `calculateNormal`. -/
def circleNormal (_ : Ball K) : Vec3 K := ⟨1, 0, 0⟩

/-- GeoCircle_Imp.hpp 91-100 `calculateArea`. -/
def circleArea (pi : K) (b : Ball K) : K := pi * b.radius * b.radius

/-- GeoCircle_Imp.hpp 102-117 `calculateBoundingBox`: the centre is not used. -/
def circleBox (big : K) (b : Ball K) : BBox K := BBox.ofPoints big [⟨-b.radius, -b.radius, 0⟩, ⟨b.radius, b.radius, 0⟩]

end Ball
end ENigMA
