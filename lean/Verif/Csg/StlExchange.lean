import Verif.Csg.Bsp
import Verif.Geometry.Polygon
import Verif.Stl.File

/-!
# STL export and import of a solid: trunk/src/csg/CsgBoolean_Imp.hpp 160-207
-/

set_option linter.unusedSectionVars false
set_option autoImplicit false

namespace ENigMA
namespace Csg

variable {K : Type} [Field K] [LinearOrder K] [IsStrictOrderedRing K]

/-- The new facet of CsgBoolean_Imp.hpp 195-199: three vertices; its normal is never set. -/
def triFacet (t : Vec3 K × Vec3 K × Vec3 K) : Stl.Facet K := ⟨[t.1, t.2.1, t.2.2], ⟨0, 0, 0⟩, (0, 0), [{}, {}, {}]⟩

/-- `addFacet(n, facet); n++` of CsgBoolean_Imp.hpp 201-202, for the triangles in order. -/
def addFacets : Nat → List (Vec3 K × Vec3 K × Vec3 K) → Stl.File K → Stl.File K
  | _, [], s => s
  | n, t :: ts, s => addFacets (n + 1) ts (s.add (n : Int) (triFacet t))

/-- `toStl()`: CsgBoolean_Imp.hpp 180-207. The two loops over polygons and their triangles are one loop over all triangles. -/
def toStl (ang : Vec3 K → Vec3 K → K) (maxAngle : K) (ps : List (Poly K)) : Stl.File K :=
  addFacets 0 (ps.flatMap fun p => Polygon.triangulate ang maxAngle p.vs) Cont.empty

/-- One facet of `fromSTL`: CsgBoolean_Imp.hpp 165-176. `none` when the facet has no vertex. -/
def facetPoly (nrm : Vec3 K → K) (eps : K) (f : Stl.Facet K) : Option (Poly K) := do
  let a ← f.vertex? 0
  let b ← f.vertex? 1
  let c ← f.vertex? 2
  let vs := closeExact [a, b, c]
  some ⟨vs, Polygon.normal nrm eps vs⟩

/-- `fromSTL(stl)`: CsgBoolean_Imp.hpp 160-178: appends to the polygons already there. -/
def fromStl (nrm : Vec3 K → K) (eps : K) (ps : List (Poly K)) (s : Stl.File K) : Option (List (Poly K)) := do
  let qs ← s.ids.mapM fun id => do
    let f ← s.get? id
    facetPoly nrm eps f
  some (ps ++ qs)

end Csg
end ENigMA
