import Verif.Geometry.Clip
import Verif.Fvm.FvmMesh

/-!
# Clipping a control volume

Model of `CFvmControlVolume` with its clipped polyhedron and the caches of its base class `CGeoVolume`
(trunk/src/fvm/FvmControlVolume.hpp, FvmControlVolume_Imp.hpp). `nrm` is the Euclidean length, `eps` is `numeric_limits<Real>::epsilon()`, `big` is
`numeric_limits<Real>::max()`. The centroid and `originalAvFaceDist` (a cube root) are not part of the model; `reset` and `calculateBoundingBox` have empty bodies.
-/

set_option linter.unusedSectionVars false
set_option autoImplicit false

namespace ENigMA

/-- `CFvmControlVolume`: FvmControlVolume.hpp 26-38, with `m_volume`, `m_bVolume`, `m_surfaceArea`, `m_bSurfaceArea` of `CGeoVolume`. `clippedFace` is the polygon
base of `m_clippedFace`. -/
structure ClipCV (K : Type) where
  poly : Polyhedron K
  cpoly : Polyhedron K
  clipped : Bool
  clippedFaceId : Int
  clippedFace : Polygon K
  originalVolume : K
  m_volume : K
  bVolume : Bool
  m_surfaceArea : K
  bSurfaceArea : Bool

namespace ClipCV

variable {K : Type} [Field K] [LinearOrder K] [IsStrictOrderedRing K]

/-- FvmControlVolume_Imp.hpp 20-28, default constructor. -/
def new : ClipCV K := ⟨Polyhedron.empty, Polyhedron.empty, false, -1, Polygon.ofPolyline [], 0, 0, false, 0, false⟩

/-- FvmControlVolume_Imp.hpp 73-83 `addFace`, given the polyline of the face. -/
def addFace (c : ClipCV K) (id : Int) (vs : List (Vec3 K)) : ClipCV K := { c with poly := c.poly.addPolygon id (Polygon.ofPolyline vs) }

/-- Adding faces one after the other. -/
def addFaces (c : ClipCV K) : List (Int × List (Vec3 K)) → ClipCV K
  | [] => c
  | f :: t => addFaces (c.addFace f.1 f.2) t

/-- The polyhedron that the `if (m_clipped)` of every function selects. -/
def active (c : ClipCV K) : Polyhedron K := if c.clipped then c.cpoly else c.poly

/-- Changing the polyhedron that the `if (m_clipped)` selects. -/
def setActive (c : ClipCV K) (p : Polyhedron K) : ClipCV K := if c.clipped then { c with cpoly := p } else { c with poly := p }

/-- FvmControlVolume_Imp.hpp 62-71 `nbFaces`. -/
def nbFaces (c : ClipCV K) : Nat := c.active.nbPolygons

/-- FvmControlVolume_Imp.hpp 85-96 `faceId(index)`; `none` is an access outside the vector of ids (undefined behaviour). -/
def faceId (c : ClipCV K) (i : Nat) : Option Int := c.active.ids[i]?

/-- FvmControlVolume_Imp.hpp 98-109 `containsFace`. -/
def containsFace (c : ClipCV K) (id : Int) : Bool := c.active.containsPolygon id

/-- FvmControlVolume_Imp.hpp 111-122 `calculateFaceArea`. `operator[]` of the map inserts an empty polygon if there is none with this id. -/
def calculateFaceArea (nrm : Vec3 K → K) (eps : K) (c : ClipCV K) (id : Int) (re : Bool) : ClipCV K :=
  c.setActive { c.active with polygons := c.active.polygons.insert id ((c.active.polygon id).calculateArea nrm eps re) }

/-- FvmControlVolume_Imp.hpp 124-135 `faceArea`. -/
def faceArea (c : ClipCV K) (id : Int) : K := (c.active.polygon id).m_area

/-- FvmControlVolume_Imp.hpp 137-148 `calculateFaceNormal`, with the same `operator[]`. -/
def calculateFaceNormal (nrm : Vec3 K → K) (eps : K) (c : ClipCV K) (id : Int) (re : Bool) : ClipCV K :=
  c.setActive { c.active with polygons := c.active.polygons.insert id ((c.active.polygon id).calculateNormal nrm eps re) }

/-- FvmControlVolume_Imp.hpp 150-161 `faceNormal`. -/
def faceNormal (c : ClipCV K) (id : Int) : Vec3 K := (c.active.polygon id).m_normal

/-- FvmControlVolume_Imp.hpp 193-197 `setClippedFaceId`. -/
def setClippedFaceId (c : ClipCV K) (id : Int) : ClipCV K := { c with clippedFaceId := id }

/-- The arguments of `clip`: the normal, the fraction requested, the largest number of iterations, the tolerance. The argument
`aVolumeFractionTolerance` is handed on to a function that does not use it. -/
structure ClipArgs (K : Type) where
  n : Vec3 K
  req : K
  nMax : Nat
  tol : K

/-- What `CGeoPolyhedron::clip` by volume fraction makes of a polyhedron in the call FvmControlVolume_Imp.hpp 215-218: a new polygon, the plane through the origin. -/
def clipOf (nrm : Vec3 K → K) (eps big : K) (p : Polyhedron K) (id : Int) (a : ClipArgs K) : Polyhedron.FractionResult K :=
  p.clipFraction nrm eps big (Polygon.ofPolyline []) id ⟨a.n, 0⟩ a.req a.nMax a.tol

/-- FvmControlVolume_Imp.hpp 211-224 `clip`. The call for a fraction inside the unit interval also fills the cached volume of `m_polyhedron`
(GeoPolyhedron_Imp.hpp 463). `CFvmFace::set` (FvmFace_Imp.hpp 39-50) replaces the polyline and closes it, and leaves the cached area and normal. -/
def clip (nrm : Vec3 K → K) (eps big : K) (c : ClipCV K) (a : ClipArgs K) : ClipCV K :=
  let r := clipOf nrm eps big c.poly c.clippedFaceId a
  { c with
    poly := if 0 < a.req ∧ a.req < 1 then c.poly.calculateVolume nrm eps false else c.poly
    cpoly := r.poly
    clippedFace := c.clippedFace.setPolyline (Polyline.close nrm 0 r.np.vs)
    clipped := true }

/-- FvmControlVolume_Imp.hpp 226-249 `calculateSurfaceArea`: `bReCalculate` is not handed on to the polyhedron. -/
def calculateSurfaceArea (nrm : Vec3 K → K) (eps : K) (c : ClipCV K) (re : Bool) : ClipCV K :=
  if !c.bSurfaceArea || re then
    let p := c.active.calculateSurfaceArea nrm eps false
    { c.setActive p with m_surfaceArea := p.m_surfaceArea, bSurfaceArea := true }
  else c

/-- FvmControlVolume_Imp.hpp 276-299 `calculateVolume`. -/
def calculateVolume (nrm : Vec3 K → K) (eps : K) (c : ClipCV K) (re : Bool) : ClipCV K :=
  if !c.bVolume || re then
    let p := c.active.calculateVolume nrm eps re
    { c.setActive p with m_volume := p.m_volume, bVolume := true }
  else c

/-- FvmControlVolume_Imp.hpp 310-318 `calculateOriginalVolume`. -/
def calculateOriginalVolume (nrm : Vec3 K → K) (eps : K) (c : ClipCV K) (re : Bool) : ClipCV K :=
  let p := c.poly.calculateVolume nrm eps re
  { c with poly := p, originalVolume := p.m_volume }

/-- FvmControlVolume_Imp.hpp 344-349 `setClipped`. -/
def setClipped (c : ClipCV K) (b : Bool) : ClipCV K := { c with clipped := b }

/-- A public call that does not add a face. -/
inductive CvCall (K : Type) where
  | clippedFaceId (id : Int)
  | clip (a : ClipArgs K)
  | setClipped (b : Bool)
  | faceArea (id : Int) (re : Bool)
  | faceNormal (id : Int) (re : Bool)
  | area (re : Bool)
  | volume (re : Bool)
  | originalVolume (re : Bool)

/-- One call. -/
def step (nrm : Vec3 K → K) (eps big : K) (c : ClipCV K) : CvCall K → ClipCV K
  | .clippedFaceId id => c.setClippedFaceId id
  | .clip a => c.clip nrm eps big a
  | .setClipped b => c.setClipped b
  | .faceArea id re => c.calculateFaceArea nrm eps id re
  | .faceNormal id re => c.calculateFaceNormal nrm eps id re
  | .area re => c.calculateSurfaceArea nrm eps re
  | .volume re => c.calculateVolume nrm eps re
  | .originalVolume re => c.calculateOriginalVolume nrm eps re

/-- A sequence of calls. -/
def run (nrm : Vec3 K → K) (eps big : K) (c : ClipCV K) : List (CvCall K) → ClipCV K
  | [] => c
  | o :: t => run nrm eps big (c.step nrm eps big o) t

end ClipCV
end ENigMA
