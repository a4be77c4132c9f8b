import Verif.Geometry.Polygon
import Verif.Geometry.Solids
import Verif.Base.SMap

/-!
# Polyhedra

Model of `CGeoPolyhedron` (trunk/src/geometry/GeoPolyhedron_Imp.hpp): the map of polygons, the vector of ids and the cached volume
and surface area with their flags. `nrm` is the Euclidean length, `eps` is `numeric_limits<Real>::epsilon()`. The clipping
functions and the other caches are not part of this file.
-/

set_option linter.unusedSectionVars false

namespace ENigMA

/-- A `CGeoPolyhedron` object: GeoPolyhedron.hpp, with `m_volume`, `m_bVolume`, `m_surfaceArea`, `m_bSurfaceArea` of the base
class `CGeoVolume`. -/
structure Polyhedron (K : Type) where
  polygons : SMap Int (Polygon K)
  ids : List Int
  m_volume : K
  bVolume : Bool
  m_surfaceArea : K
  bSurfaceArea : Bool

namespace Polyhedron

variable {K : Type} [Field K] [LinearOrder K] [IsStrictOrderedRing K]

/-- GeoPolyhedron_Imp.hpp 16-19, default constructor. -/
def empty : Polyhedron K := ⟨SMap.empty, [], 0, false, 0, false⟩

/-- GeoPolyhedron_Imp.hpp 222-227 `reset`: the cached values and their flags are not reset. -/
def reset (p : Polyhedron K) : Polyhedron K := { p with polygons := SMap.empty, ids := [] }

/-- GeoPolyhedron_Imp.hpp 235-239 `polygon(id)`: `std::map::operator[]`, an empty polygon for a missing key (the insertion of that
polygon into the map is not modelled). -/
def polygon (p : Polyhedron K) (id : Int) : Polygon K := (p.polygons.find? id).getD (Polygon.ofPolyline [])

/-- GeoPolyhedron_Imp.hpp 241-246 `addPolygon`. -/
def addPolygon (p : Polyhedron K) (id : Int) (q : Polygon K) : Polyhedron K :=
  { p with polygons := p.polygons.insert id q, ids := p.ids ++ [id] }

/-- GeoPolyhedron_Imp.hpp 248-252 `nbPolygons`. -/
def nbPolygons (p : Polyhedron K) : Nat := p.ids.length

/-- GeoPolyhedron_Imp.hpp 254-258 `containsPolygon`. -/
def containsPolygon (p : Polyhedron K) (id : Int) : Bool := decide (id ∈ p.ids)

/-- Adding a list of polygons one after the other. -/
def addPolygons (p : Polyhedron K) : List (Int × Polygon K) → Polyhedron K
  | [] => p
  | (id, q) :: t => addPolygons (p.addPolygon id q) t

/-- GeoPolyhedron_Imp.hpp 574-585 `set(other)`: reset, then the polygons of the other one in the order of its ids. -/
def set (p other : Polyhedron K) : Polyhedron K :=
  p.reset.addPolygons (other.ids.map fun id => (id, other.polygon id))

/-- The three constructors: every face is a closed polyline of some of the vertices, added under its position as id. -/
def ofFaces (nrm : Vec3 K → K) (faces : List (List (Vec3 K))) : Polyhedron K :=
  empty.addPolygons ((faces.zipIdx).map fun f => ((f.2 : Int), Polygon.ofPolyline (Polyline.close nrm 0 f.1)))

/-- GeoPolyhedron_Imp.hpp 21-70, constructor from a tetrahedron. -/
def ofTet (nrm : Vec3 K → K) (t : Tet K) : Polyhedron K :=
  ofFaces nrm [[t.v0, t.v1, t.v2], [t.v1, t.v0, t.v3], [t.v3, t.v0, t.v2], [t.v3, t.v2, t.v1]]

/-- GeoPolyhedron_Imp.hpp 72-135, constructor from a triangular prism. -/
def ofPrism (nrm : Vec3 K → K) (h : Prism K) : Polyhedron K :=
  ofFaces nrm [[h.v0, h.v1, h.v2], [h.v5, h.v4, h.v3], [h.v1, h.v0, h.v3, h.v4], [h.v2, h.v1, h.v4, h.v5],
    [h.v0, h.v2, h.v5, h.v3]]

/-- GeoPolyhedron_Imp.hpp 137-214, constructor from a hexahedron. -/
def ofHex (nrm : Vec3 K → K) (h : Hex K) : Polyhedron K :=
  ofFaces nrm [[h.v0, h.v1, h.v2, h.v3], [h.v7, h.v6, h.v5, h.v4], [h.v3, h.v2, h.v6, h.v7], [h.v5, h.v1, h.v0, h.v4],
    [h.v6, h.v2, h.v1, h.v5], [h.v3, h.v7, h.v4, h.v0]]

/-- GeoPolyhedron_Imp.hpp 365-371, body of the loop of `calculateVolume`, on a copy of the polygon. -/
def volumeTerm (nrm : Vec3 K → K) (eps : K) (v0 : Vec3 K) (q : Polygon K) : K :=
  let q := q.calculateArea nrm eps false
  match q.vs with
  | [] => 0
  | v :: _ => (v - v0).dot q.m_normal * q.m_area

/-- GeoPolyhedron_Imp.hpp 348-376: the value computed by `calculateVolume`. -/
def volumeOf (nrm : Vec3 K → K) (eps : K) (p : Polyhedron K) : K :=
  (if 4 ≤ p.polygons.entries.length then
    match p.ids with
    | [] => 0
    | i0 :: t =>
      match (p.polygon i0).vs with
      | [] => 0
      | v0 :: _ => t.foldl (fun acc i => acc + volumeTerm nrm eps v0 (p.polygon i)) 0
  else 0) / 3

/-- GeoPolyhedron_Imp.hpp 343-378 `calculateVolume(bReCalculate)`. -/
def calculateVolume (nrm : Vec3 K → K) (eps : K) (re : Bool) (p : Polyhedron K) : Polyhedron K :=
  if !p.bVolume || re then { p with m_volume := p.volumeOf nrm eps, bVolume := true } else p

/-- GeoPolyhedron_Imp.hpp 326-341 `calculateSurfaceArea(bReCalculate)`: over the map, caching the areas in the polygons. -/
def calculateSurfaceArea (nrm : Vec3 K → K) (eps : K) (re : Bool) (p : Polyhedron K) : Polyhedron K :=
  if !p.bSurfaceArea || re then
    let m := p.polygons.mapVal fun _ q => q.calculateArea nrm eps false
    { p with polygons := m, m_surfaceArea := m.entries.foldl (fun acc e => acc + e.2.m_area) 0, bSurfaceArea := true }
  else p

end Polyhedron
end ENigMA
