import Verif.Pde.Assembly
import Verif.Pde.FemAssembly
import Verif.Pde.Field
import Verif.Fvm.FvmMesh

/-!
# Finite-volume operators: trunk/src/pde/fvm/generic/FvmGenericOperators_Imp.hpp

`none` is an exception of `.at` or a division by zero (by a distance or a volume). `nrm` is the Euclidean length, `eps` is
`numeric_limits<Real>::epsilon()`. The cell centroids and face centroids are read from the two vectors `m_elementCentroid` and `m_faceCentroid` of the mesh,
which the caller has filled with `calculateElementCentroid()` and `calculateFaceCentroid()`. `source` is empty in the code.
-/

set_option linter.unusedSectionVars false

namespace ENigMA

variable {K : Type} [Field K] [LinearOrder K] [IsStrictOrderedRing K]

namespace Mesh

/-- The mean of the coordinates of a list of nodes: MshMesh_Imp.hpp:424-435, 450-461. -/
def meanNode (m : Mesh K) (ids : List Int) : Option (Vec3 K) := do
  let ps ← ids.mapM m.nodes.get?
  return if 0 < ids.length then (ids.length : K)⁻¹ • ps.foldl (· + ·) 0 else ps.foldl (· + ·) 0

/-- `calculateFaceCentroid()`, the vector it leaves in `m_faceCentroid`: MshMesh_Imp.hpp:413-439. -/
def faceCentroids (m : Mesh K) : Option (List (Vec3 K)) :=
  m.faces.ids.mapM fun id => do m.meanNode (← m.faces.get? id).nodeIds

/-- `calculateElementCentroid()`, the vector it leaves in `m_elementCentroid`: MshMesh_Imp.hpp:441-467. -/
def elementCentroids (m : Mesh K) : Option (List (Vec3 K)) :=
  m.elements.ids.mapM fun id => do m.meanNode (← m.elements.get? id).nodeIds

/-- `v.at(i)` of a vector for a signed index. -/
def atIdx {α : Type} (l : List α) (i : Int) : Option α := if 0 ≤ i then l[i.toNat]? else none

end Mesh

namespace FvmOp

/-- What the operators read: the mesh with its two centroid vectors, and the field. `u` is `aField.u` (of the size of the mesh). -/
structure Ctx (K : Type) where
  mesh : Mesh K
  elementCentroid : List (Vec3 K)
  faceCentroid : List (Vec3 K)
  field : PdeField K
  u : Nat → K

/-- `mesh().elementCentroid(id)`: MshMesh_Imp.hpp:472-475. -/
def Ctx.elCentroid (c : Ctx K) (id : Int) : Option (Vec3 K) := do Mesh.atIdx c.elementCentroid (← c.mesh.elements.indexOf? id)

/-- `mesh().faceCentroid(id)`: MshMesh_Imp.hpp:469-470. -/
def Ctx.fcCentroid (c : Ctx K) (id : Int) : Option (Vec3 K) := do Mesh.atIdx c.faceCentroid (← c.mesh.faces.indexOf? id)

/-- Lines 79-96 and 158-175: the control volume made from the faces of an element. The polylines are not closed. -/
def controlVolume (m : Mesh K) : List Int → ControlVolume K → Option (ControlVolume K)
  | [], cv => some cv
  | fid :: t, cv => do
    let f ← m.faces.get? fid
    let vs ← f.nodeIds.mapM m.nodes.get?
    controlVolume m t (cv.addFace fid { vs := vs })

/-- Lines 98-101, 177-180: `calculateVolume(); volume()`. -/
def volume (nrm : Vec3 K → K) (eps : K) (cv : ControlVolume K) : K := (cv.poly.calculateVolume nrm eps false).m_volume

/-- `calculateFaceArea(id)`, then the polygon: lines 107-110, 186-189. -/
def face (nrm : Vec3 K → K) (eps : K) (cv : ControlVolume K) (fid : Int) : Polygon K := (cv.poly.polygon fid).calculateArea nrm eps false

/-- `CT_GENERIC_FIXED_VALUE`: PdeBoundaryCondition.hpp:37. -/
def ctFixedValue : Int := 0

/-- The value of a fixed-value condition on a face, if there is one: lines 46-53, 128-134, 205-211. -/
def fixedValue (fld : PdeField K) (fid : Int) : Option K :=
  match fld.faceBC fid with
  | some b => if b.type = .fixedValue then some (b.conditionValue ctFixedValue).1 else none
  | none => none

/-- `value` in `ddt`: lines 41-56 (the first fixed-value face wins). -/
def ddtValue (c : Ctx K) (el : Nat) : List Int → K
  | [] => c.u el
  | fid :: t => match fixedValue c.field fid with
    | some v => v
    | none => ddtValue c el t

/-- Lines 58-59. -/
def ddtRow (c : Ctx K) (el : Nat) : Option (List (Stamp K)) := do
  let id ← c.mesh.elements.idAt? el
  let e ← c.mesh.elements.get? id
  return [.addA el el 1, .addB el (ddtValue c el e.faceIds)]

/-- Body of the loop over the faces in `laplacian`: lines 103-140. -/
def laplacianFace (nrm : Vec3 K → K) (eps : K) (c : Ctx K) (el : Nat) (id : Int) (cv : ControlVolume K) (fid : Int) : Option (List (Stamp K)) := do
  let Vp := volume nrm eps cv
  let Af := (face nrm eps cv fid).m_area
  let f ← c.mesh.faces.get? fid
  if f.hasPair then
    let g ← c.mesh.faces.get? f.pairFaceId
    let nl ← c.mesh.elements.indexOf? g.elementId
    let df := nrm ((← c.elCentroid g.elementId) - (← c.elCentroid id))
    if df = 0 ∨ Vp = 0 then none
    else return [.addA el el (-Af / df / Vp), .addA el nl (Af / df / Vp)]
  else
    match fixedValue c.field fid with
    | some v =>
      let df := nrm ((← c.fcCentroid fid) - (← c.elCentroid id))
      if df = 0 ∨ Vp = 0 then none
      else return [.addA el el (-Af / df / Vp), .addB el (-Af / df / Vp * v)]
    | none => return []

/-- Body of the loop over the faces in `divergence`: lines 182-219. -/
def divergenceFace (nrm : Vec3 K → K) (eps : K) (c : Ctx K) (el : Nat) (cv : ControlVolume K) (fid : Int) : Option (List (Stamp K)) := do
  let Vp := volume nrm eps cv
  let q := face nrm eps cv fid
  let Af := q.m_area
  let s := q.m_normal.x + q.m_normal.y + q.m_normal.z
  let f ← c.mesh.faces.get? fid
  if f.hasPair then
    let g ← c.mesh.faces.get? f.pairFaceId
    let nl ← c.mesh.elements.indexOf? g.elementId
    if Vp = 0 then none
    else return [.addA el el (1 / 2 * Af / Vp * s), .addA el nl (1 / 2 * Af / Vp * s)]
  else
    match fixedValue c.field fid with
    | some v => if Vp = 0 then none else return [.addB el (Af / Vp * s * v)]
    | none => return []

/-- Body of the loop over the elements: lines 73-141, 152-220. -/
def elementRow (c : Ctx K) (g : Int → ControlVolume K → Int → Option (List (Stamp K))) (el : Nat) : Option (List (Stamp K)) := do
  let id ← c.mesh.elements.idAt? el
  let e ← c.mesh.elements.get? id
  let cv ← controlVolume c.mesh e.faceIds (ControlVolume.new 0)
  FemOp.collect (cv.poly.ids.map (g id cv))

/-- `ddt`: lines 24-63. -/
def ddt (c : Ctx K) : Option (Sys K) := do
  let l ← FemOp.collect ((List.range c.mesh.elements.count).map (ddtRow c))
  (Sys.zero .sparse c.mesh.elements.count).assemble l

/-- `laplacian`: lines 65-144. -/
def laplacian (nrm : Vec3 K → K) (eps : K) (c : Ctx K) : Option (Sys K) := do
  let l ← FemOp.collect ((List.range c.mesh.elements.count).map fun el => elementRow c (fun id cv fid => laplacianFace nrm eps c el id cv fid) el)
  (Sys.zero .sparse c.mesh.elements.count).assemble l

/-- `divergence`: lines 146-223. -/
def divergence (nrm : Vec3 K → K) (eps : K) (c : Ctx K) : Option (Sys K) := do
  let l ← FemOp.collect ((List.range c.mesh.elements.count).map fun el => elementRow c (fun _ cv fid => divergenceFace nrm eps c el cv fid) el)
  (Sys.zero .sparse c.mesh.elements.count).assemble l

end FvmOp
end ENigMA
