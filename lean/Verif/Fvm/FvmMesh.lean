import Verif.Mesh.Mesh
import Verif.Geometry.Polyhedron

/-!
# `CFvmFace`, `CFvmControlVolume`, `CFvmMesh`

trunk/src/fvm/FvmFace(.hpp,_Imp.hpp), FvmControlVolume(.hpp,_Imp.hpp), FvmMesh(.hpp,_Imp.hpp). `none` is an exception of `.at`.
`nrm` is the Euclidean length.
-/

set_option linter.unusedSectionVars false

namespace ENigMA

/-- `CFvmFace`: FvmFace.hpp:60-90, with the members of the base classes that are used (`m_hasPair`, the polyline), and the defaults of
the constructor FvmFace_Imp.hpp:17-23. The boundary type is not modelled. -/
structure FvmFace (K : Type) where
  vs : List (Vec3 K) := []
  hasPair : Bool := false
  cvId : Int := 0
  nbId : Int := 0
  deriving DecidableEq

namespace FvmFace
variable {K : Type}

/-- `controlVolumeId(a)`: FvmFace_Imp.hpp:73-80. -/
def controlVolumeId (f : FvmFace K) (a : Int) : Int := if f.cvId = a then f.cvId else f.nbId

/-- `neighborId(a)`: FvmFace_Imp.hpp:88-95. -/
def neighborId (f : FvmFace K) (a : Int) : Int := if f.cvId = a then f.nbId else f.cvId

/-- `setControlVolumeId`: FvmFace_Imp.hpp:61-65. -/
def setControlVolumeId (f : FvmFace K) (a : Int) : FvmFace K := { f with cvId := a }

/-- `setNeighborId`: FvmFace_Imp.hpp:82-86. -/
def setNeighborId (f : FvmFace K) (a : Int) : FvmFace K := { f with nbId := a }

end FvmFace

/-- `CFvmControlVolume`: FvmControlVolume.hpp; its id and its polyhedron. The clipped polyhedron is not modelled. -/
structure ControlVolume (K : Type) where
  cvId : Int
  poly : Polyhedron K

/-- `CFvmMesh`: FvmMesh.hpp. -/
structure FvmMesh (K : Type) where
  faces : Cont (FvmFace K)
  cvs : Cont (ControlVolume K)

namespace ControlVolume
variable {K : Type} [Field K] [LinearOrder K] [IsStrictOrderedRing K]

/-- Constructor, then `setControlVolumeId`: FvmControlVolume_Imp.hpp:21-28, 47-52. -/
def new (id : Int) : ControlVolume K := ⟨id, Polyhedron.empty⟩

/-- `addFace(id, face)`: FvmControlVolume_Imp.hpp:73-83. -/
def addFace (c : ControlVolume K) (id : Int) (f : FvmFace K) : ControlVolume K :=
  { c with poly := c.poly.addPolygon id (Polygon.ofPolyline f.vs) }

end ControlVolume

namespace FvmMesh
variable {K : Type} [Field K] [LinearOrder K] [IsStrictOrderedRing K]

/-- Constructor and `reset()`: FvmMesh_Imp.hpp:17-21, 130-145. -/
def empty : FvmMesh K := ⟨Cont.empty, Cont.empty⟩

/-- The FVM face made from one mesh face: FvmMesh_Imp.hpp:57-74. -/
def makeFace (nrm : Vec3 K → K) (m : Mesh K) (f : Face) : Option (FvmFace K) := do
  let vs ← f.nodeIds.mapM m.nodes.get?
  let nb ← if f.hasPair then (m.faces.get? f.pairFaceId).map (·.elementId) else some 0
  return { vs := Polyline.close nrm 0 vs, hasPair := f.hasPair, cvId := f.elementId, nbId := nb }

/-- The local variables of `set` changed by its first loop: the faces, `faceAdded`, `newFaceIds`, `aNewFaceId`. -/
structure SetState (K : Type) where
  faces : Cont (FvmFace K)
  added : SMap Int Bool
  new : SMap Int Int
  next : Int

/-- Body of the first loop of `set`: FvmMesh_Imp.hpp:55-89. -/
def faceStep (nrm : Vec3 K → K) (m : Mesh K) (id : Int) (s : SetState K) : Option (SetState K) := do
  let done ← s.added.find? id
  if done then return s
  let f ← m.faces.get? id
  let g ← makeFace nrm m f
  let added := s.added.insert id true
  let new := s.new.insert id s.next
  return {
    faces := s.faces.add s.next g
    added := if f.hasPair then added.insert f.pairFaceId true else added
    new := if f.hasPair then new.insert f.pairFaceId s.next else new
    next := s.next + 1 }

/-- First loop of `set`: FvmMesh_Imp.hpp:53-90. -/
def faceLoop (nrm : Vec3 K → K) (m : Mesh K) : List Int → SetState K → Option (SetState K)
  | [], s => some s
  | id :: t, s => do faceLoop nrm m t (← faceStep nrm m id s)

/-- Inner loop over the faces of an element: FvmMesh_Imp.hpp:105-118. The face is a copy, turned round if the control volume is not
its owner. -/
def cvFaceLoop (faces : Cont (FvmFace K)) (new : SMap Int Int) (cv : Int) : List Int → ControlVolume K → Option (ControlVolume K)
  | [], c => some c
  | fid :: t, c => do
    let id ← new.find? fid
    let f ← faces.get? id
    let f := if f.cvId ≠ cv then { f with vs := VertexList.invert f.vs } else f
    cvFaceLoop faces new cv t (c.addFace id f)

/-- Second loop of `set`: FvmMesh_Imp.hpp:93-121. -/
def cvLoop (m : Mesh K) (faces : Cont (FvmFace K)) (new : SMap Int Int) :
    List Int → Cont (ControlVolume K) → Option (Cont (ControlVolume K))
  | [], cvs => some cvs
  | id :: t, cvs => do
    let e ← m.elements.get? id
    let c ← cvFaceLoop faces new id e.faceIds (ControlVolume.new id)
    cvLoop m faces new t (cvs.add id c)

/-- `set(mesh)`: FvmMesh_Imp.hpp:36-122. It resets the object first, so the previous content does not matter. The copy of the mesh
(`m_mesh`) is left out. -/
def set (nrm : Vec3 K → K) (m : Mesh K) : Option (FvmMesh K) := do
  let s ← faceLoop nrm m m.faces.ids ⟨Cont.empty, Mesh.setAll false m.faces.ids SMap.empty, SMap.empty, 0⟩
  let cvs ← cvLoop m s.faces s.new m.elements.ids Cont.empty
  return ⟨s.faces, cvs⟩

/-- `removeFace(id)`: FvmMesh_Imp.hpp:199-208. A missing id is ignored; `m_faceIndices` is left as it is. -/
def removeFace (m : FvmMesh K) (id : Int) : FvmMesh K :=
  { m with faces := { m.faces with map := m.faces.map.erase id, ids := m.faces.ids.erase id } }

/-- The loop of `volume()`: FvmMesh_Imp.hpp:253-262. The volume of each control volume is calculated if it is not cached. -/
def volumeLoop (nrm : Vec3 K → K) (eps : K) (cvs : Cont (ControlVolume K)) : List Int → K → Option K
  | [], acc => some acc
  | id :: t, acc => do
    let c ← cvs.get? id
    volumeLoop nrm eps cvs t (acc + (c.poly.calculateVolume nrm eps false).m_volume)

/-- `volume()`: FvmMesh_Imp.hpp:250-265. -/
def volume (nrm : Vec3 K → K) (eps : K) (m : FvmMesh K) : Option K := volumeLoop nrm eps m.cvs m.cvs.ids 0

end FvmMesh
end ENigMA
