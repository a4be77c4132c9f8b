import Verif.Fvm.FvmMesh
import Verif.Geometry.HashGrid

/-!
# `CFvmMeshSearch`: trunk/src/fvm/FvmMeshSearch.hpp, FvmMeshSearch_Imp.hpp

`none` is an exception of `.at`, or undefined behaviour of the hash grid or of the pointer to the mesh.
-/

set_option linter.unusedSectionVars false
set_option autoImplicit false

namespace ENigMA

/-- `CFvmMeshSearch`: FvmMeshSearch.hpp. `mesh` is the mesh behind the pointer `m_mesh` (uninitialised after the default constructor);
it is taken not to change between `set` and the searches. -/
structure MeshSearch (K : Type) where
  mesh : Option (FvmMesh K)
  grid : HashGrid.Grid K

namespace MeshSearch
variable {K : Type} [Field K] [LinearOrder K] [IsStrictOrderedRing K] [FloorRing K]

/-- Default constructor: FvmMeshSearch_Imp.hpp:18-22. -/
def new (m : HashGrid.Machine K) : MeshSearch K := ⟨none, HashGrid.Grid.new m⟩

/-- `set(mesh)`: FvmMeshSearch_Imp.hpp:38-43. -/
def set (s : MeshSearch K) (M : FvmMesh K) : MeshSearch K := ⟨some M, s.grid.reset⟩

/-- The loop of `build()`: FvmMeshSearch_Imp.hpp:48-54. `centroid()` is `Polygon.centroid` of the stored (closed) polyline. -/
def addFaces (M : FvmMesh K) : List Int → HashGrid.Grid K → Option (HashGrid.Grid K)
  | [], g => some g
  | id :: t, g => do
    let f ← M.faces.get? id
    addFaces M t (if f.hasPair then g else g.addObj id (Polygon.centroid f.vs))

/-- `build()`: FvmMeshSearch_Imp.hpp:45-57. -/
def build (m : HashGrid.Machine K) (s : MeshSearch K) : Option (MeshSearch K) := do
  let M ← s.mesh
  let g ← addFaces M M.faces.ids s.grid
  let g ← g.build m
  return ⟨some M, g⟩

/-- The loop of `findClosestBoundaryFaces`: FvmMeshSearch_Imp.hpp:72-84. `thisDist < aDistance` without the square root. -/
def keep (M : FvmMesh K) (q : Vec3 K) (d : K) : List Int → Option (List Int)
  | [] => some []
  | id :: t => do
    let f ← M.faces.get? id
    let r ← keep M q d t
    return if 0 < d ∧ Vec3.normSq (Polygon.centroid f.vs - q) < d * d then id :: r else r

/-- `findClosestBoundaryFaces(q, d, ids)`: FvmMeshSearch_Imp.hpp:59-86. The vector given is cleared first. -/
def find (m : HashGrid.Machine K) (s : MeshSearch K) (q : Vec3 K) (d : K) : Option (List Int) := do
  let ids ← s.grid.find m q (d * 2)
  match ids, s.mesh with
  | [], _ => return []
  | _ :: _, none => none
  | ids, some M => keep M q d ids

/-- `set` and `build` for one mesh after the other, on the same object. -/
def uses (m : HashGrid.Machine K) : List (FvmMesh K) → MeshSearch K → Option (MeshSearch K)
  | [], s => some s
  | M :: t, s => ((s.set M).build m).bind (uses m t)

end MeshSearch
end ENigMA
