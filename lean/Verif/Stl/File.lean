import Verif.Mesh.Mesh
import Verif.Mesh.TriangleMesherSpec

/-!
# Triangulated surfaces as facets: trunk/src/stl/StlFile_Imp.hpp, StlUtils_Imp.hpp

`CStlFile` keeps its facets in a map and a vector of ids, with the same code as `CMshMesh` keeps nodes (`Cont`, whose index fields are not used here).
`none` stands for an exception of `at`, for a read past the end of a vector, or for the removal of a facet that is not there.
-/

set_option linter.unusedSectionVars false
set_option autoImplicit false

namespace ENigMA
namespace Stl
variable {K : Type}

/-- `CStlEdge`: StlFile_Imp.hpp:16-76. -/
structure Edge where
  neighbor : Int := -1
  whichNot : Int := -1
  naked : Bool := false
  deriving DecidableEq, Repr

/-- `CStlFacet`: StlFile.hpp:54-67. The vertices of the list, the stored normal, the two extra bytes and the three edges. -/
structure Facet (K : Type) where
  verts : List (Vec3 K)
  normal : Vec3 K
  extra : Nat × Nat := (0, 0)
  edges : List Edge := [{}, {}, {}]
  deriving DecidableEq, Repr

/-- `vertex(j)`: trunk/src/geometry/GeoVertexList_Imp.hpp:65-74. -/
def Facet.vertex? (f : Facet K) (j : Nat) : Option (Vec3 K) := f.verts[j % f.verts.length]?

/-- `CStlFile`: StlFile_Imp.hpp:95-141. -/
abbrev File (K : Type) := Cont (Facet K)

section
variable [Zero K]

/-- `set(mesh)`, the loop over the elements: StlUtils_Imp.hpp:54-77. The normal of a new facet is zero. -/
def setLoop (m : Mesh K) : List Int → File K → Option (File K)
  | [], s => some s
  | id :: t, s => do
    let e ← m.elements.get? id
    if e.elementType ≠ .triangle then setLoop m t s
    else do
      let vs ← e.nodeIds.mapM m.nodes.get?
      setLoop m t (s.add id ⟨vs, ⟨0, 0, 0⟩, (0, 0), [{}, {}, {}]⟩)

/-- `set(mesh)`: StlUtils_Imp.hpp:50-78. -/
def set (m : Mesh K) : Option (File K) := setLoop m m.elements.ids Cont.empty
end

/-- `add(stl)`, the loop over the facets of another file: StlUtils_Imp.hpp:406-412. -/
def addLoop (b : File K) : List Int → File K → Option (File K)
  | [], s => some s
  | id :: t, s => do
    let f ← b.get? id
    addLoop b t (s.add s.nextId f)

/-- `add(stl)`, for a file other than itself: StlUtils_Imp.hpp:404-417. -/
def add (s b : File K) : Option (File K) := addLoop b b.ids s

/-- `add(*this)`: the loop of StlUtils_Imp.hpp:406-412 over the facets of the file that it extends; `none` also stands for more than `fuel` rounds. -/
def addSelf : Nat → Nat → File K → Option (File K)
  | 0, i, s => if i < s.count then none else some s
  | fuel + 1, i, s =>
    match s.idAt? i with
    | none => some s
    | some id => do
      let f ← s.get? id
      addSelf fuel (i + 1) (s.add s.nextId f)

section
variable [LinearOrder K]

/-- The smallest and the largest coordinates: StlUtils_Imp.hpp:445-450. -/
def grow (b : Vec3 K × Vec3 K) (v : Vec3 K) : Vec3 K × Vec3 K :=
  (⟨min b.1.x v.x, min b.1.y v.y, min b.1.z v.z⟩, ⟨max b.2.x v.x, max b.2.y v.y, max b.2.z v.z⟩)

/-- The loop over the facets: StlUtils_Imp.hpp:433-452. -/
def statLoop (s : File K) : List Int → Vec3 K × Vec3 K → Option (Vec3 K × Vec3 K)
  | [], b => some b
  | id :: t, b => do
    let f ← s.get? id
    let v0 ← f.vertex? 0
    let v1 ← f.vertex? 1
    let v2 ← f.vertex? 2
    statLoop s t (grow (grow (grow b v0) v1) v2)

/-- The box that the loop starts from: StlUtils_Imp.hpp:424-431. `old` is what `stats.min` and `stats.max` held before. -/
def start (s : File K) (old : Vec3 K × Vec3 K) : Option (Vec3 K × Vec3 K) :=
  match s.ids with
  | [] => some old
  | id :: _ => do
    let f ← s.get? id
    let v ← f.vertex? 0
    return (v, v)

/-- `calculateStatistics()`: StlUtils_Imp.hpp:420-457. -/
def statistics (s : File K) (old : Vec3 K × Vec3 K) : Option (Vec3 K × Vec3 K) := do
  let b ← start s old
  statLoop s s.ids b
end

/-! ### Cleaning -/

section
variable [Field K] [LinearOrder K]

/-- Two corners closer than the tolerance, or three naked edges: StlUtils_Imp.hpp:529-538. -/
def invalid (nrm : Vec3 K → K) (tol : K) (f : Facet K) : Option Bool := do
  let v0 ← f.vertex? 0
  let v1 ← f.vertex? 1
  let v2 ← f.vertex? 2
  let e0 ← f.edges[0]?
  let e1 ← f.edges[1]?
  let e2 ← f.edges[2]?
  return decide (nrm (v1 - v0) < tol) || decide (nrm (v2 - v1) < tol) || decide (nrm (v0 - v2) < tol) || (e0.naked && e1.naked && e2.naked)

/-- `removeInvalidFacets`: StlUtils_Imp.hpp:523-546. After a removal the index stays. `none` also stands for more than `fuel` rounds. -/
def removeInvalid (nrm : Vec3 K → K) (tol : K) : Nat → Nat → File K → Option (File K)
  | 0, i, s => if i < s.count then none else some s
  | fuel + 1, i, s =>
    match s.idAt? i with
    | none => some s
    | some id => do
      let f ← s.get? id
      let b ← invalid nrm tol f
      if b then do
        let s ← s.remove id
        removeInvalid nrm tol fuel i s
      else removeInvalid nrm tol fuel (i + 1) s

/-- `calculateCentroid`: trunk/src/geometry/GeoTriangle_Imp.hpp:45-59, not cached. -/
def Facet.centroid (f : Facet K) : Option (Vec3 K) := do
  let v0 ← f.verts[0]?
  let v1 ← f.verts[1]?
  let v2 ← f.verts[2]?
  return (3 : K)⁻¹ • (v0 + v1 + v2)

/-- The cross product of two sides. -/
def Facet.cross (f : Facet K) : Option (Vec3 K) := do
  let v0 ← f.verts[0]?
  let v1 ← f.verts[1]?
  let v2 ← f.verts[2]?
  return Vec3.cross (v1 - v0) (v2 - v0)

/-- `area()` after `calculateArea()`: GeoTriangle_Imp.hpp:61-81, not cached. -/
def Facet.area (nrm : Vec3 K → K) (f : Facet K) : Option K := do
  let c ← f.cross
  return nrm c * (1 / 2)

/-- `calculateArea()` also sets the normal: GeoTriangle_Imp.hpp:61-81. -/
def Facet.measured (nrm : Vec3 K → K) (f : Facet K) : Option (Facet K) := do
  let c ← f.cross
  return { f with normal := if 0 < nrm c * (1 / 2) then (nrm c)⁻¹ • c else c }

/-- The loop over the facets found: StlUtils_Imp.hpp:502-516. Gives the file and the index of the outer loop. -/
def duplicateInner (nrm : Vec3 K → K) (tol : K) (a : Int) : List Int → File K → Int → Option (File K × Int)
  | [], s, i => some (s, i)
  | w :: t, s, i => do
    let s ← s.modify w (Facet.measured nrm)
    let fa ← s.get? a
    let fw ← s.get? w
    let ra ← fa.area nrm
    let rw ← fw.area nrm
    if |ra - rw| < tol * tol then do
      let s ← s.remove w
      duplicateInner nrm tol a t s (i - 1)
    else duplicateInner nrm tol a t s i

/-- The loop over the facets: StlUtils_Imp.hpp:490-517. `none` also stands for more than `fuel` rounds. -/
def duplicateLoop (nrm : Vec3 K → K) (tol : K) (find : Vec3 K → Option (List Int)) : Nat → Int → File K → Option (File K)
  | 0, i, s => if i < s.count then none else some s
  | fuel + 1, i, s =>
    if i < s.count then do
      let id ← if 0 ≤ i then s.idAt? i.toNat else none
      let s ← s.modify id (Facet.measured nrm)
      let f ← s.get? id
      let c ← f.centroid
      let l ← find c
      let r ← duplicateInner nrm tol id (l.drop 1) s i
      duplicateLoop nrm tol find fuel (r.2 + 1) r.1
    else some s

variable [FloorRing K]

/-- `removeDuplicateFacets`: StlUtils_Imp.hpp:474-520. -/
def removeDuplicates (nrm : Vec3 K → K) (mc : HashGrid.Machine K) (fuel : Nat) (s : File K) (tol : K) : Option (File K) := do
  let objs ← s.ids.mapM fun id => do
    let f ← s.get? id
    let c ← f.centroid
    return (id, c)
  let g ← HashGrid.ofList mc objs
  duplicateLoop nrm tol (fun q => g.find mc q tol) fuel 0 s
end

end Stl
end ENigMA
