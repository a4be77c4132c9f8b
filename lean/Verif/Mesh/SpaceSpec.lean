import Verif.Mesh.SmoothSpec
import Verif.Geometry.Solids

/-!
# What a mesh of tetrahedra fills

Vocabulary for the properties of the tetrahedron mesher, independent of how it works.
-/

set_option linter.unusedSectionVars false
set_option autoImplicit false

namespace ENigMA
variable {K : Type}

/-- The corners of a tetrahedral element, `none` if the element is not a tetrahedron with four stored nodes. -/
def Mesh.tetAt (m : Mesh K) (id : Int) : Option (Tet K) :=
  match m.elements.get? id with
  | some ⟨.tetrahedron, [i, j, k, l], _⟩ => do
    let a ← m.nodes.get? i
    let b ← m.nodes.get? j
    let c ← m.nodes.get? k
    let d ← m.nodes.get? l
    some ⟨a, b, c, d⟩
  | _ => none

/-- The tetrahedra of a mesh, in the order of the elements. -/
def Mesh.tets (m : Mesh K) : List (Tet K) := m.elements.ids.filterMap m.tetAt

/-- The four faces of a tetrahedron, each traversed counter-clockwise when seen from outside (for a tetrahedron of positive volume). -/
def Tet.faces (t : Tet K) : List (Tri K) := [⟨t.v0, t.v1, t.v2⟩, ⟨t.v1, t.v3, t.v2⟩, ⟨t.v0, t.v3, t.v1⟩, ⟨t.v0, t.v2, t.v3⟩]

variable [Field K] [LinearOrder K]

/-- Six times the signed volume between the triangle and the point: positive if `p` is behind the triangle, on the side away from the normal. -/
def behind (t : Tri K) (p : Vec3 K) : K := det3 (t.v0 - p) (t.v1 - p) (t.v2 - p)

/-- The point is behind the four faces: inside a tetrahedron of positive volume, and not on its boundary. -/
def Tet.Inside (t : Tet K) (p : Vec3 K) : Prop := ∀ f ∈ t.faces, 0 < behind f p

/-- The point is inside the tetrahedron or on its boundary. -/
def Tet.Contains (t : Tet K) (p : Vec3 K) : Prop := ∀ f ∈ t.faces, 0 ≤ behind f p

instance Tet.decInside (t : Tet K) (p : Vec3 K) : Decidable (t.Inside p) := by unfold Tet.Inside; infer_instance
instance Tet.decContains (t : Tet K) (p : Vec3 K) : Decidable (t.Contains p) := by unfold Tet.Contains; infer_instance

/-- The volume is positive: the faces are seen from outside. -/
def Tet.Positive (t : Tet K) : Prop := 0 < behind ⟨t.v0, t.v1, t.v2⟩ t.v3

instance Tet.decPositive (t : Tet K) : Decidable t.Positive := by unfold Tet.Positive; infer_instance

/-- The tetrahedra fill this point. -/
def Fill (l : List (Tet K)) (p : Vec3 K) : Prop := ∃ t ∈ l, t.Contains p

/-- No point is inside two of the tetrahedra. -/
def Apart (l : List (Tet K)) : Prop := ∀ p, (l.countP fun t => decide (t.Inside p)) ≤ 1

/-! ### Meshes of tetrahedra -/

/-- The faces of a tetrahedral element as triples of node ids. -/
def Elem.tetFaces (e : Elem) : List (Int × Int × Int) :=
  match e.elementType, e.nodeIds with
  | .tetrahedron, [a, b, c, d] => [(a, b, c), (b, d, c), (a, d, b), (a, c, d)]
  | _, _ => []

/-- The faces of all the tetrahedra of a mesh. -/
def Mesh.tetFaceIds (m : Mesh K) : List (Int × Int × Int) := m.elements.ids.flatMap fun id => ((m.elements.get? id).map Elem.tetFaces).getD []

/-- The same triangle, started at another corner. -/
def SameTri {A : Type} (s t : A × A × A) : Prop := t = s ∨ t = (s.2.1, s.2.2, s.1) ∨ t = (s.2.2, s.1, s.2.1)

/-- The triangle traversed in the other direction. -/
def turned {A : Type} (s : A × A × A) : A × A × A := (s.2.1, s.1, s.2.2)

/-- The faces of a mesh of tetrahedra are up to date: a triangular face of a tetrahedron is one of its faces, every face of a tetrahedron is there, and the pair
of a triangular face is the same triangle in the other direction. After `generateFaces` this holds for every mesh of tetrahedra of positive volume that do not
overlap (`C104_faces`). -/
structure Mesh.TetFit (m : Mesh K) : Prop where
  owner : ∀ i f, m.faces.get? i = some f → f.faceType = .triangle → ∃ e, m.elements.get? f.elementId = some e ∧
    (e.elementType = .tetrahedron → ∃ s ∈ e.tetFaces, f.nodeIds = [s.1, s.2.1, s.2.2])
  face : ∀ s ∈ m.tetFaceIds, ∃ i f, m.faces.get? i = some f ∧ f.faceType = .triangle ∧ f.nodeIds = [s.1, s.2.1, s.2.2]
  pair : ∀ i f, m.faces.get? i = some f → f.faceType = .triangle → f.hasPair = true → ∃ g s t, m.faces.get? f.pairFaceId = some g ∧ g.faceType = .triangle ∧
    f.nodeIds = [s.1, s.2.1, s.2.2] ∧ g.nodeIds = [t.1, t.2.1, t.2.2] ∧ SameTri (turned s) t

/-- Every element is a tetrahedron with four nodes. -/
def Mesh.AllTets (m : Mesh K) : Prop := ∀ id e, m.elements.get? id = some e → e.elementType = .tetrahedron ∧ e.nodeIds.length = 4

/-- The mesh fills a region with tetrahedra: it is consistent, all its elements are tetrahedra of positive volume, and no point is inside two of them. -/
structure Mesh.Filling (m : Mesh K) : Prop where
  wf : m.WF
  all : m.AllTets
  positive : ∀ t ∈ m.tets, t.Positive
  apart : Apart m.tets

/-- One of the tetrahedra has this triangle, traversed in this direction, as a face. -/
def HasFace (l : List (Tet K)) (a b c : Vec3 K) : Prop := ∃ t ∈ l, ∃ f ∈ t.faces, SameTri (a, b, c) (f.v0, f.v1, f.v2)

end ENigMA
