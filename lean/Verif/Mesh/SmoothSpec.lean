import Verif.Mesh.TriangleMesherSpec
import Verif.Mesh.MeshSpec

/-!
# Triangle meshes whose faces are up to date

Vocabulary for the properties of `flipEdges` and `relaxNodes`.
-/

set_option linter.unusedSectionVars false
set_option autoImplicit false

namespace ENigMA
variable {K : Type}

/-- The sides of a triangle as pairs of node ids, in the direction of the traversal. -/
def Elem.triSides (e : Elem) : List (Int × Int) :=
  match e.elementType, e.nodeIds with
  | .triangle, [a, b, c] => [(a, b), (b, c), (c, a)]
  | _, _ => []

/-- The sides of all the triangles of a mesh. -/
def Mesh.sideIds (m : Mesh K) : List (Int × Int) := m.elements.ids.flatMap fun id => ((m.elements.get? id).map Elem.triSides).getD []

/-- The triangles of the mesh have three different nodes and are oriented alike: no two traverse a side in the same direction. The faces tell the
truth: a line face of a triangle is one of its sides, every side has a face, and the pair of a line face is the same line in the other direction.
After `generateFaces` this holds for every mesh of triangles that are oriented alike (`C90_faces`). -/
structure Mesh.FacesFit (m : Mesh K) : Prop where
  three : ∀ id e, m.elements.get? id = some e → e.elementType = .triangle → ∃ a b c, e.nodeIds = [a, b, c] ∧ a ≠ b ∧ b ≠ c ∧ c ≠ a
  once : m.sideIds.Nodup
  owner : ∀ i f, m.faces.get? i = some f → f.faceType = .line → ∃ e, m.elements.get? f.elementId = some e ∧
    (e.elementType = .triangle → ∃ s ∈ e.triSides, f.nodeIds = [s.1, s.2])
  face : ∀ s ∈ m.sideIds, ∃ i f, m.faces.get? i = some f ∧ f.faceType = .line ∧ f.nodeIds = [s.1, s.2]
  pair : ∀ i f, m.faces.get? i = some f → f.faceType = .line → f.hasPair = true →
    ∃ g, m.faces.get? f.pairFaceId = some g ∧ g.faceType = .line ∧ g.nodeIds = f.nodeIds.reverse

/-- Every element is a triangle with three nodes. -/
def Mesh.AllTriangles (m : Mesh K) : Prop := ∀ id e, m.elements.get? id = some e → e.elementType = .triangle ∧ e.nodeIds.length = 3

/-- The mesh is a triangulation of a plane region seen from above: it is consistent, all its elements are triangles, they are traversed
counter-clockwise, and no point is inside two of them. -/
structure Mesh.Triangulation [Field K] [LinearOrder K] (m : Mesh K) : Prop where
  wf : m.WF
  all : m.AllTriangles
  up : ∀ t ∈ m.triangles, 0 < orient t.v0 t.v1 t.v2
  apart : ∀ p, (m.triangles.countP fun t => decide (t.Inside p)) ≤ 1

/-- A node of a face without a pair. -/
def Mesh.OnBoundary (m : Mesh K) (n : Int) : Prop := ∃ i f, m.faces.get? i = some f ∧ f.hasPair = false ∧ n ∈ f.nodeIds

end ENigMA
