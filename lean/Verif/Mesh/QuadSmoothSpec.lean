import Verif.Mesh.QuadMesherSpec
import Verif.Mesh.MeshSpec

/-!
# Meshes of triangles and convex quadrilaterals in the plane

Vocabulary for the properties of `flipEdges` and `relaxNodes` of the quadrilateral mesher.
-/

set_option linter.unusedSectionVars false
set_option autoImplicit false

namespace ENigMA
variable {K : Type}

/-- The sides of an element as pairs of node ids: from each node to the next, and from the last to the first. -/
def Elem.sidePairs (e : Elem) : List (Int × Int) := e.nodeIds.zip (e.nodeIds.rotate 1)

/-- The line faces tell the truth: each is a side of its element, and its pair is a line face. This holds after `generateFaces` (`C126_faces`). -/
structure Mesh.TrueFaces (m : Mesh K) : Prop where
  owner : ∀ i f, m.faces.get? i = some f → f.faceType = .line → ∃ e, m.elements.get? f.elementId = some e ∧ ∃ s ∈ e.sidePairs, f.nodeIds = [s.1, s.2]
  pair : ∀ i f, m.faces.get? i = some f → f.faceType = .line → f.hasPair = true → ∃ g, m.faces.get? f.pairFaceId = some g ∧ g.faceType = .line

/-- A triangle has three nodes and a quadrilateral four, and there are no other elements. -/
def Mesh.TrisAndQuads (m : Mesh K) : Prop := ∀ id e, m.elements.get? id = some e →
  (e.elementType = .triangle ∧ e.nodeIds.length = 3) ∨ (e.elementType = .quadrilateral ∧ e.nodeIds.length = 4)

/-- Each element lists as many faces as it has nodes, all of them stored; the pair of a face is a stored face of a stored element. This holds after
`generateFaces` (`C126_faces`). -/
structure Mesh.ListedFaces (m : Mesh K) : Prop where
  all : ∀ id e, m.elements.get? id = some e → e.faceIds.length = e.nodeIds.length
  stored : ∀ id e, m.elements.get? id = some e → ∀ i ∈ e.faceIds, i ∈ m.faces.ids
  pair : ∀ i f, m.faces.get? i = some f → f.hasPair = true → ∃ g, m.faces.get? f.pairFaceId = some g ∧ g.elementId ∈ m.elements.ids

/-- The sides of all the elements of a mesh. -/
def Mesh.outlineSides (m : Mesh K) : List (Vec3 K × Vec3 K) := m.outlines.flatMap ENigMA.outlineSides

variable [Field K] [LinearOrder K]

/-- A triangle or a strictly convex quadrilateral, traversed counter-clockwise seen from above. -/
def ConvexOutline : List (Vec3 K) → Prop
  | [a, b, c] => 0 < orient a b c
  | [a, b, c, d] => ConvexQuad a b c d
  | _ => False

instance (o : List (Vec3 K)) : Decidable (ConvexOutline o) := by unfold ConvexOutline; split <;> infer_instance

/-- Seen from above, `p` is to the left of each side. -/
def InsideOutline (o : List (Vec3 K)) (p : Vec3 K) : Prop := ∀ s ∈ outlineSides o, 0 < orient s.1 s.2 p

instance (o : List (Vec3 K)) (p : Vec3 K) : Decidable (InsideOutline o p) := by unfold InsideOutline; infer_instance

/-- A mesh of triangles and strictly convex quadrilaterals in the plane, traversed counter-clockwise, such that no point is inside two of them. -/
structure Mesh.PlaneMesh (m : Mesh K) : Prop where
  wf : m.WF
  kinds : m.TrisAndQuads
  convex : ∀ o ∈ m.outlines, ConvexOutline o
  apart : ∀ p, (m.outlines.countP fun o => decide (InsideOutline o p)) ≤ 1

/-- Twice the area within an outline, seen from above. -/
def outlineArea (o : List (Vec3 K)) : K := ((outlineSides o).map fun s => s.1.x * s.2.y - s.1.y * s.2.x).sum

end ENigMA
