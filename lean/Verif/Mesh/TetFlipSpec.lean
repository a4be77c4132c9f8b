import Verif.Mesh.SpaceSpec
import Verif.Mesh.QueryProps
import Verif.Mesh.SmoothProps

/-!
# Edges of a mesh of tetrahedra

Vocabulary for the properties of `flipEdges32`, independent of how it works.
-/

set_option linter.unusedSectionVars false
set_option autoImplicit false

namespace ENigMA
variable {K : Type} [Field K] [LinearOrder K]

/-- The elements that have both nodes. -/
def Mesh.around (m : Mesh K) (a b : Int) : List Int := m.elements.ids.filter fun x => decide (HasNode m a x ∧ HasNode m b x)

/-- The edge is in three elements, and one of its ends is inside. -/
def Mesh.Three (m : Mesh K) (a b : Int) : Prop := a ≠ b ∧ ¬ (m.OnBoundary a ∧ m.OnBoundary b) ∧ (m.around a b).length = 3

/-- There is a tetrahedron with these corners. -/
def Mesh.HasTet (m : Mesh K) (a b c d : Int) : Prop := ∃ id e, m.elements.get? id = some e ∧ e.nodeIds.Perm [a, b, c, d]

/-- Three tetrahedra around the edge can be replaced by two: those have positive volumes. -/
def Mesh.Swappable (m : Mesh K) (a b : Int) : Prop := m.Three a b ∧ ∃ c d x, m.HasTet a b c d ∧ m.HasTet a b d x ∧ m.HasTet a b x c ∧
  Tet.Positive ⟨Smooth.pos m.nodes c, Smooth.pos m.nodes d, Smooth.pos m.nodes x, Smooth.pos m.nodes b⟩ ∧
  Tet.Positive ⟨Smooth.pos m.nodes c, Smooth.pos m.nodes d, Smooth.pos m.nodes a, Smooth.pos m.nodes x⟩

/-- A tetrahedron at an edge that can be replaced has no other edge in three elements, other than between boundary nodes. -/
def Mesh.Isolated (m : Mesh K) : Prop := ∀ id a b c d, m.Swappable a b → m.Three c d → id ∈ m.around a b → id ∈ m.around c d → (c = a ∧ d = b) ∨ (c = b ∧ d = a)

/-- The faces listed at an element are faces of the mesh that belong to the element. -/
def Mesh.Owned (m : Mesh K) : Prop := ∀ id e, m.elements.get? id = some e → ∀ fid ∈ e.faceIds, ∃ f, m.faces.get? fid = some f ∧ f.elementId = id

end ENigMA
