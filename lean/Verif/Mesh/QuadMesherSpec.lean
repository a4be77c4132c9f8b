import Verif.Mesh.TriangleMesherSpec

/-!
# Meshes of polygons in the plane

Vocabulary for the properties of the quadrilateral mesher, independent of how it works.
-/

set_option linter.unusedSectionVars false
set_option autoImplicit false

namespace ENigMA
variable {K : Type}

/-- The corners of an element in their order, `none` if a node is missing. -/
def Mesh.outlineAt (m : Mesh K) (id : Int) : Option (List (Vec3 K)) :=
  (m.elements.get? id).bind fun e => e.nodeIds.mapM m.nodes.get?

/-- The outlines of the elements of a mesh, in the order of the elements. -/
def Mesh.outlines (m : Mesh K) : List (List (Vec3 K)) := m.elements.ids.filterMap m.outlineAt

/-- The sides of an outline: from each corner to the next, and from the last to the first. -/
def outlineSides (o : List (Vec3 K)) : List (Vec3 K × Vec3 K) := o.zip (o.rotate 1)

variable [Field K] [LinearOrder K]

/-- Seen from above, one turns left at each of the four corners: a strictly convex quadrilateral traversed counter-clockwise. -/
def ConvexQuad (a b c d : Vec3 K) : Prop := 0 < orient a b c ∧ 0 < orient b c d ∧ 0 < orient c d a ∧ 0 < orient d a b

instance (a b c d : Vec3 K) : Decidable (ConvexQuad a b c d) := by unfold ConvexQuad; infer_instance

end ENigMA
