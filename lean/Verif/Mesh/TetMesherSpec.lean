import Verif.Mesh.SpaceSpec
import Verif.Mesh.TriangleMesherSpec

/-!
# What it means to fill a closed surface with tetrahedra

Vocabulary for the properties of the mesher of solids, independent of how it works. `Mesh.triangles`, `Mesh.tets`, `Tet.Inside`, `Tet.Contains` and `behind` are
those of `TriangleMesherSpec` and `SpaceSpec`.
-/

set_option linter.unusedSectionVars false
set_option autoImplicit false

namespace ENigMA
variable {K : Type} [Field K] [LinearOrder K]

/-- The half line that starts at `p` in the direction `d` passes through the inside of the triangle. -/
def Pierces (d p : Vec3 K) (t : Tri K) : Prop := ∃ s u v w : K, 0 < s ∧ 0 < u ∧ 0 < v ∧ 0 < w ∧ u + v + w = 1 ∧
  p.x + s * d.x = u * t.v0.x + v * t.v1.x + w * t.v2.x ∧ p.y + s * d.y = u * t.v0.y + v * t.v1.y + w * t.v2.y ∧ p.z + s * d.z = u * t.v0.z + v * t.v1.z + w * t.v2.z

/-- The line through `p` in the direction `d` is in general position to the triangle: `p` is not in its plane, and the line is not in one plane with a side. -/
structure Generic (d p : Vec3 K) (t : Tri K) : Prop where
  off : behind t p ≠ 0
  sides : det3 (t.v0 - p) (t.v1 - p) d ≠ 0 ∧ det3 (t.v1 - p) (t.v2 - p) d ≠ 0 ∧ det3 (t.v2 - p) (t.v0 - p) d ≠ 0

/-- The corners of the triangle are these three points, in some order. -/
def Spans (a b c : Vec3 K) (t : Tri K) : Prop := List.Perm [t.v0, t.v1, t.v2] [a, b, c]

instance (a b c : Vec3 K) (t : Tri K) : Decidable (Spans a b c t) := by unfold Spans; infer_instance

/-- The faces of all the tetrahedra of a mesh: a face shared by two tetrahedra occurs twice. -/
def Mesh.tetSides (m : Mesh K) : List (Tri K) := m.tets.flatMap Tet.faces

end ENigMA
