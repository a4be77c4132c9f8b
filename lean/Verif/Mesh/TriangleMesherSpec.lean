import Verif.Mesh.Mesh
import Verif.Geometry.Solids

/-!
# What a triangulation of a plane region is

Vocabulary for the properties of the triangle mesher, independent of how it works.
-/

set_option linter.unusedSectionVars false
set_option autoImplicit false

namespace ENigMA
variable {K : Type}

/-- The corners of a triangular element, `none` if the element is not a triangle with three stored nodes. -/
def Mesh.triAt (m : Mesh K) (id : Int) : Option (Tri K) :=
  match m.elements.get? id with
  | some ⟨.triangle, [i, j, k], _⟩ => do
    let a ← m.nodes.get? i
    let b ← m.nodes.get? j
    let c ← m.nodes.get? k
    some ⟨a, b, c⟩
  | _ => none

/-- The triangles of a mesh, in the order of the elements. -/
def Mesh.triangles (m : Mesh K) : List (Tri K) := m.elements.ids.filterMap m.triAt

/-- The two ends of a beam, `none` if the element is not a beam with two stored nodes. -/
def Mesh.beamAt (m : Mesh K) (id : Int) : Option (Vec3 K × Vec3 K) :=
  match m.elements.get? id with
  | some ⟨.beam, [i, j], _⟩ => do
    let a ← m.nodes.get? i
    let b ← m.nodes.get? j
    some (a, b)
  | _ => none

/-- The beams of a mesh, in the order of the elements. -/
def Mesh.beams (m : Mesh K) : List (Vec3 K × Vec3 K) := m.elements.ids.filterMap m.beamAt

/-- The three sides of a triangle. -/
def Tri.sides (t : Tri K) : List (Vec3 K × Vec3 K) := [(t.v0, t.v1), (t.v1, t.v2), (t.v2, t.v0)]

/-- The sides of all the triangles of a mesh: a side shared by two triangles occurs twice. -/
def Mesh.sides (m : Mesh K) : List (Vec3 K × Vec3 K) := m.triangles.flatMap Tri.sides

variable [Field K] [LinearOrder K]

/-- The segment has these two ends, in one direction or the other. -/
def Joins (p q : Vec3 K) (s : Vec3 K × Vec3 K) : Prop := (s.1 = p ∧ s.2 = q) ∨ (s.1 = q ∧ s.2 = p)

instance (p q : Vec3 K) (s : Vec3 K × Vec3 K) : Decidable (Joins p q s) := by unfold Joins; infer_instance

/-- Twice the signed area of the triangle `a`, `b`, `p` seen from above: positive if `p` is to the left of the line from `a` to `b`. -/
def orient (a b p : Vec3 K) : K := (b.x - a.x) * (p.y - a.y) - (b.y - a.y) * (p.x - a.x)

/-- Seen from above, `p` is to the left of each side: inside a triangle traversed counter-clockwise, and not on its boundary. -/
def Tri.Inside (t : Tri K) (p : Vec3 K) : Prop := 0 < orient t.v0 t.v1 p ∧ 0 < orient t.v1 t.v2 p ∧ 0 < orient t.v2 t.v0 p

instance (t : Tri K) (p : Vec3 K) : Decidable (t.Inside p) := by unfold Tri.Inside; infer_instance

/-- Seen from above, `p` lies on the segment. -/
def Covers (s : Vec3 K × Vec3 K) (p : Vec3 K) : Prop :=
  ∃ t : K, 0 ≤ t ∧ t ≤ 1 ∧ p.x = s.1.x + t * (s.2.x - s.1.x) ∧ p.y = s.1.y + t * (s.2.y - s.1.y)

/-- Seen from above, the segment crosses the ray that starts at `p` and points in the direction of `x`. A segment contains its lower
end but not its upper one, so that a ray through a common end of two segments counts once where the boundary passes and not at all
or twice where it turns back. -/
def CrossesRay (p : Vec3 K) (s : Vec3 K × Vec3 K) : Prop :=
  (s.1.y ≤ p.y ∧ p.y < s.2.y ∧ 0 < orient s.1 s.2 p) ∨ (s.2.y ≤ p.y ∧ p.y < s.1.y ∧ 0 < orient s.2 s.1 p)

instance (p : Vec3 K) (s : Vec3 K × Vec3 K) : Decidable (CrossesRay p s) := by unfold CrossesRay; infer_instance

/-- The even–odd rule: `p` is inside the region bounded by the segments if the ray from `p` crosses an odd number of them. -/
def InRegion (boundary : List (Vec3 K × Vec3 K)) (p : Vec3 K) : Prop := (boundary.countP fun s => decide (CrossesRay p s)) % 2 = 1

instance (l : List (Vec3 K × Vec3 K)) (p : Vec3 K) : Decidable (InRegion l p) := by unfold InRegion; infer_instance

end ENigMA
