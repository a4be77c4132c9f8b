import Mathlib.Algebra.Order.Floor.Defs
import Verif.Mesh.SmoothSpec

/-!
# Meshes that `remesh` can work on
-/

set_option autoImplicit false

namespace ENigMA
variable {K : Type}

/-- The faces listed by an element are the line faces that it owns, and a line face has a pair if its line is also traversed the other way. After
`generateFaces` this holds for every triangulation (`C92_faces`). -/
structure Mesh.Listed (m : Mesh K) : Prop where
  own : ∀ id e, m.elements.get? id = some e → ∀ fid, fid ∈ e.faceIds ↔ ∃ f, m.faces.get? fid = some f ∧ f.elementId = id ∧ f.faceType = .line
  paired : ∀ i f a b, m.faces.get? i = some f → f.faceType = .line → f.nodeIds = [a, b] → (b, a) ∈ m.sideIds → f.hasPair = true

/-- The ids of the elements are smaller than their number and the ids of the nodes are not negative, as after `renumber`. -/
def Mesh.Numbered (m : Mesh K) : Prop := (∀ id ∈ m.elements.ids, 0 ≤ id ∧ id < m.elements.ids.length) ∧ ∀ n ∈ m.nodes.ids, 0 ≤ n

/-- A long side between two triangles: it is traversed in both directions and is longer than one and a half times the mesh size. -/
def Mesh.LongSide [Field K] [LinearOrder K] (nrm : Vec3 K → K) (size : K) (m : Mesh K) (s : Int × Int) : Prop :=
  s ∈ m.sideIds ∧ s.swap ∈ m.sideIds ∧ ∃ p q, m.nodes.get? s.1 = some p ∧ m.nodes.get? s.2 = some q ∧ size * (3 / 2) < nrm (q - p)

/-! ### Beams -/

/-- Every element is a beam between two different points. -/
def Mesh.AllBeams (m : Mesh K) : Prop :=
  ∀ id e, m.elements.get? id = some e → e.elementType = .beam ∧ ∃ a b p q, e.nodeIds = [a, b] ∧ m.nodes.get? a = some p ∧ m.nodes.get? b = some q ∧ p ≠ q

/-- The first and the last node of a beam. -/
def Elem.ends (e : Elem) : Int × Int := (e.nodeIds.getD 0 0, e.nodeIds.getD 1 0)

/-- The beams of a mesh as pairs of node ids. -/
def Mesh.beamIds (m : Mesh K) : List (Int × Int) := m.elements.ids.filterMap fun id => (m.elements.get? id).map Elem.ends

/-- The steps of a walk from node to node. -/
def steps : List Int → List (Int × Int)
  | a :: b :: t => (a, b) :: steps (b :: t)
  | _ => []

/-- The number of parts of a beam: its length divided by the mesh size, rounded, and at least one. -/
def parts [Field K] [LinearOrder K] [FloorRing K] (nrm : Vec3 K → K) (size : K) (p q : Vec3 K) : Nat := max 1 ⌊nrm (q - p) / size + 1 / 2⌋.toNat

end ENigMA
