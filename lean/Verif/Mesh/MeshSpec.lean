import Verif.Mesh.Mesh

/-! # What a consistent mesh is -/

namespace ENigMA

/-- The container is consistent: the id list has no repetition and lists exactly the stored ids. `Cont.ok_of_history`
(in `MeshLemmas`) shows that every history that does not re-add a live id or remove a dead one gives such a container. -/
def Cont.Ok {α : Type} (c : Cont α) : Prop := c.ids.Nodup ∧ ∀ id, id ∈ c.ids ↔ ∃ a, c.get? id = some a

/-- `id ↦ index` and `index ↦ id` are inverse to each other. -/
def Cont.RoundTrip {α : Type} (c : Cont α) : Prop :=
  (∀ i id, c.idAt? i = some id → c.indexOf? id = some (i : Int)) ∧
  (∀ id ∈ c.ids, ∃ i : Nat, c.indexOf? id = some (i : Int) ∧ c.idAt? i = some id)

namespace Mesh
variable {K : Type}

/-- A consistent mesh: consistent containers, and faces and elements refer to stored nodes only. -/
structure WF (m : Mesh K) : Prop where
  nodes : m.nodes.Ok
  faces : m.faces.Ok
  elements : m.elements.Ok
  faceNodes : ∀ id f, m.faces.get? id = some f → ∀ n ∈ f.nodeIds, n ∈ m.nodes.ids
  elemNodes : ∀ id e, m.elements.get? id = some e → ∀ n ∈ e.nodeIds, n ∈ m.nodes.ids

/-- The geometry of a list of node ids: their coordinates. -/
def coords (m : Mesh K) (ids : List Int) : List (Option (Vec3 K)) := ids.map m.nodes.get?

end Mesh
end ENigMA
