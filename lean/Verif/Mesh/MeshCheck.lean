import Verif.Mesh.MeshSpec

/-!
# A test for consistency

Not part of the model: it lets concrete meshes be shown to meet the hypothesis `WF` of the theorems by computation.
-/

set_option autoImplicit false

namespace ENigMA

/-- The list of ids has no repetition and holds the keys of the map. -/
def Cont.check {α : Type} (c : Cont α) : Bool :=
  decide c.ids.Nodup && c.ids.all (fun id => decide (id ∈ c.map.keys)) && c.map.keys.all fun id => decide (id ∈ c.ids)

theorem Cont.ok_of_check {α : Type} {c : Cont α} (h : c.check = true) : c.Ok := by
  simp only [check, Bool.and_eq_true, decide_eq_true_iff, List.all_eq_true] at h
  refine ⟨h.1.1, fun id => ?_⟩
  unfold Cont.get?
  rw [← Option.isSome_iff_exists, ← SMap.mem_keys]
  exact ⟨h.1.2 id, h.2 id⟩

namespace Mesh
variable {K : Type}

/-- The containers pass the test, and the nodes of faces and elements are stored. -/
def check (m : Mesh K) : Bool :=
  m.nodes.check && m.faces.check && m.elements.check &&
  m.faces.map.entries.all (fun p => p.2.nodeIds.all fun n => decide (n ∈ m.nodes.ids)) &&
  m.elements.map.entries.all (fun p => p.2.nodeIds.all fun n => decide (n ∈ m.nodes.ids))

theorem wf_of_check {m : Mesh K} (h : m.check = true) : m.WF := by
  simp only [check, Bool.and_eq_true, List.all_eq_true, decide_eq_true_iff] at h
  obtain ⟨⟨⟨⟨h1, h2⟩, h3⟩, h4⟩, h5⟩ := h
  refine ⟨Cont.ok_of_check h1, Cont.ok_of_check h2, Cont.ok_of_check h3, ?_, ?_⟩
  · intro id f hf n hn
    exact h4 _ ((SMap.find?_eq_some_iff _ _ _).1 hf) n hn
  · intro id e he n hn
    exact h5 _ ((SMap.find?_eq_some_iff _ _ _).1 he) n hn

end Mesh
end ENigMA
