import Verif.Mesh.ContainerLemmas

/-!
# C01, C02, C03: lookup, indices and fresh ids of mesh containers

The container `Cont α` models each of the node, face and element groups of `CMshMesh`; a history is a list
of calls (`Op`). `Live`, `NoReAdd`, `RemovesLive`, `AddedBefore` (ContainerSpec.lean) talk about the list of calls only.
-/

namespace ENigMA
variable {α : Type*}

/-- **C01 (no undefined behaviour).** A history that only removes live ids runs to completion. -/
theorem C01_defined (h : List (Op α)) (H : RemovesLive h) : ∃ c, Cont.run h = some c :=
  Cont.run_some_of_removesLive H

/-- **C01 (lookup).** After any history, `node(id)` returns `a` exactly when `a` is the payload most recently added
under `id` and nothing removed `id` since; it throws (`none`) exactly for ids that are not live. -/
theorem C01_lookup (h : List (Op α)) (c : Cont α) (hc : Cont.run h = some c) (id : Int) :
    (∀ a, c.get? id = some a ↔ Live h id a) ∧ (c.get? id = none ↔ ∀ a, ¬ Live h id a) := by
  refine ⟨fun a => Cont.live_get hc id a, ?_⟩
  constructor
  · intro hn a ha
    rw [(Cont.live_get hc id a).2 ha] at hn
    simp at hn
  · intro hn
    cases hg : c.get? id with
    | none => rfl
    | some a => exact absurd ((Cont.live_get hc id a).1 hg) (hn a)

/-- **C01 (enumeration).** If no live id is re-added, `nodeId(0), …, nodeId(nbNodes()-1)` lists every live id exactly
once, in the order of their additions. -/
theorem C01_enumeration (h : List (Op α)) (H₁ : NoReAdd h) (H₂ : RemovesLive h) (c : Cont α)
    (hc : Cont.run h = some c) :
    (∀ id, (∃ i, i < c.count ∧ c.idAt? i = some id) ↔ ∃ a, Live h id a) ∧
    (∀ i j id, c.idAt? i = some id → c.idAt? j = some id → i = j) ∧
    (∀ i j idi idj, i < j → c.idAt? i = some idi → c.idAt? j = some idj → AddedBefore h idi idj) := by
  obtain ⟨i1, i2, i3⟩ := Cont.ids_inv H₁ H₂ hc
  refine ⟨fun id => ?_, ?_, ?_⟩
  · rw [← i1 id, List.mem_iff_getElem?]
    constructor
    · rintro ⟨i, -, hi⟩; exact ⟨i, hi⟩
    · rintro ⟨i, hi⟩
      exact ⟨i, (List.getElem?_eq_some_iff.1 hi).1, hi⟩
  · intro i j id hi hj
    obtain ⟨hi', ei⟩ := List.getElem?_eq_some_iff.1 hi
    obtain ⟨hj', ej⟩ := List.getElem?_eq_some_iff.1 hj
    exact (List.Nodup.getElem_inj_iff i3).1 (ei.trans ej.symm)
  · intro i j idi idj hij hi hj
    obtain ⟨hi', rfl⟩ := List.getElem?_eq_some_iff.1 hi
    obtain ⟨hj', rfl⟩ := List.getElem?_eq_some_iff.1 hj
    exact List.pairwise_iff_getElem.1 i2 i j hi' hj' hij

/-- A history with additions, a removal and a re-addition after the removal. -/
def sampleHistory : List (Op Nat) := [.add 4 40, .add 7 70, .remove 4, .add 2 20, .add 4 41, .rebuild]

/-- The hypotheses of C01 are met by `sampleHistory`, and the final container is non-trivial. -/
example : RemovesLive sampleHistory ∧ NoReAdd sampleHistory ∧
    (Cont.run sampleHistory).map (fun c => (c.ids, c.get? 4, c.get? 2, c.get? 5)) =
      some ([7, 2, 4], some 41, some 20, none) := by
  refine ⟨?_, ?_, by decide⟩
  · intro h₁ id h₂ e
    unfold sampleHistory at e
    rcases h₁ with _ | ⟨o1, _ | ⟨o2, _ | ⟨o3, _ | ⟨o4, _ | ⟨o5, _ | ⟨o6, t⟩⟩⟩⟩⟩⟩ <;> simp at e
    obtain ⟨rfl, rfl, rfl, rfl⟩ := e
    exact ⟨40, [], [.add 7 70], rfl, by simp [Op.touches]⟩
  · intro h₁ id a h₂ e b hl
    obtain ⟨g₁, g₂, rfl, hn⟩ := hl
    unfold sampleHistory at e
    rcases g₁ with _ | ⟨o1, _ | ⟨o2, _ | ⟨o3, _ | ⟨o4, _ | ⟨o5, _ | ⟨o6, t⟩⟩⟩⟩⟩⟩ <;>
    rcases g₂ with _ | ⟨p1, _ | ⟨p2, _ | ⟨p3, _ | ⟨p4, _ | ⟨p5, _ | ⟨p6, t'⟩⟩⟩⟩⟩⟩ <;>
      simp at e <;> first | omega | (simp only [List.mem_cons, forall_eq_or_imp] at hn; grind [Op.touches])

/-- **C01 (why re-adding is excluded).** In the code, adding a live id twice and removing it once leaves a stale id in
the enumeration: `nbNodes() = 1` but `node(nodeId(0))` throws. -/
theorem C01_readd_stale : ∃ (h : List (Op Nat)) (c : Cont Nat), RemovesLive h ∧ Cont.run h = some c ∧
    ∃ id, c.idAt? 0 = some id ∧ c.count = 1 ∧ c.get? id = none := by
  refine ⟨[.add 0 5, .add 0 6, .remove 0], ⟨SMap.empty, [0], SMap.empty, 2⟩, ?_, ?_, 0, rfl, rfl, rfl⟩
  · intro h₁ id h₂ e
    rcases h₁ with _ | ⟨o1, _ | ⟨o2, _ | ⟨o3, t⟩⟩⟩ <;> simp at e
    obtain ⟨rfl, rfl, rfl, rfl⟩ := e
    exact ⟨6, [.add 0 5], [], rfl, by simp⟩
  · rfl

/-! ### C02 -/

/-- **C02 (grown meshes).** If, since construction or the last reset, nothing was removed and no live id was re-added,
`nodeIndex(nodeId(i)) = i` for every valid index and `nodeId(nodeIndex(id)) = id` for every live id. -/
theorem C02_grown (h₀ h : List (Op α)) (H0 : h₀ = [] ∨ ∃ t, h₀ = t ++ [.clear])
    (hr : ∀ op ∈ h, ¬ op.isRemove) (hn : NoReAdd (h₀ ++ h)) (c : Cont α) (hc : Cont.run (h₀ ++ h) = some c) :
    (∀ i id, c.idAt? i = some id → c.indexOf? id = some (i : Int)) ∧
    (∀ id a, c.get? id = some a → ∃ i : Nat, c.indexOf? id = some (i : Int) ∧ c.idAt? i = some id) := by
  obtain ⟨h1, -, -, -⟩ := Cont.grow_inv h₀ H0 hr hn hc
  refine ⟨h1.roundTrip.1, fun id a ha => h1.roundTrip.2 id ?_⟩
  exact Cont.live_mem_ids hc id a ((Cont.live_get hc id a).1 ha)

/-- **C02 (after `rebuildIndices()`).** If `rebuildIndices()` ran last, the round trip holds whatever was removed
before. -/
theorem C02_rebuilt (h : List (Op α)) (H₁ : NoReAdd h) (H₂ : RemovesLive h) (c : Cont α)
    (hc : Cont.run (h ++ [.rebuild]) = some c) :
    (∀ i id, c.idAt? i = some id → c.indexOf? id = some (i : Int)) ∧
    (∀ id a, c.get? id = some a → ∃ i : Nat, c.indexOf? id = some (i : Int) ∧ c.idAt? i = some id) := by
  obtain ⟨c₀, hc₀, hs⟩ := Cont.run_snoc_some hc
  simp only [Cont.step, Option.some.injEq] at hs
  obtain ⟨-, -, hnd⟩ := Cont.ids_inv H₁ H₂ hc₀
  have h1 : c.Synced := hs ▸ Cont.rebuild_synced c₀ hnd
  refine ⟨h1.roundTrip.1, fun id a ha => h1.roundTrip.2 id ?_⟩
  exact Cont.live_mem_ids hc id a ((Cont.live_get hc id a).1 ha)

/-- The hypotheses of `C02_grown` are met by a history with a reset in the middle. -/
example : (Cont.run ([.add 9 0, .remove 9, .clear] ++ [.add 4 40, .add 7 70] : List (Op Nat))).map
    (fun c => (c.ids, c.indexOf? 4, c.indexOf? 7, c.idAt? 1)) = some ([4, 7], some 0, some 1, some 7) := by decide

/-- The conclusion of `C02_rebuilt` on a concrete history with a removal. -/
example : (Cont.run (sampleHistory ++ [.rebuild])).map
    (fun c => (c.ids, c.indexOf? 7, c.indexOf? 2, c.indexOf? 4)) = some ([7, 2, 4], some 0, some 1, some 2) := by decide

/-- **C02 (removal without rebuild).** After a removal the index of a later node is stale:
`nodeIndex(nodeId(0)) = 1`. -/
theorem C02_stale_after_remove : ∃ (h : List (Op Nat)) (c : Cont Nat), Cont.run h = some c ∧
    ∃ id, c.idAt? 0 = some id ∧ c.indexOf? id = some 1 :=
  ⟨[.add 0 5, .add 1 6, .remove 0], (Cont.run [.add 0 5, .add 1 6, .remove 0]).get rfl, rfl, 1, rfl, rfl⟩

/-- **C02 (counter not reset).** `rebuildIndices()` does not reset the counter: an addition after
removal + rebuild gets an index beyond the end, `nodeIndex(nodeId(1)) = 2` with `nbNodes() = 2`. -/
theorem C02_counter_not_reset : ∃ (h : List (Op Nat)) (c : Cont Nat), Cont.run h = some c ∧
    c.count = 2 ∧ ∃ id, c.idAt? 1 = some id ∧ c.indexOf? id = some 2 :=
  ⟨[.add 0 5, .add 1 6, .remove 0, .rebuild, .add 2 7],
    (Cont.run [.add 0 5, .add 1 6, .remove 0, .rebuild, .add 2 7]).get rfl, rfl, rfl, 2, rfl, rfl⟩

/-! ### C03 -/

/-- **C03.** The id returned by `nextNodeId()` is not live, so adding under it changes no existing payload, and the new
payload is the one read back. -/
theorem C03_nextId_fresh (h : List (Op α)) (c : Cont α) (hc : Cont.run h = some c) (a : α) :
    (∀ b, ¬ Live h c.nextId b) ∧ (∀ id b, Live h id b → (c.add c.nextId a).get? id = some b) ∧
      (c.add c.nextId a).get? c.nextId = some a := by
  have hf : ∀ b, ¬ Live h c.nextId b := fun b hb => c.nextId_fresh b ((Cont.live_get hc _ _).2 hb)
  refine ⟨hf, ?_, by simp [Cont.get?_add]⟩
  intro id b hb
  have hne : id ≠ c.nextId := fun e => hf b (e ▸ hb)
  rw [Cont.get?_add, if_neg hne]
  exact (Cont.live_get hc id b).2 hb

/-- `nextNodeId()` after `sampleHistory` is 8 (ids 7, 2, 4 are live). -/
example : (Cont.run sampleHistory).map Cont.nextId = some 8 := by decide

end ENigMA
