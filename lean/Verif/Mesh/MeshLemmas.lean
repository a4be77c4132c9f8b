import Verif.Mesh.MeshSpec
import Verif.Mesh.ContainerLemmas

/-! # Lemmas on the loops of `CMshMesh` -/

namespace ENigMA

namespace Cont
variable {α : Type}

theorem ok_of_history {h : List (Op α)} (h1 : NoReAdd h) (h2 : RemovesLive h) {c : Cont α} (hc : run h = some c) :
    c.Ok := by
  obtain ⟨a, b, d⟩ := ids_inv h1 h2 hc
  refine ⟨d, fun id => ?_⟩
  rw [a id]
  exact exists_congr fun x => (live_get hc id x).symm

theorem empty_ok : (empty : Cont α).Ok := ⟨List.nodup_nil, by simp [empty, get?]⟩

theorem nextId_not_mem {c : Cont α} (h : c.Ok) : c.nextId ∉ c.ids := by
  intro hm
  obtain ⟨a, ha⟩ := (h.2 _).1 hm
  exact nextId_fresh c a ha

theorem get?_nextId (c : Cont α) : c.get? c.nextId = none := by
  cases h : c.get? c.nextId with
  | none => rfl
  | some a => exact absurd h (nextId_fresh c a)

theorem add_ok {c : Cont α} (h : c.Ok) {id : Int} (a : α) (hid : id ∉ c.ids) : (c.add id a).Ok := by
  refine ⟨?_, fun j => ?_⟩
  · simp only [add]
    rw [List.nodup_append]
    refine ⟨h.1, by simp, ?_⟩
    intro x hx y hy
    simp only [List.mem_singleton] at hy
    subst hy
    rintro rfl
    exact hid hx
  · rw [get?_add]
    simp only [add, List.mem_append, List.mem_singleton]
    split_ifs with hj
    · simp [hj]
    · simp [hj, h.2 j]

theorem remove_ok {c c' : Cont α} (h : c.Ok) {id : Int} (hr : c.remove id = some c') : c'.Ok := by
  obtain ⟨hm, rfl⟩ := remove_some hr
  refine ⟨h.1.erase _, fun j => ?_⟩
  simp only [get?]
  rw [SMap.find?_erase, h.1.mem_erase_iff, h.2 j]
  by_cases hj : j = id
  · simp [hj]
  · simp [hj, get?]

theorem modify_eq {c : Cont α} {id : Int} {f : α → Option α} {a a' : α} (h : c.get? id = some a) (hf : f a = some a') :
    c.modify id f = some { c with map := c.map.insert id a' } := by
  simp [modify, h, hf]

theorem modify_some {c c' : Cont α} {id : Int} {f : α → Option α} (h : c.modify id f = some c') :
    ∃ a a', c.get? id = some a ∧ f a = some a' ∧ c' = { c with map := c.map.insert id a' } := by
  unfold modify at h
  cases ha : c.get? id with
  | none => simp [ha] at h
  | some a =>
    cases hf : f a with
    | none => simp [ha, hf] at h
    | some a' =>
      simp [ha, hf] at h
      exact ⟨a, a', rfl, hf, h.symm⟩

theorem get?_put (c : Cont α) (id j : Int) (a : α) :
    (Cont.mk (c.map.insert id a) c.ids c.indices c.counter).get? j = if j = id then some a else c.get? j :=
  SMap.find?_insert _ _ _ _

theorem put_ok {c : Cont α} (h : c.Ok) {id : Int} {a a' : α} (hid : c.get? id = some a) :
    (Cont.mk (c.map.insert id a') c.ids c.indices c.counter).Ok := by
  refine ⟨h.1, fun j => ?_⟩
  rw [get?_put]
  simp only
  rw [h.2 j]
  split_ifs with hj
  · subst hj; simp [hid]
  · rfl

end Cont

namespace Mesh
open Cont

/-- The effect of a deletion loop: exactly the flagged ids disappear, the order of the others is kept. -/
theorem deleteLoop_spec {α : Type} (l : List (Int × Bool)) (hl : (l.map (·.1)).Nodup) :
    ∀ (c : Cont α), c.ids.Nodup → (∀ p ∈ l, p.2 = true → p.1 ∈ c.ids) →
    ∃ c', deleteLoop l c = some c' ∧ c'.ids = c.ids.filter (fun id => decide ((id, true) ∉ l)) ∧
      (∀ id, c'.get? id = if (id, true) ∈ l then none else c.get? id) ∧ c'.counter = c.counter := by
  induction l with
  | nil => intro c _ _; exact ⟨c, rfl, by simp, by simp, rfl⟩
  | cons p t ih =>
    intro c hn hm
    obtain ⟨id, d⟩ := p
    simp only [List.map_cons, List.nodup_cons] at hl
    have hnt : ∀ b, (id, b) ∉ t := fun b hb => hl.1 (List.mem_map.2 ⟨(id, b), hb, rfl⟩)
    cases d with
    | false =>
      obtain ⟨c', h1, h2, h3, h4⟩ := ih hl.2 c hn (fun p hp => hm p (List.mem_cons_of_mem _ hp))
      refine ⟨c', by simpa [deleteLoop] using h1, ?_, ?_, h4⟩
      · rw [h2]; apply List.filter_congr; intro x _; simp
      · intro x; rw [h3]; simp
    | true =>
      have hid : id ∈ c.ids := hm (id, true) (by simp) rfl
      let c1 : Cont α := { map := c.map.erase id, ids := c.ids.erase id, indices := c.indices.erase id, counter := c.counter }
      have hr : c.remove id = some c1 := by simp [remove, hid, c1]
      obtain ⟨c', h1, h2, h3, h4⟩ := ih hl.2 c1 (hn.erase _) (by
        intro p hp hpt
        refine (hn.mem_erase_iff).2 ⟨?_, hm p (List.mem_cons_of_mem _ hp) hpt⟩
        rintro rfl
        exact hl.1 (List.mem_map.2 ⟨p, hp, rfl⟩))
      refine ⟨c', by simp [deleteLoop, hr, h1], ?_, ?_, h4⟩
      · rw [h2]
        simp only [c1]
        rw [hn.erase_eq_filter, List.filter_filter]
        apply List.filter_congr
        intro x _
        by_cases hx : x = id <;> simp [hx]
      · intro x
        rw [h3]
        have : c1.get? x = if x = id then none else c.get? x := by
          simp only [c1, get?]; rw [SMap.find?_erase]
        rw [this]
        by_cases hx : x = id <;> simp [hx]

/-- Deletion through a `std::map<Integer, bool>`. -/
theorem deleteMap_spec {α : Type} (d : SMap Int Bool) (c : Cont α) (hc : c.Ok)
    (hd : ∀ id, d.find? id = some true → id ∈ c.ids) :
    ∃ c', deleteLoop d.entries c = some c' ∧ c'.Ok ∧
      c'.ids = c.ids.filter (fun id => decide (d.find? id ≠ some true)) ∧
      (∀ id, c'.get? id = if d.find? id = some true then none else c.get? id) ∧ c'.counter = c.counter := by
  have key : ∀ id, (id, true) ∈ d.entries ↔ d.find? id = some true := fun id => (d.find?_eq_some_iff _ _).symm
  obtain ⟨c', h1, h2, h3, h4⟩ := deleteLoop_spec d.entries d.keys_nodup c hc.1 (by
    rintro ⟨id, b⟩ hp hb
    simp only at hb; subst hb
    exact hd id ((key id).1 hp))
  have h2' : c'.ids = c.ids.filter (fun id => decide (d.find? id ≠ some true)) := by
    rw [h2]; apply List.filter_congr; intro x _; simp [key]
  have h3' : ∀ id, c'.get? id = if d.find? id = some true then none else c.get? id := by
    intro id; rw [h3]; simp [key]
  refine ⟨c', h1, ⟨?_, fun id => ?_⟩, h2', h3', h4⟩
  · rw [h2']; exact hc.1.filter _
  · rw [h2', h3']
    simp only [List.mem_filter, decide_eq_true_eq]
    rw [hc.2 id]
    split_ifs with hx <;> simp [hx]

theorem setAll_find {β : Type} (v : β) (l : List Int) (d : SMap Int β) (k : Int) :
    (setAll v l d).find? k = if k ∈ l then some v else d.find? k := by
  induction l generalizing d with
  | nil => simp [setAll]
  | cons a t ih =>
    simp only [setAll]
    rw [ih, SMap.find?_insert]
    by_cases h1 : k ∈ t
    · simp [h1]
    · by_cases h2 : k = a <;> simp [h1, h2]

theorem hasAdjacentEqual_iff (l : List Int) (h : l.Pairwise (· ≤ ·)) : hasAdjacentEqual l = true ↔ ¬ l.Nodup := by
  induction l with
  | nil => simp [hasAdjacentEqual]
  | cons a t ih =>
    cases t with
    | nil => simp [hasAdjacentEqual]
    | cons b t =>
      simp only [hasAdjacentEqual, Bool.or_eq_true, beq_iff_eq]
      rw [ih h.of_cons, List.nodup_cons (a := a) (l := b :: t)]
      have hab : a ≤ b := List.rel_of_pairwise_cons h (by simp)
      constructor
      · rintro (rfl | h')
        · simp
        · exact fun hh => h' hh.2
      · intro hh
        by_cases hb : (b :: t).Nodup
        · left
          have : a ∈ b :: t := by by_contra hx; exact hh ⟨hx, hb⟩
          rcases List.mem_cons.1 this with h1 | h1
          · exact h1
          · have := List.rel_of_pairwise_cons h.of_cons h1
            omega
        · exact Or.inr hb

theorem repeatsNode_iff (e : Elem) : repeatsNode e = true ↔ ¬ e.nodeIds.Nodup := by
  unfold repeatsNode
  rw [hasAdjacentEqual_iff _ (List.pairwise_insertionSort _ _), (List.perm_insertionSort _ _).nodup_iff]

/-- The remapping loop changes every payload once. -/
theorem remapLoop_spec {α : Type} (f : α → Option α) (l : List Int) (hl : l.Nodup) :
    ∀ (c : Cont α), (∀ id ∈ l, ∃ a a', c.get? id = some a ∧ f a = some a') →
    ∃ c', remapLoop f l c = some c' ∧ c'.ids = c.ids ∧ c'.indices = c.indices ∧ c'.counter = c.counter ∧
      ∀ id, c'.get? id = if id ∈ l then (c.get? id).bind f else c.get? id := by
  induction l with
  | nil => intro c _; exact ⟨c, rfl, rfl, rfl, rfl, by simp⟩
  | cons k t ih =>
    intro c hc
    obtain ⟨a, a', ha, hf⟩ := hc k (by simp)
    rw [List.nodup_cons] at hl
    obtain ⟨c', h1, h2, h3, h4, h5⟩ := ih hl.2 { c with map := c.map.insert k a' } (by
      intro id hid
      have hne : id ≠ k := by rintro rfl; exact hl.1 hid
      rw [get?_put, if_neg hne]
      exact hc id (by simp [hid]))
    refine ⟨c', by simp [remapLoop, modify_eq ha hf, h1], h2, h3, h4, fun id => ?_⟩
    rw [h5, get?_put]
    by_cases hk : id = k
    · subst hk; simp [hl.1, ha, hf]
    · simp [hk]

end Mesh
end ENigMA
