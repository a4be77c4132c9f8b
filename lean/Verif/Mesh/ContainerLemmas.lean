import Verif.Mesh.ContainerSpec
import Mathlib.Data.List.Nodup
import Mathlib.Data.List.Induction
import Mathlib.Tactic.Linarith

/-! # Helper lemmas about histories and containers -/

namespace ENigMA
variable {α : Type*}

theorem snoc_split {β : Type*} {h h₁ h₂ : List β} {op x : β} (e : h ++ [op] = h₁ ++ x :: h₂) :
    (h₂ = [] ∧ h = h₁ ∧ op = x) ∨ ∃ h₂', h₂ = h₂' ++ [op] ∧ h = h₁ ++ x :: h₂' := by
  rcases List.eq_nil_or_concat h₂ with rfl | ⟨t, y, rfl⟩
  · left
    have := List.append_inj' e rfl
    simp_all
  · right
    have e' : h ++ [op] = (h₁ ++ x :: t) ++ [y] := by simp [e]
    have := List.append_inj' e' rfl
    refine ⟨t, ?_, ?_⟩
    · simp_all
    · exact this.1

theorem live_nil (id : Int) (a : α) : ¬ Live ([] : List (Op α)) id a := by
  rintro ⟨h₁, h₂, e, -⟩
  simp at e

theorem live_snoc (h : List (Op α)) (op : Op α) (id : Int) (a : α) :
    Live (h ++ [op]) id a ↔ op = .add id a ∨ (Live h id a ∧ ¬ op.touches id) := by
  constructor
  · rintro ⟨h₁, h₂, e, hn⟩
    rcases snoc_split e with ⟨rfl, rfl, rfl⟩ | ⟨t, rfl, rfl⟩
    · exact Or.inl rfl
    · right
      exact ⟨⟨h₁, t, rfl, fun o ho => hn o (by simp [ho])⟩, hn op (by simp)⟩
  · rintro (rfl | ⟨⟨h₁, h₂, rfl, hn⟩, ht⟩)
    · exact ⟨h, [], by simp, by simp⟩
    · refine ⟨h₁, h₂ ++ [op], by simp, ?_⟩
      intro o ho
      rcases List.mem_append.1 ho with ho | ho
      · exact hn o ho
      · simp only [List.mem_singleton] at ho; subst ho; exact ht

theorem NoReAdd.init {h : List (Op α)} {op : Op α} (H : NoReAdd (h ++ [op])) : NoReAdd h := by
  intro h₁ id a h₂ e b
  exact H h₁ id a (h₂ ++ [op]) (by simp [e]) b

theorem NoReAdd.last {h : List (Op α)} {id : Int} {a : α} (H : NoReAdd (h ++ [.add id a])) (b : α) :
    ¬ Live h id b := H h id a [] rfl b

theorem RemovesLive.init {h : List (Op α)} {op : Op α} (H : RemovesLive (h ++ [op])) : RemovesLive h := by
  intro h₁ id h₂ e
  exact H h₁ id (h₂ ++ [op]) (by simp [e])

theorem RemovesLive.last {h : List (Op α)} {id : Int} (H : RemovesLive (h ++ [.remove id])) :
    ∃ b, Live h id b := H h id [] rfl

theorem AddedBefore.snoc {h : List (Op α)} {op : Op α} {i j : Int} (H : AddedBefore h i j)
    (hi : ¬ op.touches i) (hj : ¬ op.touches j) : AddedBefore (h ++ [op]) i j := by
  obtain ⟨h₁, h₂, h₃, a, b, rfl, ha, hb⟩ := H
  refine ⟨h₁, h₂, h₃ ++ [op], a, b, by simp, ?_, ?_⟩
  · intro o ho
    have : o ∈ (h₂ ++ Op.add j b :: h₃) ∨ o = op := by
      simp only [List.mem_append, List.mem_cons, List.not_mem_nil, or_false] at ho ⊢; tauto
    rcases this with h | rfl
    · exact ha o h
    · exact hi
  · intro o ho
    rcases List.mem_append.1 ho with h | h
    · exact hb o h
    · simp only [List.mem_singleton] at h; subst h; exact hj

theorem Live.addedBefore {h : List (Op α)} {i j : Int} {a : α} (H : Live h i a) (hij : i ≠ j) (b : α) :
    AddedBefore (h ++ [.add j b]) i j := by
  obtain ⟨h₁, h₂, rfl, hn⟩ := H
  refine ⟨h₁, h₂, [], a, b, by simp, ?_, by simp⟩
  intro o ho
  rcases List.mem_append.1 ho with h | h
  · exact hn o h
  · simp only [List.mem_cons, List.not_mem_nil, or_false] at h
    subst h; exact fun e => hij e.symm

namespace Cont

theorem runFrom_append (c : Cont α) (h₁ h₂ : List (Op α)) :
    runFrom c (h₁ ++ h₂) = (runFrom c h₁).bind (fun c' => runFrom c' h₂) := by
  induction h₁ generalizing c with
  | nil => rfl
  | cons op t ih =>
    simp only [List.cons_append, runFrom]
    cases h : c.step op with
    | none => rfl
    | some c' => simp [ih]

theorem run_snoc (h : List (Op α)) (op : Op α) :
    run (h ++ [op]) = (run h).bind (fun c => c.step op) := by
  unfold run
  rw [runFrom_append]
  congr 1
  funext c
  simp [runFrom]

theorem run_snoc_some {h : List (Op α)} {op : Op α} {c : Cont α} (H : run (h ++ [op]) = some c) :
    ∃ c₀, run h = some c₀ ∧ c₀.step op = some c := by
  rw [run_snoc] at H
  cases h0 : run h with
  | none => simp [h0] at H
  | some c₀ => exact ⟨c₀, rfl, by simpa [h0] using H⟩

theorem get?_add (c : Cont α) (id j : Int) (a : α) :
    (c.add id a).get? j = if j = id then some a else c.get? j := SMap.find?_insert _ _ _ _

theorem remove_some {c c' : Cont α} {id : Int} (h : c.remove id = some c') :
    id ∈ c.ids ∧ c' = { map := c.map.erase id, ids := c.ids.erase id, indices := c.indices.erase id,
                        counter := c.counter } := by
  unfold remove at h
  split_ifs at h with h1
  exact ⟨h1, by simpa using h.symm⟩

theorem live_get {h : List (Op α)} : ∀ {c : Cont α}, run h = some c → ∀ id a,
    (c.get? id = some a ↔ Live h id a) := by
  induction h using List.reverseRecOn with
  | nil =>
    intro c hc id a
    simp only [run, runFrom, Option.some.injEq] at hc
    subst hc
    simp [get?, empty, live_nil]
  | append_singleton h op ih =>
    intro c hc id a
    obtain ⟨c₀, h₀, hs⟩ := run_snoc_some hc
    rw [live_snoc]
    have ih := ih h₀ id a
    cases op with
    | add j b =>
      simp only [step, Option.some.injEq] at hs; subst hs
      rw [get?_add]
      simp only [Op.touches, Op.add.injEq]
      by_cases hj : id = j
      · subst hj; simp [eq_comm]
      · have : ¬ j = id := fun e => hj e.symm
        simp [hj, this, ih]
    | remove j =>
      simp only [step] at hs
      obtain ⟨-, rfl⟩ := remove_some hs
      simp only [get?, SMap.find?_erase, Op.touches]
      by_cases hj : id = j
      · subst hj; simp
      · have : ¬ j = id := fun e => hj e.symm
        simp only [hj, if_false, this, not_false_eq_true, and_true]
        rw [← ih]; simp [get?]
    | rebuild =>
      simp only [step, Option.some.injEq] at hs; subst hs
      simp only [Op.touches, not_false_eq_true, and_true]
      rw [← ih]; simp [rebuild, get?]
    | clear =>
      simp only [step, Option.some.injEq] at hs; subst hs
      simp [Op.touches, empty, get?]

theorem live_mem_ids {h : List (Op α)} : ∀ {c : Cont α}, run h = some c → ∀ id a,
    Live h id a → id ∈ c.ids := by
  induction h using List.reverseRecOn with
  | nil => intro c hc id a hl; exact absurd hl (live_nil _ _)
  | append_singleton h op ih =>
    intro c hc id a hl
    obtain ⟨c₀, h₀, hs⟩ := run_snoc_some hc
    rw [live_snoc] at hl
    cases op with
    | add j b =>
      simp only [step, Option.some.injEq] at hs; subst hs
      rcases hl with e | ⟨hl, -⟩
      · cases e; simp [add]
      · simp [add, ih h₀ id a hl]
    | remove j =>
      simp only [step] at hs
      obtain ⟨-, rfl⟩ := remove_some hs
      rcases hl with e | ⟨hl, ht⟩
      · cases e
      · exact (List.mem_erase_of_ne (fun e => ht e.symm)).2 (ih h₀ id a hl)
    | rebuild =>
      simp only [step, Option.some.injEq] at hs; subst hs
      rcases hl with e | ⟨hl, ht⟩
      · cases e
      · exact ih h₀ id a hl
    | clear =>
      rcases hl with e | ⟨hl, ht⟩
      · cases e
      · exact absurd trivial ht

theorem run_some_of_removesLive {h : List (Op α)} (H : RemovesLive h) : ∃ c, run h = some c := by
  induction h using List.reverseRecOn with
  | nil => exact ⟨_, rfl⟩
  | append_singleton h op ih =>
    obtain ⟨c, hc⟩ := ih H.init
    rw [run_snoc, hc]
    cases op with
    | add j b => exact ⟨_, rfl⟩
    | remove j =>
      obtain ⟨b, hb⟩ := H.last
      have := live_mem_ids hc j b hb
      simp [step, remove, this]
    | rebuild => exact ⟨_, rfl⟩
    | clear => exact ⟨_, rfl⟩

/-- Enumeration invariant. -/
theorem ids_inv {h : List (Op α)} : NoReAdd h → RemovesLive h → ∀ {c : Cont α}, run h = some c →
    (∀ id, id ∈ c.ids ↔ ∃ a, Live h id a) ∧ c.ids.Pairwise (AddedBefore h) ∧ c.ids.Nodup := by
  induction h using List.reverseRecOn with
  | nil =>
    intro _ _ c hc
    simp only [run, runFrom, Option.some.injEq] at hc
    subst hc
    exact ⟨fun id => by simp [empty, live_nil], by simp [empty], by simp [empty]⟩
  | append_singleton h op ih =>
    intro H₁ H₂ c hc
    obtain ⟨c₀, h₀, hs⟩ := run_snoc_some hc
    obtain ⟨i1, i2, i3⟩ := ih H₁.init H₂.init h₀
    cases op with
    | add j b =>
      simp only [step, Option.some.injEq] at hs; subst hs
      have hj : j ∉ c₀.ids := fun hm => by
        obtain ⟨a, ha⟩ := (i1 j).1 hm
        exact H₁.last a ha
      have hne : ∀ i ∈ c₀.ids, i ≠ j := fun i hi e => hj (e ▸ hi)
      refine ⟨?_, ?_, ?_⟩
      · intro id
        simp only [add, List.mem_append, List.mem_singleton]
        constructor
        · rintro (hm | rfl)
          · obtain ⟨a, ha⟩ := (i1 id).1 hm
            exact ⟨a, (live_snoc _ _ _ _).2 (Or.inr ⟨ha, fun e => hne id hm e.symm⟩)⟩
          · exact ⟨b, (live_snoc _ _ _ _).2 (Or.inl rfl)⟩
        · rintro ⟨a, ha⟩
          rcases (live_snoc _ _ _ _).1 ha with e | ⟨hl, -⟩
          · cases e; exact Or.inr rfl
          · exact Or.inl ((i1 id).2 ⟨a, hl⟩)
      · simp only [add]
        rw [List.pairwise_append]
        refine ⟨?_, List.pairwise_singleton _ _, ?_⟩
        · refine i2.imp_of_mem (fun {p q} hp hq hpq => hpq.snoc (fun e => hne p hp e.symm) (fun e => hne q hq e.symm))
        · intro p hp q hq
          simp only [List.mem_singleton] at hq; subst hq
          obtain ⟨a, ha⟩ := (i1 p).1 hp
          exact ha.addedBefore (hne p hp) b
      · simp only [add]
        rw [List.nodup_append]
        refine ⟨i3, List.nodup_singleton _, ?_⟩
        intro p hp q hq
        simp only [List.mem_singleton] at hq; subst hq
        exact hne p hp
    | remove j =>
      simp only [step] at hs
      obtain ⟨hm, rfl⟩ := remove_some hs
      refine ⟨?_, ?_, i3.erase j⟩
      · intro id
        rw [i3.mem_erase_iff, i1 id]
        constructor
        · rintro ⟨hne, a, ha⟩
          exact ⟨a, (live_snoc _ _ _ _).2 (Or.inr ⟨ha, fun e => hne e.symm⟩)⟩
        · rintro ⟨a, ha⟩
          rcases (live_snoc _ _ _ _).1 ha with e | ⟨hl, hne⟩
          · cases e
          · exact ⟨fun e => hne e.symm, a, hl⟩
      · refine (i2.sublist List.erase_sublist).imp_of_mem (fun {p q} hp hq hpq => ?_)
        have hp' := (i3.mem_erase_iff.1 hp).1
        have hq' := (i3.mem_erase_iff.1 hq).1
        exact hpq.snoc (fun e => hp' e.symm) (fun e => hq' e.symm)
    | rebuild =>
      simp only [step, Option.some.injEq] at hs; subst hs
      refine ⟨?_, i2.imp (fun {p q} hpq => hpq.snoc (fun e => e) (fun e => e)), i3⟩
      intro id
      have : (rebuild c₀).ids = c₀.ids := rfl
      rw [this, i1 id]
      refine exists_congr (fun a => ?_)
      rw [live_snoc]
      simp [Op.touches]
    | clear =>
      simp only [step, Option.some.injEq] at hs; subst hs
      refine ⟨?_, by simp [empty], by simp [empty]⟩
      intro id
      simp only [empty, List.not_mem_nil, false_iff, not_exists]
      intro a ha
      rcases (live_snoc _ _ _ _).1 ha with e | ⟨hl, hne⟩
      · cases e
      · exact hne trivial

/-! ### Indices -/

/-- The index map is the inverse of the id list. -/
def Synced (c : Cont α) : Prop :=
  ∀ (id : Int) (i : Nat), c.indices.find? id = some (i : Int) ↔ c.ids[i]? = some id

theorem indexLoop_find (l : List Int) (hl : l.Nodup) (i : Int) (m : SMap Int Int) (id : Int) :
    (indexLoop l i m).find? id =
      match l.findIdx? (· = id) with
      | some k => some (i + k)
      | none => m.find? id := by
  induction l generalizing i m with
  | nil => simp [indexLoop]
  | cons a t ih =>
    rw [List.nodup_cons] at hl
    simp only [indexLoop]
    rw [ih hl.2, List.findIdx?_cons]
    by_cases ha : a = id
    · subst ha
      have : t.findIdx? (fun x => decide (x = a)) = none := by
        rw [List.findIdx?_eq_none_iff]
        intro x hx
        simp only [decide_eq_false_iff_not]
        exact fun e => hl.1 (e ▸ hx)
      simp [this]
    · simp only [ha, decide_false, Bool.false_eq_true, if_false]
      cases hk : t.findIdx? (fun x => decide (x = id)) with
      | none => simp [SMap.find?_insert, Ne.symm ha]
      | some k => simp; omega

theorem rebuild_synced (c : Cont α) (h : c.ids.Nodup) : (rebuild c).Synced := by
  intro id i
  simp only [rebuild]
  rw [indexLoop_find _ h]
  cases hk : c.ids.findIdx? (fun x => decide (x = id)) with
  | none =>
    simp only [SMap.find?_empty]
    rw [List.findIdx?_eq_none_iff] at hk
    constructor
    · intro h; simp at h
    · intro h
      have := hk id (List.mem_of_getElem? h)
      simp at this
  | some k =>
    rw [List.findIdx?_eq_some_iff_getElem] at hk
    obtain ⟨hlt, he, -⟩ := hk
    simp only [decide_eq_true_eq] at he
    simp only [zero_add, Option.some.injEq, Nat.cast_inj]
    constructor
    · rintro rfl; rw [List.getElem?_eq_getElem hlt, he]
    · intro hi
      obtain ⟨hi', e⟩ := List.getElem?_eq_some_iff.1 hi
      exact (List.Nodup.getElem_inj_iff h).1 (he.trans e.symm)

theorem add_synced (c : Cont α) {id : Int} (a : α) (hs : c.Synced) (hc : c.counter = c.ids.length)
    (hid : id ∉ c.ids) : (c.add id a).Synced := by
  intro j i
  simp only [add]
  rw [SMap.find?_insert, hc]
  by_cases hj : j = id
  · subst hj
    simp only [if_true, Option.some.injEq, Nat.cast_inj]
    constructor
    · rintro rfl; simp
    · intro h
      by_cases hi : i < c.ids.length
      · rw [List.getElem?_append_left hi] at h
        exact absurd (List.mem_of_getElem? h) hid
      · rw [List.getElem?_append_right (by omega)] at h
        obtain ⟨h', -⟩ := List.getElem?_eq_some_iff.1 h
        simp at h'
        omega
  · simp only [hj, if_false]
    rw [hs j i]
    by_cases hi : i < c.ids.length
    · rw [List.getElem?_append_left hi]
    · rw [List.getElem?_append_right (by omega), List.getElem?_eq_none (by omega)]
      constructor
      · intro h; simp at h
      · intro h
        have := List.mem_of_getElem? h
        simp at this
        exact absurd this hj

theorem empty_synced : (empty : Cont α).Synced := by
  intro id i
  simp [empty]

/-- Without removals since the last reset, counter and index map stay in step with the id list. -/
theorem grow_inv {h : List (Op α)} (h₀ : List (Op α)) (H0 : h₀ = [] ∨ ∃ t, h₀ = t ++ [.clear])
    (hr : ∀ op ∈ h, ¬ op.isRemove) : NoReAdd (h₀ ++ h) → ∀ {c : Cont α}, run (h₀ ++ h) = some c →
    c.Synced ∧ c.counter = c.ids.length ∧ c.ids.Nodup ∧ (∀ id ∈ c.ids, ∃ a, Live (h₀ ++ h) id a) := by
  induction h using List.reverseRecOn with
  | nil =>
    intro _ c hc
    rw [List.append_nil] at hc
    have : c = empty := by
      rcases H0 with rfl | ⟨t, rfl⟩
      · simp only [run, runFrom, Option.some.injEq] at hc; exact hc.symm
      · obtain ⟨c₁, -, hs⟩ := run_snoc_some hc
        simp only [step, Option.some.injEq] at hs; exact hs.symm
    subst this
    exact ⟨empty_synced, by simp [empty], by simp [empty], by simp [empty]⟩
  | append_singleton h op ih =>
    intro hn c hc
    rw [← List.append_assoc] at hn hc
    obtain ⟨c₀, hc₀, hs⟩ := run_snoc_some hc
    obtain ⟨i1, i2, i3, i4⟩ := ih (fun o ho => hr o (by simp [ho])) hn.init hc₀
    rw [← List.append_assoc]
    cases op with
    | add j b =>
      simp only [step, Option.some.injEq] at hs; subst hs
      have hj : j ∉ c₀.ids := fun hm => by
        obtain ⟨a, ha⟩ := i4 j hm
        exact hn.last a ha
      refine ⟨add_synced c₀ b i1 i2 hj, by simp [add, i2], ?_, ?_⟩
      · simp only [add]
        rw [List.nodup_append]
        refine ⟨i3, List.nodup_singleton _, ?_⟩
        intro p hp q hq
        simp only [List.mem_singleton] at hq; subst hq
        exact fun e => hj (e ▸ hp)
      · intro id hid
        simp only [add, List.mem_append, List.mem_singleton] at hid
        rcases hid with hm | rfl
        · obtain ⟨a, ha⟩ := i4 id hm
          refine ⟨a, (live_snoc _ _ _ _).2 (Or.inr ⟨ha, fun e => ?_⟩)⟩
          exact hj (by simp only [Op.touches] at e; exact e ▸ hm)
        · exact ⟨b, (live_snoc _ _ _ _).2 (Or.inl rfl)⟩
    | remove j => exact absurd trivial (hr (.remove j) (by simp))
    | rebuild =>
      simp only [step, Option.some.injEq] at hs; subst hs
      refine ⟨rebuild_synced c₀ i3, i2, i3, ?_⟩
      intro id hid
      obtain ⟨a, ha⟩ := i4 id hid
      exact ⟨a, (live_snoc _ _ _ _).2 (Or.inr ⟨ha, fun e => e⟩)⟩
    | clear =>
      simp only [step, Option.some.injEq] at hs; subst hs
      exact ⟨empty_synced, by simp [empty], by simp [empty], by simp [empty]⟩

theorem Synced.roundTrip {c : Cont α} (hs : c.Synced) :
    (∀ i id, c.idAt? i = some id → c.indexOf? id = some (i : Int)) ∧
    (∀ id ∈ c.ids, ∃ i : Nat, c.indexOf? id = some (i : Int) ∧ c.idAt? i = some id) := by
  refine ⟨fun i id h => (hs id i).2 h, fun id h => ?_⟩
  obtain ⟨i, hi⟩ := List.mem_iff_getElem?.1 h
  exact ⟨i, (hs id i).2 hi, hi⟩

theorem nextId_fresh (c : Cont α) (a : α) : c.get? c.nextId ≠ some a := by
  intro h
  have hk : c.nextId ∈ c.map.keys := (c.map.mem_keys _).2 (by simp only [get?] at h; rw [h]; rfl)
  unfold nextId at hk
  cases hm : c.map.maxKey? with
  | none =>
    have := (c.map.maxKey?_none).1 hm
    simp [SMap.keys, this] at hk
  | some k =>
    rw [hm] at hk
    have := c.map.le_of_maxKey? hm hk
    simp at this

end Cont
end ENigMA
