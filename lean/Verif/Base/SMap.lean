import Mathlib.Order.Defs.LinearOrder
import Mathlib.Order.Basic
import Mathlib.Data.List.Basic
import Mathlib.Tactic.SplitIfs
import Mathlib.Data.Int.Order.Basic

/-!
# `std::map` as a strictly sorted association list

`std::map<Key, T>` keeps its entries sorted by key, and iterating over it visits them in key order.
`SMap κ α` is that: an association list together with the proof that its keys are strictly increasing.
Modelled operations: `operator[]` used for writing (`insert`), `find`/`at`/`operator[]` used for reading
(`find?`; `none` is "key absent", i.e. the exception of `.at`), `erase(key)`, iteration (`entries`) and
in-place modification of the mapped values (`mapVal`).
-/

namespace ENigMA

/-- A `std::map<κ, α>`: entries sorted by strictly increasing key. -/
structure SMap (κ : Type) (α : Type*) [LinearOrder κ] where
  entries : List (κ × α)
  sorted : entries.Pairwise (fun a b => a.1 < b.1)

namespace SMap

variable {κ : Type} [LinearOrder κ] {α β : Type*}

/-- Lookup in an association list. -/
def findL (k : κ) : List (κ × α) → Option α
  | [] => none
  | (k', v) :: t => if k = k' then some v else findL k t

/-- Insert or overwrite in a sorted association list. -/
def insertL (k : κ) (v : α) : List (κ × α) → List (κ × α)
  | [] => [(k, v)]
  | (k', v') :: t =>
    if k < k' then (k, v) :: (k', v') :: t
    else if k = k' then (k, v) :: t
    else (k', v') :: insertL k v t

/-- Erase a key of an association list. -/
def eraseL (k : κ) : List (κ × α) → List (κ × α)
  | [] => []
  | (k', v') :: t => if k = k' then eraseL k t else (k', v') :: eraseL k t

theorem mem_insertL {k : κ} {v : α} {l : List (κ × α)} {p : κ × α} (h : p ∈ insertL k v l) :
    p = (k, v) ∨ p ∈ l := by
  induction l with
  | nil => simp_all [insertL]
  | cons q t ih =>
    obtain ⟨k', v'⟩ := q
    simp only [insertL] at h
    split_ifs at h with h1 h2
    · simp only [List.mem_cons] at h ⊢; tauto
    · simp only [List.mem_cons] at h ⊢; tauto
    · simp only [List.mem_cons] at h ⊢
      rcases h with h | h
      · tauto
      · rcases ih h with h | h <;> tauto

theorem mem_eraseL {k : κ} {l : List (κ × α)} {p : κ × α} (h : p ∈ eraseL k l) : p ∈ l := by
  induction l with
  | nil => simp [eraseL] at h
  | cons q t ih =>
    obtain ⟨k', v'⟩ := q
    simp only [eraseL] at h
    split_ifs at h with h1
    · exact List.mem_cons_of_mem _ (ih h)
    · simp only [List.mem_cons] at h ⊢
      rcases h with h | h
      · exact Or.inl h
      · exact Or.inr (ih h)

theorem sorted_insertL {k : κ} {v : α} {l : List (κ × α)}
    (h : l.Pairwise (fun a b => a.1 < b.1)) : (insertL k v l).Pairwise (fun a b => a.1 < b.1) := by
  induction l with
  | nil => simp [insertL]
  | cons q t ih =>
    obtain ⟨k', v'⟩ := q
    rw [List.pairwise_cons] at h
    simp only [insertL]
    split_ifs with h1 h2
    · refine List.pairwise_cons.2 ⟨?_, List.pairwise_cons.2 h⟩
      intro p hp
      rcases List.mem_cons.1 hp with hp | hp
      · subst hp; exact h1
      · exact lt_trans h1 (h.1 p hp)
    · subst h2; exact List.pairwise_cons.2 h
    · refine List.pairwise_cons.2 ⟨?_, ih h.2⟩
      intro p hp
      rcases mem_insertL hp with hp | hp
      · subst hp; exact lt_of_le_of_ne (not_lt.1 h1) (Ne.symm h2)
      · exact h.1 p hp

theorem sorted_eraseL {k : κ} {l : List (κ × α)}
    (h : l.Pairwise (fun a b => a.1 < b.1)) : (eraseL k l).Pairwise (fun a b => a.1 < b.1) := by
  induction l with
  | nil => simp [eraseL]
  | cons q t ih =>
    obtain ⟨k', v'⟩ := q
    rw [List.pairwise_cons] at h
    simp only [eraseL]
    split_ifs with h1
    · exact ih h.2
    · refine List.pairwise_cons.2 ⟨fun p hp => h.1 p (mem_eraseL hp), ih h.2⟩

/-- The empty map. -/
def empty : SMap κ α := ⟨[], List.Pairwise.nil⟩

/-- `m.find(k)` / `m.at(k)`; `none` when the key is absent. -/
def find? (m : SMap κ α) (k : κ) : Option α := findL k m.entries

/-- `m[k] = v`. -/
def insert (m : SMap κ α) (k : κ) (v : α) : SMap κ α := ⟨insertL k v m.entries, sorted_insertL m.sorted⟩

/-- `m.erase(k)`. -/
def erase (m : SMap κ α) (k : κ) : SMap κ α := ⟨eraseL k m.entries, sorted_eraseL m.sorted⟩

/-- The keys in iteration order. -/
def keys (m : SMap κ α) : List κ := m.entries.map (·.1)

/-- Modify every mapped value in place. -/
def mapVal (f : κ → α → β) (m : SMap κ α) : SMap κ β :=
  ⟨m.entries.map (fun p => (p.1, f p.1 p.2)), by
    rw [List.pairwise_map]; exact m.sorted⟩

/-- `m.rbegin()->first` when the map is not empty. -/
def maxKey? (m : SMap κ α) : Option κ := (m.entries.getLast?).map (·.1)

@[simp] theorem find?_empty (k : κ) : (empty : SMap κ α).find? k = none := rfl

theorem findL_eq_none_of_lt {k : κ} {l : List (κ × α)} (h : ∀ p ∈ l, k < p.1) : findL k l = none := by
  induction l with
  | nil => rfl
  | cons q t ih =>
    obtain ⟨k', v'⟩ := q
    have := h (k', v') (by simp)
    simp only [findL]
    rw [if_neg (ne_of_lt this)]
    exact ih (fun p hp => h p (by simp [hp]))

theorem findL_insertL_self (k : κ) (v : α) (l : List (κ × α)) : findL k (insertL k v l) = some v := by
  induction l with
  | nil => simp [insertL, findL]
  | cons q t ih =>
    obtain ⟨k', v'⟩ := q
    simp only [insertL]
    split_ifs with h1 h2
    · simp [findL]
    · simp [findL]
    · simp [findL, h2, ih]

theorem findL_insertL_ne {k j : κ} (v : α) (l : List (κ × α)) (hne : j ≠ k) :
    findL j (insertL k v l) = findL j l := by
  induction l with
  | nil => simp [insertL, findL, hne]
  | cons q t ih =>
    obtain ⟨k', v'⟩ := q
    simp only [insertL]
    split_ifs with h1 h2
    · simp [findL, hne]
    · subst h2; simp [findL, hne]
    · simp [findL, ih]

theorem findL_eraseL_self (k : κ) (l : List (κ × α)) : findL k (eraseL k l) = none := by
  induction l with
  | nil => rfl
  | cons q t ih =>
    obtain ⟨k', v'⟩ := q
    simp only [eraseL]
    split_ifs with h1
    · exact ih
    · simp [findL, h1, ih]

theorem findL_eraseL_ne {k j : κ} (l : List (κ × α)) (hne : j ≠ k) :
    findL j (eraseL k l) = findL j l := by
  induction l with
  | nil => rfl
  | cons q t ih =>
    obtain ⟨k', v'⟩ := q
    simp only [eraseL]
    split_ifs with h1
    · subst h1; simp [findL, hne, ih]
    · simp [findL, ih]

@[simp] theorem find?_insert_self (m : SMap κ α) (k : κ) (v : α) : (m.insert k v).find? k = some v :=
  findL_insertL_self k v m.entries

theorem find?_insert_ne (m : SMap κ α) {k j : κ} (v : α) (h : j ≠ k) :
    (m.insert k v).find? j = m.find? j := findL_insertL_ne v m.entries h

theorem find?_insert (m : SMap κ α) (k j : κ) (v : α) :
    (m.insert k v).find? j = if j = k then some v else m.find? j := by
  split_ifs with h
  · subst h; simp
  · exact find?_insert_ne m v h

@[simp] theorem find?_erase_self (m : SMap κ α) (k : κ) : (m.erase k).find? k = none :=
  findL_eraseL_self k m.entries

theorem find?_erase_ne (m : SMap κ α) {k j : κ} (h : j ≠ k) :
    (m.erase k).find? j = m.find? j := findL_eraseL_ne m.entries h

theorem find?_erase (m : SMap κ α) (k j : κ) :
    (m.erase k).find? j = if j = k then none else m.find? j := by
  split_ifs with h
  · subst h; simp
  · exact find?_erase_ne m h

theorem findL_some_mem {k : κ} {v : α} {l : List (κ × α)} (h : findL k l = some v) : (k, v) ∈ l := by
  induction l with
  | nil => simp [findL] at h
  | cons q t ih =>
    obtain ⟨k', v'⟩ := q
    simp only [findL] at h
    split_ifs at h with h1
    · subst h1; simp_all
    · exact List.mem_cons_of_mem _ (ih h)

theorem findL_of_mem {k : κ} {v : α} {l : List (κ × α)}
    (hs : l.Pairwise (fun a b => a.1 < b.1)) (h : (k, v) ∈ l) : findL k l = some v := by
  induction l with
  | nil => simp at h
  | cons q t ih =>
    obtain ⟨k', v'⟩ := q
    rw [List.pairwise_cons] at hs
    simp only [findL]
    rcases List.mem_cons.1 h with h | h
    · cases h; simp
    · rw [if_neg (ne_of_gt (hs.1 _ h))]; exact ih hs.2 h

theorem find?_eq_some_iff (m : SMap κ α) (k : κ) (v : α) : m.find? k = some v ↔ (k, v) ∈ m.entries :=
  ⟨findL_some_mem, findL_of_mem m.sorted⟩

theorem mem_keys (m : SMap κ α) (k : κ) : k ∈ m.keys ↔ (m.find? k).isSome := by
  constructor
  · intro h
    obtain ⟨⟨k', v⟩, hp, rfl⟩ := List.mem_map.1 h
    rw [(m.find?_eq_some_iff k' v).2 hp]; rfl
  · intro h
    obtain ⟨v, hv⟩ := Option.isSome_iff_exists.1 h
    exact List.mem_map.2 ⟨(k, v), (m.find?_eq_some_iff k v).1 hv, rfl⟩

theorem keys_sorted (m : SMap κ α) : m.keys.Pairwise (· < ·) := by
  unfold keys; rw [List.pairwise_map]; exact m.sorted

theorem keys_nodup (m : SMap κ α) : m.keys.Nodup :=
  (m.keys_sorted).imp (fun h => ne_of_lt h)

theorem findL_map (f : κ → α → β) (l : List (κ × α)) (k : κ) :
    findL k (l.map (fun p => (p.1, f p.1 p.2))) = (findL k l).map (f k) := by
  induction l with
  | nil => rfl
  | cons q t ih =>
    obtain ⟨k', v'⟩ := q
    simp only [List.map_cons, findL]
    split_ifs with h
    · subst h; rfl
    · exact ih

@[simp] theorem find?_mapVal (f : κ → α → β) (m : SMap κ α) (k : κ) :
    (m.mapVal f).find? k = (m.find? k).map (f k) := findL_map f m.entries k

@[simp] theorem keys_mapVal (f : κ → α → β) (m : SMap κ α) : (m.mapVal f).keys = m.keys := by
  simp [keys, mapVal, Function.comp_def]

/-- Two sorted association lists with the same lookups are equal. -/
theorem sorted_ext {l₁ l₂ : List (κ × α)} (h₁ : l₁.Pairwise (fun a b => a.1 < b.1))
    (h₂ : l₂.Pairwise (fun a b => a.1 < b.1)) (h : ∀ k, findL k l₁ = findL k l₂) : l₁ = l₂ := by
  induction l₁ generalizing l₂ with
  | nil =>
    cases l₂ with
    | nil => rfl
    | cons q t =>
      obtain ⟨k, v⟩ := q
      have := h k
      simp [findL] at this
  | cons p s ih =>
    obtain ⟨k, v⟩ := p
    cases l₂ with
    | nil =>
      have := h k
      simp [findL] at this
    | cons q t =>
      obtain ⟨k', v'⟩ := q
      rw [List.pairwise_cons] at h₁ h₂
      have hk : k = k' := by
        by_contra hne
        rcases lt_or_gt_of_ne hne with hlt | hlt
        · have := h k
          simp only [findL, if_true, if_neg hne] at this
          rw [findL_eq_none_of_lt (fun p hp => lt_trans hlt (h₂.1 p hp))] at this
          simp at this
        · have := h k'
          simp only [findL, if_true, if_neg (Ne.symm hne)] at this
          rw [findL_eq_none_of_lt (fun p hp => lt_trans hlt (h₁.1 p hp))] at this
          simp at this
      subst hk
      have hv : v = v' := by
        have := h k
        simpa [findL] using this
      subst hv
      congr 1
      refine ih h₁.2 h₂.2 (fun j => ?_)
      by_cases hj : j = k
      · subst hj
        rw [findL_eq_none_of_lt (fun p hp => h₁.1 p hp), findL_eq_none_of_lt (fun p hp => h₂.1 p hp)]
      · have := h j
        simpa [findL, hj] using this

/-- Maps are determined by their lookups. -/
theorem ext_find {m₁ m₂ : SMap κ α} (h : ∀ k, m₁.find? k = m₂.find? k) : m₁ = m₂ := by
  cases m₁ with
  | mk e₁ s₁ =>
    cases m₂ with
    | mk e₂ s₂ =>
      have : e₁ = e₂ := sorted_ext s₁ s₂ h
      subst this; rfl

theorem maxKey?_none (m : SMap κ α) : m.maxKey? = none ↔ m.entries = [] := by
  simp [maxKey?]

/-- `rbegin()->first` bounds every key. -/
theorem le_of_maxKey? (m : SMap κ α) {k j : κ} (h : m.maxKey? = some k) (hj : j ∈ m.keys) : j ≤ k := by
  obtain ⟨l, hl⟩ := m
  unfold maxKey? at h
  unfold keys at hj
  simp only [Option.map_eq_some_iff] at h
  obtain ⟨p, hp, rfl⟩ := h
  obtain ⟨q, hq, rfl⟩ := List.mem_map.1 hj
  obtain ⟨ys, rfl⟩ := List.getLast?_eq_some_iff.1 hp
  rw [List.pairwise_append] at hl
  rcases List.mem_append.1 hq with hq | hq
  · exact le_of_lt (hl.2.2 q hq p (by simp))
  · simp only [List.mem_singleton] at hq; subst hq; exact le_refl _

end SMap
end ENigMA
