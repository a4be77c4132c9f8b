import Verif.Geometry.VertexList

/-!
# C47: vertex list operations
-/

set_option linter.unusedSectionVars false

namespace ENigMA
open VertexList

variable {α : Type}

section dup
variable [DecidableEq α]

theorem uniqueFrom_head (a : α) (l : List α) : ∃ r, uniqueFrom a l = a :: r := by
  induction l with
  | nil => exact ⟨[], rfl⟩
  | cons b l ih =>
    unfold uniqueFrom
    split_ifs
    · exact ih
    · exact ⟨_, rfl⟩

theorem uniqueFrom_chain (a : α) (l : List α) : (uniqueFrom a l).IsChain (· ≠ ·) := by
  induction l generalizing a with
  | nil => exact List.isChain_singleton a
  | cons b l ih =>
    unfold uniqueFrom
    split_ifs with h
    · exact ih a
    · obtain ⟨r, hr⟩ := uniqueFrom_head b l
      have := ih b
      rw [hr] at this ⊢
      exact List.IsChain.cons_cons h this

theorem uniqueFrom_runs (a : α) (l : List α) :
    ∃ ks : List Nat, ks.length = (uniqueFrom a l).length ∧ (∀ k ∈ ks, 1 ≤ k) ∧
      (List.zipWith List.replicate ks (uniqueFrom a l)).flatten = a :: l := by
  induction l generalizing a with
  | nil => exact ⟨[1], rfl, by simp, rfl⟩
  | cons b l ih =>
    unfold uniqueFrom
    split_ifs with h
    · subst h
      obtain ⟨ks, h1, h2, h3⟩ := ih a
      obtain ⟨r, hr⟩ := uniqueFrom_head a l
      rw [hr] at h1 h3 ⊢
      cases ks with
      | nil => simp at h1
      | cons k ks =>
        refine ⟨(k + 1) :: ks, by simpa using h1, ?_, ?_⟩
        · intro j hj
          rcases List.mem_cons.1 hj with rfl | hj
          · omega
          · exact h2 j (by simp [hj])
        · simp only [List.zipWith_cons_cons, List.flatten_cons, List.replicate_succ, List.cons_append] at h3 ⊢
          rw [h3]
    · obtain ⟨ks, h1, h2, h3⟩ := ih b
      refine ⟨1 :: ks, by simp [h1], ?_, ?_⟩
      · intro j hj
        rcases List.mem_cons.1 hj with rfl | hj
        · exact le_rfl
        · exact h2 j hj
      · simp [h3]

/-- **C47.** `removeDuplicates()` leaves no two equal consecutive vertices, and it only deletes repetitions: the
original list is obtained from the result by repeating each vertex at least once. -/
theorem C47_removeDuplicates (vs : List α) :
    (removeDuplicates vs).IsChain (· ≠ ·) ∧
      ∃ ks : List Nat, ks.length = (removeDuplicates vs).length ∧ (∀ k ∈ ks, 1 ≤ k) ∧
        (List.zipWith List.replicate ks (removeDuplicates vs)).flatten = vs := by
  cases vs with
  | nil => exact ⟨by simp [removeDuplicates], [], rfl, by simp, rfl⟩
  | cons a l => exact ⟨uniqueFrom_chain a l, uniqueFrom_runs a l⟩

example : removeDuplicates [1, 1, 2, 2, 2, 1, 3, 3] = [1, 2, 1, 3] := by decide

/-- A list without equal neighbours is left alone (so the operation is idempotent). -/
theorem C47_removeDuplicates_fixed (vs : List α) (h : vs.IsChain (· ≠ ·)) : removeDuplicates vs = vs := by
  cases vs with
  | nil => rfl
  | cons a l =>
    show uniqueFrom a l = a :: l
    induction l generalizing a with
    | nil => rfl
    | cons b l ih =>
      unfold uniqueFrom
      rw [List.isChain_cons_cons] at h
      rw [if_neg h.1, ih b h.2]

example : ([1, 2, 1, 3] : List Nat).IsChain (· ≠ ·) := by decide

end dup

/-- **C47.** `invert()` reads the vertices backwards, and inverting twice restores the list. -/
theorem C47_invert (vs : List α) :
    (invert vs).length = vs.length ∧ (∀ i < vs.length, (invert vs)[i]? = vs[vs.length - 1 - i]?) ∧
      invert (invert vs) = vs := by
  refine ⟨by simp [invert], fun i hi => ?_, by simp [invert]⟩
  unfold invert
  rw [List.getElem?_reverse hi]

/-- The in-place loop of `removeCollinear` has compacted, into positions `1 .. j-1`, the interior vertices with
index below `i` that are kept, judged by their neighbours in the original list; positions from `j` on that are at
least `i - 1` still hold the original vertices. -/
theorem collinearLoop_spec (keep : α → α → α → Bool) (vs : List α) (a0 : α) (k i : Nat) (ws : List α) (j : Nat)
    (hi : 1 ≤ i) (hik : i + k + 1 = vs.length) (hj1 : 1 ≤ j) (hji : j ≤ i) (hlen : ws.length = vs.length)
    (horig : ∀ m : Nat, i - 1 ≤ m → ws[m]? = vs[m]?) (h0 : vs[0]? = some a0) (hw0 : ws[0]? = some a0)
    (f : Nat → Bool)
    (hf : ∀ m, ∀ p c n, vs[m - 1]? = some p → vs[m]? = some c → vs[m + 1]? = some n → f m = keep p c n) :
    ∃ ws' j', collinearLoop keep k i ws j = some (ws', j') ∧ ws'.length = vs.length ∧ j ≤ j' ∧ j' ≤ i + k ∧
      ws'[vs.length - 1]? = vs[vs.length - 1]? ∧
      ws'.take j' = ws.take j ++ (((List.range' i k).filter f).filterMap (fun m => vs[m]?)) := by
  induction k generalizing i ws j with
  | zero =>
    refine ⟨ws, j, rfl, hlen, le_rfl, hji, horig _ (by omega), by simp⟩
  | succ k ih =>
    have hin : i + 1 < vs.length := by omega
    obtain ⟨n, hn⟩ : ∃ n, vs[i + 1]? = some n := ⟨_, List.getElem?_eq_getElem hin⟩
    obtain ⟨c, hc⟩ : ∃ n, vs[i]? = some n := ⟨_, List.getElem?_eq_getElem (by omega)⟩
    obtain ⟨p, hp⟩ : ∃ n, vs[i - 1]? = some n := ⟨_, List.getElem?_eq_getElem (by omega)⟩
    have e1 : ws[(i + 1) % ws.length]? = some n := by
      rw [Nat.mod_eq_of_lt (by omega), horig _ (by omega), hn]
    have e2 : ws[i % ws.length]? = some c := by
      rw [Nat.mod_eq_of_lt (by omega), horig _ (by omega), hc]
    have e3 : ws[(i - 1) % ws.length]? = some p := by
      rw [Nat.mod_eq_of_lt (by omega), horig _ (by omega), hp]
    have hfi := hf i p c n hp hc hn
    unfold collinearLoop
    simp only [e1, e2, e3, Option.bind_eq_bind, Option.bind_some]
    by_cases hk : keep p c n = true
    · rw [if_pos hk, if_pos (by omega : j < ws.length)]
      obtain ⟨ws', j', h1, h2, h3, h4, h5, h6⟩ := ih (i + 1) (ws.set j c) (j + 1) (by omega) (by omega) (by omega)
        (by omega) (by simpa using hlen) (by
          intro m hm
          by_cases hmj : m = j
          · subst hmj
            have : m = i := by omega
            subst this
            rw [List.getElem?_set_self (by omega), hc]
          · rw [List.getElem?_set_ne (Ne.symm hmj)]
            exact horig m (by omega))
        (by rw [List.getElem?_set_ne (by omega)]; exact hw0)
      refine ⟨ws', j', h1, h2, by omega, by omega, h5, ?_⟩
      rw [h6, List.range'_succ, List.filter_cons, if_pos (by rw [hfi]; exact hk), List.filterMap_cons, hc]
      have : (ws.set j c).take (j + 1) = ws.take j ++ [c] := by
        rw [List.take_add_one, List.getElem?_set_self (by omega), List.take_set_of_le le_rfl]
        rfl
      rw [this, List.append_assoc]
      rfl
    · rw [if_neg hk]
      obtain ⟨ws', j', h1, h2, h3, h4, h5, h6⟩ := ih (i + 1) ws j (by omega) (by omega) hj1
        (by omega) hlen (fun m hm => horig m (by omega)) hw0
      refine ⟨ws', j', h1, h2, h3, by omega, h5, ?_⟩
      rw [h6, List.range'_succ, List.filter_cons, if_neg (by rw [hfi]; exact hk)]

/-- **C47.** `removeCollinear` on a list of at least two vertices never reads or writes out of bounds; its result
is the first vertex, then the interior vertices whose turn (between their neighbours in the original list) is kept,
in order, then the last vertex. -/
theorem C47_removeCollinear (keep : α → α → α → Bool) (vs : List α) (h2 : 2 ≤ vs.length) (f : Nat → Bool)
    (hf : ∀ m, ∀ p c n, vs[m - 1]? = some p → vs[m]? = some c → vs[m + 1]? = some n → f m = keep p c n) :
    ∃ first last, vs.head? = some first ∧ vs.getLast? = some last ∧
      removeCollinear keep vs = some
        (first :: ((List.range' 1 (vs.length - 2)).filter f).filterMap (fun m => vs[m]?) ++ [last]) := by
  obtain ⟨a0, h0⟩ : ∃ n, vs[0]? = some n := ⟨_, List.getElem?_eq_getElem (by omega)⟩
  obtain ⟨an, hn⟩ : ∃ n, vs[vs.length - 1]? = some n := ⟨_, List.getElem?_eq_getElem (by omega)⟩
  obtain ⟨ws, j, h1, hl, hj, hj', hlast, htake⟩ := collinearLoop_spec keep vs a0 (vs.length - 2) 1 vs 1 le_rfl
    (by omega) le_rfl le_rfl rfl (fun _ _ => rfl) h0 h0 f hf
  refine ⟨a0, an, by rw [List.head?_eq_getElem?]; exact h0, by rw [List.getLast?_eq_getElem?]; exact hn, ?_⟩
  unfold removeCollinear
  rw [if_neg (by omega), h1]
  simp only [Option.bind_eq_bind, Option.bind_some]
  rw [hl, hlast, hn]
  simp only [Option.bind_some]
  rw [if_pos (by omega)]
  congr 1
  rw [List.take_add_one, List.getElem?_set_self (by omega), List.take_set_of_le le_rfl, htake]
  congr 1
  cases vs with
  | nil => simp at h2
  | cons a l =>
    have : a = a0 := by simpa using h0
    subst this
    simp

/-- A concrete run: with "keep when the turn is not straight" on integers standing for directions. -/
example : removeCollinear (fun p c n : Int => decide (n - c ≠ c - p)) [0, 1, 2, 5, 8, 9] = some [0, 2, 8, 9] := by
  decide

/-- The in-bounds claim fails for a list with one vertex: the closing write goes to position 1 of an array of
size 1 (undefined behaviour in the source). -/
theorem C47_removeCollinear_single (keep : α → α → α → Bool) (a : α) : removeCollinear keep [a] = none := rfl

/-- **C47.** The cyclic accessor never fails on a non-empty list and reads position `i mod n`. -/
theorem C47_vertex (vs : List α) (h : vs ≠ []) (i : Nat) :
    ∃ v, vertex vs i = some v ∧ vs[i % vs.length]? = some v ∧ ∀ k, vertex vs (i + k * vs.length) = some v := by
  have hl : i % vs.length < vs.length := Nat.mod_lt _ (List.length_pos_iff.2 h)
  refine ⟨_, List.getElem?_eq_getElem hl, List.getElem?_eq_getElem hl, fun k => ?_⟩
  unfold vertex
  rw [Nat.add_mul_mod_self_right]
  exact List.getElem?_eq_getElem hl

/-- The empty list makes the accessor throw. -/
theorem C47_vertex_empty (i : Nat) : vertex ([] : List α) i = none := rfl

/-- **C47.** `insertVertex` then `removeVertex` at the same place restores the list. -/
theorem C47_insert_remove (vs : List α) (i : Nat) (v : α) (h : i ≤ vs.length) :
    (insertVertex vs i v).bind (fun ws => removeVertex ws i) = some vs ∧
      ∃ ws, insertVertex vs i v = some ws ∧ ws[i]? = some v ∧ ws.length = vs.length + 1 ∧
        (∀ k < i, ws[k]? = vs[k]?) ∧ ∀ k, i ≤ k → ws[k + 1]? = vs[k]? := by
  have hl : (vs.take i).length = i := by rw [List.length_take]; omega
  unfold insertVertex
  rw [if_pos h]
  refine ⟨?_, _, rfl, ?_, ?_, ?_, ?_⟩
  · unfold removeVertex
    simp only [Option.bind_some]
    rw [if_pos (by simp; omega)]
    congr 1
    have hd : (vs.take i ++ v :: vs.drop i).drop (i + 1) = vs.drop i := by
      rw [List.drop_append, hl, List.drop_eq_nil_of_le (by omega), show i + 1 - i = 1 by omega]
      rfl
    rw [List.take_append_of_le_length (by omega), List.take_take, Nat.min_self, hd, List.take_append_drop]
  · rw [List.getElem?_append_right (by omega), hl]; simp
  · simp; omega
  · intro k hk
    rw [List.getElem?_append_left (by omega), List.getElem?_take_of_lt hk]
  · intro k hk
    rw [List.getElem?_append_right (by omega), hl, show k + 1 - i = (k - i) + 1 by omega,
      List.getElem?_cons_succ, List.getElem?_drop, show i + (k - i) = k by omega]

end ENigMA
