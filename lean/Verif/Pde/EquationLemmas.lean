import Verif.Pde.Equation
import Mathlib.Tactic.Ring
import Mathlib.Tactic.Linarith
import Mathlib.Algebra.BigOperators.Group.Finset.Piecewise

/-! # Lemmas for `CPdeEquation` -/

set_option linter.unusedSectionVars false

namespace ENigMA
namespace Equation
variable {K : Type} [Field K]

/-! ### Free indices and ranks -/

/-- Elements of `0 … n-1` satisfying `q`. -/
def sel (q : Nat → Bool) (n : Nat) : List Nat := (List.range n).filter q

/-- Number of elements below `i` satisfying `q`. -/
def rank (q : Nat → Bool) (i : Nat) : Nat := (sel q i).length

theorem sel_succ (q : Nat → Bool) (n : Nat) : sel q (n + 1) = sel q n ++ if q n then [n] else [] := by
  unfold sel
  rw [List.range_succ, List.filter_append]
  congr 1
  by_cases h : q n <;> simp [h]

theorem rank_succ (q : Nat → Bool) (n : Nat) : rank q (n + 1) = rank q n + if q n then 1 else 0 := by
  unfold rank
  rw [sel_succ]
  by_cases h : q n <;> simp [h]

theorem sel_get {q : Nat → Bool} {n i : Nat} (hi : i < n) (h : q i = true) : (sel q n)[rank q i]? = some i := by
  induction n with
  | zero => omega
  | succ n ih =>
    rw [sel_succ]
    rcases Nat.lt_succ_iff_lt_or_eq.1 hi with h' | rfl
    · have := ih h'
      have hlt := (List.getElem?_eq_some_iff.1 this).1
      rw [List.getElem?_append_left hlt, this]
    · rw [List.getElem?_append_right (by exact le_refl _)]
      simp [rank, h]

theorem rank_lt {q : Nat → Bool} {n i : Nat} (hi : i < n) (h : q i = true) : rank q i < rank q n :=
  (List.getElem?_eq_some_iff.1 (sel_get hi h)).1

theorem rank_inj {q : Nat → Bool} {i j : Nat} (hi : q i = true) (hj : q j = true) (h : rank q i = rank q j) : i = j := by
  have h1 := sel_get (n := i + j + 1) (by omega) hi
  have h2 := sel_get (n := i + j + 1) (by omega) hj
  rw [h, h2] at h1
  simpa using h1.symm

theorem mem_sel {q : Nat → Bool} {n i : Nat} : i ∈ sel q n ↔ i < n ∧ q i = true := by simp [sel]

theorem sel_rank {q : Nat → Bool} {n k : Nat} (hk : k < rank q n) : ∃ i, i < n ∧ q i = true ∧ rank q i = k ∧ (sel q n)[k]? = some i := by
  have hk' : k < (sel q n).length := hk
  have hm := mem_sel.1 (List.getElem_mem hk')
  refine ⟨(sel q n)[k], hm.1, hm.2, ?_, List.getElem?_eq_getElem hk'⟩
  have hnd : (sel q n).Nodup := List.nodup_range.filter _
  have h1 := sel_get hm.1 hm.2
  have h2 : (sel q n)[k]? = some (sel q n)[k] := List.getElem?_eq_getElem hk'
  have h3 := (List.getElem?_eq_some_iff.1 h1).1
  have h4 := (List.getElem?_eq_some_iff.1 h1).2
  exact (List.Nodup.getElem_inj_iff hnd).1 h4

theorem oldToNew_eq (q : Nat → Bool) (m : Nat) : ∀ i, oldToNew ((List.range' i m).map fun j => !q j) (rank q i) =
    ((List.range' i m).map (rank q), rank q (i + m)) := by
  induction m with
  | zero => intro i; rfl
  | succ m ih =>
    intro i
    rw [List.range'_succ, List.map_cons, oldToNew]
    have : (if (!q i) = true then rank q i else rank q i + 1) = rank q (i + 1) := by
      rw [rank_succ]; cases q i <;> simp
    simp only [this, ih (i + 1), List.map_cons]
    congr 2
    omega

theorem newToOld_eq (q : Nat → Bool) (m : Nat) : ∀ i, newToOld ((List.range' i m).map fun j => !q j) i =
    (List.range' i m).filter q := by
  induction m with
  | zero => intro i; rfl
  | succ m ih =>
    intro i
    rw [List.range'_succ, List.map_cons, newToOld, ih, List.filter_cons]
    cases q i <;> simp

/-! ### Loops -/

theorem penaltyLoop_spec (p : K) (l : List (Int × K)) (hnd : (l.map (·.1)).Nodup) : ∀ s : Sys K, (∀ e ∈ l, InRange e.1 s.n) →
    ∃ s', penaltyLoop p l s = some s' ∧ s'.n = s.n ∧ s'.kind = s.kind ∧
      (∀ i : Nat, (∀ e ∈ l, e.1 ≠ (i : Int)) → s'.b i = s.b i ∧ ∀ j, s'.A i j = s.A i j) ∧
      (∀ (i : Nat) v, ((i : Int), v) ∈ l → s'.b i = p * v ∧ ∀ j, s'.A i j = if j = i then p else s.A i j) := by
  induction l with
  | nil => intro s _; exact ⟨s, rfl, rfl, rfl, by simp, by simp⟩
  | cons e t ih =>
    obtain ⟨k, w⟩ := e
    intro s hs
    rw [List.map_cons, List.nodup_cons] at hnd
    have hk : InRange k s.n := hs (k, w) (by simp)
    obtain ⟨k', rfl⟩ := Int.eq_ofNat_of_zero_le hk.1
    obtain ⟨s', h1, h2, h3, h4, h5⟩ := ih hnd.2 { s with
        A := fun r c => if r = (k' : Int).toNat ∧ c = (k' : Int).toNat then p else s.A r c
        b := fun r => if r = (k' : Int).toNat then p * w else s.b r } (fun e he => hs e (by simp [he]))
    refine ⟨s', by rw [penaltyLoop, if_pos hk]; exact h1, h2, h3, ?_, ?_⟩
    · intro i hi
      have hik : i ≠ k' := by
        have := hi _ (List.mem_cons_self ..)
        simp only at this
        omega
      obtain ⟨a, b⟩ := h4 i (fun e he => hi e (by simp [he]))
      refine ⟨by rw [a]; simp [hik], fun j => by rw [b]; simp [hik]⟩
    · intro i v hv
      rcases List.mem_cons.1 hv with hv | hv
      · simp only [Prod.mk.injEq] at hv
        obtain ⟨hik, rfl⟩ := hv
        have hik : i = k' := by omega
        subst hik
        obtain ⟨a, b⟩ := h4 i (fun e he h => hnd.1 (List.mem_map.2 ⟨e, he, h⟩))
        refine ⟨by rw [a]; simp, fun j => by rw [b]; simp⟩
      · obtain ⟨a, b⟩ := h5 i v hv
        have hik : i ≠ k' := by
          intro hik
          exact hnd.1 (List.mem_map.2 ⟨_, hv, by simp [hik]⟩)
        refine ⟨a, fun j => ?_⟩
        rw [b]; simp [hik]

theorem sourceLoop_spec (l : List (Int × K)) (hnd : (l.map (·.1)).Nodup) : ∀ s : Sys K, (∀ e ∈ l, InRange e.1 s.n) →
    ∃ s', sourceLoop l s = some s' ∧ s'.n = s.n ∧ s'.kind = s.kind ∧ s'.A = s.A ∧
      (∀ i : Nat, (∀ e ∈ l, e.1 ≠ (i : Int)) → s'.b i = s.b i) ∧
      (∀ (i : Nat) v, ((i : Int), v) ∈ l → s'.b i = s.b i + v) := by
  induction l with
  | nil => intro s _; exact ⟨s, rfl, rfl, rfl, rfl, by simp, by simp⟩
  | cons e t ih =>
    obtain ⟨k, w⟩ := e
    intro s hs
    rw [List.map_cons, List.nodup_cons] at hnd
    have hk : InRange k s.n := hs (k, w) (by simp)
    obtain ⟨k', rfl⟩ := Int.eq_ofNat_of_zero_le hk.1
    obtain ⟨s', h1, h2, h3, h3', h4, h5⟩ := ih hnd.2 { s with
        b := fun r => if r = (k' : Int).toNat then s.b r + w else s.b r } (fun e he => hs e (by simp [he]))
    refine ⟨s', by rw [sourceLoop, if_pos hk]; exact h1, h2, h3, h3', ?_, ?_⟩
    · intro i hi
      have hik : i ≠ k' := by
        have := hi _ (List.mem_cons_self ..)
        simp only at this
        omega
      rw [h4 i (fun e he => hi e (by simp [he]))]; simp [hik]
    · intro i v hv
      rcases List.mem_cons.1 hv with hv | hv
      · simp only [Prod.mk.injEq] at hv
        obtain ⟨hik, rfl⟩ := hv
        have hik : i = k' := by omega
        subst hik
        rw [h4 i (fun e he h => hnd.1 (List.mem_map.2 ⟨e, he, h⟩))]; simp
      · have hik : i ≠ k' := by
          intro hik
          exact hnd.1 (List.mem_map.2 ⟨_, hv, by simp [hik]⟩)
        rw [h5 i v hv]; simp [hik]

theorem setFixedLoop_spec (l : List (Int × K)) (hnd : (l.map (·.1)).Nodup) : ∀ u : EVec K, (∀ e ∈ l, InRange e.1 u.size) →
    ∃ u', setFixedLoop l u = some u' ∧ u'.size = u.size ∧
      (∀ i : Nat, (∀ e ∈ l, e.1 ≠ (i : Int)) → u'.at' i = u.at' i) ∧
      (∀ (i : Nat) v, ((i : Int), v) ∈ l → u'.at' i = v) := by
  induction l with
  | nil => intro s _; exact ⟨s, rfl, rfl, by simp, by simp⟩
  | cons e t ih =>
    obtain ⟨k, w⟩ := e
    intro s hs
    rw [List.map_cons, List.nodup_cons] at hnd
    have hk : InRange k s.size := hs (k, w) (by simp)
    obtain ⟨k', rfl⟩ := Int.eq_ofNat_of_zero_le hk.1
    obtain ⟨s', h1, h2, h4, h5⟩ := ih hnd.2 { s with
        at' := fun r => if r = (k' : Int).toNat then w else s.at' r } (fun e he => hs e (by simp [he]))
    refine ⟨s', by rw [setFixedLoop, if_pos hk]; exact h1, h2, ?_, ?_⟩
    · intro i hi
      have hik : i ≠ k' := by
        have := hi _ (List.mem_cons_self ..)
        simp only at this
        omega
      rw [h4 i (fun e he => hi e (by simp [he]))]; simp [hik]
    · intro i v hv
      rcases List.mem_cons.1 hv with hv | hv
      · simp only [Prod.mk.injEq] at hv
        obtain ⟨hik, rfl⟩ := hv
        have hik : i = k' := by omega
        subst hik
        rw [h4 i (fun e he h => hnd.1 (List.mem_map.2 ⟨e, he, h⟩))]; simp
      · exact h5 i v hv

/-- The first loop of `setElimination`. -/
theorem elimLoop_spec (l : List (Int × K)) : ∀ (s : Sys K) (del : List Bool), (∀ e ∈ l, InRange e.1 s.n) → del.length = s.n →
    ∃ s' del', elimLoop l (s, del) = some (s', del') ∧ s'.n = s.n ∧ s'.kind = s.kind ∧ s'.A = s.A ∧
      (∀ r, s'.b r = s.b r - (l.map fun e => s.A r e.1.toNat * e.2).sum) ∧
      del'.length = s.n ∧ (∀ i : Nat, i < s.n → del'[i]? = if ∃ e ∈ l, e.1 = (i : Int) then some true else del[i]?) := by
  induction l with
  | nil =>
    intro s del _ hd
    exact ⟨s, del, rfl, rfl, rfl, rfl, by simp, hd, by simp⟩
  | cons e t ih =>
    obtain ⟨k, w⟩ := e
    intro s del hs hd
    have hk : InRange k s.n := hs (k, w) (by simp)
    obtain ⟨k', rfl⟩ := Int.eq_ofNat_of_zero_le hk.1
    have hk' : k' < s.n := by have := hk.2; omega
    obtain ⟨s', del', h1, h2, h3, h4, h5, h6, h7⟩ := ih { s with b := fun r => s.b r - s.A r (k' : Int).toNat * w }
      (del.set (k' : Int).toNat true) (fun e he => hs e (by simp [he])) (by simpa using hd)
    refine ⟨s', del', by rw [elimLoop, if_pos ⟨hk, by rw [hd]; exact hk⟩]; exact h1, h2, h3, h4, ?_, h6, ?_⟩
    · intro r
      rw [h5]
      simp only [List.map_cons, List.sum_cons]
      ring
    · intro i hi
      rw [h7 i hi]
      simp only [List.mem_cons, exists_eq_or_imp, Int.toNat_natCast]
      by_cases hik : i = k'
      · subst hik
        simp [List.getElem?_set, hd, hk']
      · have : ¬ ((k' : Int) = (i : Int)) := by omega
        have hki : ¬ k' = i := fun h => hik h.symm
        simp only [List.getElem?_set, if_neg hki, this, false_or]

theorem copyB_spec (s : Sys K) (q : Nat → Bool) (n : Nat) (l : List Nat) (hl : ∀ i ∈ l, i < n) : ∀ b : Nat → K,
    ∃ b', copyB s ((List.range n).map fun j => !q j) ((List.range n).map (rank q)) (rank q n) l b = some b' ∧
      (∀ i ∈ l, q i = true → b' (rank q i) = s.b i) ∧
      (∀ k, (∀ i ∈ l, q i = true → rank q i ≠ k) → b' k = b k) := by
  induction l with
  | nil => intro b; exact ⟨b, rfl, by simp, by simp⟩
  | cons i t ih =>
    intro b
    have hi := hl i (by simp)
    have ih := ih (fun j hj => hl j (by simp [hj]))
    have g1 : ((List.range n).map fun j => !q j)[i]? = some (!q i) := by simp [hi]
    have g2 : ((List.range n).map (rank q))[i]? = some (rank q i) := by simp [hi]
    cases hq : q i with
    | false =>
      obtain ⟨b', h1, h2, h3⟩ := ih b
      refine ⟨b', by simp only [copyB, g1, hq, Option.bind_eq_bind, Option.bind_some]; exact h1, ?_, ?_⟩
      · intro j hj hqj
        rcases List.mem_cons.1 hj with rfl | hj
        · rw [hq] at hqj; simp at hqj
        · exact h2 j hj hqj
      · intro k hk; exact h3 k (fun j hj => hk j (by simp [hj]))
    | true =>
      obtain ⟨b', h1, h2, h3⟩ := ih (fun k => if k = rank q i then s.b i else b k)
      refine ⟨b', ?_, ?_, ?_⟩
      · simp only [copyB, g1, g2, hq, Option.bind_eq_bind, Option.bind_some, Bool.not_true, Bool.not_false, if_true,
          if_pos (rank_lt hi hq)]
        exact h1
      · intro j hj hqj
        by_cases hjt : j ∈ t
        · exact h2 j hjt hqj
        · rcases List.mem_cons.1 hj with rfl | hj
          · rw [h3 _ (fun k hk hqk h => hjt (rank_inj hqk hqj h ▸ hk))]; simp
          · exact absurd hj hjt
      · intro k hk
        rw [h3 k (fun j hj => hk j (by simp [hj])), if_neg (fun h => hk i (by simp) hq h.symm)]

theorem copyA_spec (s : Sys K) (q : Nat → Bool) (n : Nat) (l : List (Nat × Nat)) (hl : ∀ p ∈ l, p.1 < n ∧ p.2 < n) :
    ∀ a : Nat → Nat → K,
    ∃ a', copyA s ((List.range n).map fun j => !q j) ((List.range n).map (rank q)) (rank q n) l a = some a' ∧
      (∀ p ∈ l, q p.1 = true → q p.2 = true → a' (rank q p.1) (rank q p.2) = s.A p.1 p.2) ∧
      (∀ k m, (∀ p ∈ l, q p.1 = true → q p.2 = true → ¬ (rank q p.1 = k ∧ rank q p.2 = m)) → a' k m = a k m) := by
  induction l with
  | nil => intro a; exact ⟨a, rfl, by simp, by simp⟩
  | cons p t ih =>
    obtain ⟨i, j⟩ := p
    intro a
    obtain ⟨hi, hj⟩ := hl (i, j) (by simp)
    simp only at hi hj
    have ih := ih (fun p hp => hl p (by simp [hp]))
    have g1 : ((List.range n).map fun j => !q j)[i]? = some (!q i) := by simp [hi]
    have g2 : ((List.range n).map (rank q))[i]? = some (rank q i) := by simp [hi]
    have g3 : ((List.range n).map fun j => !q j)[j]? = some (!q j) := by simp [hj]
    have g4 : ((List.range n).map (rank q))[j]? = some (rank q j) := by simp [hj]
    by_cases hq : q i = true ∧ q j = true
    · obtain ⟨hqi, hqj⟩ := hq
      obtain ⟨a', h1, h2, h3⟩ := ih (fun k l => if k = rank q i ∧ l = rank q j then s.A i j else a k l)
      refine ⟨a', ?_, ?_, ?_⟩
      · simp only [copyA, g1, g2, g3, g4, hqi, hqj, Option.bind_eq_bind, Option.bind_some, Bool.not_true, Bool.not_false,
          Bool.and_self, if_true, if_pos (And.intro (rank_lt hi hqi) (rank_lt hj hqj))]
        exact h1
      · intro p hp hp1 hp2
        by_cases hpt : p ∈ t
        · exact h2 p hpt hp1 hp2
        · rcases List.mem_cons.1 hp with rfl | hp
          · rw [h3 _ _ (fun p' hp' q1 q2 h => hpt (by
              have e1 := rank_inj q1 hqi h.1
              have e2 := rank_inj q2 hqj h.2
              have : p' = (i, j) := Prod.ext e1 e2
              exact this ▸ hp'))]
            simp
          · exact absurd hp hpt
      · intro k m hk
        rw [h3 k m (fun p hp => hk p (by simp [hp])), if_neg (fun h => hk (i, j) (by simp) hqi hqj ⟨h.1.symm, h.2.symm⟩)]
    · obtain ⟨a', h1, h2, h3⟩ := ih a
      refine ⟨a', ?_, ?_, ?_⟩
      · have : (!(!q i) && !(!q j)) = false := by
          cases hi' : q i <;> cases hj' : q j <;> simp [hi', hj'] at hq ⊢
        simp only [copyA, g1, g3, Option.bind_eq_bind, Option.bind_some, this, Bool.false_eq_true, if_false]
        exact h1
      · intro p hp hp1 hp2
        rcases List.mem_cons.1 hp with rfl | hp
        · exact absurd ⟨hp1, hp2⟩ hq
        · exact h2 p hp hp1 hp2
      · intro k m hk; exact h3 k m (fun p hp => hk p (by simp [hp]))

theorem scatter_spec (x : EVec K) (q : Nat → Bool) (n : Nat) (l : List Nat) (hl : ∀ k ∈ l, k < rank q n) : ∀ u : EVec K, u.size = n →
    ∃ u', scatter x (sel q n) l u = some u' ∧ u'.size = n ∧
      (∀ i < n, q i = true → rank q i ∈ l → u'.at' i = x.at' (rank q i)) := by
  induction l with
  | nil => intro u hu; exact ⟨u, rfl, hu, by simp⟩
  | cons k t ih =>
    intro u hu
    obtain ⟨i, hi, hqi, hri, hget⟩ := sel_rank (hl k (by simp))
    -- the value written is kept unless it is written again with the same value
    have key : ∀ (t : List Nat), (∀ k ∈ t, k < rank q n) → ∀ u : EVec K, u.size = n → u.at' i = x.at' k →
        ∀ u', scatter x (sel q n) t u = some u' → u'.at' i = x.at' k := by
      intro t
      induction t with
      | nil => intro _ u _ h u' hu'; simp only [scatter, Option.some.injEq] at hu'; rw [← hu', h]
      | cons m t iht =>
        intro ht u hsz hu u' hu'
        obtain ⟨i', hi', hqi', hri', hget'⟩ := sel_rank (ht m (by simp))
        simp only [scatter, hget', Option.getD_some, hsz, if_pos hi'] at hu'
        refine iht (fun k hk => ht k (by simp [hk])) _ ?_ ?_ u' hu'
        · rfl
        · simp only
          split_ifs with h
          · subst h; rw [hri] at hri'; rw [hri']
          · exact hu
    obtain ⟨u', h1, h2, h3⟩ := ih (fun k hk => hl k (by simp [hk]))
      { u with at' := fun m => if m = i then x.at' k else u.at' m } hu
    refine ⟨u', ?_, h2, ?_⟩
    · rw [← h1]
      simp only [scatter, hget, Option.getD_some, hu, if_pos hi]
    · intro j hj hqj hmem
      by_cases hjt : rank q j ∈ t
      · exact h3 j hj hqj hjt
      · rcases List.mem_cons.1 hmem with h | h
        · have hji : j = i := rank_inj hqj hqi (h.trans hri.symm)
          subst hji
          rw [h]
          exact key t (fun k hk => hl k (by simp [hk])) _ (by exact hu) (by simp) u' h1
        · exact absurd h hjt

/-! ### Sums -/

theorem sum_sel (q : Nat → Bool) (g : Nat → K) (n : Nat) :
    ∑ k ∈ Finset.range (rank q n), g ((sel q n)[k]?.getD 0) = ∑ j ∈ Finset.range n, if q j then g j else 0 := by
  induction n with
  | zero => rfl
  | succ n ih =>
    rw [Finset.sum_range_succ, ← ih, rank_succ, sel_succ]
    cases hq : q n with
    | false => simp
    | true =>
      simp only [if_true, Finset.sum_range_succ]
      congr 1
      · apply Finset.sum_congr rfl
        intro k hk
        rw [Finset.mem_range] at hk
        rw [List.getElem?_append_left hk]
      · simp [rank]

theorem sum_entries (l : List (Int × K)) (hnd : (l.map (·.1)).Nodup) (n : Nat) (hl : ∀ e ∈ l, InRange e.1 n) (h : Nat → K → K) :
    (l.map fun e => h e.1.toNat e.2).sum = ∑ j ∈ Finset.range n, (match SMap.findL (j : Int) l with | some v => h j v | none => 0) := by
  induction l with
  | nil => simp [SMap.findL]
  | cons e t ih =>
    obtain ⟨k, w⟩ := e
    rw [List.map_cons, List.nodup_cons] at hnd
    have hk : InRange k n := hl (k, w) (by simp)
    obtain ⟨k', rfl⟩ := Int.eq_ofNat_of_zero_le hk.1
    have hk' : k' < n := by have := hk.2; omega
    rw [List.map_cons, List.sum_cons, ih hnd.2 (fun e he => hl e (by simp [he]))]
    have hnone : SMap.findL (k' : Int) t = none := by
      cases hx : SMap.findL (k' : Int) t with
      | none => rfl
      | some v => exact absurd (List.mem_map.2 ⟨_, SMap.findL_some_mem hx, rfl⟩) hnd.1
    have hterm : ∀ j ∈ Finset.range n, (match SMap.findL (j : Int) (((k' : Int), w) :: t) with | some v => h j v | none => 0) =
        (if j = k' then h k' w else 0) + (match SMap.findL (j : Int) t with | some v => h j v | none => 0) := by
      intro j _
      by_cases hj : j = k'
      · subst hj; simp [SMap.findL, hnone]
      · have : ¬ ((j : Int) = (k' : Int)) := by omega
        simp [SMap.findL, this, hj]
    rw [Finset.sum_congr rfl hterm, Finset.sum_add_distrib, Finset.sum_ite_eq']
    simp [hk']

end Equation
end ENigMA
