import Verif.Geometry.HashGrid
import Mathlib.Data.List.Count
import Mathlib.Data.List.Nodup

/-! # Helper lemmas: the counting sort of the hash grid -/

namespace ENigMA
namespace HashGrid

/-- Positions (from `i` on) at which `c` occurs in a list. -/
def bucket (c : Nat) : List Nat → Nat → List Nat
  | [], _ => []
  | d :: t, i => if d = c then i :: bucket c t (i + 1) else bucket c t (i + 1)

theorem mem_bucket {c : Nat} {l : List Nat} {i j : Nat} :
    j ∈ bucket c l i ↔ i ≤ j ∧ l[j - i]? = some c := by
  induction l generalizing i with
  | nil => simp [bucket]
  | cons d t ih =>
    simp only [bucket]
    split_ifs with h
    · subst h
      rw [List.mem_cons, ih]
      constructor
      · rintro (rfl | ⟨h1, h2⟩)
        · simp
        · refine ⟨by omega, ?_⟩
          rw [show j - i = (j - (i + 1)) + 1 by omega]
          simpa using h2
      · rintro ⟨h1, h2⟩
        rcases Nat.eq_or_lt_of_le h1 with rfl | h1
        · exact Or.inl rfl
        · right
          refine ⟨h1, ?_⟩
          rw [show j - i = (j - (i + 1)) + 1 by omega] at h2
          simpa using h2
    · rw [ih]
      constructor
      · rintro ⟨h1, h2⟩
        refine ⟨by omega, ?_⟩
        rw [show j - i = (j - (i + 1)) + 1 by omega]
        simpa using h2
      · rintro ⟨h1, h2⟩
        rcases Nat.eq_or_lt_of_le h1 with rfl | h1
        · simp [h] at h2
        · refine ⟨h1, ?_⟩
          rw [show j - i = (j - (i + 1)) + 1 by omega] at h2
          simpa using h2

theorem nodup_bucket {c : Nat} {l : List Nat} {i : Nat} : (bucket c l i).Nodup := by
  induction l generalizing i with
  | nil => simp [bucket]
  | cons d t ih =>
    simp only [bucket]
    split_ifs with h
    · rw [List.nodup_cons]
      refine ⟨?_, ih⟩
      rw [mem_bucket]; rintro ⟨h1, -⟩; omega
    · exact ih

theorem length_bucket {c : Nat} {l : List Nat} {i : Nat} : (bucket c l i).length = l.count c := by
  induction l generalizing i with
  | nil => simp [bucket]
  | cons d t ih =>
    simp only [bucket]
    split_ifs with h
    · subst h; simp [ih]
    · rw [ih, List.count_cons_of_ne h]

/-- Number of points in cells before `c`. -/
def before (l : List Nat) (c : Nat) : Nat := l.countP (fun d => decide (d < c))

theorem before_succ (l : List Nat) (c : Nat) : before l (c + 1) = l.count c + before l c := by
  induction l with
  | nil => simp [before]
  | cons d t ih =>
    simp only [before, List.countP_cons, List.count_cons] at *
    by_cases h1 : d < c
    · have : ¬ d = c := by omega
      simp [h1, this, ih, show d < c + 1 by omega]; omega
    · by_cases h2 : d = c
      · subst h2; simp [ih]; omega
      · simp [h1, h2, ih, show ¬ d < c + 1 by omega]

theorem before_zero (l : List Nat) : before l 0 = 0 := by simp [before]

theorem before_mono (l : List Nat) {c d : Nat} (h : c ≤ d) : before l c ≤ before l d := by
  induction d, h using Nat.le_induction with
  | base => exact le_refl _
  | succ d _ ih => rw [before_succ]; omega

theorem before_all (l : List Nat) (n : Nat) (h : ∀ c ∈ l, c < n) : before l n = l.length := by
  unfold before
  rw [List.countP_eq_length]
  simpa using h

theorem pass1_spec (n : Nat) (cells : List Nat) (hc : ∀ c ∈ cells, c < n) (ptr : Arr Nat) (hs : ptr.size = n + 1) :
    ∃ ptr', pass1 cells ptr = some ptr' ∧ ptr'.size = n + 1 ∧ ptr'.get 0 = ptr.get 0 ∧
      ∀ j, ptr'.get (j + 1) = ptr.get (j + 1) + cells.count j := by
  induction cells generalizing ptr with
  | nil => exact ⟨ptr, rfl, hs, rfl, by simp⟩
  | cons c t ih =>
    have hcn : c < n := hc c (by simp)
    have hlt : c + 1 < ptr.size := by omega
    obtain ⟨p', h1, h2, h3, h4⟩ := ih (fun d hd => hc d (by simp [hd]))
      ⟨ptr.size, Function.update ptr.get (c + 1) (ptr.get (c + 1) + 1)⟩ hs
    refine ⟨p', ?_, h2, ?_, ?_⟩
    · simp only [pass1, Arr.read_of_lt hlt, Arr.write_of_lt hlt, Option.bind_eq_bind, Option.bind_some]
      exact h1
    · rw [h3]; simp
    · intro j
      rw [h4]
      by_cases hj : j = c
      · subst hj; simp; omega
      · have : ¬ c = j := fun e => hj e.symm
        simp [hj, this]

theorem accumulate_spec (F : Nat → Nat) (k ie : Nat) (hie : 1 ≤ ie) (ptr : Arr Nat) (hs : ie + k ≤ ptr.size)
    (h1 : ∀ j < ie, ptr.get j = F j) (h2 : ∀ j, ie ≤ j → j < ie + k → ptr.get j + F (j - 1) = F j) :
    ∃ ptr', accumulate k ie ptr = some ptr' ∧ ptr'.size = ptr.size ∧ ∀ j < ie + k, ptr'.get j = F j := by
  induction k generalizing ie ptr with
  | zero => exact ⟨ptr, rfl, rfl, h1⟩
  | succ k ih =>
    have l1 : ie - 1 < ptr.size := by omega
    have l2 : ie < ptr.size := by omega
    have e : ptr.get ie + ptr.get (ie - 1) = F ie := by
      rw [h1 (ie - 1) (by omega)]; exact h2 ie (le_refl _) (by omega)
    obtain ⟨p', a1, a2, a3⟩ := ih (ie + 1) (by omega)
      ⟨ptr.size, Function.update ptr.get ie (ptr.get ie + ptr.get (ie - 1))⟩ (by simp; omega)
      (by
        intro j hj
        simp only [Function.update_apply]
        split_ifs with hji
        · subst hji; exact e
        · exact h1 j (by omega))
      (by
        intro j hj1 hj2
        have : ¬ j = ie := by omega
        simp only [Function.update_apply, this, if_false]
        exact h2 j (by omega) (by omega))
    refine ⟨p', ?_, a2, ?_⟩
    · simp only [accumulate, Arr.read_of_lt l1, Arr.read_of_lt l2, Arr.write_of_lt l2, Option.bind_eq_bind,
        Option.bind_some]
      exact a1
    · intro j hj; exact a3 j (by omega)

theorem slice_update_of_notMem (f : Nat → Nat) (s k p v : Nat) (h : p < s ∨ s + k ≤ p) :
    (List.range' s k).map (Function.update f p v) = (List.range' s k).map f := by
  refine List.map_congr_left (fun x hx => ?_)
  rw [List.mem_range'_1] at hx
  rw [Function.update_apply, if_neg (by omega)]

theorem pass2_spec (n : Nat) (P : Nat → Nat) (hP : ∀ c d, c ≤ d → P c ≤ P d) (t : List Nat)
    (ht : ∀ c ∈ t, c < n) (i : Nat) (ptr list : Arr Nat) (hps : ptr.size = n + 1) (hls : P n ≤ list.size)
    (B : Nat → List Nat)
    (hptr : ∀ c < n, ptr.get c = P c + (B c).length)
    (hcap : ∀ c < n, P c + (B c).length + t.count c ≤ P (c + 1))
    (hsl : ∀ c < n, (List.range' (P c) (B c).length).map list.get = B c) :
    ∃ ptr' list', pass2 t i ptr list = some (ptr', list') ∧ ptr'.size = n + 1 ∧ list'.size = list.size ∧
      ∀ c < n, ptr'.get c = P c + (B c ++ bucket c t i).length ∧
        (List.range' (P c) (B c ++ bucket c t i).length).map list'.get = B c ++ bucket c t i := by
  induction t generalizing i ptr list B with
  | nil =>
    refine ⟨ptr, list, rfl, hps, rfl, ?_⟩
    intro c hc
    simp only [bucket, List.append_nil]
    exact ⟨hptr c hc, hsl c hc⟩
  | cons d t ih =>
    have hd : d < n := ht d (by simp)
    have l1 : d < ptr.size := by omega
    have hcd := hcap d hd
    simp only [List.count_cons_self] at hcd
    have hPn : P (d + 1) ≤ P n := hP _ _ hd
    have hpd := hptr d hd
    have l2 : ptr.get d < list.size := by omega
    obtain ⟨p', l', a1, a2, a3, a4⟩ := ih (fun c hc => ht c (by simp [hc])) (i + 1)
      ⟨ptr.size, Function.update ptr.get d (ptr.get d + 1)⟩
      ⟨list.size, Function.update list.get (ptr.get d) i⟩ hps hls
      (fun c => if c = d then B d ++ [i] else B c)
      (by
        intro c hc
        simp only [Function.update_apply]
        split_ifs with h
        · subst h; simp [hpd]; omega
        · exact hptr c hc)
      (by
        intro c hc
        split_ifs with h
        · subst h; simp; omega
        · have := hcap c hc
          rw [List.count_cons_of_ne (fun e => h e.symm)] at this
          exact this)
      (by
        intro c hc
        simp only
        split_ifs with h
        · subst h
          rw [List.length_append, List.length_singleton, ← List.range'_append_1, List.map_append,
            slice_update_of_notMem _ _ _ _ _ (by omega), hsl c hc]
          simp [hpd]
        · rw [slice_update_of_notMem, hsl c hc]
          have hc1 := hcap c hc
          rw [List.count_cons_of_ne (fun e => h e.symm)] at hc1
          rcases Nat.lt_or_gt_of_ne h with hlt | hlt
          · right
            have := hP (c + 1) d hlt
            omega
          · left
            have := hP (d + 1) c hlt
            omega)
    refine ⟨p', l', ?_, a2, a3, ?_⟩
    · simp only [pass2, Arr.read_of_lt l1, Arr.write_of_lt l1, Arr.write_of_lt l2, Option.bind_eq_bind,
        Option.bind_some]
      exact a1
    · intro c hc
      have := a4 c hc
      have e : (if c = d then B d ++ [i] else B c) ++ bucket c t (i + 1) = B c ++ bucket c (d :: t) i := by
        simp only [bucket]
        by_cases h : c = d
        · subst h; simp
        · have h2 : ¬ d = c := fun e => h e.symm
          simp [h, h2]
      rw [e] at this
      exact this

theorem shift_spec (k : Nat) (ptr : Arr Nat) (hs : k + 1 ≤ ptr.size) :
    ∃ ptr', shift k ptr = some ptr' ∧ ptr'.size = ptr.size ∧ (∀ j, j < k → ptr'.get (j + 1) = ptr.get j) := by
  induction k generalizing ptr with
  | zero => exact ⟨ptr, rfl, rfl, by simp⟩
  | succ k ih =>
    have l1 : k < ptr.size := by omega
    have l2 : k + 1 < ptr.size := by omega
    -- later iterations do not touch index `k + 1`
    have key : ∀ (m : Nat) (q q' : Arr Nat), shift m q = some q' → ∀ j, m < j → q'.get j = q.get j := by
      intro m
      induction m with
      | zero =>
        intro q q' h j _
        simp only [shift, Option.some.injEq] at h
        rw [h]
      | succ m ihm =>
        intro q q' h j hj
        simp only [shift, Option.bind_eq_bind] at h
        cases hr : q.read m with
        | none => simp [hr] at h
        | some a =>
          simp only [hr, Option.bind_some] at h
          cases hw : q.write (m + 1) a with
          | none => simp [hw] at h
          | some q₁ =>
            simp only [hw, Option.bind_some] at h
            rw [ihm q₁ q' h j (by omega)]
            unfold Arr.write at hw
            split_ifs at hw with hlt
            simp only [Option.some.injEq] at hw
            subst hw
            simp only [Function.update_apply]
            rw [if_neg (by omega)]
    obtain ⟨p', a1, a2, a3⟩ := ih ⟨ptr.size, Function.update ptr.get (k + 1) (ptr.get k)⟩ (by simp; omega)
    refine ⟨p', ?_, a2, ?_⟩
    · simp only [shift, Arr.read_of_lt l1, Arr.write_of_lt l2, Option.bind_eq_bind, Option.bind_some]
      exact a1
    · intro j hj
      by_cases hjk : j < k
      · rw [a3 j hjk]
        simp only [Function.update_apply]
        rw [if_neg (by omega)]
      · have : j = k := by omega
        subst this
        rw [key _ _ _ a1 (j + 1) (by omega)]
        simp

/-- The two passes leave, for every cell, the slice of the list between consecutive pointers equal to the positions of
the points falling in that cell; no access is out of range. -/
theorem csr_spec (n : Nat) (cells : List Nat) (hc : ∀ c ∈ cells, c < n) (ptr list : Arr Nat)
    (hs : ptr.size = n + 1) (hz : ∀ j ≤ n, ptr.get j = 0) :
    ∃ ptr' list', csr n cells ptr list = some (ptr', list') ∧ ptr'.size = n + 1 ∧ list'.size = cells.length ∧
      ∀ c < n, ptr'.get c ≤ ptr'.get (c + 1) ∧ ptr'.get (c + 1) ≤ list'.size ∧
        (List.range' (ptr'.get c) (ptr'.get (c + 1) - ptr'.get c)).map list'.get = bucket c cells 0 := by
  obtain ⟨p1, a1, a2, a3, a4⟩ := pass1_spec n cells hc ptr hs
  obtain ⟨p2, b1, b2, b3⟩ := accumulate_spec (before cells) n 1 (le_refl _) p1 (by omega)
    (by
      intro j hj
      have : j = 0 := by omega
      subst this
      rw [a3, hz 0 (by omega), before_zero])
    (by
      intro j h1 h2
      obtain ⟨j, rfl⟩ : ∃ j', j = j' + 1 := ⟨j - 1, by omega⟩
      rw [a4, hz (j + 1) (by omega), before_succ]
      simp)
  have hb : p2.get n = cells.length := by rw [b3 n (by omega), before_all cells n hc]
  obtain ⟨p3, l3, c1, c2, c3, c4⟩ := pass2_spec n (before cells) (fun c d h => before_mono cells h) cells hc 0 p2
    (list.resize (p2.get n)) (by omega) (by rw [before_all cells n hc, hb]; exact le_refl _) (fun _ => [])
    (by intro c h; rw [b3 c (by omega)]; simp)
    (by intro c h; rw [before_succ]; simp; omega)
    (by intro c h; simp)
  obtain ⟨p4, d1, d2, d3⟩ := shift_spec n p3 (by omega)
  have l0 : 0 < p4.size := by omega
  refine ⟨⟨p4.size, Function.update p4.get 0 0⟩, l3, ?_, by simp; omega, ?_, ?_⟩
  · simp only [csr, a1, b1, Arr.read_of_lt (show n < p2.size by omega), c1, d1, Arr.write_of_lt l0,
      Option.bind_eq_bind, Option.bind_some]
    rfl
  · rw [c3]; exact hb
  · have hp : ∀ c ≤ n, Function.update p4.get 0 0 c = before cells c := by
      intro c hcn
      cases c with
      | zero => simp [before_zero]
      | succ c =>
        rw [Function.update_apply, if_neg (by omega), d3 c (by omega), (c4 c (by omega)).1]
        simp only [List.nil_append, length_bucket]
        rw [before_succ]; omega
    intro c hcn
    simp only
    rw [hp c (by omega), hp (c + 1) (by omega)]
    refine ⟨before_mono cells (by omega), ?_, ?_⟩
    · rw [c3]
      show _ ≤ p2.get n
      rw [b3 n (by omega)]
      exact before_mono cells hcn
    · have := (c4 c hcn).2
      simp only [List.nil_append, length_bucket] at this
      rw [before_succ, Nat.add_sub_cancel]
      exact this

end HashGrid
end ENigMA
