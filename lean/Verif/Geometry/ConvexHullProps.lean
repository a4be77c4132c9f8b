import Verif.Geometry.ConvexHull
import Verif.Geometry.PolygonLemmas
import Mathlib.Data.List.Chain
import Mathlib.Data.List.Induction

/-! # C44: the convex hull encloses all points -/

set_option linter.unusedSectionVars false

namespace ENigMA
namespace Hull

variable {K : Type} [Field K] [LinearOrder K] [IsStrictOrderedRing K]

/-! ### Plane geometry of the monotone chain -/

/-- Lexicographically positive vectors. -/
def Pos (x y : K) : Prop := 0 < x ∨ (x = 0 ∧ 0 < y)

theorem turn_trans {a b c d e f : K} (hu : Pos a b) (hv : Pos c d) (hw : Pos e f) (h1 : a * d - b * c ≤ 0)
    (h2 : c * f - d * e ≤ 0) : a * f - b * e ≤ 0 := by
  have ha : 0 ≤ a := by rcases hu with h | h; exacts [h.le, h.1.ge]
  have he : 0 ≤ e := by rcases hw with h | h; exacts [h.le, h.1.ge]
  rcases hv with hc | ⟨hc, hd⟩
  · have e1 : c * (a * f - b * e) = a * (c * f - d * e) + e * (a * d - b * c) := by ring
    have h3 := mul_nonpos_of_nonneg_of_nonpos ha h2
    have h4 := mul_nonpos_of_nonneg_of_nonpos he h1
    by_contra hcon
    have := mul_pos hc (not_le.1 hcon)
    linarith
  · subst hc
    have ha0 : a = 0 := by
      have : a * d ≤ 0 := by linarith
      by_contra hne
      have := mul_pos (lt_of_le_of_ne ha (Ne.symm hne)) hd
      linarith
    subst ha0
    have hb : 0 < b := by rcases hu with h | h; exacts [absurd h (lt_irrefl _), h.2]
    have := mul_nonneg hb.le he
    linarith

section Chain
variable {α : Type} (X Y : α → K)

/-- Strict lexicographic order. -/
def Lt (a b : α) : Prop := X a < X b ∨ (X a = X b ∧ Y a < Y b)

/-- Positive when `p` is to the left of the line from `a` to `b`. -/
def Left (a b p : α) : K := (X b - X a) * (Y p - Y a) - (Y b - Y a) * (X p - X a)

variable {X Y}

theorem Lt.pos {a b : α} (h : Lt X Y a b) : Pos (X b - X a) (Y b - Y a) := by
  rcases h with h | h
  · exact Or.inl (sub_pos.2 h)
  · exact Or.inr ⟨sub_eq_zero.2 h.1.symm, sub_pos.2 h.2⟩

theorem Lt.trans {a b c : α} (h : Lt X Y a b) (h' : Lt X Y b c) : Lt X Y a c := by
  unfold Lt at *
  rcases h with h | h <;> rcases h' with h' | h'
  · exact Or.inl (h.trans h')
  · exact Or.inl (h'.1 ▸ h)
  · exact Or.inl (h.1 ▸ h')
  · exact Or.inr ⟨h.1.trans h'.1, h.2.trans h'.2⟩

theorem Left_self (a b : α) : Left X Y a b a = 0 ∧ Left X Y a b b = 0 := by
  unfold Left; constructor <;> ring

/-- All points processed so far are on or to the right of the edge from `a` up to `b`. -/
def RightOf (X Y : α → K) (P : List α) (b a : α) : Prop := ∀ p ∈ P, Left X Y a b p ≤ 0

/-- What holds after popping for `q`: a non-empty suffix of the stack whose top sees all later points to the right of
the segment to `q`, and whose top edge has `q` on its right. -/
theorem popWhile_spec (P : List α) (q : α) (hq : ∀ p ∈ P, Lt X Y p q) (s : List α) (hne : s ≠ [])
    (hP : ∀ a ∈ s, a ∈ P) (hdesc : s.IsChain fun b a => Lt X Y a b) (hR : s.IsChain (RightOf X Y P))
    (hV : ∀ b, s.head? = some b → ∀ p ∈ P, (p = b ∨ Lt X Y b p) → Left X Y b q p ≤ 0) :
    ∃ b r, popWhile (Left X Y) 2 q s = b :: r ∧ b :: r <:+ s ∧
      (∀ p ∈ P, (p = b ∨ Lt X Y b p) → Left X Y b q p ≤ 0) ∧ ∀ a, r.head? = some a → Left X Y a b q ≤ 0 := by
  induction s with
  | nil => exact absurd rfl hne
  | cons b s ih =>
    cases s with
    | nil => exact ⟨b, [], rfl, List.suffix_rfl, hV b rfl, by simp⟩
    | cons a r =>
      unfold popWhile
      by_cases h : Left X Y a b q ≤ 0
      · rw [if_neg (by simp [h])]
        exact ⟨b, a :: r, rfl, List.suffix_rfl, hV b rfl, by simpa using h⟩
      · rw [if_pos ⟨by omega, h⟩]
        have hab : Lt X Y a b := (List.isChain_cons_cons.1 hdesc).1
        have haq : Lt X Y a q := hq a (hP a (by simp))
        obtain ⟨b', r', e1, e2, e3, e4⟩ := ih (by simp) (fun c hc => hP c (List.mem_cons_of_mem _ hc))
          (List.isChain_cons_cons.1 hdesc).2 (List.isChain_cons_cons.1 hR).2 (by
            rintro a' ha' p hp hpa
            simp only [List.head?_cons, Option.some.injEq] at ha'
            subst ha'
            rcases hpa with rfl | hpa
            · rw [(Left_self _ _).1]
            · have h1 := (List.isChain_cons_cons.1 hR).1 p hp
              have h2 : (X q - X a) * (Y b - Y a) - (Y q - Y a) * (X b - X a) ≤ 0 := by
                have := not_le.1 h; unfold Left at this; linarith
              exact turn_trans haq.pos hab.pos hpa.pos h2 h1)
        exact ⟨b', r', e1, e2.trans (List.suffix_cons _ _), e3, e4⟩

theorem right_extend (P : List α) (q : α) (s : List α) (hq : ∀ p ∈ P, Lt X Y p q) (hP : ∀ a ∈ s, a ∈ P)
    (hdesc : s.IsChain fun b a => Lt X Y a b) (hR : s.IsChain (RightOf X Y P))
    (htop : ∀ b a r, s = b :: a :: r → Left X Y a b q ≤ 0) : s.IsChain (RightOf X Y (q :: P)) := by
  induction s with
  | nil => simp
  | cons b s ih =>
    cases s with
    | nil => simp
    | cons a r =>
      have hab := (List.isChain_cons_cons.1 hdesc).1
      have h1 := htop b a r rfl
      have e := List.isChain_cons_cons.1 hR
      refine List.isChain_cons_cons.2 ⟨?_, ih (fun c hc => hP c (List.mem_cons_of_mem _ hc))
        (List.isChain_cons_cons.1 hdesc).2 e.2 ?_⟩
      · intro p hp
        rcases List.mem_cons.1 hp with rfl | hp
        · exact h1
        · exact e.1 p hp
      · rintro a2 c r' heq
        rw [List.cons.injEq] at heq
        obtain ⟨rfl, rfl⟩ := heq
        have e2 := List.isChain_cons_cons.1 e.2
        have hca : Lt X Y c a := (List.isChain_cons_cons.1 (List.isChain_cons_cons.1 hdesc).2).1
        have h2 := e2.1 b (hP b (by simp))
        have h2' : (X a - X c) * (Y b - Y a) - (Y a - Y c) * (X b - X a) ≤ 0 := by
          unfold Left at h2; linarith
        have h3 := turn_trans hca.pos hab.pos (hq a (hP a (by simp))).pos h2' h1
        unfold Left
        linarith

/-- Everything the outer loop maintains. -/
structure Inv (X Y : α → K) (P s : List α) : Prop where
  ne : s ≠ []
  mem : ∀ a ∈ s, a ∈ P
  desc : s.IsChain fun b a => Lt X Y a b
  right : s.IsChain (RightOf X Y P)
  head : s.head? = P.head?
  last : s.getLast? = P.getLast?

/-- One round of the outer loop keeps the invariant; `P` lists the processed points, latest first. -/
theorem Inv.push {P s : List α} (h : Inv X Y P s) (q : α) (hP : (q :: P).Pairwise fun b a => Lt X Y a b) :
    Inv X Y (q :: P) (Hull.push (Left X Y) 2 s q) := by
  have hq : ∀ p ∈ P, Lt X Y p q := fun p hp => (List.pairwise_cons.1 hP).1 p hp
  have hP' := (List.pairwise_cons.1 hP).2
  obtain ⟨b, r, e1, e2, e3, e4⟩ := popWhile_spec P q hq s h.ne h.mem h.desc h.right (by
    intro b hb p hp hpb
    rcases hpb with rfl | hpb
    · rw [(Left_self _ _).1]
    · exfalso
      rw [h.head] at hb
      cases P with
      | nil => simp at hb
      | cons m P =>
        simp only [List.head?_cons, Option.some.injEq] at hb
        subst hb
        rcases List.mem_cons.1 hp with rfl | hp
        · rcases hpb with hh | hh
          · exact lt_irrefl _ hh
          · exact lt_irrefl _ hh.2
        · have := (hpb.trans ((List.pairwise_cons.1 hP').1 p hp))
          rcases this with hh | hh
          · exact lt_irrefl _ hh
          · exact lt_irrefl _ hh.2)
  have hmem : ∀ a ∈ b :: r, a ∈ P := fun a ha => h.mem a (e2.subset ha)
  have hdesc : (b :: r).IsChain fun b a => Lt X Y a b := h.desc.suffix e2
  have hright := right_extend P q (b :: r) hq hmem hdesc (h.right.suffix e2) (by
    rintro b' a r' heq
    rw [List.cons.injEq] at heq
    obtain ⟨rfl, rfl⟩ := heq
    exact e4 a rfl)
  have hbq : Lt X Y b q := hq b (hmem b (by simp))
  have hedge : RightOf X Y (q :: P) q b := by
    intro p hp
    rcases List.mem_cons.1 hp with rfl | hp
    · rw [(Left_self _ _).2]
    · by_cases hc : p = b ∨ Lt X Y b p
      · exact e3 p hp hc
      · -- `p` lies before `b`: the edge below `b` carries over
        rw [not_or] at hc
        have hpb : Lt X Y p b := by
          obtain ⟨l, l', hl⟩ := List.append_of_mem hp
          obtain ⟨n, n', hn⟩ := List.append_of_mem (hmem b (by simp))
          have hb := hmem b (by simp)
          rw [hl] at hb hP'
          rcases List.mem_append.1 hb with hb | hb
          · exact (List.pairwise_append.1 hP').2.2 b hb p (by simp)
          · rcases List.mem_cons.1 hb with hb | hb
            · exact absurd hb.symm hc.1
            · exact absurd ((List.pairwise_cons.1 (List.pairwise_append.1 hP').2.1).1 b hb) hc.2
        cases r with
        | nil =>
          -- then `b` is the first point of all
          exfalso
          have hl : P.getLast? = some b := by
            rw [← h.last]
            obtain ⟨l, hl⟩ := e2
            rw [← hl]; simp
          rw [List.getLast?_eq_some_iff] at hl
          obtain ⟨l, rfl⟩ := hl
          rcases List.mem_append.1 hp with hp | hp
          · exact hc.2 ((List.pairwise_append.1 hP').2.2 p hp b (by simp))
          · exact hc.1 (by simpa using hp)
        | cons a r =>
          have hab : Lt X Y a b := (List.isChain_cons_cons.1 hdesc).1
          have h1 : Left X Y a b p ≤ 0 := (List.isChain_cons_cons.1 (h.right.suffix e2)).1 p hp
          have h2 : Left X Y a b q ≤ 0 := e4 a rfl
          have h1' : (X b - X p) * (Y b - Y a) - (Y b - Y p) * (X b - X a) ≤ 0 := by
            unfold Left at h1; linarith
          have h2' : (X b - X a) * (Y q - Y b) - (Y b - Y a) * (X q - X b) ≤ 0 := by
            unfold Left at h2; linarith
          have := turn_trans hpb.pos hab.pos hbq.pos h1' h2'
          unfold Left
          linarith
  have hpush : Hull.push (Left X Y) 2 s q = q :: b :: r := by unfold Hull.push; rw [e1]
  rw [hpush]
  refine ⟨by simp, ?_, ?_, ?_, rfl, ?_⟩
  · intro a ha
    rcases List.mem_cons.1 ha with rfl | ha
    · simp
    · exact List.mem_cons_of_mem _ (hmem a ha)
  · exact List.isChain_cons_cons.2 ⟨hbq, hdesc⟩
  · exact List.isChain_cons_cons.2 ⟨hedge, hright⟩
  · have : (b :: r).getLast? = P.getLast? := by
      rw [← h.last]
      obtain ⟨l, hl⟩ := e2
      rw [← hl, List.getLast?_append_of_ne_nil _ (by simp)]
    have hne : P ≠ [] := List.ne_nil_of_mem (hmem b (by simp))
    obtain ⟨m, P', rfl⟩ := List.exists_cons_of_ne_nil hne
    rw [List.getLast?_cons_cons, List.getLast?_cons_cons]
    exact this

theorem Inv.first (q : α) : Inv X Y [q] (Hull.push (Left X Y) 2 [] q) := by
  have : Hull.push (Left X Y) 2 [] q = [q] := rfl
  rw [this]
  exact ⟨by simp, by simp, by simp, by simp, rfl, rfl⟩

/-- The chain built from a strictly sorted list. -/
theorem chain_spec (l : List α) (hne : l ≠ []) (hl : l.Pairwise (Lt X Y)) :
    Inv X Y l.reverse (l.foldl (Hull.push (Left X Y) 2) []) := by
  induction l using List.reverseRecOn with
  | nil => exact absurd rfl hne
  | append_singleton l q ih =>
    rw [List.foldl_append, List.foldl_cons, List.foldl_nil]
    by_cases h : l = []
    · subst h; exact Inv.first q
    · have := ih h (List.pairwise_append.1 hl).1
      have hq := this.push q (by
        rw [← List.pairwise_reverse]; simpa using hl)
      simpa using hq

/-- Popping above a fixed base is popping with the base replaced by its top element. -/
theorem popWhile_base (turn : α → α → α → K) (q m : α) (low : List α) (u : List α) :
    popWhile turn (low.length + 2) q (u ++ m :: low) = popWhile turn 2 q (u ++ [m]) ++ low := by
  induction u with
  | nil =>
    cases low with
    | nil => rfl
    | cons a low =>
      simp only [List.nil_append, popWhile, List.length_cons]
      rw [if_neg (by omega)]
      rfl
  | cons b u ih =>
    cases u with
    | nil =>
      simp only [List.cons_append, List.nil_append] at ih ⊢
      simp only [popWhile, List.length_nil]
      by_cases h : turn m b q ≤ 0
      · rw [if_neg (by simp [h]), if_neg (by simp [h])]; rfl
      · rw [if_pos ⟨by omega, h⟩, if_pos ⟨by omega, h⟩, ih]
        rfl
    | cons a u =>
      simp only [List.cons_append] at ih ⊢
      simp only [popWhile, List.length_append, List.length_cons, List.length_nil]
      by_cases h : turn a b q ≤ 0
      · rw [if_neg (by simp [h]), if_neg (by simp [h])]
        simp
      · rw [if_pos ⟨by omega, h⟩, if_pos ⟨by omega, h⟩, ih]

theorem popWhile_suffix (turn : α → α → α → K) (t : Nat) (q : α) (s : List α) : popWhile turn t q s <:+ s := by
  induction s with
  | nil => exact List.suffix_rfl
  | cons b s ih =>
    cases s with
    | nil => exact List.suffix_rfl
    | cons a r =>
      unfold popWhile
      split_ifs
      · exact ih.trans (List.suffix_cons _ _)
      · exact List.suffix_rfl

theorem popWhile_ne (turn : α → α → α → K) (t : Nat) (q : α) (s : List α) (h : s ≠ []) : popWhile turn t q s ≠ [] := by
  induction s with
  | nil => exact absurd rfl h
  | cons b s ih =>
    cases s with
    | nil => simp [popWhile]
    | cons a r =>
      unfold popWhile
      split_ifs
      · exact ih (by simp)
      · simp

theorem foldl_push_base (turn : α → α → α → K) (m : α) (low : List α) (l : List α) (u : List α) :
    l.foldl (Hull.push turn (low.length + 2)) (u ++ m :: low) =
      l.foldl (Hull.push turn 2) (u ++ [m]) ++ low := by
  induction l generalizing u with
  | nil => simp
  | cons q l ih =>
    simp only [List.foldl_cons, Hull.push]
    rw [popWhile_base]
    -- what is left after popping still ends with `m`
    have hs := popWhile_suffix turn 2 q (u ++ [m])
    have hne := popWhile_ne turn 2 q (u ++ [m]) (by simp)
    obtain ⟨t, ht⟩ := hs
    obtain ⟨u', hu'⟩ : ∃ u', popWhile turn 2 q (u ++ [m]) = u' ++ [m] := by
      have hl := congrArg List.getLast? ht
      rw [List.getLast?_append_of_ne_nil _ hne, List.getLast?_append_of_ne_nil _ (by simp)] at hl
      rw [List.getLast?_singleton, List.getLast?_eq_some_iff] at hl
      exact hl
    rw [hu']
    have := ih (q :: u')
    simpa using this

end Chain

/-- The walk closed by repeating its first point. -/
def closed {α : Type} (h : List α) : List α := h ++ h.take 1

theorem isChain_both {α : Type} {R S : α → α → Prop} {l : List α} (h1 : l.IsChain R) (h2 : l.IsChain S) :
    l.IsChain fun a b => R a b ∧ S a b := by
  induction l with
  | nil => simp
  | cons a l ih =>
    cases l with
    | nil => simp
    | cons b l =>
      rw [List.isChain_cons_cons] at *
      exact ⟨⟨h1.1, h2.1⟩, ih h1.2 h2.2⟩

section Both
variable {α : Type} {X Y : α → K}

theorem Left_neg (a b p : α) : Left (fun v => -X v) (fun v => -Y v) a b p = Left X Y a b p := by
  unfold Left; ring

theorem Lt_neg (a b : α) : Lt (fun v => -X v) (fun v => -Y v) a b ↔ Lt X Y b a := by
  unfold Lt; simp only [neg_lt_neg_iff, neg_inj]
  constructor <;> (rintro (h | ⟨h, h'⟩); exacts [Or.inl h, Or.inr ⟨h.symm, h'⟩])

theorem monotone_spec (l : List α) (hlen : 2 ≤ l.length) (hl : l.Pairwise (Lt X Y)) :
    let h := monotone (Left X Y) l
    2 ≤ h.length ∧ h.head? = l.head? ∧ (∀ a ∈ h, a ∈ l) ∧ (∀ m, l.getLast? = some m → m ∈ h) ∧
      (closed h).IsChain (fun a b => (Lt X Y a b ∨ Lt X Y b a) ∧ ∀ p ∈ l, Left X Y a b p ≤ 0) := by
  have hne : l ≠ [] := by intro h; simp [h] at hlen
  have hlow := chain_spec l hne hl
  have hup := chain_spec (X := fun v => -X v) (Y := fun v => -Y v) l.reverse (by simpa using hne)
    (by rw [List.pairwise_reverse]; simpa only [Lt_neg] using hl)
  rw [List.reverse_reverse] at hup
  have eL : Left (fun v => -X v) (fun v => -Y v) = Left X Y := by funext a b p; exact Left_neg a b p
  rw [eL] at hup
  set low := l.foldl (Hull.push (Left X Y) 2) [] with hlowdef
  set up := l.reverse.foldl (Hull.push (Left X Y) 2) [] with hupdef
  -- the largest point
  obtain ⟨m, tl, hrev⟩ := List.exists_cons_of_ne_nil (by simpa using hne : l.reverse ≠ [])
  have hlast : l.getLast? = some m := by rw [← List.head?_reverse, hrev]; rfl
  obtain ⟨low', hlow'⟩ : ∃ low', low = m :: low' := by
    have := hlow.head
    rw [hrev] at this
    obtain ⟨c, r, hc⟩ := List.exists_cons_of_ne_nil hlow.ne
    rw [hc] at this
    simp only [List.head?_cons, Option.some.injEq] at this
    exact ⟨r, by rw [hc, this]⟩
  have hboth : l.reverse.tail.foldl (Hull.push (Left X Y) (low.length + 1)) low = up ++ low' := by
    have := foldl_push_base (Left X Y) m low' l.reverse.tail []
    rw [List.nil_append, List.nil_append] at this
    rw [hlow', List.length_cons, this]
    congr 1
    rw [hupdef, hrev]
    rfl
  obtain ⟨up', hup'⟩ : ∃ up', up = up' ++ [m] := by
    have := hup.last
    rw [hlast, List.getLast?_eq_some_iff] at this
    exact this
  obtain ⟨a0, l', hl'⟩ := List.exists_cons_of_ne_nil hne
  have hm : m ≠ a0 := by
    rintro rfl
    rw [hl'] at hlast hl hlen
    cases l' with
    | nil => simp at hlen
    | cons b l' =>
      rw [List.getLast?_cons_cons] at hlast
      have := (List.pairwise_cons.1 hl).1 m (List.mem_of_getLast? hlast)
      rcases this with hh | hh
      · exact lt_irrefl _ hh
      · exact lt_irrefl _ hh.2
  -- the upper chain ends (on top) with the first point
  obtain ⟨c, up2, hup2⟩ := List.exists_cons_of_ne_nil hup.ne
  have hc : c = a0 := by
    have := hup.head
    rw [hup2, hl'] at this
    simpa using this
  subst hc
  obtain ⟨up3, hup3⟩ : ∃ up3, up' = c :: up3 := by
    rw [hup2] at hup'
    cases up' with
    | nil =>
      simp only [List.nil_append, List.cons.injEq] at hup'
      exact absurd hup'.1.symm hm
    | cons d u => simp only [List.cons_append, List.cons.injEq] at hup'; exact ⟨u, by rw [hup'.1]⟩
  have hlowlast : (m :: low').getLast? = some c := by
    rw [← hlow', hlow.last, List.getLast?_reverse, hl']; rfl
  have hb : up ++ low' = c :: (up3 ++ m :: low') := by rw [hup', hup3]; simp
  have hmono : monotone (Left X Y) l = (up3 ++ m :: low').reverse := by
    change (l.reverse.tail.foldl (Hull.push (Left X Y) (low.length + 1)) low).tail.reverse = _
    rw [hboth, hb]; rfl
  rw [hmono]
  have hlow'ne : low' ≠ [] := by
    rintro rfl
    simp only [List.getLast?_singleton, Option.some.injEq] at hlowlast
    exact hm hlowlast
  have hh : (up3 ++ m :: low').reverse.head? = some c := by
    rw [List.head?_reverse, List.getLast?_append_of_ne_nil _ (by simp), hlowlast]
  intro h
  have hhead : h.head? = some c := hh
  have hhne : h ≠ [] := by intro h0; rw [h0] at hhead; simp at hhead
  have htake : h.take 1 = [c] := by
    obtain ⟨x, y, hxy⟩ := List.exists_cons_of_ne_nil hhne
    rw [hxy] at hhead ⊢
    simp only [List.head?_cons, Option.some.injEq] at hhead
    simp [hhead]
  have hclosed : closed h = (c :: (up3 ++ m :: low')).reverse := by
    unfold closed; rw [htake, List.reverse_cons]
  refine ⟨?_, by rw [hhead, hl']; rfl, ?_, ?_, ?_⟩
  · change 2 ≤ (up3 ++ m :: low').reverse.length
    rw [List.length_reverse, List.length_append, List.length_cons]
    have := List.length_pos_of_ne_nil hlow'ne
    omega
  · intro a ha
    have ha' : a ∈ up3 ++ m :: low' := List.mem_reverse.1 ha
    rcases List.mem_append.1 ha' with ha' | ha'
    · exact hup.mem a (by rw [hup', hup3]; simp [ha'])
    · rw [← hlow'] at ha'
      exact List.mem_reverse.1 (hlow.mem a ha')
  · intro m' hm'
    rw [hlast, Option.some.injEq] at hm'
    subst hm'
    exact List.mem_reverse.2 (by simp)
  · rw [hclosed, List.isChain_reverse]
    have e : c :: (up3 ++ m :: low') = (c :: up3) ++ m :: low' := rfl
    rw [e, List.isChain_split]
    constructor
    · have h1 := hup.desc
      have h2 := hup.right
      rw [hup', hup3] at h1 h2
      refine (isChain_both h1 h2).imp ?_
      rintro x y ⟨hx, hy⟩
      refine ⟨Or.inr ((Lt_neg _ _).1 hx), fun p hp => ?_⟩
      have := hy p hp
      rwa [Left_neg] at this
    · have h1 := hlow.desc
      have h2 := hlow.right
      rw [hlow'] at h1 h2
      refine (isChain_both h1 h2).imp ?_
      rintro x y ⟨hx, hy⟩
      exact ⟨Or.inl hx, fun p hp => hy p (List.mem_reverse.2 hp)⟩

end Both

/-! ### The plane coordinates of points with equal `z` -/

/-- For three points of a plane `z = const` that are not collinear, the coordinate system is a rotation or reflection of
the plane: `σ` is the sign of the orientation of the three points. -/
theorem frame_plane (nrm : Vec3 K → K) (hN : IsNorm nrm) (p0 p1 p2 : Vec3 K) (h1 : p1.z = p0.z) (h2 : p2.z = p0.z)
    (hcol : Vec3.cross (p1 - p0) (p2 - p0) ≠ 0) :
    ∃ a b σ : K, a * a + b * b = 1 ∧ σ * σ = 1 ∧ 0 < σ * (Vec3.cross (p1 - p0) (p2 - p0)).z ∧
      frame nrm p0 p1 p2 = (⟨a, b, 0⟩, ⟨-(σ * b), σ * a, 0⟩, ⟨0, 0, σ⟩) := by
  set v0 := p1 - p0 with hv0
  set v1 := p2 - p0 with hv1
  have z0 : v0.z = 0 := by simp [hv0, h1]
  have z1 : v1.z = 0 := by simp [hv1, h2]
  set w := (Vec3.cross v0 v1).z with hw
  have hw0 : w ≠ 0 := by
    intro h0
    apply hcol
    ext
    · simp [z0, z1]
    · simp [z0, z1]
    · exact h0
  have hv0ne : v0 ≠ 0 := by
    intro h0
    apply hw0
    rw [hw, h0]; simp
  have hL := hN.pos hv0ne
  set L := nrm v0 with hLdef
  have hsq := hN.sq v0
  rw [← hLdef] at hsq
  have hvx : L⁻¹ • v0 = ⟨L⁻¹ * v0.x, L⁻¹ * v0.y, 0⟩ := by ext <;> simp [z0]
  have hab : L⁻¹ * v0.x * (L⁻¹ * v0.x) + L⁻¹ * v0.y * (L⁻¹ * v0.y) = 1 := by
    have : v0.normSq = v0.x * v0.x + v0.y * v0.y := by simp [Vec3.normSq, Vec3.dot, z0]
    rw [this] at hsq
    field_simp
    linear_combination -hsq
  have hwx : w = v0.x * v1.y - v0.y * v1.x := by rw [hw]; simp
  have hcr : Vec3.cross (⟨L⁻¹ * v0.x, L⁻¹ * v0.y, 0⟩ : Vec3 K) v1 = ⟨0, 0, L⁻¹ * w⟩ := by
    ext
    · simp [z1]
    · simp [z1]
    · simp only [Vec3.cross_z, hwx]; ring
  have hn : nrm (⟨0, 0, L⁻¹ * w⟩ : Vec3 K) = |L⁻¹ * w| :=
    hN.eq_of_sq (abs_nonneg _) (by rw [abs_mul_abs_self]; simp [Vec3.normSq, Vec3.dot])
  have hLw : L⁻¹ * w ≠ 0 := mul_ne_zero (inv_ne_zero hL.ne') hw0
  have habs : |L⁻¹ * w| ≠ 0 := abs_ne_zero.2 hLw
  set σ := |L⁻¹ * w|⁻¹ * (L⁻¹ * w) with hσ
  have hσσ : σ * σ = 1 := by
    rw [hσ]
    have := abs_mul_abs_self (L⁻¹ * w)
    generalize L⁻¹ * w = x at *
    calc |x|⁻¹ * x * (|x|⁻¹ * x) = (x * x) * (|x|⁻¹ * |x|⁻¹) := by ring
      _ = (|x| * |x|) * (|x|⁻¹ * |x|⁻¹) := by rw [this]
      _ = 1 := by field_simp
  have hσw : 0 < σ * w := by
    have e : σ * w = |L⁻¹ * w|⁻¹ * (L⁻¹ * (w * w)) := by rw [hσ]; ring
    rw [e]
    exact mul_pos (inv_pos.2 (abs_pos.2 hLw)) (mul_pos (inv_pos.2 hL) (mul_self_pos.2 hw0))
  have hvz : |L⁻¹ * w|⁻¹ • (⟨0, 0, L⁻¹ * w⟩ : Vec3 K) = ⟨0, 0, σ⟩ := by ext <;> simp [hσ]
  have hvy : Vec3.cross (⟨0, 0, σ⟩ : Vec3 K) ⟨L⁻¹ * v0.x, L⁻¹ * v0.y, 0⟩ =
      ⟨-(σ * (L⁻¹ * v0.y)), σ * (L⁻¹ * v0.x), 0⟩ := by ext <;> simp
  have hn1 : nrm (⟨-(σ * (L⁻¹ * v0.y)), σ * (L⁻¹ * v0.x), 0⟩ : Vec3 K) = 1 := by
    apply hN.eq_of_sq zero_le_one
    simp only [Vec3.normSq, Vec3.dot]
    linear_combination (-1 : K) * hab - hσσ * (L⁻¹ * v0.x * (L⁻¹ * v0.x) + L⁻¹ * v0.y * (L⁻¹ * v0.y))
  refine ⟨L⁻¹ * v0.x, L⁻¹ * v0.y, σ, hab, hσσ, hσw, ?_⟩
  unfold frame
  simp only [← hv0, ← hv1, ← hLdef, hvx, hcr, hn, hvz, hvy, hn1, inv_one, one_smul]

theorem turn_eq (a b p : SVertex K) :
    turn a b p = Left (fun v : SVertex K => v.v2D.x) (fun v => v.v2D.y) a b p := by
  simp only [turn, Left, Vec3.cross_z, Vec3.sub_x, Vec3.sub_y]; ring

end Hull

open Hull

variable {K : Type} [Field K] [LinearOrder K] [IsStrictOrderedRing K]

/-- **C44.** For pairwise distinct points of a plane `z = const`, the first three not collinear, and whatever order
`std::sort` leaves them in: `set` appends a list `h` of input points, starting at the lexicographically smallest in the
plane coordinates, whose closed walk goes through distinct consecutive points and has every input point on the inner
side of each of its edges (the right-hand side, seen along the normal of the first three points). -/
theorem C44_hull (nrm : Vec3 K → K) (hN : IsNorm nrm) (c : K) (p0 p1 p2 : Vec3 K) (rest : List (Vec3 K))
    (hz : ∀ p ∈ p0 :: p1 :: p2 :: rest, p.z = c) (hnd : (p0 :: p1 :: p2 :: rest).Nodup)
    (hcol : Vec3.cross (p1 - p0) (p2 - p0) ≠ 0) (old : List (Vec3 K)) (s : List (SVertex K))
    (hperm : s.Perm (extended nrm (p0 :: p1 :: p2 :: rest))) (hsort : s.Pairwise fun a b => ¬ b.lt a) :
    ∃ h, Hull.set old (p0 :: p1 :: p2 :: rest) s = old ++ h ∧ 2 ≤ h.length ∧
      (∀ a ∈ h, a ∈ p0 :: p1 :: p2 :: rest) ∧
      h.head? = (s.head?.map SVertex.v3D) ∧
      (closed h).IsChain fun a b => a ≠ b ∧
        ∀ p ∈ p0 :: p1 :: p2 :: rest, (Vec3.cross (b - a) (p - a)).dot (Vec3.cross (p1 - p0) (p2 - p0)) ≤ 0 := by
  set pts := p0 :: p1 :: p2 :: rest with hpts
  have z1 : p1.z = p0.z := by rw [hz p1 (by simp [hpts]), hz p0 (by simp [hpts])]
  have z2 : p2.z = p0.z := by rw [hz p2 (by simp [hpts]), hz p0 (by simp [hpts])]
  obtain ⟨a, b, σ, hab, hσσ, hσ, hf⟩ := frame_plane nrm hN p0 p1 p2 z1 z2 hcol
  have hext : extended nrm pts = pts.map fun p => ⟨transform (frame nrm p0 p1 p2) p, p⟩ := rfl
  have htr : ∀ p : Vec3 K, transform (frame nrm p0 p1 p2) p =
      ⟨p.x * a - σ * b * p.y, p.x * b + σ * a * p.y, σ * p.z⟩ := by
    intro p; rw [hf]; unfold transform; ext <;> simp <;> ring
  have hmem : ∀ v ∈ s, v.v3D ∈ pts ∧ v.v2D = transform (frame nrm p0 p1 p2) v.v3D := by
    intro v hv
    have := hperm.subset hv
    rw [hext, List.mem_map] at this
    obtain ⟨p, hp, rfl⟩ := this
    exact ⟨hp, rfl⟩
  have hall : ∀ p ∈ pts, (⟨transform (frame nrm p0 p1 p2) p, p⟩ : SVertex K) ∈ s := by
    intro p hp
    apply hperm.symm.subset
    rw [hext]
    exact List.mem_map.2 ⟨p, hp, rfl⟩
  -- distinct points have distinct plane coordinates
  have hinj : ∀ u ∈ s, ∀ v ∈ s, u.v2D.x = v.v2D.x → u.v2D.y = v.v2D.y → u = v := by
    intro u hu v hv hx hy
    obtain ⟨u1, u2⟩ := hmem u hu
    obtain ⟨v1, v2⟩ := hmem v hv
    rw [u2, v2, htr, htr] at hx hy
    have hx' : u.v3D.x = v.v3D.x := by
      linear_combination a * hx + b * hy - (u.v3D.x - v.v3D.x) * hab
    have hy' : u.v3D.y = v.v3D.y := by
      linear_combination (-(σ * b)) * hx + σ * a * hy - (u.v3D.y - v.v3D.y) * (σ * σ * hab + hσσ)
    have h3 : u.v3D = v.v3D := by
      ext
      · exact hx'
      · exact hy'
      · rw [hz _ u1, hz _ v1]
    have h2 : u.v2D = v.v2D := by rw [u2, v2, h3]
    cases u; cases v; simp only at h2 h3; rw [h2, h3]
  have hsnd : s.Nodup := by
    rw [hperm.nodup_iff, hext]
    apply hnd.map
    intro p q h
    exact congrArg SVertex.v3D h
  have hstrict : s.Pairwise (Lt (fun v : SVertex K => v.v2D.x) (fun v => v.v2D.y)) := by
    refine (hsort.and hsnd).imp_of_mem ?_
    rintro u v hu hv ⟨hlt, hne⟩
    unfold SVertex.lt at hlt
    rw [not_or, not_lt, not_and, not_lt] at hlt
    rcases lt_or_eq_of_le hlt.1 with h | h
    · exact Or.inl h
    · rcases lt_or_eq_of_le (hlt.2 h.symm) with h' | h'
      · exact Or.inr ⟨h, h'⟩
      · exact absurd (hinj u hu v hv h h') hne
  have hlen : 2 ≤ s.length := by rw [hperm.length_eq, hext, List.length_map, hpts]; simp
  obtain ⟨m1, m2, m3, -, m5⟩ := monotone_spec s hlen hstrict
  have hturn : (turn : SVertex K → SVertex K → SVertex K → K) =
      Left (fun v : SVertex K => v.v2D.x) (fun v => v.v2D.y) := by
    funext u v w; exact turn_eq u v w
  rw [← hturn] at m1 m2 m3 m5
  refine ⟨(monotone turn s).map SVertex.v3D, ?_, by simpa using m1, ?_, ?_, ?_⟩
  · unfold Hull.set
    rw [if_neg (by simp [hpts])]
  · intro v hv
    obtain ⟨u, hu, rfl⟩ := List.mem_map.1 hv
    exact (hmem u (m3 u hu)).1
  · rw [List.head?_map, m2]
  · have hc : closed ((monotone turn s).map SVertex.v3D) = (closed (monotone turn s)).map SVertex.v3D := by
      simp [closed]
    rw [hc, List.isChain_map]
    have hmemc : ∀ u ∈ closed (monotone turn s), u ∈ s := by
      intro u hu
      rcases List.mem_append.1 hu with hu | hu
      · exact m3 u hu
      · exact m3 u (List.mem_of_mem_take hu)
    refine m5.imp_of_mem_imp ?_
    rintro u v hu hv ⟨hne, hR⟩
    have hus := hmemc u hu
    have hvs := hmemc v hv
    refine ⟨?_, ?_⟩
    · intro he
      have h2 : u.v2D = v.v2D := by rw [(hmem u hus).2, (hmem v hvs).2, he]
      rcases hne with h | h <;> (unfold Lt at h; simp [h2] at h)
    · intro p hp
      have h1 := hR _ (hall p hp)
      rw [turn_eq] at h1
      simp only [Left] at h1
      rw [(hmem u hus).2, (hmem v hvs).2, htr, htr, htr] at h1
      have hzu := hz _ (hmem u hus).1
      have hzv := hz _ (hmem v hvs).1
      have hzp := hz _ hp
      -- the plane turn is `σ` times the turn of the points
      have h2 : σ * (Vec3.cross (v.v3D - u.v3D) (p - u.v3D)).z ≤ 0 := by
        have e : σ * (Vec3.cross (v.v3D - u.v3D) (p - u.v3D)).z =
            (a * a + b * b) * (σ * (Vec3.cross (v.v3D - u.v3D) (p - u.v3D)).z) := by rw [hab, one_mul]
        rw [e]
        refine le_of_eq_of_le ?_ h1
        simp only [Vec3.cross_z, Vec3.sub_x, Vec3.sub_y]
        ring
      have hN0 : (Vec3.cross (p1 - p0) (p2 - p0)).x = 0 ∧ (Vec3.cross (p1 - p0) (p2 - p0)).y = 0 := by
        constructor <;> simp [z1, z2]
      have e : (Vec3.cross (v.v3D - u.v3D) (p - u.v3D)).dot (Vec3.cross (p1 - p0) (p2 - p0)) =
          (Vec3.cross (v.v3D - u.v3D) (p - u.v3D)).z * (Vec3.cross (p1 - p0) (p2 - p0)).z := by
        unfold Vec3.dot; rw [hN0.1, hN0.2]; ring
      rw [e]
      have e2 : (Vec3.cross (v.v3D - u.v3D) (p - u.v3D)).z * (Vec3.cross (p1 - p0) (p2 - p0)).z =
          (σ * (Vec3.cross (v.v3D - u.v3D) (p - u.v3D)).z) * (σ * (Vec3.cross (p1 - p0) (p2 - p0)).z) := by
        linear_combination (-(Vec3.cross (v.v3D - u.v3D) (p - u.v3D)).z * (Vec3.cross (p1 - p0) (p2 - p0)).z) * hσσ
      rw [e2]
      exact mul_nonpos_of_nonpos_of_nonneg h2 hσ.le

/-- Five distinct points of the plane `z = 0` meet the hypotheses of `C44_hull`. -/
example : (∀ p ∈ ([⟨0, 0, 0⟩, ⟨2, 0, 0⟩, ⟨0, 2, 0⟩, ⟨2, 2, 0⟩, ⟨1, 1, 0⟩] : List (Vec3 ℚ)), p.z = 0) ∧
    ([⟨0, 0, 0⟩, ⟨2, 0, 0⟩, ⟨0, 2, 0⟩, ⟨2, 2, 0⟩, ⟨1, 1, 0⟩] : List (Vec3 ℚ)).Nodup ∧
    Vec3.cross ((⟨2, 0, 0⟩ : Vec3 ℚ) - ⟨0, 0, 0⟩) (⟨0, 2, 0⟩ - ⟨0, 0, 0⟩) ≠ 0 := by decide +kernel

example : (monotone turn ([⟨⟨0, 0, 0⟩, ⟨0, 0, 0⟩⟩, ⟨⟨0, 2, 0⟩, ⟨0, 2, 0⟩⟩, ⟨⟨1, 1, 0⟩, ⟨1, 1, 0⟩⟩,
      ⟨⟨2, 0, 0⟩, ⟨2, 0, 0⟩⟩, ⟨⟨2, 2, 0⟩, ⟨2, 2, 0⟩⟩] : List (SVertex ℚ))).map SVertex.v3D =
    [⟨0, 0, 0⟩, ⟨0, 2, 0⟩, ⟨2, 2, 0⟩, ⟨2, 0, 0⟩] := by decide +kernel

/-- In a plane that is not `z = const` the claim fails. The points are multiplied by the matrix whose columns are the
axes, where its transpose would be needed; the corners of a triangle in `x = 0` then have collinear plane coordinates,
and the walk returned goes along one edge twice, with a corner on its outer side. -/
theorem C44_other_planes (nrm : Vec3 K → K) (hN : IsNorm nrm) :
    let p0 : Vec3 K := ⟨0, 0, 0⟩
    let p1 : Vec3 K := ⟨0, 1, 0⟩
    let p2 : Vec3 K := ⟨0, 0, 1⟩
    let s := extended nrm [p0, p1, p2]
    (s.Pairwise fun a b => ¬ b.lt a) ∧ Hull.set [] [p0, p1, p2] s = [p0, p1, p2, p1] ∧
      0 < (Vec3.cross (p2 - p1) (p0 - p1)).dot (Vec3.cross (p1 - p0) (p2 - p0)) := by
  intro p0 p1 p2 s
  have n1 : ∀ v : Vec3 K, v.normSq = 1 → nrm v = 1 := fun v hv => hN.eq_of_sq zero_le_one (by rw [hv, one_mul])
  have hf : frame nrm p0 p1 p2 = (⟨0, 1, 0⟩, ⟨0, 0, 1⟩, ⟨1, 0, 0⟩) := by
    have e1 : p1 - p0 = ⟨0, 1, 0⟩ := by ext <;> simp [p0, p1]
    have e2 : p2 - p0 = ⟨0, 0, 1⟩ := by ext <;> simp [p0, p2]
    have e3 : Vec3.cross (⟨0, 1, 0⟩ : Vec3 K) ⟨0, 0, 1⟩ = ⟨1, 0, 0⟩ := by ext <;> simp
    have e4 : Vec3.cross (⟨1, 0, 0⟩ : Vec3 K) ⟨0, 1, 0⟩ = ⟨0, 0, 1⟩ := by ext <;> simp
    unfold frame
    simp only [e1, e2, n1 ⟨0, 1, 0⟩ (by simp [Vec3.normSq, Vec3.dot]), inv_one, one_smul, e3,
      n1 ⟨1, 0, 0⟩ (by simp [Vec3.normSq, Vec3.dot]), e4, n1 ⟨0, 0, 1⟩ (by simp [Vec3.normSq, Vec3.dot])]
  have hs : s = [⟨⟨0, 0, 0⟩, p0⟩, ⟨⟨0, 0, 1⟩, p1⟩, ⟨⟨1, 0, 0⟩, p2⟩] := by
    change [p0, p1, p2].map (fun p => (⟨transform (frame nrm p0 p1 p2) p, p⟩ : SVertex K)) = _
    simp only [List.map_cons, List.map_nil, hf, List.cons.injEq, and_true, SVertex.mk.injEq]
    refine ⟨?_, ?_, ?_⟩ <;> ext <;> simp [transform, p0, p1, p2]
  refine ⟨?_, ?_, ?_⟩
  · rw [hs]
    have h1 : ¬ (1 : K) < 0 := by norm_num
    simp [SVertex.lt, h1]
  · rw [hs]
    simp [Hull.set, monotone, push, popWhile, turn]
  · simp [p0, p1, p2, Vec3.dot]

/-- With a repeated point the claim fails: the middle point `b` is strictly inside the triangle `a`, `c`, `d`, but given
twice it stays in the walk, because the turn at a zero-length edge is zero. -/
theorem C44_repeated_point (nrm : Vec3 K → K) (hN : IsNorm nrm) :
    let a : Vec3 K := ⟨-1, 1, 0⟩
    let c : Vec3 K := ⟨1, 1, 0⟩
    let b : Vec3 K := ⟨0, 0, 0⟩
    let d : Vec3 K := ⟨0, -2, 0⟩
    ∃ s, s.Perm (extended nrm [a, c, b, b, d]) ∧ (s.Pairwise fun a b => ¬ b.lt a) ∧
      Hull.set [] [a, c, b, b, d] s = [a, b, b, d, c, b, b] ∧
      0 < (Vec3.cross (b - a) (d - a)).dot (Vec3.cross (c - a) (b - a)) := by
  intro a c b d
  have hf : frame nrm a c b = (⟨1, 0, 0⟩, ⟨0, -1, 0⟩, ⟨0, 0, -1⟩) := by
    have e1 : c - a = ⟨2, 0, 0⟩ := by ext <;> simp [a, c]; norm_num
    have e2 : b - a = ⟨1, -1, 0⟩ := by ext <;> simp [a, b]
    have e0 : (2 : K)⁻¹ • (⟨2, 0, 0⟩ : Vec3 K) = ⟨1, 0, 0⟩ := by ext <;> simp
    have e3 : Vec3.cross (⟨1, 0, 0⟩ : Vec3 K) ⟨1, -1, 0⟩ = ⟨0, 0, -1⟩ := by ext <;> simp
    have e4 : Vec3.cross (⟨0, 0, -1⟩ : Vec3 K) ⟨1, 0, 0⟩ = ⟨0, -1, 0⟩ := by ext <;> simp
    have m1 : nrm (⟨2, 0, 0⟩ : Vec3 K) = 2 := hN.eq_of_sq (by norm_num) (by simp [Vec3.normSq, Vec3.dot])
    have m2 : nrm (⟨0, 0, -1⟩ : Vec3 K) = 1 := hN.eq_of_sq (by norm_num) (by simp [Vec3.normSq, Vec3.dot])
    have m3 : nrm (⟨0, -1, 0⟩ : Vec3 K) = 1 := hN.eq_of_sq (by norm_num) (by simp [Vec3.normSq, Vec3.dot])
    unfold frame
    simp only [e1, e2, m1, e0, e3, m2, inv_one, one_smul, e4, m3]
  have hs : extended nrm [a, c, b, b, d] =
      [⟨⟨-1, -1, 0⟩, a⟩, ⟨⟨1, -1, 0⟩, c⟩, ⟨⟨0, 0, 0⟩, b⟩, ⟨⟨0, 0, 0⟩, b⟩, ⟨⟨0, 2, 0⟩, d⟩] := by
    change [a, c, b, b, d].map (fun p => (⟨transform (frame nrm a c b) p, p⟩ : SVertex K)) = _
    simp only [List.map_cons, List.map_nil, hf, List.cons.injEq, and_true, SVertex.mk.injEq]
    refine ⟨?_, ?_, ?_, ?_, ?_⟩ <;> ext <;> simp [transform, a, b, c, d]
  refine ⟨[⟨⟨-1, -1, 0⟩, a⟩, ⟨⟨0, 0, 0⟩, b⟩, ⟨⟨0, 0, 0⟩, b⟩, ⟨⟨0, 2, 0⟩, d⟩, ⟨⟨1, -1, 0⟩, c⟩], ?_, ?_, ?_, ?_⟩
  · rw [hs]
    apply List.Perm.cons
    exact (List.perm_append_comm (l₁ := ([⟨⟨0, 0, 0⟩, b⟩, ⟨⟨0, 0, 0⟩, b⟩, ⟨⟨0, 2, 0⟩, d⟩] : List (SVertex K)))
      (l₂ := [⟨⟨1, -1, 0⟩, c⟩]))
  · have h1 : ¬ (1 : K) < 0 := by norm_num
    have h2 : ¬ (1 : K) < -1 := by norm_num
    simp [SVertex.lt]
  · norm_num [Hull.set, monotone, push, popWhile, turn]
  · norm_num [a, b, c, d, Vec3.dot]

end ENigMA
