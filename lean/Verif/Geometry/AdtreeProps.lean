import Verif.Geometry.Adtree
import Verif.Geometry.BBoxProps
import Mathlib.Data.List.Perm.Basic
import Mathlib.Tactic.FinCases
import Mathlib.Algebra.Order.Ring.Rat

/-!
# C14: the alternating digital tree finds exactly the boxes that meet the query
-/

set_option linter.unusedSectionVars false
set_option autoImplicit false

namespace ENigMA

variable {K : Type} [Field K] [LinearOrder K] [IsStrictOrderedRing K]

namespace Adtree

/-! ### Specification -/

/-- A call of the interface. -/
inductive Op (K : Type) where
  | add (id : Int) (b : BBox K)
  | remove (i : Int)

/-- The calls, one after the other; `none` when one has undefined behaviour. -/
def run : List (Op K) → Adt K → Option (Adt K)
  | [], t => some t
  | .add id b :: h, t => run h (t.add id b)
  | .remove i :: h, t => (t.remove i).bind (run h)

/-- The boxes that are present after a history: for each, the number of insertions before it, its id and itself. `n` is the number of insertions so far. -/
def present : List (Op K) → Nat → List (Nat × Int × BBox K) → List (Nat × Int × BBox K)
  | [], _, l => l
  | .add id b :: h, n, l => present h (n + 1) ((n, id, b) :: l)
  | .remove i :: h, n, l => present h n (l.filter fun e => (e.1 : Int) ≠ i)

/-- Ids are not `-1` (the mark of an empty node), and each removal names a box that is present, by the number of insertions before it. -/
def Legal : List (Op K) → Nat → List (Nat × Int × BBox K) → Prop
  | [], _, _ => True
  | .add id b :: h, n, l => id ≠ -1 ∧ Legal h (n + 1) ((n, id, b) :: l)
  | .remove i :: h, n, l => (∃ e ∈ l, (e.1 : Int) = i) ∧ Legal h n (l.filter fun e => (e.1 : Int) ≠ i)

/-- The number of insertions. -/
def adds : List (Op K) → Nat
  | [] => 0
  | .add _ _ :: h => adds h + 1
  | .remove _ :: h => adds h

/-- The longest path from the root. -/
def Tree.height : Tree K → Nat
  | .nil => 0
  | .node _ _ _ l r => max l.height r.height + 1

/-! ### The live entries of a tree -/

/-- The live nodes with their paths. -/
def labelled : Tree K → List (List Bool × Int × (Fin 6 → K))
  | .nil => []
  | .node id _ data l r =>
    (if id ≠ -1 then [([], id, data)] else []) ++ (labelled r).map (fun e => (true :: e.1, e.2)) ++ (labelled l).map (fun e => (false :: e.1, e.2))

/-- The separators are the midpoints of the ranges, and the live entries lie on their side. -/
def Inv : Fin 6 → (Fin 6 → K) → (Fin 6 → K) → Tree K → Prop
  | _, _, _, .nil => True
  | dir, bmin, bmax, .node _ sep _ l r =>
    sep = (bmin dir + bmax dir) / 2 ∧ (∀ e ∈ labelled l, e.2.2 dir < sep) ∧ (∀ e ∈ labelled r, sep ≤ e.2.2 dir) ∧
    Inv (dir + 1) bmin (Function.update bmax dir sep) l ∧ Inv (dir + 1) (Function.update bmin dir sep) bmax r

theorem labelled_insert (p : Fin 6 → K) (id : Int) (hid : id ≠ -1) (t : Tree K) : ∀ (dir : Fin 6) (bmin bmax : Fin 6 → K),
    (labelled (insertT p id dir bmin bmax t).1).Perm (((insertT p id dir bmin bmax t).2, id, p) :: labelled t) ∧
    ((insertT p id dir bmin bmax t).2, id, p) ∉ labelled t ∧ (∀ e ∈ labelled t, e.1 ≠ (insertT p id dir bmin bmax t).2) := by
  induction t with
  | nil => intro dir bmin bmax; simp [insertT, labelled, hid]
  | node nid sep data l r ihl ihr =>
    intro dir bmin bmax
    unfold insertT
    split_ifs with h1 h2
    · subst h1
      simp only [labelled, hid, ne_eq, not_false_eq_true, if_true, not_true_eq_false, if_false, List.nil_append]
      refine ⟨by simp, by simp, ?_⟩
      intro e he
      rcases List.mem_append.1 he with he | he <;> obtain ⟨a, -, rfl⟩ := List.mem_map.1 he <;> simp
    · obtain ⟨a1, a2, a3⟩ := ihl (dir + 1) bmin (Function.update bmax dir sep)
      simp only [labelled, h1, ne_eq, not_false_eq_true, if_true]
      refine ⟨?_, ?_, ?_⟩
      · have := a1.map fun e : List Bool × Int × (Fin 6 → K) => (false :: e.1, e.2)
        refine (this.append_left _).trans ?_
        simp only [List.map_cons]
        exact List.perm_middle
      · intro hm
        simp only [List.cons_append, List.nil_append, List.mem_cons, List.mem_append, List.mem_map] at hm
        rcases hm with hm | ⟨e, -, hm⟩ | ⟨e, he, hm⟩
        · simp at hm
        · simp at hm
        · simp only [Prod.mk.injEq, List.cons.injEq, true_and] at hm
          exact a3 e he hm.1
      · intro e he
        simp only [List.cons_append, List.nil_append, List.mem_cons, List.mem_append, List.mem_map] at he
        rcases he with rfl | ⟨e, -, rfl⟩ | ⟨e, he, rfl⟩
        · simp
        · simp
        · simpa using a3 e he
    · obtain ⟨a1, a2, a3⟩ := ihr (dir + 1) (Function.update bmin dir sep) bmax
      simp only [labelled, h1, ne_eq, not_false_eq_true, if_true]
      refine ⟨?_, ?_, ?_⟩
      · have := a1.map fun e : List Bool × Int × (Fin 6 → K) => (true :: e.1, e.2)
        refine ((this.append_left _).append_right _).trans ?_
        simp only [List.map_cons, List.append_assoc, List.cons_append, List.nil_append]
        exact List.Perm.swap _ _ _
      · intro hm
        simp only [List.cons_append, List.nil_append, List.mem_cons, List.mem_append, List.mem_map] at hm
        rcases hm with hm | ⟨e, he, hm⟩ | ⟨e, -, hm⟩
        · simp at hm
        · simp only [Prod.mk.injEq, List.cons.injEq, true_and] at hm
          exact a3 e he hm.1
        · simp at hm
      · intro e he
        simp only [List.cons_append, List.nil_append, List.mem_cons, List.mem_append, List.mem_map] at he
        rcases he with rfl | ⟨e, he, rfl⟩ | ⟨e, -, rfl⟩
        · simp
        · simpa using a3 e he
        · simp

theorem inv_insert (p : Fin 6 → K) (id : Int) (hid : id ≠ -1) (t : Tree K) : ∀ (dir : Fin 6) (bmin bmax : Fin 6 → K),
    Inv dir bmin bmax t → Inv dir bmin bmax (insertT p id dir bmin bmax t).1 := by
  induction t with
  | nil => intro dir bmin bmax _; simp [insertT, Inv, labelled]
  | node nid sep data l r ihl ihr =>
    intro dir bmin bmax h
    unfold insertT
    obtain ⟨h1, h2, h3, h4, h5⟩ := h
    split_ifs with c1 c2
    · exact ⟨h1, h2, h3, h4, h5⟩
    · refine ⟨h1, ?_, h3, ihl _ _ _ h4, h5⟩
      intro e he
      rcases List.mem_cons.1 ((labelled_insert p id hid l _ _ _).1.mem_iff.1 he) with rfl | he
      · exact c2
      · exact h2 e he
    · refine ⟨h1, h2, ?_, h4, ihr _ _ _ h5⟩
      intro e he
      rcases List.mem_cons.1 ((labelled_insert p id hid r _ _ _).1.mem_iff.1 he) with rfl | he
      · exact not_lt.1 c2
      · exact h3 e he

theorem labelled_kill (t : Tree K) : ∀ w, labelled (kill w t) = (labelled t).filter fun e => decide (e.1 ≠ w) := by
  induction t with
  | nil => intro w; cases w <;> simp [kill, labelled]
  | node nid sep data l r ihl ihr =>
    intro w
    match w with
    | [] =>
      simp only [kill, labelled, List.filter_append, List.filter_map]
      by_cases h : nid = -1 <;> simp [h, Function.comp_def]
    | false :: w =>
      simp only [kill, labelled, List.filter_append, List.filter_map, ihl]
      by_cases h : nid = -1 <;> simp [h, Function.comp_def]
    | true :: w =>
      simp only [kill, labelled, List.filter_append, List.filter_map, ihr]
      by_cases h : nid = -1 <;> simp [h, Function.comp_def]

theorem inv_kill (t : Tree K) : ∀ (w : List Bool) (dir : Fin 6) (bmin bmax : Fin 6 → K), Inv dir bmin bmax t → Inv dir bmin bmax (kill w t) := by
  induction t with
  | nil => intro w dir bmin bmax _; cases w <;> exact trivial
  | node nid sep data l r ihl ihr =>
    intro w dir bmin bmax ⟨h1, h2, h3, h4, h5⟩
    match w with
    | [] => exact ⟨h1, h2, h3, h4, h5⟩
    | false :: w => exact ⟨h1, fun e he => h2 e (List.mem_of_mem_filter (labelled_kill l w ▸ he)), h3, ihl _ _ _ _ h4, h5⟩
    | true :: w => exact ⟨h1, h2, fun e he => h3 e (List.mem_of_mem_filter (labelled_kill r w ▸ he)), h4, ihr _ _ _ _ h5⟩

/-- Insertion makes the tree at most one higher, and removal does not change the height. -/
theorem height_insert (p : Fin 6 → K) (id : Int) (t : Tree K) : ∀ (dir : Fin 6) (bmin bmax : Fin 6 → K),
    (insertT p id dir bmin bmax t).1.height ≤ t.height + 1 := by
  induction t with
  | nil => intro dir bmin bmax; simp [insertT, Tree.height]
  | node nid sep data l r ihl ihr =>
    intro dir bmin bmax
    unfold insertT
    split_ifs
    · simp [Tree.height]
    · have := ihl (dir + 1) bmin (Function.update bmax dir sep)
      simp only [Tree.height]; omega
    · have := ihr (dir + 1) (Function.update bmin dir sep) bmax
      simp only [Tree.height]; omega

theorem height_kill (t : Tree K) : ∀ w, (kill w t).height = t.height := by
  induction t with
  | nil => intro w; cases w <;> rfl
  | node nid sep data l r ihl ihr =>
    intro w
    match w with
    | [] => rfl
    | false :: w => simp [kill, Tree.height, ihl]
    | true :: w => simp [kill, Tree.height, ihr]

/-! ### The search -/

/-- The nodes a search visits below a node, in its order. -/
def trav (bmin bmax : Fin 6 → K) : Fin 6 → Tree K → List Int
  | _, .nil => []
  | dir, .node id sep data l r =>
    (if id ≠ -1 ∧ hit bmin bmax data = true then [id] else []) ++
    (if sep ≤ bmax dir then trav bmin bmax (dir + 1) r else []) ++ (if bmin dir ≤ sep then trav bmin bmax (dir + 1) l else [])

/-- The stack has room: below each entry there is space for its whole subtree. -/
def Room (max : Nat) : List (Tree K × Fin 6) → Prop
  | [] => True
  | (t, _) :: st => t ≠ .nil ∧ st.length + t.height ≤ max ∧ Room max st

theorem walk_eq (max : Nat) (bmin bmax : Fin 6 → K) (n : Nat) : ∀ (st : List (Tree K × Fin 6)) (out : List Int),
    (st.map fun e => e.1.size).sum ≤ n → Room max st →
    walk max bmin bmax n st out = out ++ st.flatMap fun e => trav bmin bmax e.2 e.1 := by
  induction n with
  | zero =>
    intro st out hs hr
    cases st with
    | nil => simp [walk]
    | cons e st =>
      obtain ⟨t, d⟩ := e
      cases t with
      | nil => exact absurd rfl hr.1
      | node id sep data l r => simp [Tree.size] at hs
  | succ n ih =>
    intro st out hs hr
    match st with
    | [] => simp [walk]
    | (.nil, _) :: _ => exact absurd rfl hr.1
    | (.node id sep data l r, dir) :: st =>
      obtain ⟨-, hr2, hr3⟩ := hr
      simp only [List.map_cons, List.sum_cons, Tree.size] at hs
      simp only [Tree.height] at hr2
      unfold walk
      simp only [List.flatMap_cons, trav]
      set out' := (if id ≠ -1 ∧ hit bmin bmax data = true then out ++ [id] else out) with ho
      have ho' : out' = out ++ (if id ≠ -1 ∧ hit bmin bmax data = true then [id] else []) := by rw [ho]; split_ifs <;> simp
      have hlen : ¬ max ≤ st.length := by omega
      rw [if_neg (fun h => hlen h.2)]
      have hL : ∀ goL : Bool, (goL = true → l ≠ .nil) → Room max (if goL then (l, dir + 1) :: st else st) := by
        intro goL hl
        cases goL with
        | false => exact hr3
        | true => exact ⟨hl rfl, by omega, hr3⟩
      cases l with
      | nil =>
        cases r with
        | nil =>
          simp only [Tree.isNode, Bool.false_and, Bool.false_eq_true, false_and, if_false]
          rw [ih st out' (by simp [Tree.size] at hs; omega) hr3, ho']
          simp [trav]
        | node id' sep' data' l' r' =>
          simp only [Tree.isNode, Bool.false_and, Bool.true_and, Bool.false_eq_true, if_false, decide_eq_true_eq]
          rw [if_neg (fun h => hlen h.2)]
          by_cases hg : sep ≤ bmax dir
          · simp only [hg, if_true]
            refine (ih _ out' ?_ ?_).trans ?_
            · simp [Tree.size] at hs ⊢; omega
            · exact ⟨by simp, by simp only [Tree.height] at hr2 ⊢; omega, hr3⟩
            rw [ho']
            simp [trav]
          · simp only [hg, if_false]
            rw [ih _ out' (by simp [Tree.size] at hs ⊢; omega) hr3, ho']
            simp [trav]
      | node id'' sep'' data'' l'' r'' =>
        cases r with
        | nil =>
          simp only [Tree.isNode, Bool.false_and, Bool.true_and, Bool.false_eq_true, false_and, if_false, decide_eq_true_eq]
          by_cases hg : bmin dir ≤ sep
          · simp only [hg, if_true]
            refine (ih _ out' ?_ ?_).trans ?_
            · simp [Tree.size] at hs ⊢; omega
            · exact ⟨by simp, by simp only [Tree.height] at hr2 ⊢; omega, hr3⟩
            rw [ho']
            simp [trav]
          · simp only [hg, if_false]
            rw [ih _ out' (by simp [Tree.size] at hs ⊢; omega) hr3, ho']
            simp [trav]
        | node id' sep' data' l' r' =>
          simp only [Tree.isNode, Bool.true_and, decide_eq_true_eq]
          by_cases hg : bmin dir ≤ sep
          · simp only [hg, if_true]
            rw [if_neg (by rintro ⟨-, h⟩; simp only [Tree.height, List.length_cons] at hr2 h; omega)]
            by_cases hg' : sep ≤ bmax dir
            · simp only [hg', if_true]
              refine (ih _ out' ?_ ?_).trans ?_
              · simp [Tree.size] at hs ⊢; omega
              · exact ⟨by simp, by simp only [Tree.height, List.length_cons] at hr2 ⊢; omega, by simp, by simp only [Tree.height] at hr2 ⊢; omega, hr3⟩
              rw [ho']
              simp [trav]
            · simp only [hg', if_false]
              refine (ih _ out' ?_ ?_).trans ?_
              · simp [Tree.size] at hs ⊢; omega
              · exact ⟨by simp, by simp only [Tree.height] at hr2 ⊢; omega, hr3⟩
              rw [ho']
              simp [trav]
          · simp only [hg, if_false]
            rw [if_neg (fun h => hlen h.2)]
            by_cases hg' : sep ≤ bmax dir
            · simp only [hg', if_true]
              refine (ih _ out' ?_ ?_).trans ?_
              · simp [Tree.size] at hs ⊢; omega
              · exact ⟨by simp, by simp only [Tree.height] at hr2 ⊢; omega, hr3⟩
              rw [ho']
              simp [trav]
            · simp only [hg', if_false]
              rw [ih _ out' (by simp [Tree.size] at hs ⊢; omega) hr3, ho']
              simp [trav]

/-- What a search finds, whatever the stack bound. -/
theorem walk_mem (max : Nat) (bmin bmax : Fin 6 → K) (n : Nat) : ∀ (st : List (Tree K × Fin 6)) (out : List Int),
    ∀ i ∈ walk max bmin bmax n st out, i ∈ out ∨ ∃ s ∈ st, ∃ e ∈ labelled s.1, e.2.1 = i ∧ hit bmin bmax e.2.2 = true := by
  induction n with
  | zero => intro st out i h; exact Or.inl h
  | succ n ih =>
    intro st out i h
    match st with
    | [] => exact Or.inl h
    | (.nil, _) :: _ => exact Or.inl h
    | (.node id sep data l r, dir) :: st =>
      unfold walk at h
      set out' := (if id ≠ -1 ∧ hit bmin bmax data = true then out ++ [id] else out) with ho
      have hout : i ∈ out' → i ∈ out ∨ ∃ s ∈ (Tree.node id sep data l r, dir) :: st, ∃ e ∈ labelled s.1, e.2.1 = i ∧ hit bmin bmax e.2.2 = true := by
        intro hi
        rw [ho] at hi
        split_ifs at hi with hc
        · rcases List.mem_append.1 hi with hi | hi
          · exact Or.inl hi
          · have : i = id := by simpa using hi
            subst this
            exact Or.inr ⟨_, List.mem_cons_self, ([], i, data), by simp [labelled, hc.1], rfl, hc.2⟩
        · exact Or.inl hi
      simp only at h
      generalize (l.isNode && decide (bmin dir ≤ sep)) = goL at h
      generalize (r.isNode && decide (sep ≤ bmax dir)) = goR at h
      have hst : ∀ s, s ∈ (if goR = true then (r, dir + 1) :: (if goL = true then (l, dir + 1) :: st else st) else (if goL = true then (l, dir + 1) :: st else st)) →
          s = (r, dir + 1) ∨ s = (l, dir + 1) ∨ s ∈ st := by
        intro s hs
        cases goL <;> cases goR <;> simp only [if_true, Bool.false_eq_true, if_false, List.mem_cons] at hs <;> tauto
      generalize hstk : (if goR = true then (r, dir + 1) :: (if goL = true then (l, dir + 1) :: st else st) else (if goL = true then (l, dir + 1) :: st else st)) = stk at h hst
      by_cases c1 : goL = true ∧ max ≤ st.length
      · rw [if_pos c1] at h; exact hout h
      · rw [if_neg c1] at h
        by_cases c2 : goR = true ∧ max ≤ (if goL = true then (l, dir + 1) :: st else st).length
        · rw [if_pos c2] at h; exact hout h
        · rw [if_neg c2] at h
          rcases ih _ _ i h with h | ⟨s, hs, e, he, h⟩
          · exact hout h
          · right
            rcases hst s hs with rfl | rfl | hs'
            · exact ⟨_, List.mem_cons_self, (true :: e.1, e.2), by simp [labelled, he], h⟩
            · exact ⟨_, List.mem_cons_self, (false :: e.1, e.2), by simp [labelled, he], h⟩
            · exact ⟨s, List.mem_cons_of_mem _ hs', e, he, h⟩

theorem hit_iff (bmin bmax data : Fin 6 → K) : hit bmin bmax data = true ↔
    (data 0 ≤ bmax 0 ∧ data 1 ≤ bmax 1 ∧ data 2 ≤ bmax 2) ∧ (bmin 3 ≤ data 3 ∧ bmin 4 ≤ data 4 ∧ bmin 5 ≤ data 5) := by
  simp [hit, and_assoc]

/-- The subtrees a search skips hold no box that it looks for. -/
theorem trav_perm (qmin qmax lo hi : Fin 6 → K) (t : Tree K) : ∀ (dir : Fin 6) (bmin bmax : Fin 6 → K), Inv dir bmin bmax t →
    (∀ d, bmin d ≤ bmax d) → (∀ d, d < 3 → qmin d ≤ bmin d) → (∀ d, 3 ≤ d → bmax d ≤ qmax d) →
    (trav qmin qmax dir t).Perm (((labelled t).filter fun e => hit qmin qmax e.2.2).map fun e => e.2.1) := by
  induction t with
  | nil => intro dir bmin bmax _ _ _ _; simp [trav, labelled]
  | node nid sep data l r ihl ihr =>
    intro dir bmin bmax h hb hlo hhi
    obtain ⟨h1, h2, h3, h4, h5⟩ := h
    have hmid : bmin dir ≤ sep ∧ sep ≤ bmax dir := by rw [h1]; constructor <;> linarith [hb dir]
    have hl := ihl (dir + 1) bmin (Function.update bmax dir sep) h4
      (fun d => by by_cases hd : d = dir
                   · subst hd; simpa using hmid.1
                   · simpa [hd] using hb d) hlo
      (fun d h3d => by by_cases hd : d = dir
                       · subst hd; simpa using hmid.2.trans (hhi d h3d)
                       · simpa [hd] using hhi d h3d)
    have hr := ihr (dir + 1) (Function.update bmin dir sep) bmax h5
      (fun d => by by_cases hd : d = dir
                   · subst hd; simpa using hmid.2
                   · simpa [hd] using hb d)
      (fun d h3d => by by_cases hd : d = dir
                       · subst hd; simpa using (hlo d h3d).trans hmid.1
                       · simpa [hd] using hlo d h3d) hhi
    have hl' : (if qmin dir ≤ sep then trav qmin qmax (dir + 1) l else []).Perm (((labelled l).filter fun e => hit qmin qmax e.2.2).map fun e => e.2.1) := by
      split_ifs with hc
      · exact hl
      · have hd : 3 ≤ dir := by
          by_contra hd
          exact hc ((hlo dir (not_le.1 hd)).trans hmid.1)
        have : (labelled l).filter (fun e => hit qmin qmax e.2.2) = [] := by
          rw [List.filter_eq_nil_iff]
          intro e he hh
          have := h2 e he
          have hc := not_le.1 hc
          rw [hit_iff] at hh
          have : dir = 3 ∨ dir = 4 ∨ dir = 5 := by omega
          rcases this with rfl | rfl | rfl <;> linarith [hh.2.1, hh.2.2.1, hh.2.2.2]
        rw [this]; simp
    have hr' : (if sep ≤ qmax dir then trav qmin qmax (dir + 1) r else []).Perm (((labelled r).filter fun e => hit qmin qmax e.2.2).map fun e => e.2.1) := by
      split_ifs with hc
      · exact hr
      · have hd : dir < 3 := by
          by_contra hd
          exact hc (hmid.2.trans (hhi dir (not_lt.1 hd)))
        have : (labelled r).filter (fun e => hit qmin qmax e.2.2) = [] := by
          rw [List.filter_eq_nil_iff]
          intro e he hh
          have := h3 e he
          have hc := not_le.1 hc
          rw [hit_iff] at hh
          have : dir = 0 ∨ dir = 1 ∨ dir = 2 := by omega
          rcases this with rfl | rfl | rfl <;> linarith [hh.1.1, hh.1.2.1, hh.1.2.2]
        rw [this]; simp
    simp only [trav, labelled, List.filter_append, List.map_append, List.filter_map, List.map_map, Function.comp_def]
    refine List.Perm.append (List.Perm.append ?_ hr') hl'
    by_cases hn : nid = -1 <;> by_cases hh : hit qmin qmax data = true <;> simp [hn, hh]

/-! ### The invariant of a history -/

/-- The state after a history with `n` insertions and the boxes `l` present. -/
structure Good (B : BBox K) (n : Nat) (l : List (Nat × Int × BBox K)) (t : Adt K) : Prop where
  box : t.box = B
  cmin : t.tree.cmin = six B.min B.min
  cmax : t.tree.cmax = six B.max B.max
  len : t.tree.nodes.length = n
  inv : Inv 0 t.tree.cmin t.tree.cmax t.tree.root
  live : (labelled t.tree.root).Perm (l.map fun e => ((t.tree.nodes[e.1]?).getD [], e.2.1, six e.2.2.min e.2.2.max))
  lt : ∀ e ∈ l, e.1 < n
  distinct : ∀ e ∈ l, ∀ f ∈ l, t.tree.nodes[e.1]? = t.tree.nodes[f.1]? → e.1 = f.1

theorem good_set (B : BBox K) : Good B 0 [] (Adt.set B) :=
  { box := rfl, cmin := rfl, cmax := rfl, len := rfl
    inv := by simp [Adt.set, Adtree.set, fresh, Inv, labelled]
    live := by simp [Adt.set, Adtree.set, fresh, labelled]
    lt := by simp
    distinct := by simp }

theorem good_add (B : BBox K) (n : Nat) (l : List (Nat × Int × BBox K)) (t : Adt K) (h : Good B n l t) (id : Int) (hid : id ≠ -1) (b : BBox K) :
    Good B (n + 1) ((n, id, b) :: l) (t.add id b) := by
  obtain ⟨h1, h2, h3⟩ := labelled_insert (six b.min b.max) id hid t.tree.root 0 t.tree.cmin t.tree.cmax
  have hkeep : ∀ k, k < n → (t.tree.nodes ++ [(insertT (six b.min b.max) id 0 t.tree.cmin t.tree.cmax t.tree.root).2])[k]? = t.tree.nodes[k]? := by
    intro k hk
    rw [List.getElem?_append_left (by rw [h.len]; exact hk)]
  have hnew : (t.tree.nodes ++ [(insertT (six b.min b.max) id 0 t.tree.cmin t.tree.cmax t.tree.root).2])[n]? =
      some (insertT (six b.min b.max) id 0 t.tree.cmin t.tree.cmax t.tree.root).2 := by
    rw [← h.len]; simp
  have hold : ∀ e ∈ l, t.tree.nodes[e.1]? ≠ some (insertT (six b.min b.max) id 0 t.tree.cmin t.tree.cmax t.tree.root).2 := by
    intro e he hc
    have := h.live.mem_iff.2 (List.mem_map.2 ⟨e, he, rfl⟩)
    refine h3 _ this ?_
    rw [hc]
    rfl
  refine ⟨h.box, h.cmin, h.cmax, ?_, ?_, ?_, ?_, ?_⟩
  · simp [Adt.add, Adt6.insert, h.len]
  · exact inv_insert _ _ hid _ _ _ _ h.inv
  · simp only [Adt.add, Adt6.insert, List.map_cons]
    refine h1.trans ?_
    rw [hnew]
    refine List.Perm.cons _ (h.live.trans ?_)
    rw [List.map_congr_left (g := fun e : Nat × Int × BBox K => (((t.tree.nodes ++ [(insertT (six b.min b.max) id 0 t.tree.cmin t.tree.cmax t.tree.root).2])[e.1]?).getD [],
      e.2.1, six e.2.2.min e.2.2.max))]
    intro e he
    rw [hkeep e.1 (h.lt e he)]
  · intro e he
    rcases List.mem_cons.1 he with rfl | he
    · exact Nat.lt_succ_self _
    · exact Nat.lt_succ_of_lt (h.lt e he)
  · intro e he f hf hef
    simp only [Adt.add, Adt6.insert] at hef
    rcases List.mem_cons.1 he with rfl | he <;> rcases List.mem_cons.1 hf with rfl | hf
    · rfl
    · rw [hnew, hkeep f.1 (h.lt f hf)] at hef; exact absurd hef.symm (hold f hf)
    · rw [hnew, hkeep e.1 (h.lt e he)] at hef; exact absurd hef (hold e he)
    · rw [hkeep e.1 (h.lt e he), hkeep f.1 (h.lt f hf)] at hef
      exact h.distinct e he f hf hef

theorem good_remove (B : BBox K) (n : Nat) (l : List (Nat × Int × BBox K)) (t : Adt K) (h : Good B n l t) (i : Int) (hi : ∃ e ∈ l, (e.1 : Int) = i) :
    ∃ t', t.remove i = some t' ∧ Good B n (l.filter fun e => (e.1 : Int) ≠ i) t' ∧ t'.tree.root.height = t.tree.root.height := by
  obtain ⟨e, he, rfl⟩ := hi
  have hlt := h.lt e he
  have hw : t.tree.nodes[e.1]? = some (t.tree.nodes[e.1]'(by rw [h.len]; exact hlt)) := List.getElem?_eq_getElem _
  set w := t.tree.nodes[e.1]'(by rw [h.len]; exact hlt) with hwdef
  refine ⟨{ t with tree := { t.tree with root := kill w t.tree.root } }, ?_, ?_, height_kill _ _⟩
  · simp [Adt.remove, Adt6.remove, hw]
  · refine ⟨h.box, h.cmin, h.cmax, h.len, inv_kill _ _ _ _ _ h.inv, ?_, fun f hf => h.lt f (List.mem_of_mem_filter hf),
      fun f hf g hg => h.distinct f (List.mem_of_mem_filter hf) g (List.mem_of_mem_filter hg)⟩
    simp only
    rw [labelled_kill]
    refine (h.live.filter _).trans ?_
    rw [List.filter_map]
    refine List.Perm.of_eq (congrArg _ (List.filter_congr fun f hf => ?_))
    have hf' : t.tree.nodes[f.1]? = some (t.tree.nodes[f.1]'(by rw [h.len]; exact h.lt f hf)) := List.getElem?_eq_getElem _
    have key : (t.tree.nodes[f.1]?).getD [] = w ↔ (f.1 : Int) = (e.1 : Int) := by
      constructor
      · intro hx
        rw [hf', Option.getD_some] at hx
        have := h.distinct f hf e he (by rw [hf', hw, hx])
        exact_mod_cast this
      · intro hx
        have : f.1 = e.1 := by exact_mod_cast hx
        rw [this, hw]; rfl
    simp only [Function.comp_apply, ne_eq, key]

theorem good_run (B : BBox K) (ops : List (Op K)) : ∀ (n : Nat) (l : List (Nat × Int × BBox K)) (t : Adt K), Good B n l t → Legal ops n l →
    ∃ t', run ops t = some t' ∧ Good B (n + adds ops) (present ops n l) t' ∧ t'.tree.root.height ≤ t.tree.root.height + adds ops := by
  induction ops with
  | nil => intro n l t h _; exact ⟨t, rfl, h, le_rfl⟩
  | cons o ops ih =>
    intro n l t h hl
    cases o with
    | add id b =>
      obtain ⟨t', h1, h2, h3⟩ := ih (n + 1) _ (t.add id b) (good_add B n l t h id hl.1 b) hl.2
      refine ⟨t', h1, ?_, ?_⟩
      · have : n + adds (Op.add id b :: ops) = n + 1 + adds ops := by simp only [adds]; omega
        rw [this]; exact h2
      · have := height_insert (six b.min b.max) id t.tree.root 0 t.tree.cmin t.tree.cmax
        simp only [adds]
        simp only [Adt.add, Adt6.insert] at h3
        omega
    | remove i =>
      obtain ⟨t1, a1, a2, a3⟩ := good_remove B n l t h i hl.1
      obtain ⟨t', h1, h2, h3⟩ := ih n _ t1 a2 hl.2
      exact ⟨t', by simp [run, a1, h1], h2, by rw [a3] at h3; exact h3⟩

theorem hit_intersects (B b q : BBox K) : hit (six B.min q.min) (six q.max B.max) (six b.min b.max) = b.intersects q 0 := by
  rw [Bool.eq_iff_iff, hit_iff, BBox.intersects_iff]
  simp [six]
  tauto

end Adtree

open Adtree

/-! ### C14 -/

/-- C14: every legal history of insertions and removals runs without undefined behaviour, and afterwards, as long as the tree is not higher than 1024, `find`
returns exactly the ids of the boxes that are present and meet the query box, each as often as it was inserted. The bounding box the tree was set up with need not
contain the boxes; it must only have `min ≤ max`. -/
theorem C14_find (B : BBox K) (hB : B.NonEmpty) (ops : List (Op K)) (hl : Legal ops 0 []) :
    ∃ t, run ops (Adt.set B) = some t ∧ (t.tree.root.height ≤ 1024 → ∀ q tol,
      (t.find q tol).Perm (((present ops 0 []).filter fun e => e.2.2.intersects q 0).map fun e => e.2.1)) := by
  obtain ⟨t, h1, h2, -⟩ := good_run B ops 0 [] (Adt.set B) (good_set B) hl
  refine ⟨t, h1, fun hh q tol => ?_⟩
  unfold Adt.find Adt6.getIntersecting
  by_cases hroot : t.tree.root = .nil
  · rw [hroot]
    have := h2.live
    rw [hroot] at this
    have : present ops 0 [] = [] := by simpa [labelled] using this.symm.eq_nil
    simp [Tree.size, walk, this]
  · rw [walk_eq maxDepth _ _ _ [(t.tree.root, 0)] [] (by simp) ⟨hroot, by simpa [maxDepth] using hh, trivial⟩]
    simp only [List.nil_append, List.flatMap_cons, List.flatMap_nil, List.append_nil]
    refine (trav_perm (six t.box.min q.min) (six q.max t.box.max) (fun _ => 0) (fun _ => 0) t.tree.root 0 _ _ h2.inv ?_ ?_ ?_).trans ?_
    · rw [h2.cmin, h2.cmax]
      intro d
      fin_cases d <;> simp [six, hB.1, hB.2.1, hB.2.2]
    · rw [h2.cmin, h2.box]
      intro d hd
      have : d = 0 ∨ d = 1 ∨ d = 2 := by omega
      rcases this with rfl | rfl | rfl <;> simp [six]
    · rw [h2.cmax, h2.box]
      intro d hd
      have : d = 3 ∨ d = 4 ∨ d = 5 := by omega
      rcases this with rfl | rfl | rfl <;> simp [six]
    · refine ((h2.live.filter _).map _).trans ?_
      rw [List.filter_map, List.map_map]
      have : ((fun e : List Bool × Int × (Fin 6 → K) => hit (six t.box.min q.min) (six q.max t.box.max) e.2.2) ∘
          fun e : Nat × Int × BBox K => ((t.tree.nodes[e.1]?).getD [], e.2.1, six e.2.2.min e.2.2.max)) = fun e => e.2.2.intersects q 0 := by
        funext e
        simp only [Function.comp_apply, hit_intersects]
      rw [this]
      exact List.Perm.of_eq (List.map_congr_left fun _ _ => rfl)

/-- C14 for histories with fewer than 1024 insertions: the bound on the height always holds. -/
theorem C14_small (B : BBox K) (hB : B.NonEmpty) (ops : List (Op K)) (hl : Legal ops 0 []) (hn : adds ops < 1024) :
    ∃ t, run ops (Adt.set B) = some t ∧ ∀ q tol,
      (t.find q tol).Perm (((present ops 0 []).filter fun e => e.2.2.intersects q 0).map fun e => e.2.1) := by
  obtain ⟨t, h1, h2⟩ := C14_find B hB ops hl
  obtain ⟨t', h1', -, h3⟩ := good_run B ops 0 [] (Adt.set B) (good_set B) hl
  rw [h1] at h1'
  cases h1'
  refine ⟨t, h1, h2 ?_⟩
  have : (Adt.set B).tree.root.height = 1 := rfl
  omega

/-- C14 in terms of points: after inserting a list of boxes, an id is found exactly when a box with this id has a point in common with the query box. -/
theorem C14_points (B : BBox K) (hB : B.NonEmpty) (l : List (Int × BBox K)) (hid : ∀ e ∈ l, e.1 ≠ -1) (hb : ∀ e ∈ l, e.2.NonEmpty)
    (hn : l.length < 1024) (q : BBox K) (hq : q.NonEmpty) (tol : K) (i : Int) :
    i ∈ (l.foldl (fun t e => Adt.add t e.1 e.2) (Adt.set B)).find q tol ↔ ∃ e ∈ l, e.1 = i ∧ ∃ p, InBox e.2.min e.2.max p ∧ InBox q.min q.max p := by
  have hrun : ∀ (l : List (Int × BBox K)) (t : Adt K), run (l.map fun e => Op.add e.1 e.2) t = some (l.foldl (fun t e => Adt.add t e.1 e.2) t) := by
    intro l
    induction l with
    | nil => intro t; rfl
    | cons e l ih => intro t; simp only [List.map_cons, run, List.foldl_cons]; exact ih _
  have hadds : ∀ l : List (Int × BBox K), adds (l.map fun e => Op.add e.1 e.2) = l.length := by
    intro l; induction l with
    | nil => rfl
    | cons e l ih => simp only [List.map_cons, adds, ih, List.length_cons]
  have hlegal : ∀ (l : List (Int × BBox K)) n p, (∀ e ∈ l, e.1 ≠ -1) → Legal (l.map fun e => Op.add e.1 e.2) n p := by
    intro l; induction l with
    | nil => intro n p _; exact trivial
    | cons e l ih => intro n p h; exact ⟨h e (by simp), ih _ _ fun f hf => h f (by simp [hf])⟩
  have hpres : ∀ (l : List (Int × BBox K)) n p (x : Int × BBox K), (∃ e ∈ present (l.map fun e => Op.add e.1 e.2) n p, e.2 = x) ↔ x ∈ l ∨ ∃ e ∈ p, e.2 = x := by
    intro l; induction l with
    | nil => intro n p x; simp [present]
    | cons e l ih =>
      intro n p x
      simp only [List.map_cons, present, ih, List.mem_cons]
      constructor
      · rintro (h | ⟨f, rfl | hf, rfl⟩)
        · exact Or.inl (Or.inr h)
        · exact Or.inl (Or.inl rfl)
        · exact Or.inr ⟨f, hf, rfl⟩
      · rintro ((rfl | h) | ⟨f, hf, rfl⟩)
        · exact Or.inr ⟨(n, x.1, x.2), Or.inl rfl, rfl⟩
        · exact Or.inl h
        · exact Or.inr ⟨f, Or.inr hf, rfl⟩
  obtain ⟨t, h1, h2⟩ := C14_small B hB (l.map fun e => Op.add e.1 e.2) (hlegal l 0 [] hid) (by rw [hadds]; exact hn)
  rw [hrun] at h1
  cases h1
  rw [(h2 q tol).mem_iff, List.mem_map]
  constructor
  · rintro ⟨e, he, rfl⟩
    obtain ⟨he, hi⟩ := List.mem_filter.1 he
    have hm : e.2 ∈ l := by
      have := (hpres l 0 [] e.2).1 ⟨e, he, rfl⟩
      simpa using this
    have := (C17_intersects_iff e.2.2 q 0 le_rfl (hb _ hm) hq).1 hi
    exact ⟨e.2, hm, rfl, by simpa using this⟩
  · rintro ⟨e, he, rfl, hp⟩
    obtain ⟨f, hf, rfl⟩ := (hpres l 0 [] e).2 (Or.inl he)
    refine ⟨f, List.mem_filter.2 ⟨hf, ?_⟩, rfl⟩
    exact (C17_intersects_iff f.2.2 q 0 le_rfl (hb _ he) hq).2 (by simpa using hp)

/-- C14 without any bound: an id that `find` returns belongs to a box that is present and meets the query box. -/
theorem C14_sound (B : BBox K) (ops : List (Op K)) (hl : Legal ops 0 []) :
    ∃ t, run ops (Adt.set B) = some t ∧ ∀ q tol, ∀ i ∈ t.find q tol, ∃ e ∈ present ops 0 [], e.2.1 = i ∧ e.2.2.intersects q 0 = true := by
  obtain ⟨t, h1, h2, -⟩ := good_run B ops 0 [] (Adt.set B) (good_set B) hl
  refine ⟨t, h1, fun q tol i hi => ?_⟩
  rcases walk_mem _ _ _ _ _ _ i hi with h | ⟨s, hs, e, he, rfl, hh⟩
  · simp at h
  · have : s = (t.tree.root, 0) := by simpa using hs
    subst this
    obtain ⟨f, hf, rfl⟩ := List.mem_map.1 (h2.live.mem_iff.1 he)
    exact ⟨f, hf, rfl, by rw [← hit_intersects B]; rw [h2.box] at hh; exact hh⟩

/-- A box with corners `(a, a, a)` and `(b, b, b)`. -/
def cubeBox (a b : ℚ) : BBox ℚ := ⟨⟨a, a, a⟩, ⟨b, b, b⟩⟩

/-- The statement "`removeGeometricObject(id)` removes the box with this id" is false: the argument counts insertions. With the boxes 1 and 0 inserted in this
order, removing 1 removes the box 0; removing the id 7 of an only box reads past the end of a vector. -/
theorem C14_remove_by_id :
    (run [.add 1 (cubeBox 0 1), .add 0 (cubeBox 0 1), .remove 1] (Adt.set (cubeBox 0 1))).map (fun t => t.find (cubeBox 0 1) 0) = some [1] ∧
    (run [.add 7 (cubeBox 0 1), .remove 7] (Adt.set (cubeBox 0 1))).isNone = true := by
  decide +kernel

/-- The tolerance of `find` has no effect: two boxes half a unit apart are within tolerance 1 for `CGeoBoundingBox::intersects`, but not found. -/
theorem C14_tolerance : (∀ (t : Adt K) q tol, t.find q tol = t.find q 0) ∧
    (cubeBox 0 1).intersects (cubeBox (3 / 2) 2) 1 = true ∧ ((Adt.set (cubeBox 0 2)).add 0 (cubeBox 0 1)).find (cubeBox (3 / 2) 2) 1 = [] :=
  ⟨fun _ _ _ => rfl, by decide +kernel, by decide +kernel⟩

/-- A box with the id -1 is never found, and the next box takes its node. -/
theorem C14_minus_one (B b q : BBox K) (tol : K) : ((Adt.set B).add (-1) b).find q tol = [] := by
  simp [Adt.find, Adt.add, Adt.set, Adtree.set, fresh, Adt6.insert, insertT, Adt6.getIntersecting, Tree.size, walk, Tree.isNode]

/-- A legal history with a removal and a node that is used again. -/
example : Legal [.add 3 (cubeBox 0 1), .add 4 (cubeBox 1 2), .add 9 (cubeBox 5 6), .remove 1, .add 4 (cubeBox 0 3)] 0 [] ∧
    (run [.add 3 (cubeBox 0 1), .add 4 (cubeBox 1 2), .add 9 (cubeBox 5 6), .remove 1, .add 4 (cubeBox 0 3)] (Adt.set (cubeBox 0 4))).map
      (fun t => (t.find (cubeBox 1 2) 0, t.tree.root.height, t.tree.nodes)) = some ([3, 4], 2, [[], [false], [true], [false]]) := by
  refine ⟨?_, by decide +kernel⟩
  simp [Legal]

end ENigMA
