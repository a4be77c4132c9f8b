import Mathlib.Data.List.Basic
import Mathlib.Data.List.Nodup
import Mathlib.Data.List.Chain
import Mathlib.Logic.Relation

/-!
# Walks around a vertex, in the abstract

Corners of facets, a step to the next corner in one direction and a step back. The walk of `mesh()` follows one direction until it meets the facet it started from or
a free edge; at a free edge it goes back to the start and follows the other direction.
-/

set_option linter.unusedSectionVars false
set_option autoImplicit false

namespace ENigMA
namespace Fan
variable {α : Type} [DecidableEq α] (nx : Bool → α → Option α) (key : α → Int)

/-- The corners that a walk from `c0` visits, from `c` on. -/
def trail (c0 : α) : Nat → Bool → Bool → α → List α
  | 0, _, _, _ => []
  | k + 1, dir, rev, c => c ::
    match nx dir c with
    | none => if rev then [] else trail c0 k true true c0
    | some d => if key d ≠ key c0 then trail c0 k dir rev d else []

/-- What the walk does after `x`. -/
def onward (c0 : α) (k : Nat) (dir rev : Bool) (x : α) : List α :=
  match nx dir x with
  | none => if rev then [] else trail nx key c0 k true true c0
  | some d => if key d ≠ key c0 then trail nx key c0 k dir rev d else []

/-- Two corners of the same fan: linked by steps. -/
def Same : α → α → Prop := Relation.EqvGen fun c d => nx false c = some d

variable {nx key}

theorem trail_along {c0 : α} {dir rev : Bool} (l : List α) : ∀ (c : α) (k : Nat), List.IsChain (fun a b => nx dir a = some b) (c :: l) → (∀ d ∈ l, key d ≠ key c0) →
    trail nx key c0 (k + (l.length + 1)) dir rev c = c :: l ++ onward nx key c0 k dir rev ((c :: l).getLast (by simp)) := by
  induction l with
  | nil => intro c k _ _; rfl
  | cons d l ih =>
    intro c k h hk
    rw [List.isChain_cons_cons] at h
    rw [List.length_cons, ← Nat.add_assoc, trail, h.1]
    simp only
    rw [if_pos (hk d (by simp)), ih d k h.2 fun x hx => hk x (List.mem_cons_of_mem _ hx)]
    simp

/-- A longest run without repetition. -/
structure Run (nx : Bool → α → Option α) (dir : Bool) (c0 : α) (l : List α) : Prop where
  chain : List.IsChain (fun a b => nx dir a = some b) (c0 :: l)
  nodup : (c0 :: l).Nodup
  stop : nx dir ((c0 :: l).getLast (by simp)) = none ∨ nx dir ((c0 :: l).getLast (by simp)) = some c0

theorem pred_of_chain {R : α → α → Prop} (l : List α) : ∀ c d, List.IsChain R (c :: l) → d ∈ l → ∃ x ∈ c :: l, R x d := by
  induction l with
  | nil => intro c d _ h; simp at h
  | cons e l ih =>
    intro c d h hd
    rw [List.isChain_cons_cons] at h
    rcases List.mem_cons.1 hd with rfl | hd
    · exact ⟨c, by simp, h.1⟩
    · obtain ⟨x, hx, hr⟩ := ih e d h.2 hd
      exact ⟨x, List.mem_cons_of_mem _ hx, hr⟩

theorem succ_of_chain {R : α → α → Prop} (l : List α) : ∀ c x, List.IsChain R (c :: l) → x ∈ c :: l → x = (c :: l).getLast (by simp) ∨ ∃ y ∈ l, R x y := by
  induction l with
  | nil => intro c x _ h; left; simpa using h
  | cons e l ih =>
    intro c x h hx
    rw [List.isChain_cons_cons] at h
    rcases List.mem_cons.1 hx with rfl | hx
    · exact Or.inr ⟨e, by simp, h.1⟩
    · rcases ih e x h.2 hx with hl | ⟨y, hy, hr⟩
      · left; rw [hl]; simp
      · exact Or.inr ⟨y, List.mem_cons_of_mem _ hy, hr⟩

/-- The steps in the two directions are each other's inverse. -/
def Inverse (nx : Bool → α → Option α) : Prop := ∀ c d, nx false c = some d ↔ nx true d = some c

theorem Inverse.flip (h : Inverse nx) (dir : Bool) (c d : α) : nx dir c = some d ↔ nx (!dir) d = some c := by
  cases dir
  · exact h c d
  · exact (h d c).symm

theorem same_of_step (h : Inverse nx) {dir : Bool} {c d : α} (hs : nx dir c = some d) : Same nx c d := by
  cases dir
  · exact Relation.EqvGen.rel _ _ hs
  · exact Relation.EqvGen.symm _ _ (Relation.EqvGen.rel _ _ ((h d c).2 hs))

theorem same_of_chain (h : Inverse nx) {dir : Bool} (l : List α) : ∀ c, List.IsChain (fun a b => nx dir a = some b) (c :: l) → ∀ d ∈ c :: l, Same nx c d := by
  induction l with
  | nil => intro c _ d hd; rw [List.mem_singleton] at hd; subst hd; exact Relation.EqvGen.refl _
  | cons e l ih =>
    intro c hc d hd
    rw [List.isChain_cons_cons] at hc
    rcases List.mem_cons.1 hd with rfl | hd
    · exact Relation.EqvGen.refl _
    · exact Relation.EqvGen.trans _ _ _ (same_of_step h hc.1) (ih e hc.2 d hd)

/-- A fan with at most `bound` corners. -/
def Small (nx : Bool → α → Option α) (bound : Nat) (c : α) : Prop := ∀ l : List α, l.Nodup → (∀ d ∈ l, Same nx c d) → l.length ≤ bound

theorem exists_run (h : Inverse nx) (dir : Bool) {bound : Nat} {c0 : α} (hs : Small nx bound c0) : ∀ (n : Nat) (l : List α),
    List.IsChain (fun a b => nx dir a = some b) (c0 :: l) → (c0 :: l).Nodup → bound ≤ n + (l.length + 1) → ∃ l', Run nx dir c0 l' := by
  intro n
  have step : ∀ l : List α, List.IsChain (fun a b => nx dir a = some b) (c0 :: l) → (c0 :: l).Nodup →
      Run nx dir c0 l ∨ ∃ d, List.IsChain (fun a b => nx dir a = some b) (c0 :: (l ++ [d])) ∧ (c0 :: (l ++ [d])).Nodup := by
    intro l hc hn
    cases hx : nx dir ((c0 :: l).getLast (by simp)) with
    | none => exact Or.inl ⟨hc, hn, Or.inl hx⟩
    | some d =>
      by_cases hd : d = c0
      · subst hd; exact Or.inl ⟨hc, hn, Or.inr hx⟩
      · refine Or.inr ⟨d, ?_, ?_⟩
        · rw [← List.cons_append, List.isChain_append]
          refine ⟨hc, List.isChain_singleton _, ?_⟩
          intro x hx' y hy
          rw [List.getLast?_eq_getLast_of_ne_nil (by simp)] at hx'
          simp only [Option.mem_def, Option.some.injEq, List.head?_cons] at hx' hy
          rw [← hx', ← hy, hx]
        · rw [← List.cons_append, List.nodup_append]
          refine ⟨hn, by simp, ?_⟩
          intro a ha b hb
          rw [List.mem_singleton] at hb
          subst hb
          rintro rfl
          rcases List.mem_cons.1 ha with rfl | ha
          · exact hd rfl
          · obtain ⟨x, hxm, hxd⟩ := pred_of_chain l c0 a hc ha
            have e : x = (c0 :: l).getLast (by simp) := by
              have h1 := (h.flip dir _ _).1 hxd
              have h2 := (h.flip dir _ _).1 hx
              rw [h1] at h2
              simpa using h2
            -- the predecessor is the last element, which has a successor in the list: then it occurs twice
            have hidx : ∀ (l : List α) (c : α), List.IsChain (fun a b => nx dir a = some b) (c :: l) → (c :: l).Nodup → a ∈ l → nx dir ((c :: l).getLast (by simp)) ≠ some a := by
              intro l
              induction l with
              | nil => intro c _ _ h; simp at h
              | cons e l ih =>
                intro c hc hn ha hlast
                rw [List.isChain_cons_cons] at hc
                rw [List.nodup_cons] at hn
                rw [List.getLast_cons (by simp)] at hlast
                rcases List.mem_cons.1 ha with rfl | ha'
                · have h1 := (h.flip dir _ _).1 hc.1
                  have h2 := (h.flip dir _ _).1 hlast
                  rw [h1] at h2
                  simp only [Option.some.injEq] at h2
                  exact hn.1 (h2 ▸ List.getLast_mem _)
                · exact ih e hc.2 hn.2 ha' hlast
            exact hidx l c0 hc hn ha hx
  induction n with
  | zero =>
    intro l hc hn hb
    rcases step l hc hn with hr | ⟨d, hc', hn'⟩
    · exact ⟨l, hr⟩
    · have := hs _ hn' (same_of_chain h _ _ hc')
      simp only [List.length_cons, List.length_append, List.length_nil] at this
      omega
  | succ n ih =>
    intro l hc hn hb
    rcases step l hc hn with hr | ⟨d, hc', hn'⟩
    · exact ⟨l, hr⟩
    · exact ih _ hc' hn' (by simp only [List.length_append, List.length_cons, List.length_nil]; omega)

/-- Facets occur once in a fan. -/
def Once (nx : Bool → α → Option α) (key : α → Int) (c : α) : Prop := ∀ d, Same nx c d → key d = key c → d = c

/-- A walk of 100 steps visits exactly the fan of its start, when the fan has at most 99 corners, of different facets. -/
theorem trail_eq (h : Inverse nx) {c0 : α} (hs : Small nx 99 c0) (ho : Once nx key c0) (d : α) :
    d ∈ trail nx key c0 100 false false c0 ↔ Same nx c0 d := by
  have c1 : ∀ dir, ∃ l, Run nx dir c0 l := fun dir => exists_run h dir hs 98 [] (List.isChain_singleton _) (by simp) (by simp)
  obtain ⟨lf, hf⟩ := c1 false
  obtain ⟨lb, hb⟩ := c1 true
  have hkey : ∀ dir l, Run nx dir c0 l → ∀ d ∈ l, key d ≠ key c0 := by
    intro dir l hr d hd hk
    have := ho d (same_of_chain h l c0 hr.chain d (List.mem_cons_of_mem _ hd)) hk
    subst this
    exact (List.nodup_cons.1 hr.nodup).1 hd
  have hlen : ∀ dir l, Run nx dir c0 l → l.length + 1 ≤ 99 := fun dir l hr => by simpa using hs _ hr.nodup (same_of_chain h _ _ hr.chain)
  -- a set closed under both steps contains the fan
  have hclosed : ∀ U : α → Prop, U c0 → (∀ x y dir, U x → nx dir x = some y → U y) → ∀ d, Same nx c0 d → U d := by
    intro U h0 hU d hd
    have : ∀ x y, Relation.EqvGen (fun c d => nx false c = some d) x y → (U x ↔ U y) := by
      intro x y hxy
      induction hxy with
      | rel x y hr => exact ⟨fun hx => hU x y false hx hr, fun hy => hU y x true hy ((h x y).1 hr)⟩
      | refl => exact Iff.rfl
      | symm _ _ _ ih => exact ih.symm
      | trans _ _ _ _ _ ih1 ih2 => exact ih1.trans ih2
    exact (this _ _ hd).1 h0
  -- inside a run: steps forward stay (or stop), steps backward stay, but for the start
  have hfwd : ∀ dir l, Run nx dir c0 l → ∀ x ∈ c0 :: l, ∀ y, nx dir x = some y → y ∈ c0 :: l := by
    intro dir l hr x hx y hy
    rcases succ_of_chain l c0 x hr.chain hx with e | ⟨z, hz, hxz⟩
    · subst e
      rcases hr.stop with h | h
      · rw [h] at hy; cases hy
      · rw [h, Option.some.injEq] at hy; subst hy; simp
    · rw [hxz, Option.some.injEq] at hy
      subst hy
      exact List.mem_cons_of_mem _ hz
  have hbwd : ∀ dir l, Run nx dir c0 l → ∀ x ∈ l, ∀ y, nx (!dir) x = some y → y ∈ c0 :: l := by
    intro dir l hr x hx y hy
    obtain ⟨z, hz, hzx⟩ := pred_of_chain l c0 x hr.chain hx
    rw [(h.flip dir z x)] at hzx
    rw [hzx, Option.some.injEq] at hy
    exact hy ▸ hz
  have hlf := hlen _ _ hf
  have hlb := hlen _ _ hb
  have hgo := trail_along (rev := false) (key := key) (c0 := c0) lf c0 (100 - (lf.length + 1)) hf.chain (hkey _ _ hf)
  rw [show 100 - (lf.length + 1) + (lf.length + 1) = 100 by omega] at hgo
  rcases hf.stop with hstop | hstop
  · -- a free edge: the walk goes back and follows the other direction
    have hdisj : ∀ l c, List.IsChain (fun a b => nx true a = some b) (c :: l) → (c ∈ c0 :: lf → c = c0) → ∀ x ∈ l, x ∉ c0 :: lf := by
      intro l
      induction l with
      | nil => intro c _ _ x hx; simp at hx
      | cons e l ih =>
        intro c hc hcin x hx
        rw [List.isChain_cons_cons] at hc
        have he : e ∉ c0 :: lf := by
          intro hmem
          have hec := (h e c).2 hc.1
          rcases succ_of_chain lf c0 e hf.chain hmem with e1 | ⟨y, hy, hey⟩
          · rw [e1, hstop] at hec; cases hec
          · rw [hec, Option.some.injEq] at hey
            have hcy : c ∈ lf := hey ▸ hy
            have := hcin (List.mem_cons_of_mem _ hcy)
            subst this
            exact (List.nodup_cons.1 hf.nodup).1 hcy
        rcases List.mem_cons.1 hx with rfl | hx
        · exact he
        · exact ih e hc.2 (fun h => absurd h he) x hx
    have hdis := hdisj lb c0 hb.chain (fun _ => rfl)
    have htot : lf.length + 1 + lb.length ≤ 99 := by
      have := hs (c0 :: lf ++ lb) (by
        rw [List.nodup_append]
        refine ⟨hf.nodup, (List.nodup_cons.1 hb.nodup).2, ?_⟩
        rintro a ha b hb' rfl
        exact hdis a hb' ha) (by
        intro d hd
        rcases List.mem_append.1 hd with hd | hd
        · exact same_of_chain h _ _ hf.chain d hd
        · exact same_of_chain h _ _ hb.chain d (List.mem_cons_of_mem _ hd))
      simp only [List.length_append, List.length_cons] at this
      omega
    have hgo2 := trail_along (rev := true) (key := key) (c0 := c0) lb c0 (100 - (lf.length + 1) - (lb.length + 1)) hb.chain (hkey _ _ hb)
    rw [show 100 - (lf.length + 1) - (lb.length + 1) + (lb.length + 1) = 100 - (lf.length + 1) by omega] at hgo2
    have hend : onward nx key c0 (100 - (lf.length + 1) - (lb.length + 1)) true true ((c0 :: lb).getLast (by simp)) = [] := by
      unfold onward
      rcases hb.stop with h | h <;> rw [h] <;> simp
    have hmid : onward nx key c0 (100 - (lf.length + 1)) false false ((c0 :: lf).getLast (by simp)) = c0 :: lb := by
      unfold onward
      rw [hstop]
      simp only [Bool.false_eq_true, if_false]
      rw [hgo2, hend, List.append_nil]
    rw [hgo, hmid]
    constructor
    · intro hd
      rcases List.mem_append.1 hd with hd | hd
      · exact same_of_chain h _ _ hf.chain d hd
      · exact same_of_chain h _ _ hb.chain d hd
    · apply hclosed (fun d => d ∈ c0 :: lf ++ c0 :: lb)
      · simp
      · intro x y dir hx hy
        simp only [List.mem_append] at hx ⊢
        rcases hx with hx | hx
        · cases dir
          · exact Or.inl (hfwd _ _ hf x hx y hy)
          · rcases List.mem_cons.1 hx with rfl | hx
            · exact Or.inr (hfwd _ _ hb x (by simp) y hy)
            · exact Or.inl (hbwd _ _ hf x hx y hy)
        · cases dir
          · rcases List.mem_cons.1 hx with rfl | hx
            · exact Or.inl (hfwd _ _ hf x (by simp) y hy)
            · exact Or.inr (hbwd _ _ hb x hx y hy)
          · exact Or.inr (hfwd _ _ hb x hx y hy)
  · -- the walk comes back to its start
    have hend : onward nx key c0 (100 - (lf.length + 1)) false false ((c0 :: lf).getLast (by simp)) = [] := by
      unfold onward
      rw [hstop]
      simp
    rw [hgo, hend, List.append_nil]
    constructor
    · exact same_of_chain h _ _ hf.chain d
    · apply hclosed (fun d => d ∈ c0 :: lf)
      · simp
      · intro x y dir hx hy
        cases dir
        · exact hfwd _ _ hf x hx y hy
        · rcases List.mem_cons.1 hx with rfl | hx
          · have := (h.flip false _ _).1 hstop
            simp only [Bool.not_false] at this
            rw [this, Option.some.injEq] at hy
            exact hy ▸ List.getLast_mem _
          · exact hbwd _ _ hf x hx y hy

end Fan
end ENigMA
