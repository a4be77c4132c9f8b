import Verif.Stl.OrientLemmas

/-!
# Making the facets of a surface run the same way
-/

set_option linter.unusedSectionVars false
set_option autoImplicit false

namespace ENigMA
namespace Stl
variable {K : Type}

/-- The corner that comes after `x` in its facet: the end of edge `x`. -/
def after (x : Int × Nat) : Int × Nat := (x.1, (x.2 + 1) % 3)

/-- Edges `x` and `y` have the same ends and run in opposite directions. -/
def Opposed (s : File K) (x y : Int × Nat) : Prop := vert s y = vert s (after x) ∧ vert s (after y) = vert s x

/-- Edges `x` and `y` have the same ends and run in the same direction. -/
def Parallel (s : File K) (x y : Int × Nat) : Prop := vert s y = vert s x ∧ vert s (after y) = vert s (after x)

/-- Some facets can be chosen so that inverting them makes all neighbours run in opposite directions along the edges where they meet. -/
def Orientable (s : File K) : Prop :=
  ∃ σ : Int → Bool, ∀ x y, link s x = some y → if σ x.1 = σ y.1 then Opposed s x y else Parallel s x y

/-- Facet `b` is reached from `a` by going from neighbour to neighbour. -/
def Reach (s : File K) : Int → Int → Prop := Relation.ReflTransGen fun a b => ∃ j y, link s (a, j) = some y ∧ y.1 = b

/-- `t` is `t'` with two corners exchanged. -/
def Swapped (t t' : List (Vec3 K)) : Prop :=
  ∃ a b c, t = [a, b, c] ∧ (t' = [a, c, b] ∨ t' = [c, b, a] ∨ t' = [b, a, c])

/-! ### The run -/

/-- The ends of an edge. -/
def ends (s : File K) (x : Int × Nat) : Option (Vec3 K) × Option (Vec3 K) := (vert s x, vert s (after x))

theorem opposed_iff {s : File K} {x y : Int × Nat} : Opposed s x y ↔ ends s y = (ends s x).swap := by
  simp [Opposed, ends, Prod.swap]

theorem parallel_iff {s : File K} {x y : Int × Nat} : Parallel s x y ↔ ends s y = ends s x := by
  simp [Parallel, ends]

theorem other_side {a b c : Bool} (h : ¬ a = b) : (b != c) = !(a != c) := by
  revert a b c
  decide

theorem ends_flip {s s' : File K} {id : Int} {p : Nat} (hp : p < 3) (h : ∀ x, vert s' x = vert s (flipC id p x)) {x : Int × Nat} (hx : x.2 < 3) :
    ends s' (flipD id p x) = if x.1 = id then (ends s x).swap else ends s x := by
  unfold ends
  rw [h, h]
  obtain ⟨i, j⟩ := x
  simp only at hx
  by_cases hi : i = id
  · subst hi
    rw [if_pos rfl]
    rcases (by omega : p = 0 ∨ p = 1 ∨ p = 2) with rfl | rfl | rfl <;> rcases (by omega : j = 0 ∨ j = 1 ∨ j = 2) with rfl | rfl | rfl <;>
      simp [flipD, flipC, after, Prod.swap]
  · rw [if_neg (by simpa using hi), flipD_other (by simpa using hi)]
    simp [flipC, after, hi]

section
variable [Field K] [LinearOrder K]

/-- Where the run stands: `P` tells where the edges of `s` are now, `Φ` which facets have been inverted. -/
structure Run (s : File K) (pivot : Int) (σ : Int → Bool) (st : File K × List Int) (Φ : Int → Bool) (P : Int × Nat → Int × Nat) (L : Int × Nat → Option (Int × Nat)) : Prop where
  good : Good st.1
  ids : st.1.ids = s.ids
  net : Net st.1 L
  fst : ∀ x, (P x).1 = x.1
  lt : ∀ x, (P x).2 < 3 ↔ x.2 < 3
  bij : Function.Bijective P
  glued : ∀ x, L (P x) = (link s x).map P
  same : ∀ x, x.2 < 3 → ends st.1 (P x) = if Φ x.1 then (ends s x).swap else ends s x
  keep : ∀ x, Φ x.1 = false → vert st.1 x = vert s x
  turn : ∀ id, Φ id = true → ∃ p < 3, ∀ j, vert st.1 (id, j) = vert s (flipC id p (id, j))
  start : st.2.head? = some pivot
  nodup : st.2.Nodup
  sub : ∀ id ∈ st.2, id ∈ s.ids
  seen : ∀ id, Φ id = true → id ∈ st.2
  fixed : Φ pivot = false
  side : (∀ x y, link s x = some y → if σ x.1 = σ y.1 then Opposed s x y else Parallel s x y) → ∀ id ∈ st.2, Φ id = (σ id != σ pivot)
  reach : ∀ id ∈ st.2, Reach s pivot id

theorem flipC_fst (id : Int) (p : Nat) (x : Int × Nat) : (flipC id p x).1 = x.1 := by
  unfold flipC
  split_ifs with h1 h2
  · rw [h1]
  · rw [h2]
  · rfl

variable {nrm : Vec3 K → K} {tol : K}

theorem orientEdge_spec (h0 : nrm 0 ≤ tol) {s : File K} (hpos : ∀ id ∈ s.ids, 0 ≤ id) (hlong : ∀ x, x.2 < 3 → ∀ a b, ends s x = (some a, some b) → tol < nrm (b - a) ∧ tol < nrm (a - b))
    {pivot : Int} {σ : Int → Bool} {st : File K × List Int} {Φ : Int → Bool} {P : Int × Nat → Int × Nat} {L : Int × Nat → Option (Int × Nat)} (h : Run s pivot σ st Φ P L)
    {id : Int} (hid : id ∈ st.2) {j : Nat} (hj : j < 3) :
    ∃ st' Φ' P' L' l, orientEdge nrm tol id st j = some st' ∧ Run s pivot σ st' Φ' P' L' ∧ st'.2 = st.2 ++ l ∧ (∀ y, L' (id, j) = some y → y.1 ∈ st'.2) ∧
      (∀ x ∈ st.2, ∀ k y, (∀ z, L (x, k) = some z → z.1 ∈ st.2) → L' (x, k) = some y → y.1 ∈ st'.2) := by
  have hposk : ∀ id ∈ st.1.ids, 0 ≤ id := h.ids ▸ hpos
  have hcor : Corner st.1 (id, j) := ⟨h.ids ▸ h.sub id hid, hj⟩
  obtain ⟨e, he, hpt⟩ := h.net.pts _ hcor
  unfold orientEdge
  rw [show edge? st.1 id j = some e from he]
  simp only [Option.bind_eq_bind, Option.bind_some]
  cases hL : L (id, j) with
  | none =>
    rw [hL] at hpt
    rw [if_pos hpt.1]
    refine ⟨st, Φ, P, L, [], rfl, h, by simp, ?_, ?_⟩
    · intro y hy
      rw [hL] at hy
      cases hy
    · intro x _ k y hz hy
      exact hz y hy
  | some y =>
    rw [hL] at hpt
    have hcy := (h.net.live hL).2
    have hself := h.net.self _ _ hL
    simp only at hself
    rw [if_neg (by rw [hpt.1]; have := hposk _ hcy.1; omega)]
    by_cases hin : e.neighbor ∈ st.2
    · rw [if_pos hin]
      refine ⟨st, Φ, P, L, [], rfl, h, by simp, ?_, ?_⟩
      · intro z hz
        rw [hL, Option.some.injEq] at hz
        rw [← hz, ← hpt.1]
        exact hin
      · intro x _ k y hz hy
        exact hz y hy
    · rw [if_neg hin]
      have hw : (y.2 + 2) % 3 < 3 := Nat.mod_lt _ (by decide)
      have hy3 := hcy.2
      have i1 := idx_mod hpt.2 1
      have i2 := idx_mod hpt.2 2
      simp only [Nat.cast_one, Nat.cast_ofNat] at i1 i2
      rw [i1, i2, Option.bind_some, Option.bind_some]
      rw [show ((y.2 + 2) % 3 + 1) % 3 = y.2 by omega, show ((y.2 + 2) % 3 + 2) % 3 = (y.2 + 1) % 3 by omega, show j % 3 = j by omega, hpt.1]
      rw [hpt.1] at hin
      obtain ⟨a1, ha1⟩ := (vert_some h.good _).2 hcy
      obtain ⟨a2, ha2⟩ := (vert_some h.good (y.1, (y.2 + 1) % 3)).2 ⟨hcy.1, Nat.mod_lt _ (by decide)⟩
      obtain ⟨b1, hb1⟩ := (vert_some h.good _).2 hcor
      obtain ⟨b2, hb2⟩ := (vert_some h.good (id, (j + 1) % 3)).2 ⟨hcor.1, Nat.mod_lt _ (by decide)⟩
      rw [vertexOf_eq h.good hy3, show vert st.1 (y.1, y.2) = some a1 from ha1, Option.bind_some, vertexOf_eq h.good hj, hb1, Option.bind_some, vertexOf_eq h.good (Nat.mod_lt _ (by decide)), ha2,
        Option.bind_some, vertexOf_eq h.good (Nat.mod_lt _ (by decide)), hb2, Option.bind_some]
      -- where the two edges come from
      obtain ⟨x0, hx0⟩ := h.bij.2 (id, j)
      obtain ⟨y0, hy0⟩ := h.bij.2 y
      have hx1 : x0.1 = id := by have := h.fst x0; rw [hx0] at this; exact this.symm
      have hy1 : y0.1 = y.1 := by have := h.fst y0; rw [hy0] at this; exact this.symm
      have hx2 : x0.2 < 3 := (h.lt x0).1 (by rw [hx0]; exact hj)
      have hy2 : y0.2 < 3 := (h.lt y0).1 (by rw [hy0]; exact hy3)
      have hlink : link s x0 = some y0 := by
        have := h.glued x0
        rw [hx0, hL] at this
        obtain ⟨z, hz, hz2⟩ := Option.map_eq_some_iff.1 this.symm
        rw [hz, h.bij.1 (hz2.trans hy0.symm)]
      have hΦy : Φ y.1 = false := by
        cases hc : Φ y.1 with
        | false => rfl
        | true => exact absurd (h.seen _ hc) hin
      have hEy : ends st.1 y = ends s y0 := by
        have := h.same y0 hy2
        rw [hy0, hy1, hΦy] at this
        simpa using this
      have hEx : ends st.1 (id, j) = if Φ id then (ends s x0).swap else ends s x0 := by
        have := h.same x0 hx2
        rwa [hx0, hx1] at this
      have hEy' : ends st.1 y = (some a1, some a2) := by simp only [ends, ha1]; rw [show vert st.1 (after y) = some a2 from ha2]
      have hEx' : ends st.1 (id, j) = (some b1, some b2) := by simp only [ends, hb1]; rw [show vert st.1 (after (id, j)) = some b2 from hb2]
      have hreach : Reach s pivot y.1 := (h.reach id hid).tail ⟨x0.2, y0, by rw [← hx1]; exact hlink, hy1⟩
      have hids : y.1 ∈ s.ids := h.ids ▸ hcy.1
      -- the direction decides
      have hdec : (∀ x y, link s x = some y → if σ x.1 = σ y.1 then Opposed s x y else Parallel s x y) →
          ((nrm (a1 - b1) ≤ tol ∧ nrm (a2 - b2) ≤ tol) ↔ (σ y.1 != σ pivot) = true) := by
        intro hor
        have hor' := hor x0 y0 hlink
        rw [hx1, hy1] at hor'
        have hΦ := h.side hor id hid
        have hEb : ends s x0 = if Φ id then (some b2, some b1) else (some b1, some b2) := by
          rw [hEx'] at hEx
          cases hc : Φ id with
          | true =>
            rw [hc, if_pos rfl] at hEx
            rw [if_pos rfl, ← Prod.swap_swap (ends s x0), ← hEx]
            rfl
          | false =>
            rw [hc] at hEx
            simpa using hEx.symm
        have hl := hlong x0 hx2
        rw [hEb] at hl
        have same : ends s y0 = (some b1, some b2) ∨ ends s y0 = (some b2, some b1) := by
          split_ifs at hor' with hsg
          · rw [opposed_iff, hEb] at hor'
            cases hc : Φ id <;> rw [hc] at hor' <;> rw [hor'] <;> simp [Prod.swap]
          · rw [parallel_iff, hEb] at hor'
            cases hc : Φ id <;> rw [hc] at hor' <;> rw [hor'] <;> simp [Prod.swap]
        have hb : tol < nrm (b2 - b1) := by
          cases hc : Φ id with
          | true => rw [hc] at hl; exact (hl b2 b1 rfl).2
          | false => rw [hc] at hl; exact (hl b1 b2 rfl).1
        have hne : b1 ≠ b2 := by
          intro hh
          rw [hh, sub_self] at hb
          exact absurd h0 (not_le.2 hb)
        have key : (nrm (a1 - b1) ≤ tol ∧ nrm (a2 - b2) ≤ tol) ↔ ends s y0 = (some b1, some b2) := by
          rw [← hEy, hEy']
          rcases same with h1 | h1
          · rw [← hEy, hEy'] at h1
            simp only [Prod.mk.injEq, Option.some.injEq] at h1 ⊢
            rw [h1.1, h1.2, sub_self, sub_self]
            simp [h0]
          · rw [← hEy, hEy'] at h1
            simp only [Prod.mk.injEq, Option.some.injEq] at h1 ⊢
            rw [h1.1, h1.2]
            constructor
            · intro hh
              exact absurd hh.1 (not_le.2 hb)
            · intro hh
              exact absurd hh.2 hne
        rw [key]
        have hne' : ((some b1, some b2) : Option (Vec3 K) × Option (Vec3 K)) ≠ (some b2, some b1) := by simp [hne]
        split_ifs at hor' with hsg
        · rw [opposed_iff, hEb] at hor'
          rw [hor']
          cases hc : Φ id with
          | true =>
            rw [hc, hsg] at hΦ
            simp [← hΦ]
          | false =>
            rw [hc, hsg] at hΦ
            rw [← hΦ]
            simpa using fun h => absurd h.symm hne
        · rw [parallel_iff, hEb] at hor'
          rw [hor']
          cases hc : Φ id with
          | true =>
            rw [hc] at hΦ
            have : (σ y.1 != σ pivot) = false := (other_side hsg).trans (by rw [← hΦ]; rfl)
            rw [this]
            simpa using fun h => absurd h.symm hne
          | false =>
            rw [hc] at hΦ
            have : (σ y.1 != σ pivot) = true := (other_side hsg).trans (by rw [← hΦ]; rfl)
            simp [this]
      have hnodup : (st.2 ++ [y.1]).Nodup := by
        rw [List.nodup_append]
        exact ⟨h.nodup, by simp, fun a ha b hb hab => hin (by rw [List.mem_singleton.1 hb] at hab; rwa [← hab])⟩
      have hhead : (st.2 ++ [y.1]).head? = some pivot := by rw [List.head?_append, h.start]; rfl
      have hpy : y.1 ≠ pivot := by
        intro hh
        apply hin
        rw [hh]
        exact List.mem_of_mem_head? h.start
      have hsub : ∀ i ∈ st.2 ++ [y.1], i ∈ s.ids := by
        intro i hi
        rcases List.mem_append.1 hi with hi | hi
        · exact h.sub i hi
        · rw [List.mem_singleton.1 hi]; exact hids
      have hrch : ∀ i ∈ st.2 ++ [y.1], Reach s pivot i := by
        intro i hi
        rcases List.mem_append.1 hi with hi | hi
        · exact h.reach i hi
        · rw [List.mem_singleton.1 hi]; exact hreach
      by_cases hd : nrm (a1 - b1) ≤ tol ∧ nrm (a2 - b2) ≤ tol
      · rw [if_pos hd]
        obtain ⟨s', hs', hgood, hids', hvert, hnet⟩ := invertFacet_spec h.good hposk h.net hcy.1 hw hpt.2
        rw [hs', Option.bind_some]
        set q := (y.2 + 2) % 3 with hq
        refine ⟨(s', st.2 ++ [y.1]), fun i => if i = y.1 then true else Φ i, fun x => flipD y.1 q (P x), fun x => (L (flipD y.1 q x)).map (flipD y.1 q), [y.1], rfl, ?_, rfl, ?_, ?_⟩
        · refine ⟨hgood, hids'.trans h.ids, hnet, ?_, ?_, ?_, ?_, ?_, ?_, ?_, hhead, hnodup, hsub, ?_, ?_, ?_, hrch⟩
          · intro x; rw [flipD_fst, h.fst]
          · intro x; rw [flipD_lt hw, h.lt]
          · refine Function.Bijective.comp (g := flipD y.1 q) ?_ h.bij
            exact (Function.Involutive.bijective (fun x => flipD_flipD y.1 hw x))
          · intro x
            simp only [flipD_flipD y.1 hw, h.glued, Option.map_map]
            rfl
          · intro x hx
            rw [ends_flip hw hvert ((h.lt x).2 hx), h.fst, h.same x hx]
            by_cases hxy : x.1 = y.1
            · rw [if_pos hxy, hxy, hΦy]
              simp
            · rw [if_neg hxy]
              simp only [if_neg hxy]
          · intro x hx
            by_cases hxy : x.1 = y.1
            · simp [hxy] at hx
            · simp only [if_neg hxy] at hx
              rw [hvert, ← h.keep x hx]
              congr 1
              unfold flipC
              rw [if_neg (fun h' => hxy (by rw [h'])), if_neg (fun h' => hxy (by rw [h']))]
          · intro i hi
            by_cases hiy : i = y.1
            · refine ⟨q, hw, fun k => ?_⟩
              rw [hvert, hiy]
              exact h.keep _ (by rw [flipC_fst]; exact hΦy)
            · simp only [if_neg hiy] at hi
              obtain ⟨p, hp, hk⟩ := h.turn i hi
              refine ⟨p, hp, fun k => ?_⟩
              rw [hvert, ← hk k]
              congr 1
              unfold flipC
              rw [if_neg (fun h' => hiy (congrArg Prod.fst h')), if_neg (fun h' => hiy (congrArg Prod.fst h'))]
          · intro i hi
            by_cases hiy : i = y.1
            · rw [hiy]; simp
            · simp only [if_neg hiy] at hi
              exact List.mem_append_left _ (h.seen i hi)
          · simp only [if_neg hpy.symm]
            exact h.fixed
          · intro hor i hi
            by_cases hiy : i = y.1
            · simp only [if_pos hiy]
              rw [hiy]
              exact ((hdec hor).1 hd).symm
            · simp only [if_neg hiy]
              rcases List.mem_append.1 hi with hi | hi
              · exact h.side hor i hi
              · exact absurd (List.mem_singleton.1 hi) hiy
        · intro z hz
          simp only at hz
          rw [flipD_other (by simpa using hself.symm), hL, Option.map_some, Option.some.injEq] at hz
          rw [← hz, flipD_fst]
          simp
        · intro x hx k z hz hz'
          have hxy : x ≠ y.1 := fun hh => hin (hh ▸ hx)
          simp only at hz'
          rw [flipD_other (by simpa using hxy)] at hz'
          obtain ⟨w, hw1, hw2⟩ := Option.map_eq_some_iff.1 hz'
          rw [← hw2, flipD_fst]
          exact List.mem_append_left _ (hz w hw1)
      · rw [if_neg hd]
        refine ⟨(st.1, st.2 ++ [y.1]), Φ, P, L, [y.1], rfl, ?_, rfl, ?_, ?_⟩
        · refine ⟨h.good, h.ids, h.net, h.fst, h.lt, h.bij, h.glued, h.same, h.keep, h.turn, hhead, hnodup, hsub, fun i hi => List.mem_append_left _ (h.seen i hi), h.fixed, ?_, hrch⟩
          intro hor i hi
          rcases List.mem_append.1 hi with hi | hi
          · exact h.side hor i hi
          · rw [List.mem_singleton.1 hi, hΦy]
            have := fun hh => hd ((hdec hor).2 hh)
            simpa using this
        · intro z hz
          rw [hL, Option.some.injEq] at hz
          rw [← hz]
          simp
        · intro x _ k z hz hz'
          exact List.mem_append_left _ (hz z hz')

/-- All neighbours of the facets at the first `i` places of the list are in the list. -/
def Closed (L : Int × Nat → Option (Int × Nat)) (l : List Int) (i : Nat) : Prop := ∀ x ∈ l.take i, ∀ k y, L (x, k) = some y → y.1 ∈ l

theorem orientLoop_spec (h0 : nrm 0 ≤ tol) {s : File K} (hpos : ∀ id ∈ s.ids, 0 ≤ id) (hlong : ∀ x, x.2 < 3 → ∀ a b, ends s x = (some a, some b) → tol < nrm (b - a) ∧ tol < nrm (a - b))
    {pivot : Int} {σ : Int → Bool} : ∀ (n : Nat) (i : Nat) (st : File K × List Int) (Φ : Int → Bool) (P : Int × Nat → Int × Nat) (L : Int × Nat → Option (Int × Nat)),
      Run s pivot σ st Φ P L → i ≤ st.2.length → Closed L st.2 i → s.ids.length ≤ n + i →
      ∃ st' Φ' P' L', (∀ fuel, n ≤ fuel → orientLoop nrm tol fuel i st = some st'.1) ∧ Run s pivot σ st' Φ' P' L' ∧ Closed L' st'.2 st'.2.length := by
  intro n
  induction n with
  | zero =>
    intro i st Φ P L h hi hc hn
    have hle : st.2.length ≤ s.ids.length := List.Subperm.length_le (h.nodup.subperm h.sub)
    have hi' : i = st.2.length := by omega
    refine ⟨st, Φ, P, L, ?_, h, hi' ▸ hc⟩
    intro fuel _
    cases fuel with
    | zero => rw [orientLoop, if_neg (by omega)]
    | succ f => rw [orientLoop, List.getElem?_eq_none (by omega)]
  | succ n ih =>
    intro i st Φ P L h hi hc hn
    by_cases hlt : i < st.2.length
    · have hget := List.getElem?_eq_getElem hlt
      set id := st.2[i] with hid
      have hmem : id ∈ st.2 := List.getElem_mem hlt
      obtain ⟨st1, Φ1, P1, L1, l1, a1, a2, a3, a4, a5⟩ := orientEdge_spec h0 hpos hlong h hmem (j := 0) (by omega)
      have m1 : ∀ x ∈ st.2, x ∈ st1.2 := fun x hx => by rw [a3]; exact List.mem_append_left _ hx
      obtain ⟨st2, Φ2, P2, L2, l2, b1, b2, b3, b4, b5⟩ := orientEdge_spec h0 hpos hlong a2 (m1 id hmem) (j := 1) (by omega)
      have m2 : ∀ x ∈ st1.2, x ∈ st2.2 := fun x hx => by rw [b3]; exact List.mem_append_left _ hx
      obtain ⟨st3, Φ3, P3, L3, l3, c1, c2, c3, c4, c5⟩ := orientEdge_spec h0 hpos hlong b2 (m2 _ (m1 id hmem)) (j := 2) (by omega)
      have hl3 : st3.2 = st.2 ++ (l1 ++ l2 ++ l3) := by rw [c3, b3, a3]; simp
      have hclosed : Closed L3 st3.2 (i + 1) := by
        intro x hx k y hy
        have htake : st3.2.take (i + 1) = st.2.take i ++ [id] := by
          rw [hl3, List.take_append_of_le_length (by omega), List.take_add_one, hget]
          rfl
        rw [htake] at hx
        rcases List.mem_append.1 hx with hx | hx
        · have hxm := List.mem_of_mem_take hx
          exact c5 x (m2 _ (m1 _ hxm)) k y (fun z hz => b5 x (m1 _ hxm) k z (fun w hw => a5 x hxm k w (fun v hv => hc x hx k v hv) hw) hz) hy
        · rw [List.mem_singleton.1 hx] at hy
          have hk : k < 3 := (c2.net.live hy).1.2
          rcases (by omega : k = 0 ∨ k = 1 ∨ k = 2) with rfl | rfl | rfl
          · exact c5 id (m2 _ (m1 _ hmem)) 0 y (fun z hz => b5 id (m1 _ hmem) 0 z a4 hz) hy
          · exact c5 id (m2 _ (m1 _ hmem)) 1 y b4 hy
          · exact c4 y hy
      obtain ⟨st', Φ', P', L', d1, d2, d3⟩ := ih (i + 1) st3 Φ3 P3 L3 c2 (by rw [hl3, List.length_append]; omega) hclosed (by omega)
      refine ⟨st', Φ', P', L', ?_, d2, d3⟩
      intro fuel hf
      obtain ⟨f, rfl⟩ : ∃ f, fuel = f + 1 := ⟨fuel - 1, by omega⟩
      rw [orientLoop, hget]
      simp only [List.foldlM_cons, List.foldlM_nil, Option.bind_eq_bind, a1, b1, c1, Option.bind_some, Option.pure_def]
      exact d1 f (by omega)
    · refine ⟨st, Φ, P, L, ?_, h, (by omega : i = st.2.length) ▸ hc⟩
      intro fuel _
      cases fuel with
      | zero => rw [orientLoop, if_neg hlt]
      | succ f => rw [orientLoop, List.getElem?_eq_none (by omega)]

end

theorem ends_corner {s : File K} (hg : Good s) {x : Int × Nat} {a b : Vec3 K} (h : ends s x = (some a, some b)) : vert s x = some a ∧ vert s (after x) = some b := by
  simp only [ends, Prod.mk.injEq] at h
  exact h

theorem verts_ext {s s' : File K} (hg : Good s) (hg' : Good s') {id : Int} {f f' : Facet K} (hf : s.get? id = some f) (hf' : s'.get? id = some f') (g : Nat → Nat)
    (h : ∀ j < 3, vert s' (id, j) = vert s (id, g j)) : ∀ j < 3, f'.verts[j]? = f.verts[g j]? := by
  intro j hj
  have := h j hj
  simpa [vert, hf, hf'] using this

end Stl

open Stl

variable {K : Type} [Field K] [LinearOrder K]

/-- C108: when neighbouring facets know each other and the surface can be oriented at all, `setOrientation(pivot)` returns, leaves the pivot as it is and every facet that cannot be reached from it, only ever exchanges two corners of a
facet, keeps the neighbours in order, and makes every facet reached from the pivot run against its neighbours along their common edges. -/
theorem C108_orient (nrm : Vec3 K → K) (tol : K) (h0 : nrm 0 ≤ tol) {s : File K} (hs : s.Ok) (ht : Stl.Triangular s) (hpos : ∀ id ∈ s.ids, 0 ≤ id) (hm : Stl.Mutual s) (hc : Stl.Clean s) (hself : Stl.NoSelf s)
    (hlong : ∀ id f, s.get? id = some f → ∀ a ∈ f.verts, ∀ b ∈ f.verts, a ≠ b → tol < nrm (b - a)) (hnd : ∀ id f, s.get? id = some f → f.verts.Nodup)
    {pivot : Int} (hp : pivot ∈ s.ids) :
    ∃ s', (∀ fuel, s.ids.length ≤ fuel → Stl.setOrientation nrm tol fuel pivot s = some s') ∧ s'.Ok ∧ s'.ids = s.ids ∧ Stl.Triangular s' ∧ Stl.Mutual s' ∧ Stl.Clean s' ∧ Stl.NoSelf s' ∧
      (∀ id f, s.get? id = some f → ∃ f', s'.get? id = some f' ∧ (f'.verts = f.verts ∨ Stl.Swapped f.verts f'.verts) ∧ (id = pivot ∨ ¬ Stl.Reach s pivot id → f'.verts = f.verts)) ∧
      (∀ a b, (∃ j y, Stl.link s' (a, j) = some y ∧ y.1 = b) ↔ ∃ j y, Stl.link s (a, j) = some y ∧ y.1 = b) ∧
      (Stl.Orientable s → ∀ id, Stl.Reach s pivot id → ∀ j y, Stl.link s' (id, j) = some y → Stl.Opposed s' (id, j) y) := by
  have hg : Good s := ⟨hs, ht⟩
  have hnet := (net_iff hg hpos).2 ⟨hm, hc, hself⟩
  have hlong' : ∀ x : Int × Nat, x.2 < 3 → ∀ a b, ends s x = (some a, some b) → tol < nrm (b - a) ∧ tol < nrm (a - b) := by
    intro x hx a b hab
    obtain ⟨h1, h2⟩ := ends_corner hg hab
    have hcor := (vert_some hg x).1 ⟨a, h1⟩
    obtain ⟨f, hf⟩ := (hs.2 _).1 hcor.1
    simp only [vert, after, hf, Option.bind_some] at h1 h2
    have hne : a ≠ b := by
      intro hab'
      rw [← hab'] at h2
      obtain ⟨h3, h4⟩ := List.getElem?_eq_some_iff.1 h1
      obtain ⟨h5, _⟩ := List.getElem?_eq_some_iff.1 h2
      have := (List.getElem?_inj h5 (hnd _ f hf)).1 (h2.trans h1.symm)
      omega
    exact ⟨hlong _ f hf a (List.mem_of_getElem? h1) b (List.mem_of_getElem? h2) hne, hlong _ f hf b (List.mem_of_getElem? h2) a (List.mem_of_getElem? h1) (Ne.symm hne)⟩
  -- run it for a choice, if there is one
  have main : ∀ σ : Int → Bool, ∃ st Φ P L, (∀ fuel, s.ids.length ≤ fuel → Stl.setOrientation nrm tol fuel pivot s = some st.1) ∧ Run s pivot σ st Φ P L ∧ Closed L st.2 st.2.length := by
    intro σ
    have hstart : Run s pivot σ (s, [pivot]) (fun _ => false) id (link s) := by
      refine ⟨hg, rfl, hnet, fun _ => rfl, fun _ => Iff.rfl, Function.bijective_id, fun x => by simp, fun x _ => by simp, fun x _ => rfl, fun i hi => by simp at hi, rfl, by simp, ?_, fun i hi => by simp at hi, rfl, ?_, ?_⟩
      · intro i hi; rw [List.mem_singleton.1 hi]; exact hp
      · intro _ i hi; rw [List.mem_singleton.1 hi]; simp
      · intro i hi; rw [List.mem_singleton.1 hi]; exact Relation.ReflTransGen.refl
    obtain ⟨st', Φ', P', L', a1, a2, a3⟩ := orientLoop_spec h0 hpos hlong' s.ids.length 0 (s, [pivot]) _ _ _ hstart (by simp) (by intro x hx; simp at hx) (by omega)
    exact ⟨st', Φ', P', L', a1, a2, a3⟩
  obtain ⟨st, Φ, P, L, r1, r2, r3⟩ := main (fun _ => false)
  have hposk : ∀ id ∈ st.1.ids, 0 ≤ id := r2.ids ▸ hpos
  have hL : ∀ x, link st.1 x = L x := r2.net.link r2.good hposk
  have hnet' : Net st.1 (link st.1) := by
    have : link st.1 = L := funext hL
    rw [this]; exact r2.net
  obtain ⟨m1, m2, m3⟩ := (net_iff r2.good hposk).1 hnet'
  refine ⟨st.1, r1, r2.good.ok, r2.ids, r2.good.tri, m1, m2, m3, ?_, ?_, ?_⟩
  · intro id f hf
    obtain ⟨f', hf'⟩ := (r2.good.ok.2 id).1 (r2.ids ▸ (hs.2 id).2 ⟨f, hf⟩)
    refine ⟨f', hf', ?_, ?_⟩
    · cases hc : Φ id with
      | false =>
        left
        apply List.ext_getElem?
        intro j
        have := r2.keep (id, j) hc
        simpa [vert, hf, hf'] using this
      | true =>
        right
        obtain ⟨p, hp3, hk⟩ := r2.turn id hc
        obtain ⟨a, b, c, hv, -⟩ := verts_of ht hf
        obtain ⟨a', b', c', hv', -⟩ := verts_of r2.good.tri hf'
        have k0 := hk 0
        have k1 := hk 1
        have k2 := hk 2
        simp only [vert, hf, hf', Option.bind_some, hv', flipC_fst] at k0 k1 k2
        refine ⟨a, b, c, hv, ?_⟩
        rw [hv']
        rcases (by omega : p = 0 ∨ p = 1 ∨ p = 2) with rfl | rfl | rfl <;> simp [flipC, hf, hv] at k0 k1 k2 <;> simp [k0, k1, k2]
    · intro hor
      have hΦ : Φ id = false := by
        rcases hor with rfl | hor
        · exact r2.fixed
        · cases hc : Φ id with
          | false => rfl
          | true => exact absurd (r2.reach _ (r2.seen _ hc)) hor
      apply List.ext_getElem?
      intro j
      have := r2.keep (id, j) hΦ
      simpa [vert, hf, hf'] using this
  · intro a b
    constructor
    · rintro ⟨j, y, hy, rfl⟩
      rw [hL] at hy
      obtain ⟨x0, hx0⟩ := r2.bij.2 (a, j)
      have := r2.glued x0
      rw [hx0, hy] at this
      obtain ⟨z, hz, hz2⟩ := Option.map_eq_some_iff.1 this.symm
      have h1 := r2.fst x0
      rw [hx0] at h1
      refine ⟨x0.2, z, ?_, ?_⟩
      · rw [show (a, x0.2) = x0 from Prod.ext h1 rfl]; exact hz
      · rw [← hz2, r2.fst]
    · rintro ⟨j, y, hy, rfl⟩
      have := r2.glued (a, j)
      rw [hy, Option.map_some] at this
      refine ⟨(P (a, j)).2, P y, ?_, r2.fst y⟩
      rw [hL, show (a, (P (a, j)).2) = P (a, j) from Prod.ext (r2.fst (a, j)).symm rfl]
      exact this
  · rintro ⟨σ, hσ⟩ id hid j y hy
    obtain ⟨st', Φ', P', L', q1, q2, q3⟩ := main σ
    have hst : st'.1 = st.1 := by
      have := (q1 _ (le_refl _)).symm.trans (r1 _ (le_refl _))
      rwa [Option.some.injEq] at this
    rw [← hst] at hy ⊢
    have hposk' : ∀ id ∈ st'.1.ids, 0 ≤ id := q2.ids ▸ hpos
    rw [q2.net.link q2.good hposk'] at hy
    -- what is reached is in the list
    have hin : ∀ i, Reach s pivot i → i ∈ st'.2 := by
      intro i hi
      induction hi with
      | refl => exact List.mem_of_mem_head? q2.start
      | @tail b c _ hstep ih =>
        obtain ⟨k, z, hz, rfl⟩ := hstep
        have := q2.glued (b, k)
        rw [hz, Option.map_some] at this
        have h1 := q3 _ (by rw [List.take_length]; exact ih) (P' (b, k)).2 (P' z) (by
          rw [show (b, (P' (b, k)).2) = P' (b, k) from Prod.ext (q2.fst (b, k)).symm rfl]
          exact this)
        rwa [q2.fst] at h1
    obtain ⟨x0, hx0⟩ := q2.bij.2 (id, j)
    have hx1 : x0.1 = id := by have := q2.fst x0; rw [hx0] at this; exact this.symm
    have hgl := q2.glued x0
    rw [hx0, hy] at hgl
    obtain ⟨y0, hy0, hy1⟩ := Option.map_eq_some_iff.1 hgl.symm
    have hj3 := (q2.net.live hy).1.2
    have hy3 := (q2.net.live hy).2.2
    have hx2 : x0.2 < 3 := (q2.lt x0).1 (by rw [hx0]; exact hj3)
    have hy2 : y0.2 < 3 := (q2.lt y0).1 (by rw [hy1]; exact hy3)
    have hyid : Reach s pivot y0.1 := hid.tail ⟨x0.2, y0, by rw [← hx1]; exact hy0, rfl⟩
    have s1 := q2.side hσ id (hin id hid)
    have s2 := q2.side hσ y0.1 (hin _ hyid)
    have e1 := q2.same x0 hx2
    have e2 := q2.same y0 hy2
    rw [hx0, hx1, s1] at e1
    rw [hy1, s2] at e2
    have hor := hσ x0 y0 hy0
    rw [hx1] at hor
    rw [opposed_iff, e1, e2]
    split_ifs at hor with hsg
    · rw [opposed_iff] at hor
      rw [hor, hsg]
      split_ifs <;> simp
    · rw [parallel_iff] at hor
      rw [hor, other_side hsg]
      cases (σ id != σ pivot) <;> simp

namespace Stl

/-- The surface of a tetrahedron whose last facet has been turned. -/
def twisted : File ℚ :=
  (((Cont.empty.add 3 ⟨[⟨0, 0, 0⟩, ⟨0, 2, 0⟩, ⟨2, 0, 0⟩], ⟨0, 0, 0⟩, (0, 0), [⟨9, 2, false⟩, ⟨4, 2, false⟩, ⟨5, 2, false⟩]⟩).add 5
    ⟨[⟨0, 0, 0⟩, ⟨2, 0, 0⟩, ⟨0, 0, 2⟩], ⟨0, 0, 0⟩, (0, 0), [⟨3, 1, false⟩, ⟨4, 1, false⟩, ⟨9, 1, false⟩]⟩).add 4
    ⟨[⟨2, 0, 0⟩, ⟨0, 2, 0⟩, ⟨0, 0, 2⟩], ⟨0, 0, 0⟩, (0, 0), [⟨3, 0, false⟩, ⟨9, 0, false⟩, ⟨5, 0, false⟩]⟩).add 9
    ⟨[⟨0, 0, 0⟩, ⟨0, 2, 0⟩, ⟨0, 0, 2⟩], ⟨0, 0, 0⟩, (0, 0), [⟨3, 2, false⟩, ⟨4, 0, false⟩, ⟨5, 1, false⟩]⟩

theorem twisted_ok : twisted.Ok ∧ Triangular twisted := by
  have : twisted.Ok := Cont.add_ok (Cont.add_ok (Cont.add_ok (Cont.add_ok Cont.empty_ok _ (by decide +kernel)) _ (by decide +kernel)) _ (by decide +kernel)) _ (by decide +kernel)
  exact ⟨this, ok_of_adds this (by decide +kernel)⟩

theorem edges_of {s : File K} (h : Good s) {p : Int × Nat → Edge → Prop} (hp : ∀ x ∈ corners s, ∀ e ∈ edgeAt s x, p x e) : ∀ x e, edgeAt s x = some e → p x e :=
  fun x e he => hp x (mem_corners.2 ((edgeAt_some h x).1 ⟨e, he⟩)) e he

theorem links_of {s : File K} (h : Good s) {p : Int × Nat → Int × Nat → Prop} (hp : ∀ x ∈ corners s, ∀ y ∈ link s x, p x y) : ∀ x y, link s x = some y → p x y := by
  intro x y hy
  refine hp x (mem_corners.2 ((edgeAt_some h x).1 ?_)) y hy
  cases he : edgeAt s x with
  | none => rw [link_none he] at hy; cases hy
  | some e => exact ⟨e, rfl⟩

theorem mutual_of {s : File K} (h : Good s) (hpos : ∀ id ∈ s.ids, 0 ≤ id)
    (hp : ∀ x ∈ corners s, ∀ e ∈ edgeAt s x, e.neighbor = -1 ∨ ∃ j < 3, e.neighbor ∈ s.ids ∧ e.whichNot = (((j + 2) % 3 : Nat) : Int) ∧ link s (e.neighbor, j) = some x) : Mutual s := by
  rw [mutual_iff h hpos]
  intro x e he hn
  rcases hp x (mem_corners.2 ((edgeAt_some h x).1 ⟨e, he⟩)) e he with h1 | ⟨j, hj, h1, h2, h3⟩
  · exact absurd h1 hn
  · refine ⟨(e.neighbor, j), ⟨h1, hj⟩, rfl, h2, ?_, h3⟩
    rw [link_edge he, if_neg hn, h2]
    congr 2
    omega

instance decOpposed {s : File ℚ} {x y : Int × Nat} : Decidable (Opposed s x y) := by unfold Opposed; infer_instance
instance decParallel {s : File ℚ} {x y : Int × Nat} : Decidable (Parallel s x y) := by unfold Parallel; infer_instance

end Stl

/-- The surface of a tetrahedron with a facet that runs the wrong way meets the hypotheses of `C108_orient`, can be oriented, and the facet is not already in order. -/
example : supNorm 0 ≤ (1 / 10 : ℚ) ∧ Stl.twisted.Ok ∧ Stl.Triangular Stl.twisted ∧ (∀ id ∈ Stl.twisted.ids, 0 ≤ id) ∧ Stl.Mutual Stl.twisted ∧ Stl.Clean Stl.twisted ∧ Stl.NoSelf Stl.twisted ∧
    (∀ id f, Stl.twisted.get? id = some f → ∀ a ∈ f.verts, ∀ b ∈ f.verts, a ≠ b → 1 / 10 < supNorm (b - a)) ∧ (∀ id f, Stl.twisted.get? id = some f → f.verts.Nodup) ∧ (3 : Int) ∈ Stl.twisted.ids ∧ Stl.Orientable Stl.twisted ∧
    Stl.Reach Stl.twisted 3 9 ∧ ∃ y, Stl.link Stl.twisted (9, 0) = some y ∧ ¬ Stl.Opposed Stl.twisted (9, 0) y := by
  have hg : Good twisted := ⟨twisted_ok.1, twisted_ok.2⟩
  refine ⟨by decide +kernel, hg.ok, hg.tri, by decide +kernel, mutual_of hg (by decide +kernel) (by decide +kernel), edges_of hg (by decide +kernel), edges_of hg (by decide +kernel), ?_, ?_, by decide +kernel, ?_, ?_, ?_⟩
  · have : ∀ id ∈ twisted.ids, ∀ f ∈ twisted.get? id, ∀ a ∈ f.verts, ∀ b ∈ f.verts, a ≠ b → 1 / 10 < supNorm (b - a) := by decide +kernel
    exact fun id f hf => this id ((hg.ok.2 id).2 ⟨f, hf⟩) f hf
  · have : ∀ id ∈ twisted.ids, ∀ f ∈ twisted.get? id, f.verts.Nodup := by decide +kernel
    exact fun id f hf => this id ((hg.ok.2 id).2 ⟨f, hf⟩) f hf
  · exact ⟨fun id => id == 9, links_of hg (by decide +kernel)⟩
  · exact Relation.ReflTransGen.single ⟨0, (9, 0), by decide +kernel, rfl⟩
  · exact ⟨(3, 0), by decide +kernel, by decide +kernel⟩

/-! ### Orienting everything outwards -/

namespace Stl

/-- The facets are the same, their corners in some order. -/
def SameSets (s s' : File K) : Prop := ∀ id, (s.get? id = none ∧ s'.get? id = none) ∨ ∃ f f', s.get? id = some f ∧ s'.get? id = some f' ∧ f'.verts.Perm f.verts

theorem SameSets.of_eq {s s' : File K} (h : ∀ id, (s'.get? id).map (·.verts) = (s.get? id).map (·.verts)) : SameSets s s' := by
  intro id
  have := h id
  cases hs : s.get? id with
  | none => left; rw [hs] at this; exact ⟨rfl, Option.map_eq_none_iff.1 this⟩
  | some f =>
    rw [hs] at this
    obtain ⟨f', hf', hv⟩ := Option.map_eq_some_iff.1 this
    exact Or.inr ⟨f, f', rfl, hf', by rw [hv]⟩

theorem SameSets.refl (s : File K) : SameSets s s := SameSets.of_eq fun _ => rfl

theorem SameSets.trans {s s' s'' : File K} (h : SameSets s s') (h' : SameSets s' s'') : SameSets s s'' := by
  intro id
  rcases h id with ⟨a, b⟩ | ⟨f, f', a, b, c⟩ <;> rcases h' id with ⟨a', b'⟩ | ⟨g, g', a', b', c'⟩
  · exact Or.inl ⟨a, b'⟩
  · rw [b] at a'; cases a'
  · rw [b] at a'; cases a'
  · rw [b, Option.some.injEq] at a'
    subst a'
    exact Or.inr ⟨f, g', a, b', c'.trans c⟩

/-- All facets have three corners. -/
def Three (s : File K) : Prop := ∀ id f, s.get? id = some f → f.verts.length = 3

theorem SameSets.three {s s' : File K} (h : SameSets s s') (ht : Three s) : Three s' := by
  intro id f hf
  rcases h id with ⟨_, b⟩ | ⟨g, g', a, b, c⟩
  · rw [hf] at b; cases b
  · rw [hf, Option.some.injEq] at b
    subst b
    rw [c.length_eq, ht id g a]

/-- Edges may change, corners do not. -/
theorem setEdge_keeps {s s' : File K} {id : Int} {j : Nat} {g : Edge → Edge} (h : setEdge s id j g = some s') : ∀ id', (s'.get? id').map (·.verts) = (s.get? id').map (·.verts) := by
  obtain ⟨f, f', hf, hf', rfl⟩ := Cont.modify_some h
  obtain ⟨e, he, rfl⟩ := Option.map_eq_some_iff.1 hf'
  intro id'
  rw [Cont.get?_put]
  split_ifs with hid
  · rw [hid, hf]; rfl
  · rfl

theorem fixNot_keeps {s s' : File K} {e : Edge} {k : Int} (h : fixNot s e k = some s') : ∀ id', (s'.get? id').map (·.verts) = (s.get? id').map (·.verts) := by
  unfold fixNot at h
  by_cases hw : e.whichNot ≠ -1
  · rw [if_pos hw] at h
    simp only [Option.bind_eq_bind, Option.bind_eq_some_iff] at h
    obtain ⟨j, _, h⟩ := h
    split_ifs at h <;> exact setEdge_keeps h
  · rw [if_neg hw, Option.some.injEq] at h
    rw [h]
    exact fun _ => rfl

theorem idx_some {v : Int} {k : Nat} (h : idx v = some k) : 0 ≤ v ∧ (k : Int) = v := by
  unfold idx at h
  split_ifs at h with h0
  simp only [Option.some.injEq] at h
  omega

theorem invertFacet_sets {s s' : File K} {id v : Int} (ht : Three s) (h : invertFacet s id v = some s') : SameSets s s' := by
  unfold invertFacet at h
  simp only [Option.bind_eq_bind, Option.bind_eq_some_iff] at h
  obtain ⟨j2, h2, j1, h1, j3, h3, a, ha, b, hb, s1, hs1, s2, hs2, e2, _, e3, _, s3, hs3, s4, hs4, s5, hs5, s6, hs6, s7, hs7, hs8⟩ := h
  obtain ⟨n2, m2⟩ := idx_some h2
  obtain ⟨n1, m1⟩ := idx_some h1
  have hj : j1 < 3 ∧ j2 < 3 ∧ j1 ≠ j2 := by
    have t1 : (v + 1).tmod 3 < 3 := Int.tmod_lt_of_pos _ (by decide)
    have t2 : (v + 2).tmod 3 < 3 := Int.tmod_lt_of_pos _ (by decide)
    refine ⟨by omega, by omega, ?_⟩
    intro hh
    have e1 := Int.tmod_add_mul_tdiv (v + 1) 3
    have e2 := Int.tmod_add_mul_tdiv (v + 2) 3
    omega
  have hk : ∀ id', (s'.get? id').map (·.verts) = (s2.get? id').map (·.verts) := fun id' => by
    rw [setEdge_keeps hs8, setEdge_keeps hs7, setEdge_keeps hs6, setEdge_keeps hs5, fixNot_keeps hs4, fixNot_keeps hs3]
  obtain ⟨f, f1, hf, hf1, rfl⟩ := Cont.modify_some hs1
  obtain ⟨g, f2, hg, hf2, rfl⟩ := Cont.modify_some hs2
  have hl := ht id f hf
  rw [if_neg (by omega), Option.some.injEq, hl, Nat.mod_eq_of_lt hj.2.1] at hf1
  subst hf1
  rw [Cont.get?_put, if_pos rfl, Option.some.injEq] at hg
  subst hg
  simp only [List.length_set, hl] at hf2
  rw [if_neg (by omega), Option.some.injEq, Nat.mod_eq_of_lt hj.1] at hf2
  subst hf2
  have va : f.verts[j2]? = some a := by simpa [vertexOf, hf, Facet.vertex?, hl, Nat.mod_eq_of_lt hj.2.1] using ha
  have vb : f.verts[j1]? = some b := by simpa [vertexOf, hf, Facet.vertex?, hl, Nat.mod_eq_of_lt hj.1] using hb
  refine SameSets.trans (s' := _) ?_ (SameSets.of_eq hk)
  intro id'
  rw [Cont.get?_put, Cont.get?_put]
  split_ifs with hid
  · subst hid
    refine Or.inr ⟨f, _, hf, rfl, ?_⟩
    obtain ⟨p, q, r, hpqr⟩ : ∃ p q r, f.verts = [p, q, r] := List.length_eq_three.1 hl
    simp only [hpqr] at va vb ⊢
    have sw02 : ∀ p q r : Vec3 K, [r, q, p].Perm [p, q, r] := fun p q r => ((List.Perm.swap _ _ _).trans ((List.Perm.swap _ _ _).cons _)).trans (List.Perm.swap _ _ _)
    obtain ⟨j1l, j2l, jne⟩ := hj
    rcases (by omega : (j1 = 0 ∧ j2 = 1) ∨ (j1 = 0 ∧ j2 = 2) ∨ (j1 = 1 ∧ j2 = 0) ∨ (j1 = 1 ∧ j2 = 2) ∨ (j1 = 2 ∧ j2 = 0) ∨ (j1 = 2 ∧ j2 = 1)) with ⟨rfl, rfl⟩ | ⟨rfl, rfl⟩ | ⟨rfl, rfl⟩ | ⟨rfl, rfl⟩ | ⟨rfl, rfl⟩ | ⟨rfl, rfl⟩ <;>
      simp only [List.getElem?_cons_zero, List.getElem?_cons_succ, Option.some.injEq] at va vb <;> subst va vb <;> simp only [List.set_cons_zero, List.set_cons_succ]
    · exact List.Perm.swap _ _ _
    · exact sw02 _ _ _
    · exact List.Perm.swap _ _ _
    · exact (List.Perm.swap _ _ _).cons _
    · exact sw02 _ _ _
    · exact (List.Perm.swap _ _ _).cons _
  · cases hs : s.get? id' with
    | none => exact Or.inl ⟨rfl, rfl⟩
    | some g => exact Or.inr ⟨g, g, rfl, rfl, List.Perm.refl _⟩

section
variable [Field K] [LinearOrder K] {nrm : Vec3 K → K} {tol : K}

theorem orientEdge_sets {id : Int} {st st' : File K × List Int} {j : Nat} (ht : Three st.1) (h : orientEdge nrm tol id st j = some st') : SameSets st.1 st'.1 := by
  unfold orientEdge at h
  simp only [Option.bind_eq_bind, Option.bind_eq_some_iff] at h
  obtain ⟨e, _, h⟩ := h
  by_cases h1 : e.neighbor = -1
  · rw [if_pos h1, Option.some.injEq] at h
    rw [h]; exact SameSets.refl _
  · rw [if_neg h1] at h
    by_cases h2 : e.neighbor ∈ st.2
    · rw [if_pos h2, Option.some.injEq] at h
      rw [h]; exact SameSets.refl _
    · rw [if_neg h2] at h
      simp only [Option.bind_eq_some_iff] at h
      obtain ⟨k1, _, k2, _, a1, _, b1, _, a2, _, b2, _, h⟩ := h
      by_cases h3 : nrm (a1 - b1) ≤ tol ∧ nrm (a2 - b2) ≤ tol
      · rw [if_pos h3, Option.bind_eq_some_iff] at h
        obtain ⟨s1, hs1, h⟩ := h
        rw [Option.some.injEq] at h
        rw [← h]
        exact invertFacet_sets ht hs1
      · rw [if_neg h3, Option.some.injEq] at h
        rw [← h]
        exact SameSets.refl _

theorem orientLoop_sets : ∀ (fuel i : Nat) (st : File K × List Int) (s' : File K), Three st.1 → orientLoop nrm tol fuel i st = some s' → SameSets st.1 s' := by
  intro fuel
  induction fuel with
  | zero =>
    intro i st s' _ h
    rw [orientLoop] at h
    split_ifs at h
    rw [Option.some.injEq] at h
    rw [h]; exact SameSets.refl _
  | succ n ih =>
    intro i st s' ht h
    rw [orientLoop] at h
    cases hi : st.2[i]? with
    | none =>
      rw [hi, Option.some.injEq] at h
      rw [h]; exact SameSets.refl _
    | some id =>
      rw [hi] at h
      simp only [List.foldlM_cons, List.foldlM_nil, Option.bind_eq_bind, Option.bind_eq_some_iff, Option.pure_def, Option.some.injEq] at h
      obtain ⟨st3, ⟨st1, h1, st2, h2, st3', h3, h4⟩, h⟩ := h
      subst h4
      have a1 := orientEdge_sets ht h1
      have a2 := a1.trans (orientEdge_sets (a1.three ht) h2)
      have a3 := a2.trans (orientEdge_sets (a2.three ht) h3)
      exact a3.trans (ih _ _ _ (a3.three ht) h)

/-- After the loop over the other facets, the first facet has the corners of the last one, and the others have theirs. -/
theorem countHits_spec {hit : Facet K → Bool} {first : Int} : ∀ (l : List Int) (r r' : File K × Int × Nat), first ∉ l → countHits nrm hit first l r = some r' →
    (∀ id, id ≠ first → r'.1.get? id = r.1.get? id) ∧ (∀ last, l.getLast? = some last → ∃ f g, r.1.get? last = some f ∧ r'.1.get? first = some g ∧ g.verts = f.verts) ∧ (l = [] → r' = r) := by
  intro l
  induction l with
  | nil =>
    intro r r' _ h
    rw [countHits, Option.some.injEq] at h
    subst h
    exact ⟨fun _ _ => rfl, by simp, fun _ => rfl⟩
  | cons id t ih =>
    intro r r' hf h
    simp only [countHits, Option.bind_eq_bind, Option.bind_eq_some_iff] at h
    obtain ⟨g0, hg0, g, hg, s1, hs1, h⟩ := h
    obtain ⟨a, a', ha, ha', rfl⟩ := Cont.modify_some hs1
    rw [Option.some.injEq] at ha'
    subst ha'
    simp only [List.mem_cons, not_or] at hf
    obtain ⟨i1, i2, i3⟩ := ih _ r' hf.2 h
    refine ⟨?_, ?_, by simp⟩
    · intro id' hid'
      rw [i1 id' hid', Cont.get?_put, if_neg hid']
    · intro last hl
      cases t with
      | nil =>
        simp only [List.getLast?_singleton, Option.some.injEq] at hl
        subst hl
        refine ⟨g0, g, hg0, ?_, (centroid_measured hg).1⟩
        rw [i3 rfl]
        simp only
        rw [Cont.get?_put, if_pos rfl]
      | cons u t =>
        rw [List.getLast?_cons_cons] at hl
        obtain ⟨f', g', h1, h2, h3⟩ := i2 last hl
        refine ⟨f', g', ?_, h2, h3⟩
        have : last ≠ first := by
          rintro rfl
          exact hf.2 (List.mem_of_mem_getLast? hl)
        simp only at h1
        rwa [Cont.get?_put, if_neg this] at h1

end
end Stl

/-- C109: "`setOrientation(pointOut)` turns facets so that the surface points outwards" is false: whenever it returns for two or more facets, the first facet has been replaced by the last one, so the surface has lost a facet. `pointOut` plays no
role. Whatever the test for intersections says. -/
theorem C109_first_facet_lost (nrm : Vec3 K → K) (meets : Vec3 K → Vec3 K → Stl.Facet K → Bool) (size tol : K) (fuel : Nat) {s s' : Stl.File K} (hs : s.Ok) (ht : Stl.Triangular s) {first last : Int} (hfirst : s.ids.head? = some first)
    (hlast : s.ids.getLast? = some last) (htwo : 2 ≤ s.ids.length) (h : Stl.setOrientationOut nrm meets size tol fuel s = some s') :
    ∃ f g g', s.get? last = some f ∧ s'.get? first = some g ∧ s'.get? last = some g' ∧ g.verts.Perm f.verts ∧ g'.verts.Perm f.verts := by
  obtain ⟨rest, hids⟩ : ∃ rest, s.ids = first :: rest := by
    cases hc : s.ids with
    | nil => simp [hc] at htwo
    | cons a l => rw [hc] at hfirst; simp at hfirst; exact ⟨l, by rw [hfirst]⟩
  have hne : first ∉ rest := by have := hs.1; rw [hids] at this; exact (List.nodup_cons.1 this).1
  have hrl : rest.getLast? = some last := by
    cases rest with
    | nil => simp [hids] at htwo
    | cons u t => rwa [hids, List.getLast?_cons_cons] at hlast
  have hlf : last ≠ first := by
    rintro rfl
    exact hne (List.mem_of_mem_getLast? hrl)
  unfold Stl.setOrientationOut at h
  simp only [Option.bind_eq_bind, Option.bind_eq_some_iff] at h
  obtain ⟨first', hfi, s1, hs1, f1, hf1, c, _, r, hr, h⟩ := h
  have hfirst' : first' = first := by
    unfold Cont.idAt? at hfi
    rw [hids] at hfi
    simpa using hfi.symm
  subst hfirst'
  obtain ⟨a, a', ha, ha', rfl⟩ := Cont.modify_some hs1
  have hi1 : ({ s with map := s.map.insert first' a' } : Stl.File K).ids = s.ids := rfl
  rw [show ({ s with map := s.map.insert first' a' } : Stl.File K).ids.drop 1 = rest by rw [hi1, hids]; rfl] at hr
  obtain ⟨i1, i2, _⟩ := countHits_spec rest _ r hne hr
  obtain ⟨f, g, h1, h2, h3⟩ := i2 last hrl
  simp only at h1
  rw [Cont.get?_put, if_neg hlf] at h1
  have hthree : Three r.1 := by
    intro id x hx
    by_cases hid : id = first'
    · rw [hid, h2, Option.some.injEq] at hx
      rw [← hx, h3, (ht _ f h1).1]
    · rw [i1 id hid] at hx
      simp only at hx
      rw [Cont.get?_put, if_neg hid] at hx
      exact (ht _ x hx).1
  have hall : SameSets r.1 s' := by
    by_cases hodd : r.2.2 % 2 ≠ 0
    · rw [if_pos hodd, Option.bind_eq_some_iff] at h
      obtain ⟨s2, hs2, h⟩ := h
      have hsets := invertFacet_sets hthree hs2
      exact hsets.trans (orientLoop_sets _ _ _ _ (hsets.three hthree) h)
    · rw [if_neg hodd, Option.bind_some] at h
      exact orientLoop_sets _ _ _ _ hthree h
  have hlast' : r.1.get? last = some f := by
    rw [i1 last hlf]
    simp only
    rw [Cont.get?_put, if_neg hlf, h1]
  refine ⟨f, ?_⟩
  rcases hall first' with ⟨x, _⟩ | ⟨x, x', hx, hx', hxp⟩
  · rw [h2] at x; cases x
  rcases hall last with ⟨y, _⟩ | ⟨y, y', hy, hy', hyp⟩
  · rw [hlast'] at y; cases y
  rw [h2, Option.some.injEq] at hx
  rw [hlast', Option.some.injEq] at hy
  subst hx hy
  exact ⟨x', y', h1, hx', hy', h3 ▸ hxp, hyp⟩

/-- For a tetrahedron it does return: the facet in the plane `z = 0` is gone, and the one in `x = 0` is there twice, once in each direction. -/
example : ((Stl.setOrientationOut supNorm (fun _ _ _ => false) 100 (1 / 10) 10 Stl.twisted).map fun s => s.ids.map fun id => (s.get? id).map (·.verts)) =
    some [some [⟨0, 2, 0⟩, ⟨0, 0, 0⟩, ⟨0, 0, 2⟩], some [⟨0, 0, 2⟩, ⟨2, 0, 0⟩, ⟨0, 0, 0⟩], some [⟨2, 0, 0⟩, ⟨0, 0, 2⟩, ⟨0, 2, 0⟩], some [⟨0, 0, 0⟩, ⟨0, 2, 0⟩, ⟨0, 0, 2⟩]] := by decide +kernel

end ENigMA
