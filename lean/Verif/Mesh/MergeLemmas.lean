import Verif.Mesh.CleanupProps
import Verif.Geometry.HashGridProps

/-! # Lemmas for `mergeNodes`, `mergeElements`, `generateFaces`: the search used is exact -/

set_option linter.unusedSectionVars false

namespace ENigMA
namespace Mesh
open Cont
variable {K : Type} [Field K] [LinearOrder K] [IsStrictOrderedRing K] [FloorRing K]

/-- A search that returns exactly the objects within the tolerance. -/
def ExactFind (objs : List (Int × Vec3 K)) (tol : K) (find : Vec3 K → Option (List Int)) : Prop :=
  ∀ q, ∃ r, find q = some r ∧ (∀ k, k ∈ r ↔ ∃ p, (k, p) ∈ objs ∧ Vec3.Within p q tol) ∧
    ((objs.map (·.1)).Nodup → r.Nodup)

/-- The conditions under which the hash grid of `objs` can be built (see C13). -/
def Gridable (mc : HashGrid.Machine K) (objs : List (Int × Vec3 K)) : Prop :=
  0 < mc.eps ∧ 0 < mc.big ∧ (∀ o ∈ objs, o.2.Bounded mc.big) ∧
  (mc.bad ≠ none ∨ objs = [] ∨ ∃ o ∈ objs, ∃ o' ∈ objs, o.2 ≠ o'.2)

theorem grid_exact {mc : HashGrid.Machine K} {objs : List (Int × Vec3 K)} (h : Gridable mc objs) (tol : K) :
    ∃ g, HashGrid.ofList mc objs = some g ∧ ExactFind objs tol (fun q => g.find mc q tol) := by
  obtain ⟨h1, h2, h3, h4⟩ := h
  obtain ⟨g, hg, hf⟩ := C13_find_exact mc h1 h2 objs h3 h4
  refine ⟨g, hg, fun q => ?_⟩
  obtain ⟨r, hr, hp⟩ := hf q tol
  refine ⟨r, hr, fun k => ?_, fun hn => hp.nodup_iff.2 (hn.sublist (List.filter_sublist.map _))⟩
  rw [hp.mem_iff]
  simp only [List.mem_map, List.mem_filter, decide_eq_true_eq]
  constructor
  · rintro ⟨⟨k', p⟩, ⟨h1, h2⟩, rfl⟩; exact ⟨p, h1, h2⟩
  · rintro ⟨p, h1, h2⟩; exact ⟨(k, p), ⟨h1, h2⟩, rfl⟩

theorem one_lt_length_of_mem {l : List Int} {a b : Int} (ha : a ∈ l) (hb : b ∈ l) (hab : a ≠ b) : 1 < l.length := by
  match l with
  | [] => simp at ha
  | [x] => simp at ha hb; omega
  | x :: y :: t => simp

/-! ### mergeNodes -/

theorem mergeInit_find (l : List Int) (del : SMap Int Bool) (new : SMap Int Int) (k : Int) :
    (mergeInit l (del, new)).1.find? k = (if k ∈ l then some false else del.find? k) ∧
    (mergeInit l (del, new)).2.find? k = (if k ∈ l then some k else new.find? k) := by
  induction l generalizing del new with
  | nil => simp [mergeInit]
  | cons a t ih =>
    simp only [mergeInit]
    rw [(ih _ _).1, (ih _ _).2, SMap.find?_insert, SMap.find?_insert]
    by_cases h1 : k ∈ t
    · simp [h1]
    · by_cases h2 : k = a <;> simp [h1, h2]

theorem mergeMark_find (id : Int) (l : List Int) (del : SMap Int Bool) (new : SMap Int Int) (k : Int) :
    (mergeMark id l (del, new)).1.find? k = (if k ∈ l ∧ id < k then some true else del.find? k) ∧
    (mergeMark id l (del, new)).2.find? k = (if k ∈ l ∧ id < k then some id else new.find? k) := by
  induction l generalizing del new with
  | nil => simp [mergeMark]
  | cons a t ih =>
    simp only [mergeMark]
    by_cases ha : a > id
    · rw [if_pos ha, (ih _ _).1, (ih _ _).2, SMap.find?_insert, SMap.find?_insert]
      by_cases h1 : k ∈ t ∧ id < k
      · simp [h1]
      · by_cases h2 : k = a
        · subst h2; simp [ha]
        · simp [h2]
    · rw [if_neg ha, (ih _ _).1, (ih _ _).2]
      by_cases h1 : k ∈ t ∧ id < k
      · simp [h1]
      · by_cases h2 : k = a
        · subst h2; simp [ha]
        · simp [h2]

/-- Invariant of the main loop of `mergeNodes`. -/
structure MergeInv (ids : List Int) (pos : Int → Vec3 K) (tol : K) (done : List Int) (s : SMap Int Bool × SMap Int Int) :
    Prop where
  delNone : ∀ n, n ∉ ids → s.1.find? n = none
  delSome : ∀ n ∈ ids, ∃ b, s.1.find? n = some b
  kept : ∀ n ∈ ids, s.1.find? n = some false → s.2.find? n = some n
  moved : ∀ n ∈ ids, s.1.find? n = some true → ∃ t ∈ done, s.2.find? n = some t ∧ t < n ∧ t ∈ ids ∧
    Vec3.Within (pos n) (pos t) tol
  clear : ∀ x ∈ done, s.1.find? x = some false → ∀ y ∈ ids, x < y → Vec3.Within (pos y) (pos x) tol →
    s.1.find? y = some true
  target : ids.Pairwise (· < ·) → ∀ n ∈ ids, s.1.find? n = some true → ∀ t, s.2.find? n = some t →
    s.1.find? t = some false

theorem mergeLoop_spec (nodes : Cont (Vec3 K)) (pos : Int → Vec3 K) (tol : K) (find : Vec3 K → Option (List Int))
    (hpos : ∀ n ∈ nodes.ids, nodes.get? n = some (pos n))
    (hfind : ExactFind (nodes.ids.map fun n => (n, pos n)) tol find) (l : List Int) :
    ∀ (done : List Int) (s : SMap Int Bool × SMap Int Int), done ++ l = nodes.ids →
      MergeInv nodes.ids pos tol done s →
      ∃ s', mergeLoop nodes find l s = some s' ∧ MergeInv nodes.ids pos tol nodes.ids s' := by
  induction l with
  | nil =>
    intro done s hd hs
    rw [List.append_nil] at hd
    subst hd
    exact ⟨s, rfl, hs⟩
  | cons id t ih =>
    rintro done ⟨del, new⟩ hd hs
    have hid : id ∈ nodes.ids := by rw [← hd]; simp
    have hd' : (done ++ [id]) ++ t = nodes.ids := by rw [← hd]; simp
    have hdone : ∀ x ∈ done, x ∈ nodes.ids := fun x hx => by rw [← hd]; simp [hx]
    obtain ⟨b, hb⟩ := hs.delSome id hid
    simp only at hb
    cases b with
    | true =>
      obtain ⟨s', h1, h2⟩ := ih (done ++ [id]) (del, new) hd' (by
        refine ⟨hs.delNone, hs.delSome, hs.kept, ?_, ?_, hs.target⟩
        · intro n hn h
          obtain ⟨t, ht, r⟩ := hs.moved n hn h
          exact ⟨t, by simp [ht], r⟩
        · intro x hx hxf
          rcases List.mem_append.1 hx with hx | hx
          · exact hs.clear x hx hxf
          · simp only [List.mem_singleton] at hx
            subst hx
            simp only at hxf
            rw [hb] at hxf
            simp at hxf)
      exact ⟨s', by simp [mergeLoop, hb, h1], h2⟩
    | false =>
      obtain ⟨r, hr, hmem, -⟩ := hfind (pos id)
      have hmem' : ∀ k, k ∈ r ↔ k ∈ nodes.ids ∧ Vec3.Within (pos k) (pos id) tol := by
        intro k
        rw [hmem k]
        simp only [List.mem_map, Prod.mk.injEq]
        constructor
        · rintro ⟨p, ⟨n, hn, rfl, rfl⟩, hw⟩; exact ⟨hn, hw⟩
        · rintro ⟨hn, hw⟩; exact ⟨pos k, ⟨k, hn, rfl, rfl⟩, hw⟩
      -- the new state, described uniformly
      let s1 : SMap Int Bool × SMap Int Int := if r.length > 1 then mergeMark id r (del, new) else (del, new)
      have hself : ∀ k, k ∈ r → id < k → 1 < r.length := by
        intro k hk hlt
        obtain ⟨hk1, hk2⟩ := (hmem' k).1 hk
        exact one_lt_length_of_mem hk ((hmem' id).2 ⟨hid, Vec3.within_self _ hk2.1⟩) (by omega)
      have hs1 : ∀ k, s1.1.find? k = (if k ∈ r ∧ id < k then some true else del.find? k) ∧
          s1.2.find? k = (if k ∈ r ∧ id < k then some id else new.find? k) := by
        intro k
        simp only [s1]
        by_cases hlen : r.length > 1
        · rw [if_pos hlen]; exact mergeMark_find id r del new k
        · rw [if_neg hlen]
          have : ¬ (k ∈ r ∧ id < k) := fun h => hlen (hself k h.1 h.2)
          simp [this]
      have hinv : MergeInv nodes.ids pos tol (done ++ [id]) s1 := by
        refine ⟨?_, ?_, ?_, ?_, ?_, ?_⟩
        · intro n hn
          rw [(hs1 n).1, if_neg (fun h => hn ((hmem' n).1 h.1).1)]
          exact hs.delNone n hn
        · intro n hn
          rw [(hs1 n).1]
          split_ifs
          · exact ⟨_, rfl⟩
          · exact hs.delSome n hn
        · intro n hn h
          rw [(hs1 n).1] at h
          rw [(hs1 n).2]
          split_ifs at h ⊢
          · simp at h
          · exact hs.kept n hn h
        · intro n hn h
          rw [(hs1 n).1] at h
          rw [(hs1 n).2]
          split_ifs at h ⊢ with hc
          · exact ⟨id, by simp, rfl, hc.2, hid, ((hmem' n).1 hc.1).2⟩
          · obtain ⟨t, ht, q⟩ := hs.moved n hn h
            exact ⟨t, by simp [ht], q⟩
        · intro x hx hxf y hy hxy hw
          rw [(hs1 x).1] at hxf
          split_ifs at hxf with hc
          · simp at hxf
          rw [(hs1 y).1]
          split_ifs with hc'
          · rfl
          · rcases List.mem_append.1 hx with hx | hx
            · exact hs.clear x hx hxf y hy hxy hw
            · simp only [List.mem_singleton] at hx
              subst hx
              exact absurd ⟨(hmem' y).2 ⟨hy, hw⟩, hxy⟩ hc'
        · intro hsort n hn h t ht
          have hlt : ∀ x ∈ done, x < id := by
            intro x hx
            rw [← hd] at hsort
            exact (List.pairwise_append.1 hsort).2.2 x hx id (by simp)
          rw [(hs1 n).1] at h
          rw [(hs1 n).2] at ht
          rw [(hs1 t).1]
          split_ifs at h ht with hc
          · simp only [Option.some.injEq] at ht
            subst ht
            simp [hb]
          · obtain ⟨t', ht', q1, -⟩ := hs.moved n hn h
            simp only at q1
            rw [ht] at q1
            simp only [Option.some.injEq] at q1
            subst q1
            have := hlt t ht'
            rw [if_neg (fun h => by omega)]
            exact hs.target hsort n hn h t ht
      obtain ⟨s', h1, h2⟩ := ih (done ++ [id]) s1 hd' hinv
      refine ⟨s', ?_, h2⟩
      simp only [mergeLoop, hb, Option.bind_eq_bind, Option.bind_some, Bool.false_eq_true, if_false, hpos id hid, hr]
      exact h1

end Mesh
end ENigMA
