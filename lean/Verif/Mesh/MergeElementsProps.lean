import Verif.Mesh.MergeNodesProps

/-! # C10: `mergeElements` -/

set_option linter.unusedSectionVars false

namespace ENigMA
namespace Mesh
open Cont
variable {K : Type} [Field K] [LinearOrder K] [IsStrictOrderedRing K] [FloorRing K]

/-- The mean of the nodes of an element (0 for an element without nodes). -/
def meanOf (m : Mesh K) (ids : List Int) : Vec3 K := ((ids.length : K)⁻¹) • (ids.map m.posOf).sum

theorem foldl_add_eq (l : List (Vec3 K)) (a : Vec3 K) : l.foldl (· + ·) a = a + l.sum := by
  induction l generalizing a with
  | nil => simp
  | cons x t ih => simp [ih, add_assoc]

theorem centroid_eq {m : Mesh K} (hm : m.nodes.Ok) {ids : List Int} (h : ∀ n ∈ ids, n ∈ m.nodes.ids) :
    centroid m.nodes ids = some (m.meanOf ids) := by
  have : ids.mapM m.nodes.get? = some (ids.map m.posOf) := mapM_option_eq (fun n hn => posOf_get hm (h n hn))
  simp only [centroid, this, Option.bind_eq_bind, Option.bind_some, foldl_add_eq, zero_add, meanOf]
  cases ids with
  | nil => simp
  | cons a t => simp

/-- Centroid of a stored element. -/
def elemMean (m : Mesh K) (id : Int) : Vec3 K := m.meanOf ((m.elements.get? id).map Elem.nodeIds |>.getD [])

/-- Invariant of the main loop: whatever is flagged has another element within the tolerance, and visited elements that are
not flagged have none. -/
structure MergeElemInv (ids : List Int) (pos : Int → Vec3 K) (tol : K) (done : List Int) (d : SMap Int Bool) : Prop where
  dNone : ∀ n, n ∉ ids → d.find? n = none
  dSome : ∀ n ∈ ids, ∃ b, d.find? n = some b
  flagged : ∀ n ∈ ids, d.find? n = some true → ∃ k ∈ ids, k ≠ n ∧ Vec3.Within (pos k) (pos n) tol
  clear : ∀ x ∈ done, d.find? x = some false → ∀ y ∈ ids, y ≠ x → ¬ Vec3.Within (pos y) (pos x) tol

theorem exists_other {l : List Int} (hl : l.Nodup) (h : 1 < l.length) (a : Int) : ∃ k ∈ l, k ≠ a := by
  match l with
  | [] => simp at h
  | [x] => simp at h
  | x :: y :: t =>
    by_cases hx : x = a
    · refine ⟨y, by simp, ?_⟩
      rintro rfl
      subst hx
      simp at hl
    · exact ⟨x, by simp, hx⟩

theorem mergeElemLoop_spec (m : Mesh K) (pos : Int → Vec3 K) (tol : K) (find : Vec3 K → Option (List Int))
    (hel : ∀ id ∈ m.elements.ids, ∃ e, m.elements.get? id = some e ∧ centroid m.nodes e.nodeIds = some (pos id))
    (hfind : ExactFind (m.elements.ids.map fun n => (n, pos n)) tol find) (hnd : m.elements.ids.Nodup) (l : List Int) :
    ∀ (done : List Int) (d : SMap Int Bool), done ++ l = m.elements.ids →
      MergeElemInv m.elements.ids pos tol done d →
      ∃ d', mergeElemLoop m.nodes m.elements find l d = some d' ∧ MergeElemInv m.elements.ids pos tol m.elements.ids d' := by
  induction l with
  | nil =>
    intro done d hd hs
    rw [List.append_nil] at hd
    subst hd
    exact ⟨d, rfl, hs⟩
  | cons id t ih =>
    rintro done d hd hs
    have hid : id ∈ m.elements.ids := by rw [← hd]; simp
    have hd' : (done ++ [id]) ++ t = m.elements.ids := by rw [← hd]; simp
    obtain ⟨b, hb⟩ := hs.dSome id hid
    obtain ⟨e, he, hc⟩ := hel id hid
    cases b with
    | true =>
      obtain ⟨d', h1, h2⟩ := ih (done ++ [id]) d hd' (by
        refine ⟨hs.dNone, hs.dSome, hs.flagged, ?_⟩
        intro x hx hxf
        rcases List.mem_append.1 hx with hx | hx
        · exact hs.clear x hx hxf
        · simp only [List.mem_singleton] at hx
          subst hx
          rw [hb] at hxf
          simp at hxf)
      exact ⟨d', by simp [mergeElemLoop, he, hb, h1], h2⟩
    | false =>
      obtain ⟨r, hr, hmem, hrn⟩ := hfind (pos id)
      have hrn := hrn (by simpa [List.map_map, Function.comp_def] using hnd)
      have hmem' : ∀ k, k ∈ r ↔ k ∈ m.elements.ids ∧ Vec3.Within (pos k) (pos id) tol := by
        intro k
        rw [hmem k]
        simp only [List.mem_map, Prod.mk.injEq]
        constructor
        · rintro ⟨p, ⟨n, hn, rfl, rfl⟩, hw⟩; exact ⟨hn, hw⟩
        · rintro ⟨hn, hw⟩; exact ⟨pos k, ⟨k, hn, rfl, rfl⟩, hw⟩
      let d1 : SMap Int Bool := if r.length > 1 then setAll true r d else d
      have hd1 : ∀ k, d1.find? k = if r.length > 1 ∧ k ∈ r then some true else d.find? k := by
        intro k
        simp only [d1]
        by_cases hlen : r.length > 1
        · rw [if_pos hlen, setAll_find]; simp [hlen]
        · simp [hlen]
      obtain ⟨d', h1, h2⟩ := ih (done ++ [id]) d1 hd' (by
        refine ⟨?_, ?_, ?_, ?_⟩
        · intro n hn
          rw [hd1, if_neg (fun h => hn ((hmem' n).1 h.2).1)]
          exact hs.dNone n hn
        · intro n hn
          rw [hd1]
          split_ifs
          · exact ⟨_, rfl⟩
          · exact hs.dSome n hn
        · intro n hn h
          rw [hd1] at h
          split_ifs at h with hc
          · obtain ⟨hlen, hr⟩ := hc
            obtain ⟨-, hw⟩ := (hmem' n).1 hr
            by_cases hni : n = id
            · obtain ⟨k, hk, hkn⟩ := exists_other hrn hlen n
              obtain ⟨hk1, hk2⟩ := (hmem' k).1 hk
              exact ⟨k, hk1, hkn, by rw [hni]; exact hk2⟩
            · exact ⟨id, hid, fun h => hni h.symm, hw.symm⟩
          · exact hs.flagged n hn h
        · intro x hx hxf y hy hyx hw
          rw [hd1] at hxf
          split_ifs at hxf with hcc
          · simp at hxf
          rcases List.mem_append.1 hx with hx | hx
          · exact hs.clear x hx hxf y hy hyx hw
          · simp only [List.mem_singleton] at hx
            subst hx
            have hyr : y ∈ r := (hmem' y).2 ⟨hy, hw⟩
            have hxr : x ∈ r := (hmem' x).2 ⟨hid, Vec3.within_self _ hw.1⟩
            exact hcc ⟨one_lt_length_of_mem hyr hxr hyx, hxr⟩)
      refine ⟨d', ?_, h2⟩
      simp only [mergeElemLoop, he, hb, Option.bind_eq_bind, Option.bind_some, Bool.false_eq_true, if_false, hc, hr]
      exact h1

/-- The mean of bounded points is bounded. -/
theorem meanOf_bounded (m : Mesh K) {big : K} (hbig : 0 < big) (ids : List Int)
    (h : ∀ n ∈ ids, (m.posOf n).Bounded big) : (m.meanOf ids).Bounded big := by
  have key : ∀ l : List (Vec3 K), (∀ p ∈ l, p.Bounded big) →
      (-(l.length * big) ≤ l.sum.x ∧ l.sum.x ≤ l.length * big) ∧ (-(l.length * big) ≤ l.sum.y ∧ l.sum.y ≤ l.length * big) ∧
      (-(l.length * big) ≤ l.sum.z ∧ l.sum.z ≤ l.length * big) := by
    intro l
    induction l with
    | nil => intro _; simp
    | cons a t ih =>
      intro hl
      obtain ⟨⟨a1, a2⟩, ⟨a3, a4⟩, ⟨a5, a6⟩⟩ := hl a (by simp)
      obtain ⟨⟨b1, b2⟩, ⟨b3, b4⟩, ⟨b5, b6⟩⟩ := ih (fun p hp => hl p (by simp [hp]))
      simp only [List.sum_cons, List.length_cons, Vec3.add_x, Vec3.add_y, Vec3.add_z]
      push_cast
      refine ⟨⟨by linarith, by linarith⟩, ⟨by linarith, by linarith⟩, ⟨by linarith, by linarith⟩⟩
  have hk := key (ids.map m.posOf) (by
    intro p hp
    obtain ⟨n, hn, rfl⟩ := List.mem_map.1 hp
    exact h n hn)
  rw [List.length_map] at hk
  unfold meanOf
  rcases Nat.eq_zero_or_pos ids.length with h0 | hpos
  · simp only [h0, Nat.cast_zero, inv_zero, zero_smul]
    simp only [Vec3.Bounded, Vec3.zero_x, Vec3.zero_y, Vec3.zero_z]
    refine ⟨⟨?_, ?_⟩, ⟨?_, ?_⟩, ⟨?_, ?_⟩⟩ <;> linarith
  · have hp : (0 : K) < (ids.length : K) := by exact_mod_cast hpos
    have aux : ∀ s : K, -((ids.length : K) * big) ≤ s ∧ s ≤ (ids.length : K) * big →
        -big ≤ (ids.length : K)⁻¹ * s ∧ (ids.length : K)⁻¹ * s ≤ big := by
      intro s ⟨h1, h2⟩
      rw [inv_mul_eq_div, le_div_iff₀ hp, div_le_iff₀ hp]
      constructor <;> linarith
    exact ⟨aux _ hk.1, aux _ hk.2.1, aux _ hk.2.2⟩

end Mesh

open Mesh Cont
variable {K : Type} [Field K] [LinearOrder K] [IsStrictOrderedRing K] [FloorRing K]

/-- **C10 (partial, exact characterisation).** On every consistent mesh with finite coordinates (and not all centroids equal unless the
machine defines the cast of NaN), `mergeElements(tol)` is defined and an element survives, unchanged, iff **no other**
element's centroid is within `tol` of its own. In particular survivors are pairwise farther than `tol` apart. Missing from the full
property (and false, see `C10_no_representative`): of coincident elements one representative should remain. -/
theorem C10_mergeElements_partial (mc : HashGrid.Machine K) (m : Mesh K) (hm : m.WF) (heps : 0 < mc.eps) (hbig : 0 < mc.big)
    (hb : ∀ n v, m.nodes.get? n = some v → v.Bounded mc.big)
    (hs : mc.bad ≠ none ∨ m.elements.ids = [] ∨
      ∃ i ∈ m.elements.ids, ∃ j ∈ m.elements.ids, m.elemMean i ≠ m.elemMean j) (tol : K) :
    ∃ m', mergeElements mc m tol = some m' ∧ m'.nodes = m.nodes ∧ m'.faces = m.faces ∧
      m'.elements.ids.Sublist m.elements.ids ∧
      (∀ id e, m'.elements.get? id = some e ↔ m.elements.get? id = some e ∧
        ∀ k ∈ m.elements.ids, k ≠ id → ¬ Vec3.Within (m.elemMean k) (m.elemMean id) tol) ∧
      (∀ i ∈ m'.elements.ids, ∀ j ∈ m'.elements.ids, i ≠ j → ¬ Vec3.Within (m.elemMean i) (m.elemMean j) tol) := by
  have hel : ∀ id ∈ m.elements.ids, ∃ e, m.elements.get? id = some e ∧ centroid m.nodes e.nodeIds = some (m.elemMean id) := by
    intro id hid
    obtain ⟨e, he⟩ := (hm.elements.2 id).1 hid
    refine ⟨e, he, ?_⟩
    rw [centroid_eq hm.nodes (hm.elemNodes id e he)]
    simp [elemMean, he]
  have hobjs : (m.elements.ids.mapM fun id => do
      let e ← m.elements.get? id
      let c ← centroid m.nodes e.nodeIds
      return (id, c)) = some (m.elements.ids.map fun n => (n, m.elemMean n)) := by
    apply mapM_option_eq
    intro id hid
    obtain ⟨e, he, hc⟩ := hel id hid
    simp [he, hc]
  have hgr : Gridable mc (m.elements.ids.map fun n => (n, m.elemMean n)) := by
    refine ⟨heps, hbig, ?_, ?_⟩
    · intro o ho
      obtain ⟨id, hid, rfl⟩ := List.mem_map.1 ho
      obtain ⟨e, he⟩ := (hm.elements.2 id).1 hid
      simp only [elemMean, he, Option.map_some, Option.getD_some]
      exact meanOf_bounded m hbig _ (fun n hn => hb n _ (posOf_get hm.nodes (hm.elemNodes id e he n hn)))
    · rcases hs with h | h | ⟨i, hi, j, hj, hne⟩
      · exact Or.inl h
      · right; left; simp [h]
      · right; right
        exact ⟨_, List.mem_map.2 ⟨i, hi, rfl⟩, _, List.mem_map.2 ⟨j, hj, rfl⟩, hne⟩
  obtain ⟨g, hg, hfind⟩ := grid_exact hgr tol
  obtain ⟨d, h1, h2⟩ := mergeElemLoop_spec m m.elemMean tol _ hel hfind hm.elements.1 m.elements.ids []
    (setAll false m.elements.ids SMap.empty) rfl (by
      refine ⟨?_, ?_, ?_, by simp⟩
      · intro n hn; rw [setAll_find]; simp [hn]
      · intro n hn; rw [setAll_find]; simp [hn]
      · intro n hn h; rw [setAll_find] at h; simp [hn] at h)
  obtain ⟨c, h3, h4, h5, h6, -⟩ := deleteMap_spec d m.elements hm.elements (by
    intro n hn
    by_contra hx
    rw [h2.dNone n hx] at hn
    simp at hn)
  have hfl : ∀ id ∈ m.elements.ids, (d.find? id = some true ↔
      ∃ k ∈ m.elements.ids, k ≠ id ∧ Vec3.Within (m.elemMean k) (m.elemMean id) tol) := by
    intro id hid
    refine ⟨h2.flagged id hid, ?_⟩
    rintro ⟨k, hk, hne, hw⟩
    obtain ⟨b, hb⟩ := h2.dSome id hid
    cases b with
    | true => exact hb
    | false => exact absurd hw (h2.clear id hid hb k hk hne)
  have hchar : ∀ id e, c.get? id = some e ↔ m.elements.get? id = some e ∧
        ∀ k ∈ m.elements.ids, k ≠ id → ¬ Vec3.Within (m.elemMean k) (m.elemMean id) tol := by
    intro id e
    rw [h6]
    constructor
    · intro h
      split_ifs at h with hd
      refine ⟨h, fun k hk hne hw => hd ?_⟩
      exact (hfl id ((hm.elements.2 id).2 ⟨e, h⟩)).2 ⟨k, hk, hne, hw⟩
    · rintro ⟨h, hall⟩
      rw [if_neg, h]
      intro hd
      obtain ⟨k, hk, hne, hw⟩ := (hfl id ((hm.elements.2 id).2 ⟨e, h⟩)).1 hd
      exact hall k hk hne hw
  refine ⟨{ m with elements := c }, ?_, rfl, rfl, ?_, hchar, ?_⟩
  · unfold mergeElements
    rw [hobjs]
    simp only [Option.bind_eq_bind, Option.bind_some, hg, h1, h3]
    rfl
  · simp only [h5]; exact List.filter_sublist
  · intro i hi j hj hne hw
    obtain ⟨e, he⟩ := (h4.2 j).1 hj
    have hmi : i ∈ m.elements.ids := by
      simp only [h5] at hi
      exact (List.mem_filter.1 hi).1
    exact ((hchar j e).1 he).2 i hmi hne hw

/-- Three beams: 0 and 1 coincide (opposite directions), 2 is elsewhere. -/
def duplicateBeams : Mesh ℚ :=
  { nodes := ((Cont.empty.add 0 ⟨0, 0, 0⟩).add 1 ⟨2, 0, 0⟩).add 2 ⟨4, 0, 0⟩
    faces := Cont.empty
    elements := ((Cont.empty.add 0 ⟨.beam, [0, 1], []⟩).add 1 ⟨.beam, [1, 0], []⟩).add 2 ⟨.beam, [1, 2], []⟩
    nbBoundary := 0 }

/-- **C10 (negative).** No representative remains: both coincident beams are removed. -/
theorem C10_no_representative :
    (mergeElements smallMachine duplicateBeams (1 / 10)).map (fun m => m.elements.ids) = some [2] := by decide +kernel

/-- `duplicateBeams` meets the hypotheses of `C10_mergeElements_partial`. -/
example : duplicateBeams.WF ∧ (∀ n v, duplicateBeams.nodes.get? n = some v → v.Bounded smallMachine.big) ∧
    (∃ i ∈ duplicateBeams.elements.ids, ∃ j ∈ duplicateBeams.elements.ids, duplicateBeams.elemMean i ≠ duplicateBeams.elemMean j) := by
  refine ⟨⟨?_, empty_ok, ?_, ?_, ?_⟩, ?_, ?_⟩
  · exact add_ok (add_ok (add_ok empty_ok _ (by decide)) _ (by decide)) _ (by decide)
  · exact add_ok (add_ok (add_ok empty_ok _ (by decide)) _ (by decide)) _ (by decide)
  · intro id f h; simp [duplicateBeams, Cont.empty, Cont.get?] at h
  · intro id e h n hn
    simp only [duplicateBeams, get?_add] at h
    split_ifs at h <;> first
      | (simp only [Option.some.injEq] at h; subst h; simp at hn; rcases hn with rfl | rfl <;> decide)
      | (simp [Cont.empty, Cont.get?] at h)
  · intro n v h
    simp only [duplicateBeams, get?_add] at h
    split_ifs at h <;> first
      | (simp only [Option.some.injEq] at h; subst h; norm_num [Vec3.Bounded, smallMachine])
      | (simp [Cont.empty, Cont.get?] at h)
  · exact ⟨0, by decide, 2, by decide, by decide +kernel⟩

end ENigMA
