import Verif.Mesh.MergeElementsProps
import Verif.Mesh.ElementProps

/-! # Lemmas for `generateFaces` -/

set_option linter.unusedSectionVars false

namespace ENigMA
namespace Mesh
open Cont
variable {K : Type}

/-- The faces the element itself generates, marked with the id of the element. -/
def facesWithOwner (eid : Int) (e : Elem) : List Face := e.facesOf.map fun f => { f with elementId := eid }

/-- A face container filled with `fs` under the ids `0, 1, …`. -/
structure Filled {α : Type} (c : Cont α) (fs : List α) : Prop where
  ids : c.ids = iota fs.length
  get : ∀ k : Nat, c.get? k = fs[k]?
  neg : ∀ j : Int, j < 0 → c.get? j = none
  counter : c.counter = fs.length
  synced : c.Synced

theorem Filled.ok {α : Type} {c : Cont α} {fs : List α} (h : Filled c fs) : c.Ok := by
  refine ⟨h.ids ▸ iota_nodup _, fun id => ?_⟩
  rw [h.ids, mem_iota]
  constructor
  · rintro ⟨h1, h2⟩
    obtain ⟨k, rfl⟩ := Int.eq_ofNat_of_zero_le h1
    have hk : k < fs.length := by omega
    rw [h.get, List.getElem?_eq_getElem hk]
    exact ⟨_, rfl⟩
  · rintro ⟨a, ha⟩
    rcases lt_or_ge id 0 with hlt | hge
    · rw [h.neg id hlt] at ha; simp at ha
    · obtain ⟨k, rfl⟩ := Int.eq_ofNat_of_zero_le hge
      rw [h.get] at ha
      have := (List.getElem?_eq_some_iff.1 ha).1
      omega

theorem Filled.nextId {α : Type} {c : Cont α} {fs : List α} (h : Filled c fs) : c.nextId = fs.length := by
  unfold Cont.nextId
  cases hm : c.map.maxKey? with
  | none =>
    have hnone := c.map.maxKey?_none.1 hm
    cases fs with
    | nil => rfl
    | cons a t =>
      have := h.get 0
      have hz : c.map.find? 0 = some a := by simpa [Cont.get?] using this
      have : (0 : Int) ∈ c.map.keys := (c.map.mem_keys _).2 (by rw [hz]; rfl)
      simp [SMap.keys, hnone] at this
  | some k =>
    have hle := fun j hj => c.map.le_of_maxKey? hm (j := j) hj
    have hk : k ∈ c.map.keys := by
      unfold SMap.maxKey? at hm
      obtain ⟨p, hp, rfl⟩ := Option.map_eq_some_iff.1 hm
      exact List.mem_map.2 ⟨p, List.mem_of_getLast? hp, rfl⟩
    have hk' : k ∈ c.ids := (h.ok.2 k).2 (Option.isSome_iff_exists.1 ((c.map.mem_keys _).1 hk))
    rw [h.ids, mem_iota] at hk'
    have hlast : ((fs.length - 1 : Nat) : Int) ∈ c.map.keys := by
      rw [c.map.mem_keys]
      apply Option.isSome_iff_exists.2
      refine (h.ok.2 _).1 ?_
      rw [h.ids, mem_iota]
      omega
    have := hle _ hlast
    simp only
    omega

theorem iota_succ (n : Nat) : iota (n + 1) = iota n ++ [(n : Int)] := by
  unfold iota; rw [List.range_succ, List.map_append]; rfl

theorem Filled.add {α : Type} {c : Cont α} {fs : List α} (h : Filled c fs) (f : α) : Filled (c.add c.nextId f) (fs ++ [f]) := by
  rw [h.nextId]
  refine ⟨?_, ?_, ?_, ?_, ?_⟩
  · simp only [Cont.add, h.ids, List.length_append, List.length_singleton, iota_succ]
  · intro k
    rw [get?_add]
    by_cases hk : k = fs.length
    · subst hk; simp
    · rw [if_neg (by omega), h.get]
      rcases lt_or_gt_of_ne hk with h1 | h1
      · rw [List.getElem?_append_left h1]
      · rw [List.getElem?_eq_none (by omega), List.getElem?_eq_none (by simp; omega)]
  · intro j hj
    rw [get?_add, if_neg (by omega), h.neg j hj]
  · simp only [Cont.add, h.counter, List.length_append, List.length_singleton]; push_cast; rfl
  · refine add_synced c f h.synced ?_ ?_
    · rw [h.counter, h.ids]; simp [iota]
    · rw [h.ids, mem_iota]; omega

theorem filled_empty {α : Type} : Filled (Cont.empty : Cont α) [] :=
  ⟨rfl, by simp [Cont.empty, Cont.get?], by simp [Cont.empty, Cont.get?], rfl, empty_synced⟩

/-- Faces of one element. -/
theorem addFacesOf_spec (eid : Int) (l : List Face) :
    ∀ (els : Cont Elem) (faces : Cont Face) (fs : List Face) (e : Elem), els.get? eid = some e → Filled faces fs →
    ∃ els' faces', addFacesOf eid l (els, faces) = some (els', faces') ∧
      Filled faces' (fs ++ l.map fun f => { f with elementId := eid }) ∧
      els'.ids = els.ids ∧ els'.indices = els.indices ∧ els'.counter = els.counter ∧
      ∀ j, els'.get? j = if j = eid then
        some { e with faceIds := e.faceIds ++ (List.range' fs.length l.length).map Int.ofNat } else els.get? j := by
  induction l with
  | nil =>
    intro els faces fs e he hf
    refine ⟨els, faces, rfl, by simpa using hf, rfl, rfl, rfl, fun j => ?_⟩
    by_cases hj : j = eid
    · subst hj; simp [he]
    · simp [hj]
  | cons f t ih =>
    intro els faces fs e he hf
    have hnext := hf.nextId
    let e1 : Elem := { e with faceIds := e.faceIds ++ [faces.nextId] }
    have hmod := modify_eq (f := fun e => some { e with faceIds := e.faceIds ++ [faces.nextId] }) he rfl
    obtain ⟨els', faces', h1, h2, h3, h4, h5, h6⟩ := ih { els with map := els.map.insert eid e1 }
      (faces.add faces.nextId { f with elementId := eid }) (fs ++ [{ f with elementId := eid }]) e1
      (by rw [get?_put, if_pos rfl]) (hf.add _)
    refine ⟨els', faces', ?_, ?_, h3, h4, h5, fun j => ?_⟩
    · simp only [addFacesOf, Option.bind_eq_bind, hmod, Option.bind_some]
      exact h1
    · simpa using h2
    · rw [h6]
      by_cases hj : j = eid
      · subst hj
        simp only [if_true, Option.some.injEq, e1, hnext, List.length_append, List.length_singleton,
          List.length_cons, List.range'_succ, List.map_cons, List.append_assoc, List.singleton_append]
        rfl
      · rw [if_neg hj, if_neg hj, get?_put, if_neg hj]

/-- Faces of all elements. -/
theorem genFacesLoop_spec (els0 : Cont Elem) (l : List Int) (hl : l.Nodup)
    (he0 : ∀ id ∈ l, ∃ e, els0.get? id = some e ∧ e.elementType.nbNodes ≤ e.nodeIds.length) :
    ∀ (els : Cont Elem) (faces : Cont Face) (fs : List Face), (∀ id ∈ l, els.get? id = els0.get? id) → Filled faces fs →
    ∃ els' faces', genFacesLoop l (els, faces) = some (els', faces') ∧
      Filled faces' (fs ++ l.flatMap fun id => ((els0.get? id).map (facesWithOwner id)).getD []) ∧
      els'.ids = els.ids ∧ els'.indices = els.indices ∧ els'.counter = els.counter ∧
      (∀ id, id ∉ l → els'.get? id = els.get? id) ∧
      (∀ (a b : List Int) id, l = a ++ id :: b → ∀ e, els0.get? id = some e → els'.get? id = some (
        { e with faceIds := (List.range' (fs ++ a.flatMap fun id =>
            ((els0.get? id).map (facesWithOwner id)).getD []).length e.facesOf.length).map Int.ofNat })) := by
  induction l with
  | nil => intro els faces fs _ hf; exact ⟨els, faces, rfl, by simpa using hf, rfl, rfl, rfl, by simp, by simp⟩
  | cons id t ih =>
    intro els faces fs hels hf
    rw [List.nodup_cons] at hl
    obtain ⟨e, he, hn⟩ := he0 id (by simp)
    have hge := Elem.generateFaces_eq' e hn
    have hget : els.get? id = some e := by rw [hels id (by simp), he]
    let e1 : Elem := { e with faceIds := [] }
    have hmod := modify_eq (f := fun _ : Elem => some e1) hget rfl
    obtain ⟨els1, faces1, h1, h2, h3, h4, h5, h6⟩ := addFacesOf_spec id e.facesOf { els with map := els.map.insert id e1 }
      faces fs e1 (by rw [get?_put, if_pos rfl]) hf
    have hown : fs ++ (e.facesOf.map fun f => { f with elementId := id }) = fs ++ facesWithOwner id e := rfl
    rw [hown] at h2
    obtain ⟨els', faces', g1, g2, g3, g4, g5, g6, g7⟩ := ih hl.2 (fun j hj => he0 j (by simp [hj])) els1 faces1
      (fs ++ facesWithOwner id e) (by
        intro j hj
        have hne : j ≠ id := by rintro rfl; exact hl.1 hj
        rw [h6, if_neg hne, get?_put, if_neg hne]
        exact hels j (by simp [hj])) h2
    refine ⟨els', faces', ?_, ?_, by rw [g3, h3], by rw [g4, h4], by rw [g5, h5], ?_, ?_⟩
    · simp only [genFacesLoop, hget, Option.bind_eq_bind, Option.bind_some, hge]
      have : els.modify id (fun _ => some { e with faceIds := [] }) = some { els with map := els.map.insert id e1 } := hmod
      rw [this]
      simp only [Option.bind_some, h1]
      exact g1
    · simpa [he] using g2
    · intro j hj
      rw [List.mem_cons, not_or] at hj
      rw [g6 j hj.2, h6, if_neg hj.1, get?_put, if_neg hj.1]
    · intro a b j hab e' he'
      cases a with
      | nil =>
        simp only [List.nil_append, List.cons.injEq] at hab
        obtain ⟨rfl, rfl⟩ := hab
        rw [he] at he'
        simp only [Option.some.injEq] at he'
        subst he'
        rw [g6 id hl.1, h6, if_pos rfl]
        simp [e1]
      | cons x a =>
        simp only [List.cons_append, List.cons.injEq] at hab
        obtain ⟨rfl, hab⟩ := hab
        have := g7 a b j hab e' he'
        rw [this]
        simp [he]

/-! ### Pairing -/

theorem sameFace_iff (f g : Face) : sameFace f g = true ↔ f.faceType = g.faceType ∧ f.nodeIds.Perm g.nodeIds := by
  unfold sameFace
  simp only [Bool.and_eq_true, decide_eq_true_eq]
  refine and_congr Iff.rfl ?_
  constructor
  · intro h
    exact (List.perm_insertionSort (· ≤ ·) f.nodeIds).symm.trans (by rw [h]; exact List.perm_insertionSort _ _)
  · intro h
    refine List.Perm.eq_of_pairwise' (List.pairwise_insertionSort _ _) (List.pairwise_insertionSort _ _)
      (((List.perm_insertionSort _ _).trans h).trans (List.perm_insertionSort _ _).symm)

/-- The part of a face that pairing does not change. -/
def static (f : Face) : FaceType × List Int × Int := (f.faceType, f.nodeIds, f.elementId)

theorem static_setPair (f : Face) (j : Int) : static (f.setPair j) = static f := rfl

/-- Invariant of the pairing loop. -/
structure PairInv (c0 : Cont Face) (done : List Int) (c : Cont Face) : Prop where
  ids : c.ids = c0.ids
  indices : c.indices = c0.indices
  counter : c.counter = c0.counter
  stat : ∀ i, (c.get? i).map static = (c0.get? i).map static
  sound : ∀ i f, c.get? i = some f → f.hasPair = true →
    f.pairFaceId ≠ i ∧ ∃ g, c.get? f.pairFaceId = some g ∧ f.faceType = g.faceType ∧ f.nodeIds.Perm g.nodeIds
  complete : ∀ i ∈ done, ∀ f, c.get? i = some f →
    (∃ j g, j ≠ i ∧ c.get? j = some g ∧ f.faceType = g.faceType ∧ f.nodeIds.Perm g.nodeIds) → f.hasPair = true

theorem pairOne_spec (fid : Int) (r : List Int) (c : Cont Face) (f : Face) (hf : c.get? fid = some f)
    (hr : ∀ j ∈ r, ∃ g, c.get? j = some g) :
    ∃ c', pairOne fid r c = some c' ∧
      ((c' = c ∧ ∀ j ∈ r, j ≠ fid → ∀ g, c.get? j = some g → sameFace f g = false) ∨
       (∃ j ∈ r, j ≠ fid ∧ ∃ g, c.get? j = some g ∧ sameFace f g = true ∧ c'.ids = c.ids ∧ c'.indices = c.indices ∧
          c'.counter = c.counter ∧
          ∀ k, c'.get? k = if k = j then some (g.setPair fid) else if k = fid then some (f.setPair j) else c.get? k)) := by
  induction r with
  | nil => exact ⟨c, rfl, Or.inl ⟨rfl, by simp⟩⟩
  | cons j t ih =>
    obtain ⟨g, hg⟩ := hr j (by simp)
    obtain ⟨c', h1, h2⟩ := ih (fun k hk => hr k (by simp [hk]))
    by_cases hj : j = fid
    · subst hj
      refine ⟨c', by simp [pairOne, h1], ?_⟩
      rcases h2 with ⟨h2, h3⟩ | ⟨k, hk, h3⟩
      · left
        refine ⟨h2, fun k hk hne => ?_⟩
        rcases List.mem_cons.1 hk with rfl | hk
        · exact absurd rfl hne
        · exact h3 k hk hne
      · right; exact ⟨k, by simp [hk], h3⟩
    · cases hs : sameFace f g with
      | false =>
        refine ⟨c', by simp [pairOne, hj, hf, hg, hs, h1], ?_⟩
        rcases h2 with ⟨h2, h3⟩ | ⟨k, hk, h3⟩
        · left
          refine ⟨h2, fun k hk hne g' hg' => ?_⟩
          rcases List.mem_cons.1 hk with rfl | hk
          · rw [hg] at hg'; simp only [Option.some.injEq] at hg'; subst hg'; exact hs
          · exact h3 k hk hne g' hg'
        · right; exact ⟨k, by simp [hk], h3⟩
      | true =>
        have m1 := modify_eq (f := fun f => some (f.setPair j)) hf rfl
        have hg2 : (Cont.mk (c.map.insert fid (f.setPair j)) c.ids c.indices c.counter).get? j = some g := by
          rw [get?_put, if_neg hj, hg]
        have m2 := modify_eq (f := fun g => some (g.setPair fid)) hg2 rfl
        refine ⟨{ c with map := (c.map.insert fid (f.setPair j)).insert j (g.setPair fid) },
          by simp only [pairOne, ne_eq, hj, not_false_iff, if_true, hf, hg, Option.bind_eq_bind, Option.bind_some, hs, m1, m2],
          Or.inr ⟨j, by simp, hj, g, hg, hs, rfl, rfl, rfl, fun k => ?_⟩⟩
        have h3 := get?_put (Cont.mk (c.map.insert fid (f.setPair j)) c.ids c.indices c.counter) j k (g.setPair fid)
        simp only at h3
        rw [h3, get?_put]

theorem pairOne_inv {c0 c : Cont Face} (h0 : c0.Ok) {done : List Int} (hinv : PairInv c0 done c) (fid : Int)
    (hfid : fid ∈ c0.ids) (r : List Int) (hr : ∀ j ∈ r, j ∈ c0.ids)
    (hcand : ∀ j f g, j ≠ fid → c0.get? fid = some f → c0.get? j = some g → f.faceType = g.faceType →
      f.nodeIds.Perm g.nodeIds → j ∈ r) :
    ∃ c', pairOne fid r c = some c' ∧ PairInv c0 (done ++ [fid]) c' := by
  have hex : ∀ i ∈ c0.ids, ∃ f, c.get? i = some f := by
    intro i hi
    obtain ⟨f0, hf0⟩ := (h0.2 i).1 hi
    have := hinv.stat i
    rw [hf0] at this
    simp only [Option.map_some, Option.map_eq_some_iff] at this
    obtain ⟨f, hf, -⟩ := this
    exact ⟨f, hf⟩
  obtain ⟨f, hf⟩ := hex fid hfid
  obtain ⟨c', h1, h2⟩ := pairOne_spec fid r c f hf (fun j hj => hex j (hr j hj))
  refine ⟨c', h1, ?_⟩
  rcases h2 with ⟨rfl, h3⟩ | ⟨j, hj, hne, g, hg, hs, e1, e2, e3, e4⟩
  · refine ⟨hinv.ids, hinv.indices, hinv.counter, hinv.stat, hinv.sound, ?_⟩
    intro i hi f' hf' hmate
    rcases List.mem_append.1 hi with hi | hi
    · exact hinv.complete i hi f' hf' hmate
    · simp only [List.mem_singleton] at hi
      subst hi
      rw [hf] at hf'
      simp only [Option.some.injEq] at hf'
      subst hf'
      obtain ⟨j, g, hne, hg, ht, hp⟩ := hmate
      -- the mate is a candidate
      have sf := hinv.stat i
      have sg := hinv.stat j
      rw [hf] at sf
      rw [hg] at sg
      simp only [Option.map_some] at sf sg
      obtain ⟨f0, hf0, sf⟩ := Option.map_eq_some_iff.1 sf.symm
      obtain ⟨g0, hg0, sg⟩ := Option.map_eq_some_iff.1 sg.symm
      simp only [static, Prod.mk.injEq] at sf sg
      have hjr := hcand j f0 g0 hne hf0 hg0 (by rw [sf.1, sg.1, ht]) (by rw [sf.2.1, sg.2.1]; exact hp)
      have := h3 j hjr hne g hg
      rw [(sameFace_iff f g).2 ⟨ht, hp⟩] at this
      simp at this
  · obtain ⟨ht, hp⟩ := (sameFace_iff f g).1 hs
    have hstat : ∀ k, (c'.get? k).map static = (c.get? k).map static := by
      intro k
      rw [e4]
      split_ifs with hk1 hk2
      · subst hk1; rw [hg]; rfl
      · subst hk2; rw [hf]; rfl
      · rfl
    -- payloads of c' have the same static part and only gain pairs
    have hback : ∀ k f', c'.get? k = some f' → ∃ f0, c.get? k = some f0 ∧ static f' = static f0 ∧
        (f0.hasPair = true → f'.hasPair = true) := by
      intro k f' hk
      rw [e4] at hk
      split_ifs at hk with hk1 hk2
      · subst hk1; simp only [Option.some.injEq] at hk; subst hk; exact ⟨g, hg, rfl, fun _ => rfl⟩
      · subst hk2; simp only [Option.some.injEq] at hk; subst hk; exact ⟨f, hf, rfl, fun _ => rfl⟩
      · exact ⟨f', hk, rfl, id⟩
    have hfwd : ∀ k f0, c.get? k = some f0 → ∃ f', c'.get? k = some f' ∧ static f' = static f0 := by
      intro k f0 hk
      have := hstat k
      rw [hk] at this
      simp only [Option.map_some] at this
      obtain ⟨f', h, h'⟩ := Option.map_eq_some_iff.1 this
      exact ⟨f', h, h'⟩
    refine ⟨e1.trans hinv.ids, e2.trans hinv.indices, e3.trans hinv.counter, fun i => (hstat i).trans (hinv.stat i), ?_, ?_⟩
    · intro i f' hf' hpair
      have hf'' := hf'
      rw [e4] at hf'
      split_ifs at hf' with hk1 hk2
      · subst hk1
        simp only [Option.some.injEq] at hf'
        subst hf'
        refine ⟨by simp only [Face.setPair]; exact fun h => hne h.symm, ?_⟩
        obtain ⟨f1, hf1, hst⟩ := hfwd fid f hf
        simp only [static, Prod.mk.injEq] at hst
        refine ⟨f1, by simpa [Face.setPair] using hf1, ?_, ?_⟩
        · simp only [Face.setPair]; rw [hst.1, ht]
        · simp only [Face.setPair]; rw [hst.2.1]; exact hp.symm
      · subst hk2
        simp only [Option.some.injEq] at hf'
        subst hf'
        refine ⟨by simpa [Face.setPair] using hne, ?_⟩
        obtain ⟨g1, hg1, hst⟩ := hfwd j g hg
        simp only [static, Prod.mk.injEq] at hst
        refine ⟨g1, by simpa [Face.setPair] using hg1, ?_, ?_⟩
        · simp only [Face.setPair]; rw [hst.1, ht]
        · simp only [Face.setPair]; rw [hst.2.1]; exact hp
      · obtain ⟨q1, g', q2, q3, q4⟩ := hinv.sound i f' hf' hpair
        obtain ⟨g1, hg1, hst⟩ := hfwd _ g' q2
        simp only [static, Prod.mk.injEq] at hst
        exact ⟨q1, g1, hg1, by rw [hst.1, q3], by rw [hst.2.1]; exact q4⟩
    · intro i hi f' hf' ⟨k, g', hki, hg', ht', hp'⟩
      by_cases hij : i = j
      · subst hij
        rw [e4, if_pos rfl] at hf'
        simp only [Option.some.injEq] at hf'
        subst hf'; rfl
      by_cases hif : i = fid
      · subst hif
        rw [e4, if_neg hij, if_pos rfl] at hf'
        simp only [Option.some.injEq] at hf'
        subst hf'; rfl
      obtain ⟨f0, hf0, hst, hmono⟩ := hback i f' hf'
      obtain ⟨g0, hg0, hst', -⟩ := hback k g' hg'
      simp only [static, Prod.mk.injEq] at hst hst'
      have hi' : i ∈ done := by
        rcases List.mem_append.1 hi with h | h
        · exact h
        · simp only [List.mem_singleton] at h; exact absurd h hif
      exact hmono (hinv.complete i hi' f0 hf0 ⟨k, g0, hki, hg0, by rw [← hst.1, ← hst'.1, ht'],
        by rw [← hst.2.1, ← hst'.2.1]; exact hp'⟩)

variable [Field K] [LinearOrder K] [IsStrictOrderedRing K] [FloorRing K]

theorem pairLoop_spec {c0 : Cont Face} (h0 : c0.Ok) (pos : Int → Vec3 K) (tol : K) (htol : 0 ≤ tol)
    (find : Vec3 K → Option (List Int)) (hfind : ExactFind (c0.ids.map fun n => (n, pos n)) tol find)
    (hpos : ∀ i j f g, c0.get? i = some f → c0.get? j = some g → f.nodeIds.Perm g.nodeIds → pos i = pos j) (l : List Int) :
    ∀ (done : List Int) (c : Cont Face), done ++ l = c0.ids → PairInv c0 done c →
      ∃ c', pairLoop find (l.map fun n => (n, pos n)) c = some c' ∧ PairInv c0 c0.ids c' := by
  induction l with
  | nil =>
    intro done c hd hinv
    rw [List.append_nil] at hd
    subst hd
    exact ⟨c, rfl, hinv⟩
  | cons i t ih =>
    intro done c hd hinv
    have hi : i ∈ c0.ids := by rw [← hd]; simp
    obtain ⟨r, hr, hmem, -⟩ := hfind (pos i)
    have hmem' : ∀ k, k ∈ r ↔ k ∈ c0.ids ∧ Vec3.Within (pos k) (pos i) tol := by
      intro k
      rw [hmem k]
      simp only [List.mem_map, Prod.mk.injEq]
      constructor
      · rintro ⟨p, ⟨n, hn, rfl, rfl⟩, hw⟩; exact ⟨hn, hw⟩
      · rintro ⟨hn, hw⟩; exact ⟨pos k, ⟨k, hn, rfl, rfl⟩, hw⟩
    obtain ⟨c1, h1, h2⟩ := pairOne_inv h0 hinv i hi r (fun j hj => ((hmem' j).1 hj).1) (by
      intro j f g hne hf hg ht hp
      refine (hmem' j).2 ⟨(h0.2 j).2 ⟨g, hg⟩, ?_⟩
      rw [hpos i j f g hf hg hp]
      exact Vec3.within_self _ htol)
    obtain ⟨c', h3, h4⟩ := ih (done ++ [i]) c1 (by rw [← hd]; simp) h2
    refine ⟨c', ?_, h4⟩
    simp only [List.map_cons, pairLoop, hr, Option.bind_eq_bind, Option.bind_some, h1]
    exact h3

end Mesh
end ENigMA
