import Verif.Mesh.AddMeshProps

/-! # C09, C11, C12: `removeInvalidElements`, `removeDanglingNodes`, `renumber` -/

namespace ENigMA
namespace Mesh
open Cont
variable {K : Type}

theorem invalidFlags_spec (els : Cont Elem) (l : List Int) (hl : ∀ id ∈ l, ∃ e, els.get? id = some e) :
    ∀ d : SMap Int Bool, ∃ d', invalidFlags els l d = some d' ∧
      ∀ id, d'.find? id = if id ∈ l then (els.get? id).map repeatsNode else d.find? id := by
  induction l with
  | nil => intro d; exact ⟨d, rfl, by simp⟩
  | cons a t ih =>
    intro d
    obtain ⟨e, he⟩ := hl a (by simp)
    obtain ⟨d', h1, h2⟩ := ih (fun i hi => hl i (by simp [hi])) (if repeatsNode e then (d.insert a false).insert a true else d.insert a false)
    refine ⟨d', by simp [invalidFlags, he, h1], fun id => ?_⟩
    rw [h2]
    by_cases ht : id ∈ t
    · simp [ht]
    · simp only [ht, if_false, List.mem_cons, or_false]
      by_cases ha : id = a
      · subst ha
        cases hr : repeatsNode e <;> simp [SMap.find?_insert, he, hr]
      · cases hr : repeatsNode e <;> simp [SMap.find?_insert, ha]

theorem keepLoop_spec {α : Type} (c : Cont α) (nodesOf : α → List Int) (l : List Int)
    (hl : ∀ id ∈ l, ∃ a, c.get? id = some a) :
    ∀ d : SMap Int Bool, ∃ d', keepLoop c nodesOf l d = some d' ∧
      ∀ n, (d'.find? n = some true ↔ d.find? n = some true ∧ ¬ ∃ id ∈ l, ∃ a, c.get? id = some a ∧ n ∈ nodesOf a) := by
  induction l with
  | nil => intro d; exact ⟨d, rfl, by simp⟩
  | cons i t ih =>
    intro d
    obtain ⟨a, ha⟩ := hl i (by simp)
    obtain ⟨d', h1, h2⟩ := ih (fun i hi => hl i (by simp [hi])) (setAll false (nodesOf a) d)
    refine ⟨d', by simp [keepLoop, ha, h1], fun n => ?_⟩
    rw [h2, setAll_find]
    by_cases hn : n ∈ nodesOf a
    · simp [hn, ha]
    · simp [hn, ha]

/-- Some face or element of the mesh refers to the node. -/
def Used (m : Mesh K) (n : Int) : Prop :=
  (∃ id f, m.faces.get? id = some f ∧ n ∈ f.nodeIds) ∨ (∃ id e, m.elements.get? id = some e ∧ n ∈ e.nodeIds)

end Mesh

open Mesh Cont
variable {K : Type}

theorem removeInvalid_ids (m : Mesh K) (hm : m.elements.Ok) :
    ∃ m', removeInvalidElements m = some m' ∧ m'.nodes = m.nodes ∧ m'.faces = m.faces ∧ m'.nbBoundary = m.nbBoundary ∧
      m'.elements.Ok ∧ m'.elements.ids.Sublist m.elements.ids ∧
      (∀ id e, m'.elements.get? id = some e ↔ m.elements.get? id = some e ∧ e.nodeIds.Nodup) := by
  obtain ⟨d, h1, h2⟩ := invalidFlags_spec m.elements m.elements.ids (fun id h => (hm.2 id).1 h) SMap.empty
  obtain ⟨c, h3, h4, h5, h6, -⟩ := deleteMap_spec d m.elements hm (by
    intro id hid
    rw [h2] at hid
    by_contra hx
    simp [hx] at hid)
  refine ⟨{ m with elements := c }, by simp [removeInvalidElements, h1, h3], rfl, rfl, rfl, h4, ?_, ?_⟩
  · simp only [h5]; exact List.filter_sublist
  · intro id e
    simp only
    rw [h6, h2]
    by_cases hid : id ∈ m.elements.ids
    · obtain ⟨e', he'⟩ := (hm.2 id).1 hid
      simp only [hid, if_true, he', Option.map_some, Option.some.injEq]
      cases hr : repeatsNode e' with
      | true =>
        have := (repeatsNode_iff e').1 hr
        simp only [if_true]
        constructor
        · intro h; simp at h
        · rintro ⟨rfl, h⟩; exact absurd h this
      | false =>
        have : e'.nodeIds.Nodup := by
          by_contra hh; rw [(repeatsNode_iff e').2 hh] at hr; simp at hr
        simp only [Bool.false_eq_true, if_false, Option.some.injEq]
        constructor
        · rintro rfl; exact ⟨rfl, this⟩
        · exact fun h => h.1
    · have : m.elements.get? id = none := by
        cases hg : m.elements.get? id with
        | none => rfl
        | some a => exact absurd ((hm.2 id).2 ⟨a, hg⟩) hid
      simp [hid, this]

/-- **C09.** On every mesh with consistent element bookkeeping `removeInvalidElements()` is defined; afterwards the stored
elements are exactly the previous ones whose node ids are pairwise distinct, unchanged and in the same relative order, and
nothing else changed. -/
theorem C09_removeInvalidElements (m : Mesh K) (hm : m.elements.Ok) :
    ∃ m', removeInvalidElements m = some m' ∧ m'.nodes = m.nodes ∧ m'.faces = m.faces ∧
      (∀ id e, m'.elements.get? id = some e ↔ m.elements.get? id = some e ∧ e.nodeIds.Nodup) ∧
      m'.elements.ids.Sublist m.elements.ids ∧
      (∀ id, id ∈ m'.elements.ids ↔ ∃ e, m.elements.get? id = some e ∧ e.nodeIds.Nodup) ∧ m'.elements.ids.Nodup := by
  obtain ⟨m', h1, h2, h3, -, h4, h5, h6⟩ := removeInvalid_ids m hm
  refine ⟨m', h1, h2, h3, h6, h5, fun id => ?_, h4.1⟩
  rw [h4.2]
  exact exists_congr fun e => h6 id e

/-- Of two triangles, one degenerate, the other one remains. -/
example : let m : Mesh Int := { nodes := Cont.empty, faces := Cont.empty, nbBoundary := 0, elements := (Cont.empty.add 7 ⟨.triangle, [2, 0, 2], []⟩).add 3 ⟨.triangle, [2, 0, 1], []⟩ }
    m.elements.Ok ∧ (removeInvalidElements m).map (fun m => m.elements.ids) = some [3] := by
  exact ⟨add_ok (add_ok empty_ok _ (by decide)) _ (by decide), by decide⟩

/-- **C11.** On every consistent mesh `removeDanglingNodes()` is defined; afterwards a node is stored iff it was stored and some
face or element refers to it, with the same coordinates, the survivors keep their order, and faces and elements are
unchanged. -/
theorem C11_removeDanglingNodes (m : Mesh K) (hm : m.WF) :
    ∃ m', removeDanglingNodes m = some m' ∧ m'.faces = m.faces ∧ m'.elements = m.elements ∧
      (∀ n v, m'.nodes.get? n = some v ↔ m.nodes.get? n = some v ∧ m.Used n) ∧
      m'.nodes.ids.Sublist m.nodes.ids ∧ (∀ n, n ∈ m'.nodes.ids ↔ n ∈ m.nodes.ids ∧ m.Used n) ∧ m'.WF := by
  obtain ⟨d1, h1, h2⟩ := keepLoop_spec m.faces Face.nodeIds m.faces.ids (fun id h => (hm.faces.2 id).1 h)
    (setAll true m.nodes.ids SMap.empty)
  obtain ⟨d2, h3, h4⟩ := keepLoop_spec m.elements Elem.nodeIds m.elements.ids (fun id h => (hm.elements.2 id).1 h) d1
  have key : ∀ n, d2.find? n = some true ↔ n ∈ m.nodes.ids ∧ ¬ m.Used n := by
    intro n
    rw [h4, h2, setAll_find]
    have e1 : (∃ id ∈ m.faces.ids, ∃ a, m.faces.get? id = some a ∧ n ∈ a.nodeIds) ↔
        ∃ id f, m.faces.get? id = some f ∧ n ∈ f.nodeIds :=
      ⟨fun ⟨id, _, a, h⟩ => ⟨id, a, h⟩, fun ⟨id, a, h⟩ => ⟨id, (hm.faces.2 id).2 ⟨a, h.1⟩, a, h⟩⟩
    have e2 : (∃ id ∈ m.elements.ids, ∃ a, m.elements.get? id = some a ∧ n ∈ a.nodeIds) ↔
        ∃ id f, m.elements.get? id = some f ∧ n ∈ f.nodeIds :=
      ⟨fun ⟨id, _, a, h⟩ => ⟨id, a, h⟩, fun ⟨id, a, h⟩ => ⟨id, (hm.elements.2 id).2 ⟨a, h.1⟩, a, h⟩⟩
    rw [e1, e2, Used, not_or]
    by_cases hn : n ∈ m.nodes.ids <;> simp [hn]
  obtain ⟨c, h5, h6, h7, h8, -⟩ := deleteMap_spec d2 m.nodes hm.nodes (fun id hid => ((key id).1 hid).1)
  have hids : ∀ n, n ∈ c.ids ↔ n ∈ m.nodes.ids ∧ m.Used n := by
    intro n
    rw [h7, List.mem_filter, decide_eq_true_eq]
    simp only [ne_eq, key]
    by_cases hu : m.Used n <;> simp [hu]
  refine ⟨{ m with nodes := c }, by simp [removeDanglingNodes, h1, h3, h5], rfl, rfl, ?_, ?_, hids, ?_⟩
  · intro n v
    simp only
    rw [h8]
    by_cases hk : d2.find? n = some true
    · simp [hk, ((key n).1 hk).2]
    · simp only [hk, if_false]
      constructor
      · intro h
        refine ⟨h, ?_⟩
        by_contra hu
        exact hk ((key n).2 ⟨(hm.nodes.2 n).2 ⟨v, h⟩, hu⟩)
      · exact fun h => h.1
  · simp only [h7]; exact List.filter_sublist
  · refine ⟨h6, hm.faces, hm.elements, ?_, ?_⟩
    · intro id f hf n hn
      exact (hids n).2 ⟨hm.faceNodes id f hf n hn, Or.inl ⟨id, f, hf, hn⟩⟩
    · intro id f hf n hn
      exact (hids n).2 ⟨hm.elemNodes id f hf n hn, Or.inr ⟨id, f, hf, hn⟩⟩

/-- A mesh with an unused node 9: it is removed, the others stay in order. -/
example : let m : Mesh Int := { nodes := (((Cont.empty.add 5 ⟨0, 0, 0⟩).add 9 ⟨7, 7, 7⟩).add 1 ⟨1, 0, 0⟩).add 2 ⟨0, 1, 0⟩
                                faces := Cont.empty
                                nbBoundary := 0
                                elements := Cont.empty.add 7 ⟨.triangle, [2, 5, 1], []⟩ }
    (removeDanglingNodes m).map (fun m => m.nodes.ids) = some [5, 1, 2] := by decide

/-! ### C12 -/

namespace Mesh

theorem renumberLoop_spec {α : Type} (c : Cont α) (f : α → Option α) (l : List Int) (hl : l.Nodup)
    (hc : ∀ id ∈ l, ∃ a a', c.get? id = some a ∧ f a = some a') :
    ∀ (i : Int) (new : SMap Int Int) (map : SMap Int α), ∃ new' map', renumberLoop c f l i (new, map) = some (new', map') ∧
      (∀ (k : Nat) id, l[k]? = some id → new'.find? id = some (i + k) ∧ map'.find? (i + k) = (c.get? id).bind f) ∧
      (∀ id, id ∉ l → new'.find? id = new.find? id) ∧
      (∀ j, (j < i ∨ i + l.length ≤ j) → map'.find? j = map.find? j) := by
  induction l with
  | nil => intro i new map; exact ⟨new, map, rfl, by simp, by simp, by simp⟩
  | cons a t ih =>
    intro i new map
    obtain ⟨x, x', hx, hf⟩ := hc a (by simp)
    rw [List.nodup_cons] at hl
    obtain ⟨new', map', h1, h2, h3, h4⟩ := ih hl.2 (fun j hj => hc j (by simp [hj])) (i + 1) (new.insert a i) (map.insert i x')
    refine ⟨new', map', by simp [renumberLoop, hx, hf, h1], ?_, ?_, ?_⟩
    · intro k id hk
      cases k with
      | zero =>
        simp only [List.getElem?_cons_zero, Option.some.injEq] at hk
        subst hk
        refine ⟨?_, ?_⟩
        · rw [h3 a hl.1, SMap.find?_insert, if_pos rfl]; simp
        · rw [h4 _ (by left; simp), SMap.find?_insert]
          simp [hx, hf]
      | succ k =>
        simp only [List.getElem?_cons_succ] at hk
        have := h2 k id hk
        have e : i + ((k + 1 : Nat) : Int) = i + 1 + (k : Int) := by push_cast; omega
        rw [e]
        exact this
    · intro id hid
      rw [List.mem_cons, not_or] at hid
      rw [h3 id hid.2, SMap.find?_insert, if_neg hid.1]
    · intro j hj
      simp only [List.length_cons] at hj
      rw [h4 j (by push_cast at hj; omega), SMap.find?_insert, if_neg (by push_cast at hj; omega)]

theorem iota_get (n k : Nat) : (iota n)[k]? = if k < n then some (k : Int) else none := by
  unfold iota
  by_cases h : k < n
  · simp [h]
  · simp [h]

theorem mem_iota (n : Nat) (j : Int) : j ∈ iota n ↔ 0 ≤ j ∧ j < n := by
  unfold iota
  simp only [List.mem_map, List.mem_range]
  constructor
  · rintro ⟨k, hk, rfl⟩; simp; omega
  · rintro ⟨h1, h2⟩; exact ⟨j.toNat, by omega, by simp; omega⟩

theorem iota_nodup (n : Nat) : (iota n).Nodup := by
  unfold iota
  exact List.nodup_range.map Int.ofNat_injective

/-- Container after `renumber`: consistent. -/
theorem renumber_ok {α : Type} {l : List Int} {map : SMap Int α} {ind : SMap Int Int} {cnt : Int}
    (h : ∀ (k : Nat) id, l[k]? = some id → ∃ a, map.find? k = some a)
    (h' : ∀ j : Int, (j < 0 ∨ (l.length : Int) ≤ j) → map.find? j = none) :
    (Cont.mk map (iota l.length) ind cnt).Ok := by
  refine ⟨iota_nodup _, fun id => ?_⟩
  simp only [mem_iota, get?]
  constructor
  · rintro ⟨h1, h2⟩
    obtain ⟨k, rfl⟩ := Int.eq_ofNat_of_zero_le h1
    have hk : k < l.length := by omega
    exact h k _ (List.getElem?_eq_getElem hk)
  · rintro ⟨a, ha⟩
    by_contra hh
    rw [h' id (by omega)] at ha
    simp at ha

end Mesh

/-- **C12 (partial).** On every consistent mesh whose elements refer to stored faces only, `renumber()` is defined; the new ids are
`0 … n-1` in the previous order, index and id round-trip, there is a renaming `φ` of nodes (the node's previous position)
that keeps coordinates, and every face and element keeps its data with its node ids renamed by `φ` and, for elements, its face
ids replaced by the new ids of the same faces. Missing from the full property: `pairFaceId()` and `elementId()` of
faces are *not* renamed, see `C12_stale_cross_references`. -/
theorem C12_renumber_partial (m : Mesh K) (hm : m.WF)
    (hf : ∀ id e, m.elements.get? id = some e → ∀ f ∈ e.faceIds, f ∈ m.faces.ids) :
    ∃ m', renumber m = some m' ∧ m'.nodes.ids = iota m.nodes.count ∧ m'.faces.ids = iota m.faces.count ∧
      m'.elements.ids = iota m.elements.count ∧
      m'.nodes.RoundTrip ∧ m'.faces.RoundTrip ∧ m'.elements.RoundTrip ∧ m'.WF ∧
      ∃ φ ψ : Int → Int,
        (∀ (k : Nat) n, m.nodes.idAt? k = some n → φ n = k ∧ m'.nodes.get? k = m.nodes.get? n) ∧
        (∀ (k : Nat) id f, m.faces.idAt? k = some id → m.faces.get? id = some f → ψ id = k ∧
          m'.faces.get? k = some { f with nodeIds := f.nodeIds.map φ } ∧
          m'.coords (f.nodeIds.map φ) = m.coords f.nodeIds) ∧
        (∀ (k : Nat) id e, m.elements.idAt? k = some id → m.elements.get? id = some e →
          m'.elements.get? k = some { e with nodeIds := e.nodeIds.map φ, faceIds := e.faceIds.map ψ } ∧
          m'.coords (e.nodeIds.map φ) = m.coords e.nodeIds) := by
  obtain ⟨newN, mapN, n1, n2, n3, n4⟩ := renumberLoop_spec m.nodes some m.nodes.ids hm.nodes.1
    (fun id hid => by obtain ⟨a, ha⟩ := (hm.nodes.2 id).1 hid; exact ⟨a, a, ha, rfl⟩) 0 SMap.empty SMap.empty
  let φ : Int → Int := fun n => (newN.find? n).getD 0
  have hφ : ∀ n ∈ m.nodes.ids, newN.find? n = some (φ n) := by
    intro n hn
    obtain ⟨k, hk⟩ := List.mem_iff_getElem?.1 hn
    simp [φ, (n2 k n hk).1]
  have hFace : ∀ id f, m.faces.get? id = some f → remapFace newN f = some { f with nodeIds := f.nodeIds.map φ } :=
    fun id f h => remapFace_eq (fun n hn => hφ n (hm.faceNodes id f h n hn))
  have hElem : ∀ id f, m.elements.get? id = some f → remapElem newN f = some { f with nodeIds := f.nodeIds.map φ } :=
    fun id f h => remapElem_eq (fun n hn => hφ n (hm.elemNodes id f h n hn))
  obtain ⟨newF, mapF, f1, f2, f3, f4⟩ := renumberLoop_spec m.faces (remapFace newN) m.faces.ids hm.faces.1
    (fun id hid => by obtain ⟨a, ha⟩ := (hm.faces.2 id).1 hid; exact ⟨a, _, ha, hFace id a ha⟩) 0 SMap.empty SMap.empty
  let ψ : Int → Int := fun n => (newF.find? n).getD 0
  have hψ : ∀ n ∈ m.faces.ids, newF.find? n = some (ψ n) := by
    intro n hn
    obtain ⟨k, hk⟩ := List.mem_iff_getElem?.1 hn
    simp [ψ, (f2 k n hk).1]
  let fe : Elem → Option Elem := fun e => do
      let e ← remapElem newN e
      let fids ← e.faceIds.mapM newF.find?
      return { e with faceIds := fids }
  have hE : ∀ id e, m.elements.get? id = some e →
      fe e = some { e with nodeIds := e.nodeIds.map φ, faceIds := e.faceIds.map ψ } := by
    intro id e h
    have : e.faceIds.mapM newF.find? = some (e.faceIds.map ψ) := mapM_find newF ψ _ (fun f hf' => hψ f (hf id e h f hf'))
    simp only [fe, hElem id e h, Option.bind_eq_bind, Option.bind_some, this]
    rfl
  obtain ⟨newE, mapE, e1, e2, e3, e4⟩ := renumberLoop_spec m.elements fe m.elements.ids hm.elements.1
    (fun id hid => by obtain ⟨a, ha⟩ := (hm.elements.2 id).1 hid; exact ⟨a, _, ha, hE id a ha⟩) 0 SMap.empty SMap.empty
  simp only [zero_add] at n2 f2 e2 n4 f4 e4
  let m' : Mesh K := ({ m with
    nodes := { m.nodes with ids := iota m.nodes.count, map := mapN }
    faces := { m.faces with ids := iota m.faces.count, map := mapF }
    elements := { m.elements with ids := iota m.elements.count, map := mapE } } : Mesh K).rebuildIndices
  have hrun : renumber m = some m' := by
    simp only [renumber, n1, f1, Option.bind_eq_bind, Option.bind_some]
    have : renumberLoop m.elements (fun e => do
      let e ← remapElem newN e
      let fids ← e.faceIds.mapM newF.find?
      return { e with faceIds := fids }) m.elements.ids 0 (SMap.empty, SMap.empty) = some (newE, mapE) := e1
    simp only [Option.bind_eq_bind] at this
    rw [this]
    rfl
  have okN : m'.nodes.Ok := renumber_ok (l := m.nodes.ids)
    (fun k id hk => by
      obtain ⟨a, ha⟩ := (hm.nodes.2 id).1 (List.mem_of_getElem? hk)
      exact ⟨a, by rw [(n2 k id hk).2, ha]; rfl⟩) (fun j hj => n4 j hj)
  have okF : m'.faces.Ok := renumber_ok (l := m.faces.ids)
    (fun k id hk => by
      obtain ⟨a, ha⟩ := (hm.faces.2 id).1 (List.mem_of_getElem? hk)
      exact ⟨_, by rw [(f2 k id hk).2, ha]; exact hFace id a ha⟩) (fun j hj => f4 j hj)
  have okE : m'.elements.Ok := renumber_ok (l := m.elements.ids)
    (fun k id hk => by
      obtain ⟨a, ha⟩ := (hm.elements.2 id).1 (List.mem_of_getElem? hk)
      exact ⟨_, by rw [(e2 k id hk).2, ha]; exact hE id a ha⟩) (fun j hj => e4 j hj)
  have hnode : ∀ (k : Nat) n, m.nodes.idAt? k = some n → φ n = k ∧ m'.nodes.get? k = m.nodes.get? n := by
    intro k n hk
    obtain ⟨a, b⟩ := n2 k n hk
    refine ⟨by simp [φ, a], ?_⟩
    show mapN.find? k = _
    rw [b]
    cases m.nodes.get? n <;> rfl
  have hcoord : ∀ ids : List Int, (∀ n ∈ ids, n ∈ m.nodes.ids) → m'.coords (ids.map φ) = m.coords ids := by
    intro ids h
    unfold coords
    rw [List.map_map]
    apply List.map_congr_left
    intro n hn
    obtain ⟨k, hk⟩ := List.mem_iff_getElem?.1 (h n hn)
    obtain ⟨a, b⟩ := hnode k n hk
    simp only [Function.comp_apply, a, b]
  have hφmem : ∀ n ∈ m.nodes.ids, φ n ∈ m'.nodes.ids := by
    intro n hn
    obtain ⟨k, hk⟩ := List.mem_iff_getElem?.1 hn
    rw [(hnode k n hk).1]
    have hlt := (List.getElem?_eq_some_iff.1 hk).1
    exact (mem_iota _ _).2 ⟨by omega, by simp only [count]; omega⟩
  have hfaces : ∀ (k : Nat) id f, m.faces.idAt? k = some id → m.faces.get? id = some f →
      m'.faces.get? k = some { f with nodeIds := f.nodeIds.map φ } := by
    intro k id f hk hf'
    show mapF.find? k = _
    rw [(f2 k id hk).2, hf']
    exact hFace id f hf'
  have helems : ∀ (k : Nat) id e, m.elements.idAt? k = some id → m.elements.get? id = some e →
      m'.elements.get? k = some { e with nodeIds := e.nodeIds.map φ, faceIds := e.faceIds.map ψ } := by
    intro k id f hk hf'
    show mapE.find? k = _
    rw [(e2 k id hk).2, hf']
    exact hE id f hf'
  refine ⟨m', hrun, rfl, rfl, rfl, ?_, ?_, ?_, ⟨okN, okF, okE, ?_, ?_⟩, φ, ψ, hnode, ?_, ?_⟩
  · exact (rebuild_synced _ (iota_nodup _)).roundTrip
  · exact (rebuild_synced _ (iota_nodup _)).roundTrip
  · exact (rebuild_synced _ (iota_nodup _)).roundTrip
  · intro id f hf' n hn
    have hid : id ∈ iota m.faces.count := (okF.2 id).2 ⟨f, hf'⟩
    obtain ⟨h1, h2⟩ := (mem_iota _ _).1 hid
    obtain ⟨k, rfl⟩ := Int.eq_ofNat_of_zero_le h1
    have hk : k < m.faces.ids.length := by simp only [count] at h2; omega
    have hk' : m.faces.idAt? k = some m.faces.ids[k] := List.getElem?_eq_getElem hk
    obtain ⟨g, hg⟩ := (hm.faces.2 _).1 (List.mem_of_getElem? hk')
    have := hfaces k _ g hk' hg
    rw [hf'] at this
    simp only [Option.some.injEq] at this
    subst this
    simp only [List.mem_map] at hn
    obtain ⟨n', hn', rfl⟩ := hn
    exact hφmem n' (hm.faceNodes _ g hg n' hn')
  · intro id f hf' n hn
    have hid : id ∈ iota m.elements.count := (okE.2 id).2 ⟨f, hf'⟩
    obtain ⟨h1, h2⟩ := (mem_iota _ _).1 hid
    obtain ⟨k, rfl⟩ := Int.eq_ofNat_of_zero_le h1
    have hk : k < m.elements.ids.length := by simp only [count] at h2; omega
    have hk' : m.elements.idAt? k = some m.elements.ids[k] := List.getElem?_eq_getElem hk
    obtain ⟨g, hg⟩ := (hm.elements.2 _).1 (List.mem_of_getElem? hk')
    have := helems k _ g hk' hg
    rw [hf'] at this
    simp only [Option.some.injEq] at this
    subst this
    simp only [List.mem_map] at hn
    obtain ⟨n', hn', rfl⟩ := hn
    exact hφmem n' (hm.elemNodes _ g hg n' hn')
  · intro k id f hk hf'
    exact ⟨by simp [ψ, (f2 k id hk).1], hfaces k id f hk hf', hcoord _ (hm.faceNodes id f hf')⟩
  · intro k id e hk he'
    exact ⟨helems k id e hk he', hcoord _ (hm.elemNodes id e he')⟩

/-- A mesh of two beams sharing a node, with generated faces; element ids 10 and 20. -/
def twoBeams : Mesh Int :=
  { nodes := ((Cont.empty.add 5 ⟨0, 0, 0⟩).add 6 ⟨1, 0, 0⟩).add 7 ⟨2, 0, 0⟩
    elements := (Cont.empty.add 10 ⟨.beam, [5, 6], [100, 101]⟩).add 20 ⟨.beam, [6, 7], [102, 103]⟩
    faces := (((Cont.empty.add 100 ⟨.point, false, 0, 10, [5]⟩).add 101 ⟨.point, true, 102, 10, [6]⟩).add 102
      ⟨.point, true, 101, 20, [6]⟩).add 103 ⟨.point, false, 0, 20, [7]⟩
    nbBoundary := 2 }

/-- **C12 (negative).** `renumber()` leaves `pairFaceId()` and `elementId()` of the faces at the old ids: in `twoBeams`, after
renumbering, the pair of face 1 is "face 102" and its element is "element 10", neither of which exists. -/
theorem C12_stale_cross_references :
    ∃ m', renumber twoBeams = some m' ∧ m'.faces.get? 1 = some ⟨.point, true, 102, 10, [1]⟩ ∧
      m'.faces.get? 102 = none ∧ m'.elements.get? 10 = none ∧ m'.elements.ids = [0, 1] := by
  refine ⟨_, rfl, ?_⟩
  decide

/-- `twoBeams` meets the hypotheses of `C12_renumber_partial`. -/
theorem twoBeams_wf : twoBeams.WF ∧ ∀ id e, twoBeams.elements.get? id = some e → ∀ f ∈ e.faceIds, f ∈ twoBeams.faces.ids := by
  refine ⟨⟨?_, ?_, ?_, ?_, ?_⟩, ?_⟩
  · exact add_ok (add_ok (add_ok empty_ok _ (by decide)) _ (by decide)) _ (by decide)
  · exact add_ok (add_ok (add_ok (add_ok empty_ok _ (by decide)) _ (by decide)) _ (by decide)) _ (by decide)
  · exact add_ok (add_ok empty_ok _ (by decide)) _ (by decide)
  · intro id f h n hn
    simp only [twoBeams, get?_add] at h
    split_ifs at h <;> first | (simp only [Option.some.injEq] at h; subst h; simp at hn; subst hn; decide) | (simp [Cont.empty, Cont.get?] at h)
  · intro id f h n hn
    simp only [twoBeams, get?_add] at h
    split_ifs at h <;> first | (simp only [Option.some.injEq] at h; subst h; simp at hn; rcases hn with rfl | rfl <;> decide) | (simp [Cont.empty, Cont.get?] at h)
  · intro id f h n hn
    simp only [twoBeams, get?_add] at h
    split_ifs at h <;> first | (simp only [Option.some.injEq] at h; subst h; simp at hn; rcases hn with rfl | rfl <;> decide) | (simp [Cont.empty, Cont.get?] at h)

end ENigMA
