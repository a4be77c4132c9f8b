import Verif.Mesh.MeshLemmas

/-! # C04: `addMesh` appends an isomorphic copy -/

namespace ENigMA
namespace Mesh
open Cont
variable {K : Type}

theorem addNodesLoop_spec (b : Cont (Vec3 K)) (l : List Int) (hl : l.Nodup) (hb : ∀ id ∈ l, ∃ v, b.get? id = some v) :
    ∀ (c : Cont (Vec3 K)) (new : SMap Int Int), ∃ c' new' nids, addNodesLoop b l (c, new) = some (c', new') ∧
      c'.ids = c.ids ++ nids ∧ nids.length = l.length ∧ nids.Nodup ∧ (∀ n ∈ nids, c.get? n = none) ∧
      (∀ j, j ∉ nids → c'.get? j = c.get? j) ∧ (∀ j, j ∉ l → new'.find? j = new.find? j) ∧
      (∀ (k : Nat) id, l[k]? = some id → ∃ nid, nids[k]? = some nid ∧ new'.find? id = some nid ∧ c'.get? nid = b.get? id) ∧
      (c.Ok → c'.Ok) := by
  induction l with
  | nil => intro c new; exact ⟨c, new, [], rfl, by simp, rfl, List.nodup_nil, by simp, by simp, by simp, by simp, id⟩
  | cons a t ih =>
    intro c new
    rw [List.nodup_cons] at hl
    obtain ⟨v, hv⟩ := hb a (by simp)
    obtain ⟨c', new', nids, h1, h2, h3, h4, h5, h6, h7, h8, h9⟩ :=
      ih hl.2 (fun i hi => hb i (by simp [hi])) (c.add c.nextId v) (new.insert a c.nextId)
    have hnn : c.nextId ∉ nids := by
      intro hm
      have := h5 _ hm
      rw [get?_add, if_pos rfl] at this
      simp at this
    refine ⟨c', new', c.nextId :: nids, by simp [addNodesLoop, hv, h1], by simp [h2, add], by simp [h3], ?_, ?_, ?_, ?_, ?_, ?_⟩
    · exact List.nodup_cons.2 ⟨hnn, h4⟩
    · intro n hn
      rcases List.mem_cons.1 hn with rfl | hn
      · exact get?_nextId c
      · have := h5 n hn
        rw [get?_add] at this
        split_ifs at this
        exact this
    · intro j hj
      rw [List.mem_cons, not_or] at hj
      rw [h6 j hj.2, get?_add, if_neg hj.1]
    · intro j hj
      rw [List.mem_cons, not_or] at hj
      rw [h7 j hj.2, SMap.find?_insert, if_neg hj.1]
    · intro k id hk
      cases k with
      | zero =>
        simp only [List.getElem?_cons_zero, Option.some.injEq] at hk
        subst hk
        refine ⟨c.nextId, rfl, ?_, ?_⟩
        · rw [h7 a hl.1, SMap.find?_insert, if_pos rfl]
        · rw [h6 _ hnn, get?_add, if_pos rfl, hv]
      | succ k =>
        simp only [List.getElem?_cons_succ] at hk ⊢
        exact h8 k id hk
    · intro hc; exact h9 (add_ok hc v (nextId_not_mem hc))

theorem addLoop_spec {α : Type} (b : Cont α) (f : α → Option α) (l : List Int)
    (hb : ∀ id ∈ l, ∃ a a', b.get? id = some a ∧ f a = some a') :
    ∀ (c : Cont α), ∃ c' nids, addLoop b f l c = some c' ∧
      c'.ids = c.ids ++ nids ∧ nids.length = l.length ∧ (∀ n ∈ nids, c.get? n = none) ∧
      (∀ j, j ∉ nids → c'.get? j = c.get? j) ∧ nids.Nodup ∧
      (∀ (k : Nat) id, l[k]? = some id → ∃ nid, nids[k]? = some nid ∧ c'.get? nid = (b.get? id).bind f) ∧
      (c.Ok → c'.Ok) := by
  induction l with
  | nil => intro c; exact ⟨c, [], rfl, by simp, rfl, by simp, by simp, List.nodup_nil, by simp, id⟩
  | cons i t ih =>
    intro c
    obtain ⟨a, a', ha, hf⟩ := hb i (by simp)
    have hadd : (c.add c.nextId a).get? c.nextId = some a := by rw [get?_add, if_pos rfl]
    let c1 : Cont α := { c.add c.nextId a with map := (c.add c.nextId a).map.insert c.nextId a' }
    have hc1 : ∀ j, c1.get? j = if j = c.nextId then some a' else c.get? j := by
      intro j
      simp only [c1]
      rw [get?_put, get?_add]
      split_ifs <;> rfl
    obtain ⟨c', nids, h1, h2, h3, h5, h6, h4, h8, h9⟩ := ih (fun i hi => hb i (by simp [hi])) c1
    have hnn : c.nextId ∉ nids := by
      intro hm
      have := h5 _ hm
      rw [hc1, if_pos rfl] at this
      simp at this
    refine ⟨c', c.nextId :: nids, ?_, ?_, by simp [h3], ?_, ?_, List.nodup_cons.2 ⟨hnn, h4⟩, ?_, ?_⟩
    · simp only [addLoop, ha, Option.bind_eq_bind, Option.bind_some, modify_eq hadd hf]
      exact h1
    · rw [h2]; simp [c1, add]
    · intro n hn
      rcases List.mem_cons.1 hn with rfl | hn
      · exact get?_nextId c
      · have := h5 n hn
        rw [hc1] at this
        split_ifs at this
        exact this
    · intro j hj
      rw [List.mem_cons, not_or] at hj
      rw [h6 j hj.2, hc1, if_neg hj.1]
    · intro k id hk
      cases k with
      | zero =>
        simp only [List.getElem?_cons_zero, Option.some.injEq] at hk
        subst hk
        refine ⟨c.nextId, rfl, ?_⟩
        rw [h6 _ hnn, hc1, if_pos rfl, ha]
        simp [hf]
      | succ k =>
        simp only [List.getElem?_cons_succ] at hk ⊢
        exact h8 k id hk
    · intro hc; exact h9 (put_ok (add_ok hc a (nextId_not_mem hc)) hadd)

theorem mapM_find (new : SMap Int Int) (φ : Int → Int) (ids : List Int) (h : ∀ n ∈ ids, new.find? n = some (φ n)) :
    ids.mapM new.find? = some (ids.map φ) := mapM_option_eq h

theorem remapFace_eq {new : SMap Int Int} {φ : Int → Int} {f : Face} (h : ∀ n ∈ f.nodeIds, new.find? n = some (φ n)) :
    remapFace new f = some { f with nodeIds := f.nodeIds.map φ } := by
  simp [remapFace, mapM_find new φ _ h]

theorem remapElem_eq {new : SMap Int Int} {φ : Int → Int} {f : Elem} (h : ∀ n ∈ f.nodeIds, new.find? n = some (φ n)) :
    remapElem new f = some { f with nodeIds := f.nodeIds.map φ } := by
  simp [remapElem, mapM_find new φ _ h]

end Mesh

open Mesh Cont
variable {K : Type}

/-- **C04.** For every mesh `a` and every consistent mesh `b` (another object), `a.addMesh(b)` is defined. The result keeps
everything `a` stored and `a`'s ids at the front; there is an injective renaming `φ` of `b`'s nodes to ids unused in `a`,
preserving coordinates; and behind `a`'s elements (faces) come `b`'s elements (faces) in order, under ids unused in `a`, equal
to the originals up to the renaming of their nodes. -/
theorem C04_addMesh_copies (a b : Mesh K) (hb : b.WF) :
    ∃ m, addMesh a b = some m ∧
      -- `a` is kept
      (∀ id v, a.nodes.get? id = some v → m.nodes.get? id = some v) ∧
      (∀ id f, a.faces.get? id = some f → m.faces.get? id = some f) ∧
      (∀ id e, a.elements.get? id = some e → m.elements.get? id = some e) ∧
      (∃ l, m.nodes.ids = a.nodes.ids ++ l) ∧ (∃ l, m.faces.ids = a.faces.ids ++ l) ∧
      (∃ l, m.elements.ids = a.elements.ids ++ l) ∧
      m.nodes.count = a.nodes.count + b.nodes.count ∧ m.faces.count = a.faces.count + b.faces.count ∧
      m.elements.count = a.elements.count + b.elements.count ∧
      -- the copy of `b`
      ∃ φ : Int → Int,
        (∀ n ∈ b.nodes.ids, ∀ n' ∈ b.nodes.ids, φ n = φ n' → n = n') ∧
        (∀ k n, b.nodes.idAt? k = some n → m.nodes.idAt? (a.nodes.count + k) = some (φ n) ∧
          a.nodes.get? (φ n) = none ∧ m.nodes.get? (φ n) = b.nodes.get? n) ∧
        (∀ k id f, b.faces.idAt? k = some id → b.faces.get? id = some f →
          ∃ nid, m.faces.idAt? (a.faces.count + k) = some nid ∧ a.faces.get? nid = none ∧
            m.faces.get? nid = some { f with nodeIds := f.nodeIds.map φ }) ∧
        (∀ k id e, b.elements.idAt? k = some id → b.elements.get? id = some e →
          ∃ nid, m.elements.idAt? (a.elements.count + k) = some nid ∧ a.elements.get? nid = none ∧
            m.elements.get? nid = some { e with nodeIds := e.nodeIds.map φ }) := by
  obtain ⟨nc, new, nn, n1, n2, n3, n4, n5, n6, n7, n8, n9⟩ :=
    addNodesLoop_spec b.nodes b.nodes.ids hb.nodes.1 (fun id h => (hb.nodes.2 id).1 h) a.nodes SMap.empty
  let φ : Int → Int := fun n => (new.find? n).getD 0
  have hφ : ∀ n ∈ b.nodes.ids, new.find? n = some (φ n) := by
    intro n hn
    obtain ⟨k, hk⟩ := List.mem_iff_getElem?.1 hn
    obtain ⟨nid, -, h, -⟩ := n8 k n hk
    simp [φ, h]
  have hf : ∀ id ∈ b.faces.ids, ∃ f f', b.faces.get? id = some f ∧ remapFace new f = some f' := by
    intro id hid
    obtain ⟨f, hf⟩ := (hb.faces.2 id).1 hid
    exact ⟨f, _, hf, remapFace_eq (fun n hn => hφ n (hb.faceNodes id f hf n hn))⟩
  have he : ∀ id ∈ b.elements.ids, ∃ f f', b.elements.get? id = some f ∧ remapElem new f = some f' := by
    intro id hid
    obtain ⟨f, hf⟩ := (hb.elements.2 id).1 hid
    exact ⟨f, _, hf, remapElem_eq (fun n hn => hφ n (hb.elemNodes id f hf n hn))⟩
  obtain ⟨fc, fn, f1, f2, f3, f5, f6, f4, f8, f9⟩ := addLoop_spec b.faces (remapFace new) b.faces.ids hf a.faces
  obtain ⟨ec, en, e1, e2, e3, e5, e6, e4, e8, e9⟩ := addLoop_spec b.elements (remapElem new) b.elements.ids he a.elements
  refine ⟨{ a with nodes := nc, faces := fc, elements := ec }, by simp [addMesh, n1, f1, e1], ?_, ?_, ?_,
    ⟨_, n2⟩, ⟨_, f2⟩, ⟨_, e2⟩, by simp [count, n2, n3], by simp [count, f2, f3], by simp [count, e2, e3], φ, ?_, ?_, ?_, ?_⟩
  · intro id v hv
    rw [n6 id (fun hm => by simp [n5 id hm] at hv), hv]
  · intro id v hv
    rw [f6 id (fun hm => by simp [f5 id hm] at hv), hv]
  · intro id v hv
    rw [e6 id (fun hm => by simp [e5 id hm] at hv), hv]
  · intro n hn n' hn' h
    obtain ⟨k, hk⟩ := List.mem_iff_getElem?.1 hn
    obtain ⟨k', hk'⟩ := List.mem_iff_getElem?.1 hn'
    obtain ⟨x, h1, h2, -⟩ := n8 k n hk
    obtain ⟨x', h1', h2', -⟩ := n8 k' n' hk'
    rw [hφ n hn] at h2
    rw [hφ n' hn'] at h2'
    simp only [Option.some.injEq] at h2 h2'
    subst h2 h2'
    rw [h] at h1
    have hkl : k < nn.length := (List.getElem?_eq_some_iff.1 h1).1
    have := (List.getElem?_inj hkl n4).1 (h1.trans h1'.symm)
    subst this
    rw [hk] at hk'
    simpa using hk'
  · intro k n hk
    obtain ⟨x, h1, h2, h3⟩ := n8 k n hk
    have hn : n ∈ b.nodes.ids := List.mem_of_getElem? hk
    rw [hφ n hn] at h2
    simp only [Option.some.injEq] at h2
    subst h2
    refine ⟨?_, n5 _ (List.mem_of_getElem? h1), h3⟩
    simp only [idAt?, count, n2]
    rw [List.getElem?_append_right (by omega)]
    simpa using h1
  · intro k id f hk hf'
    obtain ⟨x, h1, h2⟩ := f8 k id hk
    refine ⟨x, ?_, f5 _ (List.mem_of_getElem? h1), ?_⟩
    · simp only [idAt?, count, f2]
      rw [List.getElem?_append_right (by omega)]
      simpa using h1
    · simp only
      rw [h2, hf']
      exact remapFace_eq (fun n hn => hφ n (hb.faceNodes id f hf' n hn))
  · intro k id f hk hf'
    obtain ⟨x, h1, h2⟩ := e8 k id hk
    refine ⟨x, ?_, e5 _ (List.mem_of_getElem? h1), ?_⟩
    · simp only [idAt?, count, e2]
      rw [List.getElem?_append_right (by omega)]
      simpa using h1
    · simp only
      rw [h2, hf']
      exact remapElem_eq (fun n hn => hφ n (hb.elemNodes id f hf' n hn))

/-- **C04 (consistency).** If both meshes are consistent, so is the result. -/
theorem C04_addMesh_consistent (a b m : Mesh K) (ha : a.WF) (hb : b.WF) (hm : addMesh a b = some m) : m.WF := by
  obtain ⟨m', h', k1, k2, k3, -, ⟨lf, k5⟩, ⟨le, k6⟩, c1, c2, c3, φ, -, p2, p3, p4⟩ := C04_addMesh_copies a b hb
  rw [hm] at h'
  simp only [Option.some.injEq] at h'
  subst h'
  obtain ⟨nc, new, nn, n1, n2, n3, n4, n5, n6, n7, n8, n9⟩ :=
    addNodesLoop_spec b.nodes b.nodes.ids hb.nodes.1 (fun id h => (hb.nodes.2 id).1 h) a.nodes SMap.empty
  have hφ : ∀ n ∈ b.nodes.ids, ∃ x, new.find? n = some x := by
    intro n hn
    obtain ⟨k, hk⟩ := List.mem_iff_getElem?.1 hn
    obtain ⟨nid, -, h, -⟩ := n8 k n hk
    exact ⟨_, h⟩
  have hφ' : ∀ n ∈ b.nodes.ids, new.find? n = some ((new.find? n).getD 0) := by
    intro n hn
    obtain ⟨x, hx⟩ := hφ n hn
    simp [hx]
  have hf : ∀ id ∈ b.faces.ids, ∃ f f', b.faces.get? id = some f ∧ remapFace new f = some f' := by
    intro id hid
    obtain ⟨f, hf⟩ := (hb.faces.2 id).1 hid
    exact ⟨f, _, hf, remapFace_eq (fun n hn => hφ' n (hb.faceNodes id f hf n hn))⟩
  have he : ∀ id ∈ b.elements.ids, ∃ f f', b.elements.get? id = some f ∧ remapElem new f = some f' := by
    intro id hid
    obtain ⟨f, hf⟩ := (hb.elements.2 id).1 hid
    exact ⟨f, _, hf, remapElem_eq (fun n hn => hφ' n (hb.elemNodes id f hf n hn))⟩
  obtain ⟨fc, fn, f1, f2, f3, f5, f6, f4, f8, f9⟩ := addLoop_spec b.faces (remapFace new) b.faces.ids hf a.faces
  obtain ⟨ec, en, e1, e2, e3, e5, e6, e4, e8, e9⟩ := addLoop_spec b.elements (remapElem new) b.elements.ids he a.elements
  have hmeq : m = { a with nodes := nc, faces := fc, elements := ec } := by
    simp [addMesh, n1, f1, e1] at hm
    exact hm.symm
  have on : m.nodes.Ok := by rw [hmeq]; exact n9 ha.nodes
  have of : m.faces.Ok := by rw [hmeq]; exact f9 ha.faces
  have oe : m.elements.Ok := by rw [hmeq]; exact e9 ha.elements
  have keep : ∀ n ∈ a.nodes.ids, n ∈ m.nodes.ids := by
    intro n hn
    obtain ⟨v, hv⟩ := (ha.nodes.2 n).1 hn
    exact (on.2 n).2 ⟨v, k1 n v hv⟩
  have img : ∀ n ∈ b.nodes.ids, φ n ∈ m.nodes.ids := by
    intro n hn
    obtain ⟨k, hk⟩ := List.mem_iff_getElem?.1 hn
    exact List.mem_of_getElem? (p2 k n hk).1
  refine ⟨on, of, oe, ?_, ?_⟩
  · intro id f hf n hn
    have hid : id ∈ m.faces.ids := (of.2 id).2 ⟨f, hf⟩
    obtain ⟨k, hk⟩ := List.mem_iff_getElem?.1 hid
    by_cases hlt : k < a.faces.ids.length
    · rw [k5, List.getElem?_append_left hlt] at hk
      obtain ⟨f', hf'⟩ := (ha.faces.2 id).1 (List.mem_of_getElem? hk)
      have := k2 id f' hf'
      rw [hf] at this
      simp only [Option.some.injEq] at this
      subst this
      exact keep n (ha.faceNodes id f hf' n hn)
    · have hkl := (List.getElem?_eq_some_iff.1 hk).1
      simp only [count] at c2
      obtain ⟨j, rfl⟩ : ∃ j, k = a.faces.ids.length + j := ⟨k - a.faces.ids.length, by omega⟩
      have hj : j < b.faces.ids.length := by omega
      have hbj : b.faces.ids[j]? = some b.faces.ids[j] := List.getElem?_eq_getElem hj
      obtain ⟨f', hf'⟩ := (hb.faces.2 _).1 (List.mem_of_getElem? hbj)
      obtain ⟨nid, q1, -, q2⟩ := p3 j _ f' hbj hf'
      simp only [idAt?, count] at q1
      rw [hk] at q1
      simp only [Option.some.injEq] at q1
      subst q1
      rw [hf] at q2
      simp only [Option.some.injEq] at q2
      subst q2
      simp only [List.mem_map] at hn
      obtain ⟨n', hn', rfl⟩ := hn
      exact img n' (hb.faceNodes _ f' hf' n' hn')
  · intro id f hf n hn
    have hid : id ∈ m.elements.ids := (oe.2 id).2 ⟨f, hf⟩
    obtain ⟨k, hk⟩ := List.mem_iff_getElem?.1 hid
    by_cases hlt : k < a.elements.ids.length
    · rw [k6, List.getElem?_append_left hlt] at hk
      obtain ⟨f', hf'⟩ := (ha.elements.2 id).1 (List.mem_of_getElem? hk)
      have := k3 id f' hf'
      rw [hf] at this
      simp only [Option.some.injEq] at this
      subst this
      exact keep n (ha.elemNodes id f hf' n hn)
    · have hkl := (List.getElem?_eq_some_iff.1 hk).1
      simp only [count] at c3
      obtain ⟨j, rfl⟩ : ∃ j, k = a.elements.ids.length + j := ⟨k - a.elements.ids.length, by omega⟩
      have hj : j < b.elements.ids.length := by omega
      have hbj : b.elements.ids[j]? = some b.elements.ids[j] := List.getElem?_eq_getElem hj
      obtain ⟨f', hf'⟩ := (hb.elements.2 _).1 (List.mem_of_getElem? hbj)
      obtain ⟨nid, q1, -, q2⟩ := p4 j _ f' hbj hf'
      simp only [idAt?, count] at q1
      rw [hk] at q1
      simp only [Option.some.injEq] at q1
      subst q1
      rw [hf] at q2
      simp only [Option.some.injEq] at q2
      subst q2
      simp only [List.mem_map] at hn
      obtain ⟨n', hn', rfl⟩ := hn
      exact img n' (hb.elemNodes _ f' hf' n' hn')

/-- The merge of a triangle into another mesh: the copy is the same triangle on new nodes. -/
example : let t : Mesh Int := { nodes := ((Cont.empty.add 5 ⟨0, 0, 0⟩).add 2 ⟨1, 0, 0⟩).add 9 ⟨0, 1, 0⟩
                                faces := Cont.empty
                                elements := Cont.empty.add 4 { elementType := .triangle, nodeIds := [9, 5, 2] }
                                nbBoundary := 0 }
    (addMesh t t).map (fun m => (m.nodes.ids, m.elements.ids, m.elements.get? 5)) =
      some ([5, 2, 9, 10, 11, 12], [4, 5], some { elementType := .triangle, nodeIds := [12, 10, 11] }) := by decide

/-- That triangle is a consistent mesh. -/
example : ({ nodes := ((Cont.empty.add 5 ⟨0, 0, 0⟩).add 2 ⟨1, 0, 0⟩).add 9 ⟨0, 1, 0⟩
             faces := Cont.empty
             elements := Cont.empty.add 4 { elementType := .triangle, nodeIds := [9, 5, 2] }
             nbBoundary := 0 } : Mesh Int).WF := by
  have h1 : (((Cont.empty.add 5 ⟨0, 0, 0⟩).add 2 ⟨1, 0, 0⟩).add 9 ⟨0, 1, 0⟩ : Cont (Vec3 Int)).Ok :=
    add_ok (add_ok (add_ok empty_ok _ (by decide)) _ (by decide)) _ (by decide)
  refine ⟨h1, empty_ok, add_ok empty_ok _ (by decide), ?_, ?_⟩
  · intro id f h; simp [Cont.empty, Cont.get?] at h
  · intro id e h n hn
    rw [get?_add] at h
    split_ifs at h
    · simp only [Option.some.injEq] at h
      subst h
      simp at hn
      simp [Cont.add, Cont.empty]
      tauto
    · simp [Cont.empty, Cont.get?] at h

end ENigMA
