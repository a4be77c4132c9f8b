import Verif.Mesh.Join

/-!
# C157: joining two meshes that fit together
-/

set_option linter.unusedSectionVars false
set_option autoImplicit false

namespace ENigMA
open Mesh Cont
variable {K : Type} [Field K] [LinearOrder K] [IsStrictOrderedRing K] [FloorRing K]

namespace Mesh

/-- Where close nodes are at the same point and never more than two, the replacement of a node is kept and at the same point. -/
theorem merged_pos {m m' : Mesh K} {tol : K} {φ : Int → Int} (hM : MergedNodes m m' tol φ) (side : Int → Bool)
    (hs : ∀ n n' v v', m.nodes.get? n = some v → m.nodes.get? n' = some v' → n ≠ n' → Vec3.Within v v' tol → v = v' ∧ side n ≠ side n') (n : Int) (v : Vec3 K) (hn : m.nodes.get? n = some v) :
    m'.nodes.get? (φ n) = some v := by
  rcases hM.close n v hn with h | ⟨hlt, v', hv', hw⟩
  · exact (hM.nodes _ v).2 ⟨h.symm ▸ hn, by rw [h, h]⟩
  · obtain ⟨e, s1⟩ := hs n _ v v' hn hv' (by omega) hw
    subst e
    refine (hM.nodes _ v).2 ⟨hv', ?_⟩
    rcases hM.close _ v hv' with h | ⟨hlt', v'', hv'', hw'⟩
    · exact h
    · obtain ⟨e, s2⟩ := hs _ _ v v'' hv' hv'' (by omega) hw'
      subst e
      obtain ⟨-, s3⟩ := hs n _ v v hn hv'' (by omega) hw
      exfalso
      revert s1 s2 s3
      cases side n <;> cases side (φ n) <;> cases side (φ (φ n)) <;> simp

/-- A node of the sum of two meshes is a node of the first, or the copy of one of the second. -/
theorem add_nodes {a b m : Mesh K} (ha : a.WF) (hb : b.WF) (hm : m.WF) {l : List Int} (hl : m.nodes.ids = a.nodes.ids ++ l) (hc : m.nodes.count = a.nodes.count + b.nodes.count) (k1 : ∀ id v, a.nodes.get? id = some v → m.nodes.get? id = some v) {φ : Int → Int}
    (p2 : ∀ k n, b.nodes.idAt? k = some n → m.nodes.idAt? (a.nodes.count + k) = some (φ n) ∧ a.nodes.get? (φ n) = none ∧ m.nodes.get? (φ n) = b.nodes.get? n) (n : Int) (v : Vec3 K) (hn : m.nodes.get? n = some v) :
    a.nodes.get? n = some v ∨ (a.nodes.get? n = none ∧ ∃ n', n = φ n' ∧ b.nodes.get? n' = some v) := by
  have hid : n ∈ m.nodes.ids := (hm.nodes.2 n).2 ⟨v, hn⟩
  obtain ⟨k, hk⟩ := List.mem_iff_getElem?.1 hid
  by_cases hlt : k < a.nodes.ids.length
  · rw [hl, List.getElem?_append_left hlt] at hk
    obtain ⟨v', hv'⟩ := (ha.nodes.2 n).1 (List.mem_of_getElem? hk)
    have := k1 n v' hv'
    rw [hn] at this
    exact .inl (this ▸ hv')
  · have hkl := (List.getElem?_eq_some_iff.1 hk).1
    simp only [Cont.count] at hc
    obtain ⟨j, rfl⟩ : ∃ j, k = a.nodes.ids.length + j := ⟨k - a.nodes.ids.length, by omega⟩
    have hj : j < b.nodes.ids.length := by omega
    have hbj : b.nodes.ids[j]? = some b.nodes.ids[j] := List.getElem?_eq_getElem hj
    obtain ⟨q1, q2, q3⟩ := p2 j _ hbj
    simp only [idAt?, Cont.count] at q1
    rw [hk] at q1
    simp only [Option.some.injEq] at q1
    subst q1
    exact .inr ⟨q2, _, rfl, q3 ▸ hn⟩

theorem coords_map {m m' : Mesh K} (φ : Int → Int) (l : List Int) (h : ∀ n ∈ l, m'.nodes.get? (φ n) = m.nodes.get? n) : m'.coords (l.map φ) = m.coords l := by
  unfold coords
  rw [List.map_map]
  exact List.map_congr_left h

theorem sublist_eq {l l' : List Int} (h : l.Sublist l') (hn : l'.Nodup) (hs : ∀ x ∈ l', x ∈ l) : l = l' :=
  h.eq_of_length_le (List.subperm_of_subset hn hs).length_le

theorem map_nodup {m : Mesh K} {tol : K} (htol : 0 ≤ tol) (hp : Proper m tol) {m' : Mesh K} (φ : Int → Int) (l : List Int) (hl : l.Nodup) (hin : ∀ n ∈ l, ∃ v, m.nodes.get? n = some v)
    (h : ∀ n ∈ l, m'.nodes.get? (φ n) = m.nodes.get? n) : (l.map φ).Nodup := by
  refine (List.nodup_map_iff_inj_on hl).2 fun x hx y hy e => ?_
  by_contra hne
  obtain ⟨v, hv⟩ := hin x hx
  obtain ⟨v', hv'⟩ := hin y hy
  have h1 := h x hx
  have h2 := h y hy
  rw [e, h2, hv, hv', Option.some.injEq] at h1
  subst h1
  exact hp.apart x y v' v' hv hv' hne (Vec3.within_self _ htol)

end Mesh

/-- **C157, the parts are joined.** If two consistent meshes fit together, `a.addMesh(b)` and `a.mergeNodes(tol)` give a consistent mesh with all elements of both, unchanged in type and corners, and a single node at every point where one of them has a node. -/
theorem C157_join (mc : HashGrid.Machine K) (a b : Mesh K) (tol : K) (htol : 0 ≤ tol) (ha : a.WF) (hb : b.WF) (ga : GoodNodes mc a) (gb : GoodNodes mc b) (pa : Proper a tol) (pb : Proper b tol) (hf : Fits a b tol) :
    ∃ m, join mc a b tol = some m ∧ Joined a b m := by
  obtain ⟨s, hs, k1, k2, k3, ⟨l1, k4⟩, -, ⟨l3, k6⟩, c1, c2, c3, φ, φi, p2, p3, p4⟩ := C04_addMesh_copies a b hb
  have hw := C04_addMesh_consistent a b s ha hb hs
  have hsplit := add_nodes ha hb hw k4 c1 k1 p2
  have hcopy : ∀ n v, b.nodes.get? n = some v → s.nodes.get? (φ n) = some v ∧ a.nodes.get? (φ n) = none := fun n v hv => by
    obtain ⟨k, hk⟩ := List.mem_iff_getElem?.1 ((hb.nodes.2 n).2 ⟨v, hv⟩)
    obtain ⟨-, q2, q3⟩ := p2 k n hk
    exact ⟨q3.trans hv, q2⟩
  have hg : GoodNodes mc s := by
    refine ⟨ga.eps, ga.big, fun n v hn => ?_, ?_⟩
    · rcases hsplit n v hn with h | ⟨-, n', -, h⟩
      · exact ga.bounded n v h
      · exact gb.bounded n' v h
    · rcases ga.spread with h | h | ⟨n, v, n', v', h1, h2, h3⟩
      · exact .inl h
      · rcases gb.spread with h' | h' | ⟨n, v, n', v', h1, h2, h3⟩
        · exact .inl h'
        · refine .inr (.inl ?_)
          have : s.nodes.ids.length = 0 := by
            have := c1
            simp only [Cont.count, h, h', List.length_nil] at this
            exact this
          exact List.length_eq_zero_iff.1 this
        · exact .inr (.inr ⟨_, v, _, v', (hcopy n v h1).1, (hcopy n' v' h2).1, h3⟩)
      · exact .inr (.inr ⟨n, v, n', v', k1 n v h1, k1 n' v' h2, h3⟩)
  obtain ⟨m, ψ, h1, hM, okN, okF, okE, -⟩ := mergeNodes_spec mc s hw hg tol
  have hside : ∀ n n' v v', s.nodes.get? n = some v → s.nodes.get? n' = some v' → n ≠ n' → Vec3.Within v v' tol → v = v' ∧ (a.nodes.get? n).isSome ≠ (a.nodes.get? n').isSome := by
    intro n n' v v' hn hn' hne hwi
    rcases hsplit n v hn with h | ⟨h, x, rfl, hx⟩ <;> rcases hsplit n' v' hn' with h' | ⟨h', x', rfl, hx'⟩
    · exact absurd hwi (pa.apart n n' v v' h h' hne)
    · exact ⟨hf n x' v v' h hx' hwi, by rw [h, h']; simp⟩
    · exact ⟨(hf n' x v' v h' hx hwi.symm).symm, by rw [h, h']; simp⟩
    · exact absurd hwi (pb.apart x x' v v' hx hx' fun e => hne (by rw [e]))
  have hpos : ∀ n v, s.nodes.get? n = some v → m.nodes.get? (ψ n) = some v := fun n v hn => merged_pos hM _ hside n v hn
  have hposA : ∀ n v, a.nodes.get? n = some v → m.nodes.get? (ψ n) = some v := fun n v hn => hpos n v (k1 n v hn)
  have hposB : ∀ n v, b.nodes.get? n = some v → m.nodes.get? (ψ (φ n)) = some v := fun n v hn => hpos _ v (hcopy n v hn).1
  have inS : ∀ n ∈ s.nodes.ids, ψ n ∈ m.nodes.ids := fun n hn => by
    obtain ⟨v, hv⟩ := (hw.nodes.2 n).1 hn
    exact (okN.2 _).2 ⟨v, hpos n v hv⟩
  have hA : ∀ id e, a.elements.get? id = some e → ∀ n ∈ e.nodeIds, m.nodes.get? (ψ n) = a.nodes.get? n := fun id e he n hn => by
    obtain ⟨v, hv⟩ := (ha.nodes.2 n).1 (ha.elemNodes id e he n hn)
    rw [hv, hposA n v hv]
  have hB : ∀ id e, b.elements.get? id = some e → ∀ n ∈ e.nodeIds, m.nodes.get? (ψ (φ n)) = b.nodes.get? n := fun id e he n hn => by
    obtain ⟨v, hv⟩ := (hb.nodes.2 n).1 (hb.elemNodes id e he n hn)
    rw [hv, hposB n v hv]
  have mA : ∀ id e, a.elements.get? id = some e → m.elements.get? id = some { e with nodeIds := e.nodeIds.map ψ } := fun id e he =>
    (hM.elements id _).2 ⟨e, k3 id e he, rfl, map_nodup htol pa ψ e.nodeIds (pa.nodup id e he) (fun n hn => (ha.nodes.2 n).1 (ha.elemNodes id e he n hn)) (hA id e he)⟩
  have mB : ∀ k id e, b.elements.idAt? k = some id → b.elements.get? id = some e → ∃ id', s.elements.idAt? (a.elements.count + k) = some id' ∧ m.elements.get? id' = some { e with nodeIds := e.nodeIds.map fun n => ψ (φ n) } := fun k id e hk he => by
    obtain ⟨id', q1, -, q2⟩ := p4 k id e hk he
    refine ⟨id', q1, (hM.elements id' _).2 ⟨_, q2, ?_, ?_⟩⟩
    · simp only [List.map_map]; rfl
    · rw [List.map_map]
      exact map_nodup htol pb (fun n => ψ (φ n)) e.nodeIds (pb.nodup id e he) (fun n hn => (hb.nodes.2 n).1 (hb.elemNodes id e he n hn)) (hB id e he)
  have hids : m.elements.ids = s.elements.ids := by
    refine sublist_eq hM.elementOrder hw.elements.1 fun id hid => ?_
    obtain ⟨k, hk⟩ := List.mem_iff_getElem?.1 hid
    by_cases hlt : k < a.elements.ids.length
    · rw [k6, List.getElem?_append_left hlt] at hk
      obtain ⟨e, he⟩ := (ha.elements.2 id).1 (List.mem_of_getElem? hk)
      exact (okE.2 id).2 ⟨_, mA id e he⟩
    · have hkl := (List.getElem?_eq_some_iff.1 hk).1
      have c3' := c3
      simp only [Cont.count] at c3'
      obtain ⟨j, rfl⟩ : ∃ j, k = a.elements.ids.length + j := ⟨k - a.elements.ids.length, by omega⟩
      have hj : j < b.elements.ids.length := by omega
      have hbj : b.elements.idAt? j = some b.elements.ids[j] := List.getElem?_eq_getElem hj
      obtain ⟨e, he⟩ := (hb.elements.2 _).1 (List.mem_of_getElem? hbj)
      obtain ⟨id', q1, q2⟩ := mB j _ e hbj he
      have : some id = some id' := hk.symm.trans q1
      rw [Option.some.injEq] at this
      subst this
      exact (okE.2 id).2 ⟨_, q2⟩
  refine ⟨m, by rw [join, hs]; exact h1, ⟨okN, okF, okE, ?_, ?_⟩, ?_, ?_, ?_, ?_, ?_⟩
  · intro id f hfa n hn
    obtain ⟨f', hf', rfl⟩ := (hM.faces id f).1 hfa
    obtain ⟨x, hx, rfl⟩ := List.mem_map.1 hn
    exact inS x (hw.faceNodes id f' hf' x hx)
  · intro id f hfa n hn
    obtain ⟨f', hf', rfl, -⟩ := (hM.elements id f).1 hfa
    obtain ⟨x, hx, rfl⟩ := List.mem_map.1 hn
    exact inS x (hw.elemNodes id f' hf' x hx)
  · show m.elements.ids.length = _
    rw [hids]
    exact c3
  · intro k id e hk he
    refine ⟨_, ?_, mA id e he, rfl, coords_map ψ _ (hA id e he)⟩
    show m.elements.ids[k]? = some id
    have hk' : a.elements.ids[k]? = some id := hk
    rw [hids, k6, List.getElem?_append_left (List.getElem?_eq_some_iff.1 hk').1, hk']
  · intro k id e hk he
    obtain ⟨id', q1, q2⟩ := mB k id e hk he
    refine ⟨id', _, ?_, q2, rfl, coords_map _ _ (hB id e he)⟩
    show m.elements.ids[_]? = some id'
    rw [hids]
    exact q1
  · intro p
    constructor
    · rintro ⟨n, hn⟩
      rcases hsplit n p ((hM.nodes n p).1 hn).1 with h | ⟨-, x, -, h⟩
      · exact .inl ⟨n, h⟩
      · exact .inr ⟨x, h⟩
    · rintro (⟨n, hn⟩ | ⟨n, hn⟩)
      · exact ⟨_, hposA n p hn⟩
      · exact ⟨_, hposB n p hn⟩
  · intro n n' p hn hn'
    by_contra hne
    exact hM.apart n n' p p hn hn' hne (Vec3.within_self _ htol)

/-- **C157, no crack.** In the joined mesh `generateFaces` gives a face a pair exactly if another face of the same type has the same corners: nothing is left open where the parts touch. -/
theorem C157_no_crack (mc : HashGrid.Machine K) (a b : Mesh K) (tol tol' : K) (htol : 0 ≤ tol) (htol' : 0 ≤ tol') (ha : a.WF) (hb : b.WF) (fa : a.FullElements) (fb : b.FullElements) (ga : GoodNodes mc a) (gb : GoodNodes mc b)
    (pa : Proper a tol) (pb : Proper b tol) (hf : Fits a b tol) (m : Mesh K) (hm : join mc a b tol = some m) (gm : GoodFaces mc m) :
    ∃ m', generateFaces mc m tol' = some m' ∧ ∀ i f, m'.faces.get? i = some f →
      (f.hasPair = true ↔ ∃ j g, j ≠ i ∧ m'.faces.get? j = some g ∧ f.faceType = g.faceType ∧ (m.coords f.nodeIds).Perm (m.coords g.nodeIds)) := by
  obtain ⟨m1, h1, hJ⟩ := C157_join mc a b tol htol ha hb ga gb pa pb hf
  rw [hm, Option.some.injEq] at h1
  subst h1
  have hfull : m.FullElements := by
    intro id e he
    obtain ⟨k, hk⟩ := List.mem_iff_getElem?.1 ((hJ.wf.elements.2 id).2 ⟨e, he⟩)
    have hkl := (List.getElem?_eq_some_iff.1 hk).1
    have hc := hJ.count
    simp only [Cont.count] at hc
    have key : ∀ (c : Mesh K) (i : Int) (e' : Elem), c.FullElements → c.elements.get? i = some e' → e.elementType = e'.elementType → m.coords e.nodeIds = c.coords e'.nodeIds → e.elementType.nbNodes ≤ e.nodeIds.length := by
      intro c i e' hcf he' ht hco
      have := congrArg List.length hco
      simp only [coords, List.length_map] at this
      rw [ht, this]
      exact hcf i e' he'
    by_cases hlt : k < a.elements.ids.length
    · have hak : a.elements.idAt? k = some a.elements.ids[k] := List.getElem?_eq_getElem hlt
      obtain ⟨e', he'⟩ := (ha.elements.2 _).1 (List.mem_of_getElem? hak)
      obtain ⟨e'', q1, q2, q3, q4⟩ := hJ.left k _ e' hak he'
      have : some id = some _ := hk.symm.trans q1
      rw [Option.some.injEq] at this
      rw [← this, he, Option.some.injEq] at q2
      subst q2
      exact key a _ e' fa he' q3 q4
    · obtain ⟨j, rfl⟩ : ∃ j, k = a.elements.ids.length + j := ⟨k - a.elements.ids.length, by omega⟩
      have hj : j < b.elements.ids.length := by omega
      have hbj : b.elements.idAt? j = some b.elements.ids[j] := List.getElem?_eq_getElem hj
      obtain ⟨e', he'⟩ := (hb.elements.2 _).1 (List.mem_of_getElem? hbj)
      obtain ⟨id', e'', q1, q2, q3, q4⟩ := hJ.right j _ e' hbj he'
      have : some id = some id' := hk.symm.trans q1
      rw [Option.some.injEq] at this
      rw [← this, he, Option.some.injEq] at q2
      subst q2
      exact key b _ e' fb he' q3 q4
  obtain ⟨m', g1, g2, -⟩ := C07_generateFaces_pairs mc m hJ.wf hfull gm tol' htol'
  obtain ⟨m'', g1', gn, -, -, gw, -⟩ := C07_generateFaces_faces mc m hJ.wf hfull gm tol' htol'
  rw [g1, Option.some.injEq] at g1'
  subst g1'
  refine ⟨m', g1, fun i f hfi => (g2 i f hfi).trans ?_⟩
  have hperm : ∀ l l' : List Int, (∀ n ∈ l, n ∈ m.nodes.ids) → (∀ n ∈ l', n ∈ m.nodes.ids) → ((m.coords l).Perm (m.coords l') ↔ l.Perm l') := by
    intro l l' hl hl'
    refine ⟨fun h => ?_, fun h => h.map _⟩
    have hinj : Set.InjOn m.nodes.get? {n | n ∈ m.nodes.ids} := fun x hx y hy e => by
      obtain ⟨v, hv⟩ := (hJ.wf.nodes.2 x).1 hx
      exact hJ.once x y v hv (e ▸ hv)
    have hinv := hinj.leftInvOn_invFunOn
    have e : ∀ l : List Int, (∀ n ∈ l, n ∈ m.nodes.ids) → (m.coords l).map (Function.invFunOn m.nodes.get? {n | n ∈ m.nodes.ids}) = l := fun l hl => by
      unfold coords
      rw [List.map_map]
      conv_rhs => rw [← List.map_id l]
      exact List.map_congr_left fun n hn => hinv (hl n hn)
    rw [← e l hl, ← e l' hl']
    exact h.map _
  have hin : ∀ i f, m'.faces.get? i = some f → ∀ n ∈ f.nodeIds, n ∈ m.nodes.ids := fun i f h n hn => gn ▸ gw.faceNodes i f h n hn
  constructor
  · rintro ⟨j, g, h1, h2, h3, h4⟩
    exact ⟨j, g, h1, h2, h3, (hperm _ _ (hin i f hfi) (hin j g h2)).2 h4⟩
  · rintro ⟨j, g, h1, h2, h3, h4⟩
    exact ⟨j, g, h1, h2, h3, (hperm _ _ (hin i f hfi) (hin j g h2)).1 h4⟩

namespace Mesh

/-- A mesh of one triangle. -/
def single (p q r : Vec3 ℚ) : Mesh ℚ :=
  { nodes := ((Cont.empty.add 0 p).add 1 q).add 2 r, faces := Cont.empty, elements := Cont.empty.add 0 ⟨.triangle, [0, 1, 2], []⟩, nbBoundary := 0 }

theorem single_node {p q r v : Vec3 ℚ} {n : Int} (h : (single p q r).nodes.get? n = some v) : (n = 0 ∧ v = p) ∨ (n = 1 ∧ v = q) ∨ (n = 2 ∧ v = r) := by
  simp only [single, get?_add] at h
  split_ifs at h with h1 h2 h3
  · exact .inr (.inr ⟨h1, by simpa using h.symm⟩)
  · exact .inr (.inl ⟨h2, by simpa using h.symm⟩)
  · exact .inl ⟨h3, by simpa using h.symm⟩
  · simp [Cont.empty, Cont.get?] at h

theorem single_element {p q r : Vec3 ℚ} {id : Int} {e : Elem} (h : (single p q r).elements.get? id = some e) : e = ⟨.triangle, [0, 1, 2], []⟩ := by
  simp only [single, get?_add] at h
  split_ifs at h
  · simpa using h.symm
  · simp [Cont.empty, Cont.get?] at h

theorem single_wf (p q r : Vec3 ℚ) : (single p q r).WF := by
  refine ⟨?_, ?_, ?_, ?_, ?_⟩
  · exact add_ok (add_ok (add_ok empty_ok _ (by decide)) _ (by simp [Cont.add, Cont.empty])) _ (by simp [Cont.add, Cont.empty])
  · exact empty_ok
  · exact add_ok empty_ok _ (by decide)
  · intro id f h; simp [single, Cont.empty, Cont.get?] at h
  · intro id e h n hn
    rw [single_element h] at hn
    simp only [List.mem_cons, List.not_mem_nil, or_false] at hn
    rcases hn with rfl | rfl | rfl <;> simp [single, Cont.add, Cont.empty]

/-- The two halves of a square. -/
def lower : Mesh ℚ := single ⟨0, 0, 0⟩ ⟨1, 0, 0⟩ ⟨0, 1, 0⟩
/-- The other half. -/
def upper : Mesh ℚ := single ⟨1, 0, 0⟩ ⟨1, 1, 0⟩ ⟨0, 1, 0⟩

theorem lower_proper : Proper lower (1 / 2) := by
  refine ⟨fun n n' v v' h h' hne => ?_, fun id e h => by rw [single_element h]; decide⟩
  rcases single_node h with ⟨rfl, rfl⟩ | ⟨rfl, rfl⟩ | ⟨rfl, rfl⟩ <;> rcases single_node h' with ⟨rfl, rfl⟩ | ⟨rfl, rfl⟩ | ⟨rfl, rfl⟩ <;> first | exact absurd rfl hne | decide +kernel

theorem upper_proper : Proper upper (1 / 2) := by
  refine ⟨fun n n' v v' h h' hne => ?_, fun id e h => by rw [single_element h]; decide⟩
  rcases single_node h with ⟨rfl, rfl⟩ | ⟨rfl, rfl⟩ | ⟨rfl, rfl⟩ <;> rcases single_node h' with ⟨rfl, rfl⟩ | ⟨rfl, rfl⟩ | ⟨rfl, rfl⟩ <;> first | exact absurd rfl hne | decide +kernel

theorem halves_fit : Fits lower upper (1 / 2) := by
  intro n n' v v' h h'
  rcases single_node h with ⟨rfl, rfl⟩ | ⟨rfl, rfl⟩ | ⟨rfl, rfl⟩ <;> rcases single_node h' with ⟨rfl, rfl⟩ | ⟨rfl, rfl⟩ | ⟨rfl, rfl⟩ <;> decide +kernel

theorem lower_good : GoodNodes smallMachine lower := by
  refine ⟨by decide +kernel, by decide +kernel, fun n v h => ?_, .inr (.inr ⟨0, ⟨0, 0, 0⟩, 1, ⟨1, 0, 0⟩, by decide +kernel, by decide +kernel, by decide +kernel⟩)⟩
  rcases single_node h with ⟨rfl, rfl⟩ | ⟨rfl, rfl⟩ | ⟨rfl, rfl⟩ <;> norm_num [Vec3.Bounded, smallMachine]

theorem upper_good : GoodNodes smallMachine upper := by
  refine ⟨by decide +kernel, by decide +kernel, fun n v h => ?_, .inr (.inr ⟨0, ⟨1, 0, 0⟩, 1, ⟨1, 1, 0⟩, by decide +kernel, by decide +kernel, by decide +kernel⟩)⟩
  rcases single_node h with ⟨rfl, rfl⟩ | ⟨rfl, rfl⟩ | ⟨rfl, rfl⟩ <;> norm_num [Vec3.Bounded, smallMachine]

end Mesh

example : ∃ m, join smallMachine lower upper (1 / 2) = some m ∧ Joined lower upper m :=
  C157_join smallMachine lower upper (1 / 2) (by norm_num) (single_wf _ _ _) (single_wf _ _ _) lower_good upper_good lower_proper upper_proper halves_fit

/-- The two halves share two nodes; two of the six faces have pairs. -/
example : (join smallMachine lower upper (1 / 2)).map (fun m => (m.nodes.ids, m.elements.ids.map fun i => (m.elements.get? i).map (·.nodeIds))) = some ([0, 1, 2, 4], [some [0, 1, 2], some [1, 4, 2]]) ∧
    ((join smallMachine lower upper (1 / 2)).bind fun m => (generateFaces smallMachine m 0).map fun m => (m.faces.ids.map fun i => (m.faces.get? i).map (·.hasPair))) =
      some [some false, some true, some false, some false, some false, some true] := by decide +kernel

/-- The hypotheses of `C157_no_crack`, on a machine that defines the cast of NaN. -/
example : ∃ m, join { smallMachine with bad := some 0 } lower upper (1 / 2) = some m ∧ GoodFaces { smallMachine with bad := some 0 } m ∧ lower.FullElements ∧ upper.FullElements := by
  have g : ∀ s : Mesh ℚ, GoodNodes smallMachine s → GoodNodes { smallMachine with bad := some 0 } s := fun s h => ⟨h.eps, h.big, h.bounded, .inl (by simp)⟩
  obtain ⟨m, h1, h2⟩ := C157_join _ lower upper (1 / 2) (by norm_num) (single_wf _ _ _) (single_wf _ _ _) (g _ lower_good) (g _ upper_good) lower_proper upper_proper halves_fit
  refine ⟨m, h1, ⟨lower_good.eps, lower_good.big, fun n v h => ?_, .inl (by simp)⟩, fun id e h => by rw [single_element h]; decide, fun id e h => by rw [single_element h]; decide⟩
  rcases (h2.nodes v).1 ⟨n, h⟩ with ⟨k, hk⟩ | ⟨k, hk⟩
  · exact lower_good.bounded k v hk
  · exact upper_good.bounded k v hk

/-- **C157, too large a tolerance.** An element with two nodes within the tolerance is lost. -/
theorem C157_lost : (join smallMachine lower upper 1).map (fun m => m.elements.ids) = some [] ∧ ¬ Proper lower 1 := by
  refine ⟨by decide +kernel, fun h => h.apart 0 1 ⟨0, 0, 0⟩ ⟨1, 0, 0⟩ (by decide +kernel) (by decide +kernel) (by decide) (by decide +kernel)⟩

end ENigMA
