import Verif.Mesh.QuadMesher
import Verif.Mesh.QuadMesherSpec
import Verif.Mesh.TriangleMesherLemmas

/-!
# Invariants of the front of quadrilaterals
-/

set_option linter.unusedSectionVars false
set_option autoImplicit false

namespace ENigMA

/-- The id after the next one is free as well. -/
theorem Cont.get?_nextId_succ {α : Type} (c : Cont α) : c.get? (c.nextId + 1) = none := by
  cases h : c.get? (c.nextId + 1) with
  | none => rfl
  | some a =>
    exfalso
    have hk : c.nextId + 1 ∈ c.map.keys := (c.map.mem_keys _).2 (by simp only [get?] at h; rw [h]; rfl)
    unfold nextId at hk
    cases hm : c.map.maxKey? with
    | none =>
      have := c.map.maxKey?_none.1 hm
      simp [SMap.keys, this] at hk
    | some k =>
      rw [hm] at hk
      have := c.map.le_of_maxKey? hm hk
      simp at this
      omega

namespace QuadMesher
open TriMesher (Par R St Edge Pass lift edgeAt nodeAt Ed eds FInv Chain bind_ok pure_ok lift_ok edgeAt_ok nodeAt_ok eds_get eds_set newEdge_ok addToTree_ok removeEdge_ok
  removeEdge_spec edgeExists_spec sameNodes_iff adjustLoop_spec fsum)

variable {K : Type} [Field K] [LinearOrder K] [IsStrictOrderedRing K]
variable {G : Type} [AddCommGroup G]
variable {P : Par K}

theorem turn_eq (a b c : Vec3 K) : turn a b c = orient a b c := by
  simp only [turn, orient, Vec3.cross_z, Vec3.sub_x, Vec3.sub_y]; ring

/-! ### Cells -/

/-- The cell is a triangle on stored nodes, or a convex quadrilateral on stored nodes. -/
def CellOk (nodes : Cont (Vec3 K)) (e : Elem) : Prop :=
  (∃ a b c pa pb pc, e = ⟨.triangle, [a, b, c], []⟩ ∧ nodes.get? a = some pa ∧ nodes.get? b = some pb ∧ nodes.get? c = some pc) ∨
  (∃ a b c d pa pb pc pd, e = ⟨.quadrilateral, [a, b, c, d], []⟩ ∧ nodes.get? a = some pa ∧ nodes.get? b = some pb ∧ nodes.get? c = some pc ∧
    nodes.get? d = some pd ∧ ConvexQuad pa pb pc pd)

theorem CellOk.ext {nodes nodes' : Cont (Vec3 K)} {e : Elem} (h : CellOk nodes e) (hn : ∀ id p, nodes.get? id = some p → nodes'.get? id = some p) : CellOk nodes' e := by
  rcases h with ⟨a, b, c, pa, pb, pc, h0, h1, h2, h3⟩ | ⟨a, b, c, d, pa, pb, pc, pd, h0, h1, h2, h3, h4, h5⟩
  · exact Or.inl ⟨a, b, c, pa, pb, pc, h0, hn _ _ h1, hn _ _ h2, hn _ _ h3⟩
  · exact Or.inr ⟨a, b, c, d, pa, pb, pc, pd, h0, hn _ _ h1, hn _ _ h2, hn _ _ h3, hn _ _ h4, h5⟩

/-- The mesh consists of these cells. -/
structure MInv (m : Mesh K) (cells : List Elem) : Prop where
  nodes : m.nodes.Ok
  faces : m.faces = Cont.empty
  els : Mesh.Filled m.elements cells
  ok : ∀ e ∈ cells, CellOk m.nodes e

/-- The sum over the sides of a cell. -/
def csum (f : Int → Int → G) (e : Elem) : G := ((e.nodeIds.zip (e.nodeIds.rotate 1)).map fun p => f p.1 p.2).sum

/-- The sum over the sides of the cells. -/
def total (f : Int → Int → G) (cells : List Elem) : G := (cells.map (csum f)).sum

theorem csum_tri (f : Int → Int → G) (t : ElementType) (a b c : Int) (l : List Int) : csum f ⟨t, [a, b, c], l⟩ = f a b + f b c + f c a := by
  simp [csum, add_assoc]

theorem csum_quad (f : Int → Int → G) (t : ElementType) (a b c d : Int) (l : List Int) : csum f ⟨t, [a, b, c, d], l⟩ = f a b + f b c + f c d + f d a := by
  simp [csum, add_assoc]

theorem total_append (f : Int → Int → G) (l l' : List Elem) : total f (l ++ l') = total f l + total f l' := by simp [total]

theorem MInv.withElem {m : Mesh K} {cells : List Elem} (h : MInv m cells) {e : Elem} (he : CellOk m.nodes e) : MInv (withElem m e) (cells ++ [e]) := by
  refine ⟨h.nodes, h.faces, h.els.add e, fun x hx => ?_⟩
  rcases List.mem_append.1 hx with h1 | h1
  · exact h.ok x h1
  · rw [List.mem_singleton] at h1
    subst h1; exact he

theorem notConvex_none {a b c d : Vec3 K} (h : notConvex a b c d = none) : ConvexQuad a b c d := by
  unfold notConvex at h
  split_ifs at h with h1 h2 h3 h4
  rw [turn_eq] at h1 h2 h3 h4
  exact ⟨not_le.1 h1, not_le.1 h2, not_le.1 h3, not_le.1 h4⟩

theorem notConvex_some {a b c d : Vec3 K} {w : Nat} (h : notConvex a b c d = some w) : w < 4 := by
  unfold notConvex at h
  split_ifs at h <;> simp at h <;> omega

theorem withQuad_spec {f : Int → Int → G} (hf : Chain f) {m m' : Mesh K} {cells : List Elem} (hi : MInv m cells) {a b c d : Int} (h : withQuad m a b c d = .ok m') :
    ∃ new, MInv m' (cells ++ new) ∧ m'.nodes = m.nodes ∧ 1 ≤ new.length ∧ total f new = f a b + f b c + f c d + f d a := by
  unfold withQuad at h
  simp only [bind_ok, nodeAt_ok] at h
  obtain ⟨pa, ha, pb, hb, pc, hc, pd, hd, h⟩ := h
  cases hw : notConvex pa pb pc pd with
  | none =>
    rw [hw, pure_ok] at h
    subst h
    refine ⟨_, hi.withElem (Or.inr ⟨a, b, c, d, pa, pb, pc, pd, rfl, ha, hb, hc, hd, notConvex_none hw⟩), rfl, by simp, ?_⟩
    simp [total, csum_quad]
  | some w =>
    rw [hw, pure_ok] at h
    subst h
    have hst : ∀ i, ∃ p, m.nodes.get? (corner a b c d i) = some p := by
      intro i
      unfold corner
      split
      · exact ⟨pa, ha⟩
      · exact ⟨pb, hb⟩
      · exact ⟨pc, hc⟩
      · exact ⟨pd, hd⟩
    have hcell : ∀ i j k, CellOk m.nodes ⟨.triangle, [corner a b c d i, corner a b c d j, corner a b c d k], []⟩ := by
      intro i j k
      obtain ⟨p, hp⟩ := hst i
      obtain ⟨q, hq⟩ := hst j
      obtain ⟨r, hr⟩ := hst k
      exact Or.inl ⟨_, _, _, p, q, r, rfl, hp, hq, hr⟩
    have h1 := hi.withElem (hcell (w + 0) (w + 1) (w + 3))
    have h2 := h1.withElem (e := ⟨.triangle, [corner a b c d (w + 1), corner a b c d (w + 2), corner a b c d (w + 3)], []⟩) (hcell (w + 1) (w + 2) (w + 3))
    rw [List.append_assoc] at h2
    refine ⟨_, h2, rfl, by simp, ?_⟩
    have hlt := notConvex_some hw
    simp only [total, List.map_append, List.map_cons, List.map_nil, csum_tri, List.sum_append, List.sum_cons, List.sum_nil, add_zero]
    have e1 := hf.anti b d
    have e2 := hf.anti c a
    have neg1 : f b d = - f d b := eq_neg_of_add_eq_zero_left e1
    have neg2 : f c a = - f a c := eq_neg_of_add_eq_zero_left e2
    obtain rfl | rfl | rfl | rfl : w = 0 ∨ w = 1 ∨ w = 2 ∨ w = 3 := by omega
    all_goals simp only [corner, Nat.reduceAdd, Nat.reduceMod]
    all_goals first | (rw [neg1]; abel) | (rw [neg2]; abel)

/-! ### The front -/

/-- The state of the mesher between two rounds. -/
structure Inv (P : Par K) (f : Int → Int → G) (tot : G) (st : St K) (cells : List Elem) : Prop where
  next : st.nextEdge = st.front.length
  mesh : MInv st.mesh cells
  front : FInv P f (tot - total f cells) st.mesh.nodes (eds st.front) st.tree

theorem eds_set_append (l l' : List (Edge K)) (k : Nat) (x : Edge K) : eds (l.set k x ++ l') = (eds l).set k x.ed ++ eds l' := by
  simp [eds, List.map_set]

theorem twoEdges_spec (hv : Rtree.VolOk P.vol) (ht : 0 ≤ P.tol) {f : Int → Int → G} {tot : G} {st st' : St K} {k : Nat} {n3 : Int} {e : Edge K}
    (hn : st.nextEdge = st.front.length) (hi : FInv P f tot st.mesh.nodes (eds st.front) st.tree) (he : st.front[k]? = some e) (hr : e.remove = false)
    (h : twoEdges P st k e n3 = .ok st') :
    st'.nextEdge = st'.front.length ∧ st'.mesh = st.mesh ∧ (∃ c, st.mesh.nodes.get? n3 = some c) ∧
      FInv P f (tot + f e.n0 n3 + f n3 e.n1 - f e.n0 e.n1) st.mesh.nodes (eds st'.front) st'.tree := by
  unfold twoEdges at h
  simp only [bind_ok, edgeAt_ok, lift_ok] at h
  obtain ⟨ip, hip, iq, hiq, p, hp, q0, hq0, e1, he1, st1, hst1, e', he', e2, he2, q, hq, st2, hst2, st3, hst3, h⟩ := h
  obtain ⟨u1, v1, hu1, hv1, rfl⟩ := newEdge_ok he1
  obtain ⟨a1, b1, t1, ha1, hb1, hadd1, rfl⟩ := addToTree_ok hst1
  obtain ⟨u2, v2, hu2, hv2, rfl⟩ := newEdge_ok he2
  obtain ⟨a2, b2, t2, ha2, hb2, hadd2, rfl⟩ := addToTree_ok hst2
  simp only at *
  let x1 : Ed := ⟨st.nextEdge, false, e.n0, n3⟩
  let x2 : Ed := ⟨st.nextEdge + 1, false, n3, e.n1⟩
  have hl : st.nextEdge = (eds st.front).length := by rw [hn]; simp [eds]
  have f1 := hi.push hv ht x1 hl rfl ha1 hb1 hadd1
  have f2 := f1.push hv ht x2 (by simp [x2, hl]) rfl ha2 hb2 hadd2
  have eq1 : eds (st.front.set ip { p with next := some st.nextEdge }) = eds st.front := eds_set _ hp (by rfl)
  have eq2 : eds ((st.front.set ip { p with next := some st.nextEdge }).set iq { q with prev := some (st.nextEdge + 1) }) = eds st.front := by
    exact (eds_set _ hq (by rfl)).trans eq1
  obtain ⟨e3, a3, b3, t3, he3, ha3, hb3, hrem, rfl⟩ := removeEdge_ok hst3
  simp only at *
  have hx3 : (eds st.front)[k]? = some e3.ed := by rw [← eq2]; exact eds_get.2 ⟨e3, he3, rfl⟩
  have hx : (eds st.front)[k]? = some e.ed := eds_get.2 ⟨e, he, rfl⟩
  have hee : e3.ed = e.ed := by rw [hx] at hx3; simpa using hx3.symm
  have hklt : k < (eds st.front).length := (List.getElem?_eq_some_iff.1 hx).1
  have hid3 : e3.id = k := hi.ids k _ hx3
  have hx3' : (eds st.front ++ [x1] ++ [x2])[k]? = some e3.ed := by
    rw [List.append_assoc, List.getElem?_append_left hklt]; exact hx3
  rw [hid3] at hrem
  have f3 := f2.setGone hx3' (f2.tree.remove hv ht hx3' ha3 hb3 hrem)
  have hset : (eds st.front ++ [x1] ++ [x2]).set k e3.ed.gone = (eds st.front).set k e3.ed.gone ++ [x1, x2] := by
    rw [List.append_assoc, List.set_append_left _ _ hklt]; rfl
  rw [hset] at f3
  have hval : e3.ed.val f = f e.n0 e.n1 := by
    rw [hee]; simp [Ed.val, Edge.ed, hr]
  rw [hval] at f3
  rw [pure_ok] at h
  subst h
  refine ⟨?_, rfl, ⟨v1, hv1⟩, ?_⟩
  · simp [hn]
  · rw [eds_set_append, eq2]
    exact f3

theorem threeEdges_spec (hv : Rtree.VolOk P.vol) (ht : 0 ≤ P.tol) {f : Int → Int → G} {tot : G} {st st' : St K} {k : Nat} {n3 n4 : Int} {e : Edge K}
    (hn : st.nextEdge = st.front.length) (hi : FInv P f tot st.mesh.nodes (eds st.front) st.tree) (he : st.front[k]? = some e) (hr : e.remove = false)
    (h : threeEdges P st k e n3 n4 = .ok st') :
    st'.nextEdge = st'.front.length ∧ st'.mesh = st.mesh ∧
      FInv P f (tot + f e.n0 n3 + f n3 n4 + f n4 e.n1 - f e.n0 e.n1) st.mesh.nodes (eds st'.front) st'.tree := by
  unfold threeEdges at h
  simp only [bind_ok, edgeAt_ok, lift_ok] at h
  obtain ⟨ip, hip, iq, hiq, p, hp, q0, hq0, e1, he1, st1, hst1, e2, he2, st2, hst2, e', he', e3, he3, q, hq, st3, hst3, st4, hst4, h⟩ := h
  obtain ⟨u1, v1, hu1, hv1, rfl⟩ := newEdge_ok he1
  obtain ⟨a1, b1, t1, ha1, hb1, hadd1, rfl⟩ := addToTree_ok hst1
  obtain ⟨u2, v2, hu2, hv2, rfl⟩ := newEdge_ok he2
  obtain ⟨a2, b2, t2, ha2, hb2, hadd2, rfl⟩ := addToTree_ok hst2
  obtain ⟨u3, v3, hu3, hv3, rfl⟩ := newEdge_ok he3
  obtain ⟨a3, b3, t3, ha3, hb3, hadd3, rfl⟩ := addToTree_ok hst3
  simp only at *
  let x1 : Ed := ⟨st.nextEdge, false, e.n0, n3⟩
  let x2 : Ed := ⟨st.nextEdge + 1, false, n3, n4⟩
  let x3 : Ed := ⟨st.nextEdge + 2, false, n4, e.n1⟩
  have hl : st.nextEdge = (eds st.front).length := by rw [hn]; simp [eds]
  have f1 := hi.push hv ht x1 hl rfl ha1 hb1 hadd1
  have f2 := f1.push hv ht x2 (by simp [x2, hl]) rfl ha2 hb2 hadd2
  have f3 := f2.push hv ht x3 (by simp [x3, hl]) rfl ha3 hb3 hadd3
  have eq1 : eds (st.front.set ip { p with next := some st.nextEdge }) = eds st.front := eds_set _ hp (by rfl)
  have eq2 : eds ((st.front.set ip { p with next := some st.nextEdge }).set iq { q with prev := some (st.nextEdge + 2) }) = eds st.front := by
    exact (eds_set _ hq (by rfl)).trans eq1
  obtain ⟨e4, a4, b4, t4, he4, ha4, hb4, hrem, rfl⟩ := removeEdge_ok hst4
  simp only at *
  have hx4 : (eds st.front)[k]? = some e4.ed := by rw [← eq2]; exact eds_get.2 ⟨e4, he4, rfl⟩
  have hx : (eds st.front)[k]? = some e.ed := eds_get.2 ⟨e, he, rfl⟩
  have hee : e4.ed = e.ed := by rw [hx] at hx4; simpa using hx4.symm
  have hklt : k < (eds st.front).length := (List.getElem?_eq_some_iff.1 hx).1
  have hid4 : e4.id = k := hi.ids k _ hx4
  have hx4' : (eds st.front ++ [x1] ++ [x2] ++ [x3])[k]? = some e4.ed := by
    rw [List.append_assoc, List.append_assoc, List.getElem?_append_left hklt]; exact hx4
  rw [hid4] at hrem
  have f4 := f3.setGone hx4' (f3.tree.remove hv ht hx4' ha4 hb4 hrem)
  have hset : (eds st.front ++ [x1] ++ [x2] ++ [x3]).set k e4.ed.gone = (eds st.front).set k e4.ed.gone ++ [x1, x2, x3] := by
    rw [List.append_assoc, List.append_assoc, List.set_append_left _ _ hklt]; rfl
  rw [hset] at f4
  have hval : e4.ed.val f = f e.n0 e.n1 := by
    rw [hee]; simp [Ed.val, Edge.ed, hr]
  rw [hval] at f4
  rw [pure_ok] at h
  subst h
  refine ⟨?_, rfl, ?_⟩
  · simp [hn]
  · rw [eds_set_append, eq2]
    exact f4

/-- What the removal of duplicates leaves alone, and what it keeps if no edge is lost. -/
structure Cleaned (P : Par K) (f : Int → Int → G) (tot : G) (q q' : QSt K) : Prop where
  mesh : q'.st.mesh = q.st.mesh
  next : q'.st.nextEdge = q.st.nextEdge
  len : q'.st.front.length = q.st.front.length
  again : q'.again = q.again
  lost : q'.lost = false → q.lost = false
  inv : q'.lost = false → FInv P f tot q.st.mesh.nodes (eds q.st.front) q.st.tree → FInv P f tot q'.st.mesh.nodes (eds q'.st.front) q'.st.tree

theorem Cleaned.refl (f : Int → Int → G) (tot : G) (q : QSt K) : Cleaned P f tot q q := ⟨rfl, rfl, rfl, rfl, id, fun _ h => h⟩

theorem Cleaned.trans {f : Int → Int → G} {tot : G} {q q' q'' : QSt K} (h : Cleaned P f tot q q') (h' : Cleaned P f tot q' q'') : Cleaned P f tot q q'' :=
  ⟨h'.mesh.trans h.mesh, h'.next.trans h.next, h'.len.trans h.len, h'.again.trans h.again, fun g => h.lost (h'.lost g), fun g g' => h'.inv g (h.inv (h'.lost g) g')⟩

theorem removeEdge_len {st st' : St K} {k : Nat} (h : TriMesher.removeEdge P st k = .ok st') : st'.front.length = st.front.length ∧ st'.mesh = st.mesh ∧
    st'.nextEdge = st.nextEdge := by
  obtain ⟨e, a, b, t, he, ha, hb, hrem, rfl⟩ := removeEdge_ok h
  simp

theorem cleanOne_spec (hv : Rtree.VolOk P.vol) (ht : 0 ≤ P.tol) {f : Int → Int → G} (hf : Chain f) {tot : G} {q q' : QSt K} {sEdges : List Nat} {k : Nat} {b : Bool}
    (h : cleanOne P sEdges q k = .ok (q', b)) : Cleaned P f tot q q' := by
  unfold cleanOne at h
  simp only [bind_ok, edgeAt_ok] at h
  obtain ⟨e, he, h⟩ := h
  split_ifs at h with h1
  · rw [pure_ok, Prod.mk.injEq] at h
    obtain ⟨rfl, rfl⟩ := h
    exact Cleaned.refl f tot q
  · rw [bind_ok] at h
    obtain ⟨r, hr, h⟩ := h
    cases r with
    | none =>
      simp only [pure_ok, Prod.mk.injEq] at h
      obtain ⟨rfl, rfl⟩ := h
      exact Cleaned.refl f tot q
    | some j =>
      obtain ⟨hj, hne, o, ho, hsame⟩ := edgeExists_spec hr j rfl
      rw [sameNodes_iff] at hsame
      simp only [bind_ok, edgeAt_ok, pure_ok, Prod.mk.injEq] at h
      obtain ⟨o', ho', st1, hr1, st2, hr2, rfl, rfl⟩ := h
      rw [ho] at ho'
      obtain rfl : o = o' := by simpa using ho'
      obtain ⟨l1, l2, l3⟩ := removeEdge_len hr1
      obtain ⟨m1, m2, m3⟩ := removeEdge_len hr2
      refine ⟨m2.trans l2, m3.trans l3, m1.trans l1, rfl, ?_, ?_⟩
      · intro hl
        simp only [Bool.or_eq_false_iff] at hl
        exact hl.1
      · intro hl hi
        simp only [Bool.or_eq_false_iff] at hl
        have hlive := hl.2
        have hk : (eds q.st.front)[k]? = some e.ed := eds_get.2 ⟨e, he, rfl⟩
        have hid : e.id = k := hi.ids k _ hk
        rw [hid] at hne
        obtain ⟨x1, g1, g2, g3, g4, -⟩ := removeEdge_spec hv ht hi hr1
        rw [hk] at g1
        obtain rfl : e.ed = x1 := by simpa using g1
        rw [← g4] at g3
        obtain ⟨y, k1, k2, k3, k4, -⟩ := removeEdge_spec hv ht g3 hr2
        rw [g2, List.getElem?_set_ne hne.symm] at k1
        have hy : y = o.ed := by
          have := eds_get.2 ⟨o, ho, rfl⟩
          rw [k1] at this
          simpa using this
        subst hy
        have hval : tot - e.ed.val f - o.ed.val f = tot := by
          have h1' : e.ed.remove = false := by simpa [Edge.ed] using h1
          have h2' : o.ed.remove = false := hlive
          simp only [Ed.val, h1', h2', Bool.false_eq_true, if_false]
          have h2 := hf.two e.n0 e.n1
          have h3 := hf.anti e.n0 e.n1
          have hn : ∀ a b : Int, o.ed.n0 = a → o.ed.n1 = b → f o.ed.n0 o.ed.n1 = f a b := by intro a b h h'; rw [h, h']
          rcases hsame with ⟨s1, s2⟩ | ⟨s1, s2⟩
          · rw [hn _ _ s1 s2, sub_sub]
            show tot - (f e.n0 e.n1 + f e.n0 e.n1) = tot
            rw [h2, sub_zero]
          · rw [hn _ _ s1 s2, sub_sub]
            show tot - (f e.n0 e.n1 + f e.n1 e.n0) = tot
            rw [h3, sub_zero]
        rw [hval] at k3
        show FInv P f tot st2.mesh.nodes _ _
        rw [k4]; exact k3

theorem adjust_len {sEdges l : List Nat} {front front' : List (Edge K)} (h : l.foldlM (TriMesher.adjustOne sEdges) front = .ok front') : front'.length = front.length := by
  induction l generalizing front with
  | nil =>
    simp only [List.foldlM_nil, pure_ok] at h
    rw [h]
  | cons i l ih =>
    simp only [List.foldlM_cons, bind_ok] at h
    obtain ⟨fr, h1, h⟩ := h
    rw [ih h]
    rcases TriMesher.adjustOne_spec h1 with g | ⟨x, g1, g2, g3⟩
    · simpa [eds] using congrArg List.length g
    · simpa [eds] using congrArg List.length g3

theorem clean_spec (hv : Rtree.VolOk P.vol) (ht : 0 ≤ P.tol) {f : Int → Int → G} (hf : Chain f) {tot : G} {q q' : QSt K} {sEdges : List Nat}
    (h : cleanDuplicateEdges P sEdges q = .ok q') : Cleaned P f tot q q' := by
  unfold cleanDuplicateEdges at h
  split_ifs at h with h1
  · rw [pure_ok] at h
    subst h
    exact Cleaned.refl f tot q
  · simp only [bind_ok] at h
    obtain ⟨⟨q1, b1⟩, hc1, ⟨q2, b2⟩, hc2, ⟨q3, b3⟩, hc3, h⟩ := h
    have c := ((cleanOne_spec hv ht hf (tot := tot) hc1).trans (cleanOne_spec hv ht hf hc2)).trans (cleanOne_spec hv ht hf hc3)
    simp only at h
    split_ifs at h with h2
    · simp only [bind_ok, pure_ok] at h
      obtain ⟨fr, hfr, rfl⟩ := h
      refine c.trans ⟨rfl, rfl, adjust_len hfr, rfl, fun g => g, fun _ hi => ?_⟩
      exact (adjustLoop_spec hf hi hfr).1
    · rw [pure_ok] at h
      subst h
      exact c

/-- What one step of the mesher does: the records only grow, and as long as they are empty the state stays in order, nodes stay where they are, and cells are added. -/
structure Step (P : Par K) (f : Int → Int → G) (tot : G) (q q' : QSt K) : Prop where
  lost : q'.lost = false → q.lost = false
  again : q'.again = false → q.again = false
  inv : q'.lost = false → q'.again = false → ∀ cells, Inv P f tot q.st cells → (∃ new, Inv P f tot q'.st (cells ++ new)) ∧
    ∀ id p, q.st.mesh.nodes.get? id = some p → q'.st.mesh.nodes.get? id = some p

theorem Step.refl (f : Int → Int → G) (tot : G) (q : QSt K) : Step P f tot q q :=
  ⟨id, id, fun _ _ cells h => ⟨⟨[], by rwa [List.append_nil]⟩, fun _ _ h => h⟩⟩

theorem Step.trans {f : Int → Int → G} {tot : G} {q q' q'' : QSt K} (h : Step P f tot q q') (h' : Step P f tot q' q'') : Step P f tot q q'' := by
  refine ⟨fun g => h.lost (h'.lost g), fun g => h.again (h'.again g), fun g1 g2 cells hi => ?_⟩
  obtain ⟨⟨n1, k1⟩, k2⟩ := h.inv (h'.lost g1) (h'.again g2) cells hi
  obtain ⟨⟨n2, k3⟩, k4⟩ := h'.inv g1 g2 _ k1
  exact ⟨⟨n1 ++ n2, by rwa [List.append_assoc] at k3⟩, fun id p hp => k4 id p (k2 id p hp)⟩

theorem addQuadrilateral_spec (hv : Rtree.VolOk P.vol) (ht : 0 ≤ P.tol) {f : Int → Int → G} (hf : Chain f) {tot : G} {q q' : QSt K}
    {sEdges : List Nat} {k : Nat} {n3 n4 : Int} {e : Edge K} (he : q.st.front[k]? = some e) (hr : e.remove = false)
    (h : addQuadrilateral P sEdges q k n3 n4 = .ok q') : Step P f tot q q' ∧ q'.again = q.again := by
  unfold addQuadrilateral at h
  simp only [bind_ok, edgeAt_ok] at h
  obtain ⟨e0, he0, h⟩ := h
  rw [he] at he0
  obtain rfl : e = e0 := by simpa using he0
  split_ifs at h with h1 h2
  · rw [pure_ok] at h
    subst h
    exact ⟨Step.refl f tot q, rfl⟩
  · simp only [bind_ok] at h
    obtain ⟨st1, hst1, h⟩ := h
    subst h2
    have key : ∀ t, Cleaned P f t { q with st := st1 } q' := fun t => clean_spec hv ht hf h
    refine ⟨⟨(key tot).lost, fun g => ?_, fun hl ha cells hi => ?_⟩, (key tot).again⟩
    · rw [(key tot).again] at g; exact g
    · obtain ⟨a, ha⟩ := (hi.front.ends e.ed (List.mem_of_getElem? (eds_get.2 ⟨e, he, rfl⟩))).1
      obtain ⟨b, hb⟩ := (hi.front.ends e.ed (List.mem_of_getElem? (eds_get.2 ⟨e, he, rfl⟩))).2
      obtain ⟨t1, t2, ⟨c, hc⟩, t3⟩ := twoEdges_spec hv ht (st := { q.st with mesh := withElem q.st.mesh ⟨.triangle, [e.n0, e.n1, n3], []⟩ }) hi.next hi.front he hr hst1
      have hm := hi.mesh.withElem (e := ⟨.triangle, [e.n0, e.n1, n3], []⟩) (Or.inl ⟨_, _, _, a, b, c, rfl, ha, hb, hc⟩)
      have t2' : st1.mesh = withElem q.st.mesh ⟨.triangle, [e.n0, e.n1, n3], []⟩ := t2
      have kk := (key (tot - total f (cells ++ [⟨.triangle, [e.n0, e.n1, n3], []⟩])))
      have hmesh := kk.mesh.trans t2'
      have htot : tot - total f cells + f e.n0 n3 + f n3 e.n1 - f e.n0 e.n1 = tot - total f (cells ++ [⟨.triangle, [e.n0, e.n1, n3], []⟩]) := by
        rw [total_append]
        have h1 := eq_neg_of_add_eq_zero_left (hf.anti e.n0 n3)
        have h2 := eq_neg_of_add_eq_zero_left (hf.anti n3 e.n1)
        simp only [total, List.map_cons, List.map_nil, List.sum_cons, List.sum_nil, csum_tri, h1, h2]
        abel
      rw [htot] at t3
      refine ⟨⟨_, by rw [kk.next, kk.len]; exact t1, by rw [hmesh]; exact hm, ?_⟩, ?_⟩
      · apply kk.inv hl
        show FInv P f _ st1.mesh.nodes _ _
        rw [t2']; exact t3
      · intro id p hp
        rw [hmesh]; exact hp
  · simp only [bind_ok] at h
    obtain ⟨m, hm, st1, hst1, h⟩ := h
    have key : ∀ t, Cleaned P f t { q with st := st1 } q' := fun t => clean_spec hv ht hf h
    refine ⟨⟨(key tot).lost, fun g => ?_, fun hl ha cells hi => ?_⟩, (key tot).again⟩
    · rw [(key tot).again] at g; exact g
    · obtain ⟨new, m1, m2, m3, m4⟩ := withQuad_spec hf hi.mesh hm
      obtain ⟨t1, t2, t3⟩ := threeEdges_spec hv ht (st := { q.st with mesh := m }) hi.next (by show FInv P f _ m.nodes _ _; rw [m2]; exact hi.front) he hr hst1
      have t2' : st1.mesh = m := t2
      have kk := (key (tot - total f (cells ++ new)))
      have hmesh := kk.mesh.trans t2'
      have htot : tot - total f cells + f e.n0 n3 + f n3 n4 + f n4 e.n1 - f e.n0 e.n1 = tot - total f (cells ++ new) := by
        rw [total_append, m4]
        have h1 := eq_neg_of_add_eq_zero_left (hf.anti e.n0 n3)
        have h2 := eq_neg_of_add_eq_zero_left (hf.anti n4 e.n1)
        have h3 := eq_neg_of_add_eq_zero_left (hf.anti n3 n4)
        rw [h1, h2, h3]
        abel
      rw [htot] at t3
      refine ⟨⟨_, by rw [kk.next, kk.len]; exact t1, by rw [hmesh]; exact m1, ?_⟩, ?_⟩
      · apply kk.inv hl
        show FInv P f _ st1.mesh.nodes _ _
        rw [t2']; exact t3
      · intro id p hp
        rw [hmesh, m2]; exact hp

theorem bestNode_spec {st : St K} {e : Edge K} {sEdges : List Nat} {box : BBox K} {a b s new : Vec3 K} {mk : Vec3 K → Quad K} {reach : K} {l : List Int}
    {best0 best : K × Int × Vec3 K} (h : bestNode P st e sEdges box a b s new mk reach l best0 = .ok best) :
    best = best0 ∨ st.mesh.nodes.get? best.2.1 = some best.2.2 := by
  induction l generalizing best0 with
  | nil =>
    rw [bestNode, pure_ok] at h
    exact Or.inl h.symm
  | cons n l ih =>
    unfold bestNode at h
    by_cases h1 : n = e.n0 ∨ n = e.n1
    · rw [if_pos h1] at h; exact ih h
    · rw [if_neg h1, bind_ok] at h
      obtain ⟨p, hp, h⟩ := h
      rw [nodeAt_ok] at hp
      split_ifs at h with h2
      · rw [bind_ok] at h
        obtain ⟨q, -, h⟩ := h
        split_ifs at h with h3
        · rcases ih h with g | g
          · right; rw [g]; exact hp
          · exact Or.inr g
        · exact ih h
      · exact ih h

/-- A step that only stores nodes. -/
theorem Step.nodes {f : Int → Int → G} {tot : G} {q q1 : QSt K} (hl : q1.lost = q.lost) (ha : q1.again = false → q.again = false)
    (h1 : q1.st.front = q.st.front) (h2 : q1.st.tree = q.st.tree) (h3 : q1.st.nextEdge = q.st.nextEdge) (h4 : q1.st.mesh.faces = q.st.mesh.faces)
    (h5 : q1.st.mesh.elements = q.st.mesh.elements)
    (h6 : q1.again = false → q.st.mesh.nodes.Ok → q1.st.mesh.nodes.Ok ∧ ∀ id p, q.st.mesh.nodes.get? id = some p → q1.st.mesh.nodes.get? id = some p) :
    Step P f tot q q1 := by
  refine ⟨fun h => by rwa [hl] at h, ha, fun _ g2 cells hi => ?_⟩
  obtain ⟨k1, k2⟩ := h6 g2 hi.mesh.nodes
  refine ⟨⟨[], ?_⟩, k2⟩
  rw [List.append_nil]
  refine ⟨by rw [h3, h1]; exact hi.next, ⟨k1, by rw [h4]; exact hi.mesh.faces, by rw [h5]; exact hi.mesh.els, fun e he => (hi.mesh.ok e he).ext k2⟩, ?_⟩
  rw [h1, h2]
  exact hi.front.ext k2

theorem withNode_fresh {m : Mesh K} {id : Int} (p : Vec3 K) (hm : m.nodes.Ok) (hid : m.nodes.get? id = none) : (withNode m id p).nodes.Ok ∧
    ∀ i r, m.nodes.get? i = some r → (withNode m id p).nodes.get? i = some r := by
  refine ⟨Cont.add_ok hm p fun hmem => ?_, fun i r hr => ?_⟩
  · obtain ⟨a, ha⟩ := (hm.2 id).1 hmem
    rw [hid] at ha; simp at ha
  · show (m.nodes.add id p).get? i = some r
    rw [Cont.get?_add, if_neg]
    · exact hr
    · rintro rfl
      rw [hid] at hr; simp at hr

theorem takeNodes_spec (hv : Rtree.VolOk P.vol) (ht : 0 ≤ P.tol) {f : Int → Int → G} (hf : Chain f) {tot : G} {q q' : QSt K}
    {sEdges : List Nat} {i : Nat} {id1 id2 : Int} {new1 new2 : Vec3 K} {e : Edge K} (he : q.st.front[i]? = some e) (hr : e.remove = false)
    (h : takeNodes P sEdges q i id1 id2 new1 new2 = .ok q') : Step P f tot q q' := by
  unfold takeNodes at h
  simp only at h
  refine Step.trans (Step.nodes ?_ ?_ ?_ ?_ ?_ ?_ ?_ ?_) (addQuadrilateral_spec hv ht hf ?_ hr h).1
  · rfl
  · exact id
  · rfl
  · rfl
  · rfl
  · show (ite _ _ _ : Mesh K).faces = _
    split_ifs <;> rfl
  · show (ite _ _ _ : Mesh K).elements = _
    split_ifs <;> rfl
  · intro _ hm
    have hn0 : q.st.mesh.nodes.get? (q.st.mesh.nodes.nextId + 0) = none := by rw [add_zero]; exact Cont.get?_nextId _
    have hn1 : q.st.mesh.nodes.get? (q.st.mesh.nodes.nextId + 1) = none := Cont.get?_nextId_succ _
    show (ite _ _ _ : Mesh K).nodes.Ok ∧ ∀ id p, q.st.mesh.nodes.get? id = some p → (ite _ _ _ : Mesh K).nodes.get? id = some p
    by_cases g1 : id1 = q.st.mesh.nodes.nextId + 0
    · obtain ⟨k1, k2⟩ := withNode_fresh (id := id1) new1 hm (by rw [g1]; exact hn0)
      rw [if_pos g1]
      by_cases g2 : id2 = q.st.mesh.nodes.nextId + 1
      · rw [if_pos g2]
        obtain ⟨k3, k4⟩ := withNode_fresh (id := id2) new2 k1 (by
          show (q.st.mesh.nodes.add id1 new1).get? id2 = none
          rw [Cont.get?_add, if_neg (by rw [g1, g2]; omega), g2]
          exact hn1)
        exact ⟨k3, fun id p hp => k4 id p (k2 id p hp)⟩
      · rw [if_neg g2]; exact ⟨k1, k2⟩
    · rw [if_neg g1]
      by_cases g2 : id2 = q.st.mesh.nodes.nextId + 1
      · rw [if_pos g2]; exact withNode_fresh new2 hm (by rw [g2]; exact hn1)
      · rw [if_neg g2]; exact ⟨hm, fun _ _ h => h⟩
  · exact he

theorem tryNew_spec (hv : Rtree.VolOk P.vol) (ht : 0 ≤ P.tol) {f : Int → Int → G} (hf : Chain f) {tot : G} {c : Pass K} {q q' : QSt K}
    {sEdges : List Nat} {sNodes : List Int} {i : Nat} {e : Edge K} {a b mid v : Vec3 K} {base : K} {id1 id2 : Int} {new1 new2 : Vec3 K}
    (he : q.st.front[i]? = some e) (hr : e.remove = false)
    (h : tryNew P c sEdges sNodes q i e a b mid v base id1 id2 new1 new2 = .ok q') : Step P f tot q q' := by
  unfold tryNew at h
  simp only [bind_ok] at h
  obtain ⟨d1, -, d2, -, h⟩ := h
  generalize (if base * c.sizeFactor * c.shrinkFactor * (1 / 4) < d1 ∧ d1 < base * c.sizeFactor * c.expandFactor then a + (d1 * (1 / 2)) • v else new1) = w1 at h
  generalize (if base * c.sizeFactor * c.shrinkFactor * (1 / 4) < d2 ∧ d2 < base * c.sizeFactor * c.expandFactor then b + (d2 * (1 / 2)) • v else new2) = w2 at h
  by_cases h1 : facesUp P ⟨a, b, w1, w2⟩
  · rw [if_pos h1, bind_ok] at h
    obtain ⟨q4, -, h⟩ := h
    by_cases h2 : 3 / 2 * c.minQuality < q4
    · rw [if_pos h2, bind_ok] at h
      obtain ⟨q1, hq1, h⟩ := h
      have hq : q1 = q' := by
        split_ifs at h
        simpa [pure_ok] using h
      subst hq
      refine Step.trans (Step.nodes ?_ ?_ ?_ ?_ ?_ ?_ ?_ ?_) (addQuadrilateral_spec hv ht hf ?_ hr hq1).1
      · rfl
      · intro g
        simp only [Bool.or_eq_false_iff] at g
        exact g.1
      · rfl
      · rfl
      · rfl
      · rfl
      · rfl
      · intro g hm
        simp only [Bool.or_eq_false_iff, Option.isSome_eq_false_iff, Option.isNone_iff_eq_none] at g
        obtain ⟨k1, k2⟩ := withNode_fresh w1 hm g.2.1
        obtain ⟨k3, k4⟩ := withNode_fresh w2 k1 g.2.2
        exact ⟨k3, fun id p hp => k4 id p (k2 id p hp)⟩
      · exact he
    · rw [if_neg h2, pure_ok] at h
      subst h
      exact Step.refl f tot q
  · rw [if_neg h1, pure_ok] at h
    subst h
    exact Step.refl f tot q

theorem search_spec (hv : Rtree.VolOk P.vol) (ht : 0 ≤ P.tol) {f : Int → Int → G} (hf : Chain f) {tot : G} {c : Pass K} {q q' : QSt K}
    {sEdges : List Nat} {sNodes : List Int} {i : Nat} {e : Edge K} {box : BBox K} {a b mid v : Vec3 K} {base : K} {new1 new2 : Vec3 K}
    (he : q.st.front[i]? = some e) (hr : e.remove = false)
    (h : search P c sEdges sNodes q i e box a b mid v base new1 new2 = .ok q') : Step P f tot q q' := by
  unfold search at h
  simp only [bind_ok] at h
  obtain ⟨b1, -, b2, -, q3, -, h⟩ := h
  split_ifs at h
  all_goals first
    | exact takeNodes_spec hv ht hf he hr h
    | exact tryNew_spec hv ht hf he hr h
    | (rw [pure_ok] at h; subst h; exact Step.refl f tot q)

theorem advance_cases {c : Pass K} {q q' : QSt K} {i : Nat} {e : Edge K} (h : advance P c q i e = .ok q') :
    q' = q ∨ (∃ sEdges n3 n4, addQuadrilateral P sEdges q i n3 n4 = .ok q') ∨
      ∃ sEdges sNodes box a b mid v base new1 new2, search P c sEdges sNodes q i e box a b mid v base new1 new2 = .ok q' := by
  unfold advance at h
  simp only [bind_ok] at h
  obtain ⟨a, -, b, -, e1, -, e2, -, e5, -, e6, -, h⟩ := h
  by_cases h1 : (e.n0 = e6.n1 ∨ e.n1 = e5.n0) ∧ e.prev ≠ e2.next ∧ e.next ≠ e1.prev
  · rw [if_pos h1, pure_ok] at h
    exact Or.inl h.symm
  · rw [if_neg h1] at h
    simp only [bind_ok] at h
    obtain ⟨found, -, sNodes, -, h⟩ := h
    by_cases h2 : e1.n0 = e5.n0 ∧ e2.n1 = e6.n1 ∨ e1.n0 = e6.n1 ∧ e2.n1 = e5.n0
    · rw [if_pos h2] at h
      exact Or.inr (Or.inl ⟨_, _, _, h⟩)
    · rw [if_neg h2, bind_ok] at h
      obtain ⟨close, -, h⟩ := h
      cases close with
      | true => rw [if_pos rfl] at h; exact Or.inr (Or.inl ⟨_, _, _, h⟩)
      | false => rw [if_neg (by simp)] at h; exact Or.inr (Or.inr ⟨_, _, _, _, _, _, _, _, _, _, h⟩)

theorem advance_spec (hv : Rtree.VolOk P.vol) (ht : 0 ≤ P.tol) {f : Int → Int → G} (hf : Chain f) {tot : G} {c : Pass K} {q q' : QSt K} {i : Nat} {e : Edge K}
    (he : q.st.front[i]? = some e) (hr : e.remove = false) (h : advance P c q i e = .ok q') : Step P f tot q q' := by
  rcases advance_cases h with rfl | ⟨sE, n3, n4, h⟩ | ⟨sE, sN, box, a, b, mid, v, base, w1, w2, h⟩
  · exact Step.refl f tot q'
  · exact (addQuadrilateral_spec hv ht hf he hr h).1
  · exact search_spec hv ht hf he hr h

theorem pass_spec (hv : Rtree.VolOk P.vol) (ht : 0 ≤ P.tol) {f : Int → Int → G} (hf : Chain f) {tot : G} {c : Pass K} (fuel : Nat) :
    ∀ (i : Nat) (q q' : QSt K), pass P c fuel i q = .ok q' → Step P f tot q q' := by
  induction fuel with
  | zero => intro i q q' h; simp [pass] at h
  | succ fuel ih =>
    intro i q q' h
    unfold pass at h
    cases he : q.st.front[i]? with
    | none =>
      rw [he] at h
      simp only [pure_ok] at h
      subst h
      exact Step.refl f tot q
    | some e =>
      rw [he] at h
      simp only at h
      split_ifs at h with h1 h2 h3
      · exact ih _ _ _ h
      · rw [pure_ok] at h
        subst h
        exact Step.refl f tot q
      · rw [bind_ok] at h
        obtain ⟨q1, hq1, h⟩ := h
        exact (advance_spec hv ht hf he (by simpa using h1) hq1).trans (ih _ _ _ h)

theorem runPasses_spec (hv : Rtree.VolOk P.vol) (ht : 0 ≤ P.tol) {f : Int → Int → G} (hf : Chain f) {tot : G} {fuel : Nat} (cs : List (Pass K)) :
    ∀ (q q' : QSt K), runPasses P fuel cs q = .ok q' → Step P f tot q q' := by
  induction cs with
  | nil =>
    intro q q' h
    rw [runPasses, pure_ok] at h
    subst h
    exact Step.refl f tot q
  | cons c cs ih =>
    intro q q' h
    rw [runPasses, bind_ok] at h
    obtain ⟨q1, h1, h⟩ := h
    exact (pass_spec hv ht hf fuel _ _ _ h1).trans (ih _ _ h)

theorem passes_spec (hv : Rtree.VolOk P.vol) (ht : 0 ≤ P.tol) {f : Int → Int → G} (hf : Chain f) {tot : G} {fuel : Nat} {q q' : QSt K} (h : passes P fuel q = .ok q') :
    Step P f tot q q' ∧ ∀ e ∈ q'.st.front, e.remove = true := by
  unfold passes at h
  rw [bind_ok] at h
  obtain ⟨q1, h1, h⟩ := h
  split_ifs at h with h2
  rw [pure_ok] at h
  subst h
  refine ⟨runPasses_spec hv ht hf _ _ _ h1, fun e he => ?_⟩
  by_contra hc
  apply h2
  simp only [TriMesher.unfinished, List.any_eq_true]
  exact ⟨e, he, by simpa using hc⟩

end QuadMesher
end ENigMA
