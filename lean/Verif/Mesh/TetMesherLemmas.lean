import Verif.Mesh.TetMesherFront

/-!
# Invariants of the mesher of solids
-/

set_option linter.unusedSectionVars false
set_option autoImplicit false

namespace ENigMA
namespace TetMesher
open TriMesher (Err R lift nodeAt pushNew markInterior Pass bind_ok pure_ok lift_ok nodeAt_ok overlap_self)

variable {K : Type} [Field K] [LinearOrder K] [IsStrictOrderedRing K]

/-! ### The tetrahedra -/

/-- The element of a tetrahedron. -/
def tetElem (a b c d : Int) : Elem := ⟨.tetrahedron, [a, b, c, d], []⟩

/-- The nodes of the tetrahedron are stored, and its volume is more than `v`. -/
def Big (v : K) (nodes : Cont (Vec3 K)) (a b c d : Int) : Prop :=
  ∃ p q r s, nodes.get? a = some p ∧ nodes.get? b = some q ∧ nodes.get? c = some r ∧ nodes.get? d = some s ∧ v < Tet.volume ⟨p, q, r, s⟩

theorem Big.ext {v : K} {nodes nodes' : Cont (Vec3 K)} {a b c d : Int} (h : Big v nodes a b c d)
    (hn : ∀ id p, nodes.get? id = some p → nodes'.get? id = some p) : Big v nodes' a b c d := by
  obtain ⟨p, q, r, s, h1, h2, h3, h4, h5⟩ := h
  exact ⟨p, q, r, s, hn _ _ h1, hn _ _ h2, hn _ _ h3, hn _ _ h4, h5⟩

theorem Big.ne {v : K} (hv : 0 ≤ v) {nodes : Cont (Vec3 K)} {a b c d : Int} (h : Big v nodes a b c d) :
    a ≠ b ∧ a ≠ c ∧ a ≠ d ∧ b ≠ c ∧ b ≠ d ∧ c ≠ d := by
  obtain ⟨p, q, r, s, h1, h2, h3, h4, h5⟩ := h
  have h5 : 0 < Tet.volume ⟨p, q, r, s⟩ := lt_of_le_of_lt hv h5
  have hd : ∀ i j x y, nodes.get? i = some x → nodes.get? j = some y → x ≠ y → i ≠ j := by
    rintro i j x y h1 h2 h3 rfl
    rw [h1] at h2; exact h3 (by simpa using h2)
  have key : p ≠ q ∧ p ≠ r ∧ p ≠ s ∧ q ≠ r ∧ q ≠ s ∧ r ≠ s := by
    refine ⟨?_, ?_, ?_, ?_, ?_, ?_⟩ <;> rintro rfl <;>
      · revert h5
        simp only [Tet.volume, det4one, det4, det3, Vec3.dot, Vec3.cross, imp_false, not_lt]
        apply le_of_eq
        ring
  exact ⟨hd _ _ _ _ h1 h2 key.1, hd _ _ _ _ h1 h3 key.2.1, hd _ _ _ _ h1 h4 key.2.2.1, hd _ _ _ _ h2 h3 key.2.2.2.1,
    hd _ _ _ _ h2 h4 key.2.2.2.2.1, hd _ _ _ _ h3 h4 key.2.2.2.2.2⟩

/-- The mesh consists of tetrahedra of a volume more than `v`. -/
structure MInv (v : K) (m : Mesh K) : Prop where
  nodes : m.nodes.Ok
  faces : m.faces = Cont.empty
  els : m.elements.Ok
  tets : ∀ id e, m.elements.get? id = some e → ∃ a b c d, e = tetElem a b c d ∧ Big v m.nodes a b c d

/-- The sum over the four faces. -/
def four (f : Int → Int → Int → ZMod 2) (e : Elem) : ZMod 2 :=
  match e.nodeIds with
  | [a, b, c, d] => f a b c + f b d c + f a d b + f a c d
  | _ => 0

/-- The sum over the four faces of the element with this id. -/
def elval (f : Int → Int → Int → ZMod 2) (els : Cont Elem) (id : Int) : ZMod 2 := ((els.get? id).map (four f)).getD 0

/-- The sum over the faces of all the elements. -/
def esum (f : Int → Int → Int → ZMod 2) (els : Cont Elem) : ZMod 2 := (els.ids.map (elval f els)).sum

theorem esum_add (f : Int → Int → Int → ZMod 2) {els : Cont Elem} (h : els.Ok) (e : Elem) : esum f (els.add els.nextId e) = esum f els + four f e := by
  have hn := Cont.nextId_not_mem h
  unfold esum
  have hids : (els.add els.nextId e).ids = els.ids ++ [els.nextId] := rfl
  rw [hids, List.map_append, List.sum_append]
  congr 1
  · congr 1
    apply List.map_congr_left
    intro id hid
    unfold elval
    rw [Cont.get?_add, if_neg]
    rintro rfl; exact hn hid
  · simp [elval, Cont.get?_add]

theorem remove_get {els els' : Cont Elem} {id : Int} (hr : els.remove id = some els') (j : Int) : els'.get? j = if j = id then none else els.get? j := by
  obtain ⟨-, rfl⟩ := Cont.remove_some hr
  show SMap.find? (els.map.erase id) j = _
  rw [SMap.find?_erase]; rfl

theorem esum_remove (f : Int → Int → Int → ZMod 2) {els els' : Cont Elem} (h : els.Ok) {id : Int} (hr : els.remove id = some els') :
    esum f els = elval f els id + esum f els' := by
  have hget := remove_get hr
  obtain ⟨hm, he⟩ := Cont.remove_some hr
  have hids : els'.ids = els.ids.erase id := by rw [he]
  unfold esum
  rw [hids, ((List.perm_cons_erase hm).map (elval f els)).sum_eq, List.map_cons, List.sum_cons]
  congr 2
  apply List.map_congr_left
  intro j hj
  have hj' := (h.1.mem_erase_iff).1 hj
  unfold elval
  rw [hget, if_neg hj'.1]

/-! ### The state -/

/-- The third power of the tolerance. -/
def tol3 (P : Par K) : K := P.tol * P.tol * P.tol

/-- The state of the mesher between two rounds. -/
structure Inv (P : Par K) (st : St K) : Prop where
  next : st.nextTri = st.front.length
  mesh : MInv (tol3 P) st.mesh
  front : FInv P st.mesh.nodes (trs st.front) st.tree

/-- The sum over the faces of the tetrahedra and over the front. -/
def total (f : Int → Int → Int → ZMod 2) (st : St K) : ZMod 2 := esum f st.mesh.elements + fsum f (trs st.front)

variable {P : Par K}

theorem newTri_ok {m : Mesh K} {id : Nat} {n : T3 Int} {nb no : T3 (Option Nat)} {el : Option Int} {e : Fr K} (h : newTri m id n nb no el = .ok e) :
    ∃ a b c, At m.nodes n a b c ∧ e = ⟨id, false, n, nb, no, el, ⟨a, b, c⟩⟩ := by
  unfold newTri at h
  simp only [bind_ok, nodeAt_ok, pure_ok] at h
  obtain ⟨a, ha, b, hb, c, hc, rfl⟩ := h
  exact ⟨a, b, c, ⟨ha, hb, hc⟩, rfl⟩

theorem attach_ok {front front' : List (Fr K)} {q s id : Nat} (h : attach front q s id = .ok front') : trs front' = trs front := by
  unfold attach at h
  simp only [bind_ok, triAt_ok, pure_ok] at h
  obtain ⟨y, hy, rfl⟩ := h
  exact trs_set (trs_get.2 ⟨y, hy, rfl⟩)

/-- The triangles found in the tree. -/
def Near (ks : List Tr) (i : Nat) (sTris : List Nat) : Prop :=
  ∀ j ∈ sTris, j ≠ i ∧ ∃ x, ks[j]? = some x ∧ (x.remove = false ∨ x.n.Flat)

theorem MInv.withTet {v : K} {m : Mesh K} (h : MInv v m) {a b c d : Int} (hu : Big v m.nodes a b c d) : MInv v (withTet m a b c d) := by
  refine ⟨h.nodes, h.faces, Cont.add_ok h.els _ (Cont.nextId_not_mem h.els), fun id e he => ?_⟩
  have he' : (m.elements.add m.elements.nextId (tetElem a b c d)).get? id = some e := he
  rw [Cont.get?_add] at he'
  split_ifs at he' with h1
  · exact ⟨a, b, c, d, by simpa using he'.symm, hu⟩
  · exact h.tets id e he'

/-- The triangles found in the tree are alive, but for those equal to new triangles that were treated before. -/
def Alive (ks : List Tr) (n : Nat) (sTris : List Nat) (S : List (T3 Int)) : Prop :=
  ∀ j ∈ sTris, j < n ∧ ∃ x, ks[j]? = some x ∧ (x.remove = false ∨ x.n.Flat ∨ ∃ z ∈ S, sorted x.n = sorted z)

/-- One of the three rounds over the new triangles. -/
theorem round_spec (hv : Rtree.VolOk P.vol) (ht : 0 ≤ P.tol) {st st' : St K} {sTris : List Nat} {n k : Nat} {b : Bool} {S : List (T3 Int)}
    (hi : FInv P st.mesh.nodes (trs st.front) st.tree) {x : Tr} (hk : (trs st.front)[k]? = some x) (hkn : n ≤ k)
    (ha : Alive (trs st.front) n sTris S) (hflat : ¬ x.n.Flat) (hS : ∀ z ∈ S, sorted x.n ≠ sorted z)
    (h : cleanOne P sTris st k = .ok (st', b)) :
    ∃ fr t, st' = { st with front := fr, tree := t } ∧ FInv P st.mesh.nodes (trs fr) t ∧ (∀ f, Sym3 f → fsum f (trs fr) = fsum f (trs st.front)) ∧
      fr.length = st.front.length ∧ Alive (trs fr) n sTris (x.n :: S) ∧ ∀ j, n ≤ j → j ≠ k → (trs fr)[j]? = (trs st.front)[j]? := by
  have flat_of : ∀ y : Tr, y.n.Flat → sorted y.n = sorted x.n → False := by
    intro y hy hs
    apply hflat
    have hp := sorted_perm hs
    by_contra hne
    have : [x.n.a, x.n.b, x.n.c].Nodup := by
      unfold T3.Flat at hne
      push Not at hne
      simp [hne.1, hne.2.1, Ne.symm hne.2.2]
    rw [← hp.nodup_iff] at this
    unfold T3.Flat at hy
    simp only [List.nodup_cons, List.mem_cons, List.not_mem_nil, or_false, not_or, not_false_eq_true, List.nodup_nil, and_true] at this
    rcases hy with hy | hy | hy
    · exact this.1.1 hy
    · exact this.2 hy
    · exact this.1.2 hy.symm
  obtain ⟨fr, t, h1, h2, h3, h4⟩ := cleanOne_spec hv ht hi hk (by
    intro j hj y hy hs
    obtain ⟨-, z, g1, g2⟩ := ha j hj
    rw [hy] at g1
    obtain rfl : y = z := by simpa using g1
    rcases g2 with g2 | g2 | ⟨w, hw, g2⟩
    · exact g2
    · exact (flat_of y g2 hs).elim
    · exact (hS w hw (hs.symm.trans g2)).elim) h
  refine ⟨fr, t, h1, h2, h3, ?_, ?_, ?_⟩
  · have : (trs fr).length = (trs st.front).length := by
      rcases h4 with h4 | ⟨j, y, -, -, -, -, h4⟩ <;> simp [h4]
    simpa [trs] using this
  · intro j hj
    obtain ⟨g0, z, g1, g2⟩ := ha j hj
    refine ⟨g0, ?_⟩
    rcases h4 with h4 | ⟨j', y, hj', hjk, hy, hs, h4⟩
    · refine ⟨z, by rw [h4]; exact g1, ?_⟩
      rcases g2 with g2 | g2 | ⟨w, hw, g2⟩
      · exact Or.inl g2
      · exact Or.inr (Or.inl g2)
      · exact Or.inr (Or.inr ⟨w, by simp [hw], g2⟩)
    · by_cases hjj : j' = j
      · subst hjj
        refine ⟨y.gone, ?_, Or.inr (Or.inr ⟨x.n, by simp, hs⟩)⟩
        rw [h4, List.getElem?_set_self]
        rw [List.length_set]
        exact (List.getElem?_eq_some_iff.1 hy).1
      · refine ⟨z, ?_, ?_⟩
        · rw [h4, List.getElem?_set_ne hjj, List.getElem?_set_ne (by omega)]; exact g1
        · rcases g2 with g2 | g2 | ⟨w, hw, g2⟩
          · exact Or.inl g2
          · exact Or.inr (Or.inl g2)
          · exact Or.inr (Or.inr ⟨w, by simp [hw], g2⟩)
  · intro j hj hjk
    rcases h4 with h4 | ⟨j', y, hj', hjk', hy, hs, h4⟩
    · rw [h4]
    · have := (ha j' hj').1
      rw [h4, List.getElem?_set_ne (by omega), List.getElem?_set_ne (by omega)]

theorem tol3_nonneg (ht : 0 ≤ P.tol) : 0 ≤ tol3 P := mul_nonneg (mul_nonneg ht ht) ht

theorem addTet_spec (hv : Rtree.VolOk P.vol) (ht : 0 ≤ P.tol) {st st' : St K} {sTris : List Nat} {k : Nat} {n4 : Int} {x : Fr K} (hi : Inv P st)
    (hs : Near (trs st.front) k sTris) (hx : st.front[k]? = some x) (hr : x.remove = false) (hu : Big (tol3 P) st.mesh.nodes x.n.a x.n.b x.n.c n4)
    (h : addTet P sTris st k n4 = .ok st') :
    ∃ fr t, st' = { st with front := fr, tree := t, mesh := withTet st.mesh x.n.a x.n.b x.n.c n4, nextTri := st.nextTri + 3 } ∧ Inv P st' ∧
      st'.front.length = st.front.length + 3 ∧ ∀ f, Sym3 f → total f st' = total f st := by
  obtain ⟨nab, nac, nad, nbc, nbd, ncd⟩ := hu.ne (tol3_nonneg ht)
  unfold addTet at h
  simp only [bind_ok, triAt_ok] at h
  obtain ⟨x0, hx0, h⟩ := h
  rw [hx] at hx0
  obtain rfl : x = x0 := by simpa using hx0
  rw [if_neg (by rintro (h | h | h); exacts [nad h.symm, nbd h.symm, ncd h.symm])] at h
  simp only [bind_ok, triAt_ok, lift_ok] at h
  obtain ⟨q1, -, q2, -, q3, -, -, -, -, -, -, -, t1, ht1, s1, -, fr1, hfr1, st1, hst1, x2, hx2, t2, ht2, s2, -, fr2, hfr2, st2, hst2, x3, hx3, t3, ht3, s3, -, fr3, hfr3,
    st3, hst3, st4, hst4, h⟩ := h
  obtain ⟨u1, v1, w1, at1, rfl⟩ := newTri_ok ht1
  obtain ⟨a1, b1, c1, r1, ha1, hadd1, rfl⟩ := addToTree_ok hst1
  have e1 := attach_ok hfr1
  simp only at hx2 hfr2
  have hX : (trs st.front)[k]? = some x.tr := trs_get.2 ⟨x, hx, rfl⟩
  have hx2' : x2.tr = x.tr := by
    have := trs_get.2 ⟨x2, hx2, rfl⟩
    rw [e1, hX] at this
    simpa using this.symm
  have hn2 : x2.n = x.n := congrArg Tr.n hx2'
  obtain ⟨u2, v2, w2, at2, rfl⟩ := newTri_ok ht2
  obtain ⟨a2, b2, c2, r2, ha2, hadd2, rfl⟩ := addToTree_ok hst2
  have e2 := (attach_ok hfr2).trans e1
  simp only at hx3 hfr3
  have hx3' : x3.tr = x.tr := by
    have := trs_get.2 ⟨x3, hx3, rfl⟩
    rw [e2, hX] at this
    simpa using this.symm
  have hn3 : x3.n = x.n := congrArg Tr.n hx3'
  obtain ⟨u3, v3, w3, at3, rfl⟩ := newTri_ok ht3
  obtain ⟨a3, b3, c3, r3, ha3, hadd3, rfl⟩ := addToTree_ok hst3
  have e3 := (attach_ok hfr3).trans e2
  simp only [hn2, hn3] at ha1 ha2 ha3 hadd1 hadd2 hadd3 h
  have hnodes : (withTet st.mesh x.n.a x.n.b x.n.c n4).nodes = st.mesh.nodes := rfl
  rw [hnodes] at ha1 ha2 ha3
  let x1 : Tr := ⟨st.nextTri, false, ⟨x.n.a, x.n.b, n4⟩⟩
  let x2 : Tr := ⟨st.nextTri + 1, false, ⟨x.n.b, x.n.c, n4⟩⟩
  let x3 : Tr := ⟨st.nextTri + 2, false, ⟨x.n.c, x.n.a, n4⟩⟩
  have hl : st.nextTri = (trs st.front).length := by rw [hi.next]; simp [trs]
  have f1 := hi.front.push hv ht x1 hl rfl ha1 hadd1
  have f2 := f1.push hv ht x2 (by simp [x2, hl]) rfl ha2 hadd2
  have f3 := f2.push hv ht x3 (by simp [x3, hl]) rfl ha3 hadd3
  obtain ⟨y, a4, b4, c4, t4, hy, at4, hrem, rfl⟩ := removeTri_ok hst4
  simp only at hy at4 hrem h
  have hy' : y.tr = x.tr := by
    have := trs_get.2 ⟨y, hy, rfl⟩
    rw [e3, hX] at this
    simpa using this.symm
  have hidy : y.id = k := by
    have h1 : y.id = x.id := congrArg Tr.id hy'
    rw [h1]; exact hi.front.ids k _ hX
  have hny : y.n = x.n := congrArg Tr.n hy'
  rw [hidy] at hrem
  rw [hny] at at4
  have hklt : k < (trs st.front).length := (List.getElem?_eq_some_iff.1 hX).1
  have happ : trs st.front ++ [x1] ++ [x2] ++ [x3] = trs st.front ++ [x1, x2, x3] := by simp
  rw [happ] at f3
  have hX3 : (trs st.front ++ [x1, x2, x3])[k]? = some x.tr := by rw [List.getElem?_append_left hklt]; exact hX
  have f4 := f3.setGone hX3 (f3.tree.remove hv ht hX3 at4 hrem)
  have hset : (trs st.front ++ [x1, x2, x3]).set k x.tr.gone = (trs st.front).set k x.tr.gone ++ [x1, x2, x3] := List.set_append_left _ _ hklt
  have s4 : ∀ f, fsum f ((trs st.front ++ [x1, x2, x3]).set k x.tr.gone) = fsum f (trs st.front) + (on f x1.n + on f x2.n + on f x3.n) + on f x.n := by
    intro f
    rw [fsum_gone f hX3, fsum_append]
    congr 1
    · congr 1
      simp only [fsum, Tr.val, x1, x2, x3, List.map_cons, List.map_nil, List.sum_cons, List.sum_nil, Bool.false_eq_true, if_false]
      ring
    · simp [Tr.val, Fr.tr, hr]
  rw [hset] at f4 s4
  -- the three rounds of `cleanDuplicateTriangles`
  let F1 : Fr K := ⟨st.nextTri, false, ⟨x.n.a, x.n.b, n4⟩, ⟨x.nb.a, some (st.nextTri + 1), some (st.nextTri + 2)⟩, ⟨x.no.a, some 1, some 0⟩, some st.mesh.elements.nextId, ⟨u1, v1, w1⟩⟩
  rename_i y2 y3
  let F2 : Fr K := ⟨st.nextTri + 1, false, ⟨x.n.b, x.n.c, n4⟩, ⟨y2.nb.b, some (st.nextTri + 2), some st.nextTri⟩, ⟨y2.no.b, some 1, some 0⟩, some st.mesh.elements.nextId, ⟨u2, v2, w2⟩⟩
  let F3 : Fr K := ⟨st.nextTri + 2, false, ⟨x.n.c, x.n.a, n4⟩, ⟨y3.nb.c, some st.nextTri, some (st.nextTri + 1)⟩, ⟨y3.no.c, some 1, some 0⟩, some st.mesh.elements.nextId, ⟨u3, v3, w3⟩⟩
  let front4 := fr3.set k { y with remove := true } ++ [F1, F2, F3]
  let st4 : St K := { st with front := front4, tree := t4, mesh := withTet st.mesh x.n.a x.n.b x.n.c n4, nextTri := st.nextTri + 3 }
  have h' : cleanDuplicates P sTris st4 = .ok st' := h
  have hfr4 : trs st4.front = (trs st.front).set k x.tr.gone ++ [x1, x2, x3] := by
    show trs (fr3.set k { y with remove := true } ++ [F1, F2, F3]) = _
    unfold trs
    rw [List.map_append, List.map_set]
    show (trs fr3).set k _ ++ _ = _
    rw [e3, ← hy']; rfl
  have hlen4 : st4.front.length = st.front.length + 3 := by
    have := congrArg List.length hfr4
    simpa [trs] using this
  have f4' : FInv P st4.mesh.nodes (trs st4.front) st4.tree := by rw [hfr4]; exact f4
  rw [← hfr4] at s4
  clear h f1 f2 f3 hst1 hst2 hst3 hst4 ht1 ht2 ht3
  have hm := hi.mesh.withTet hu
  have hlenE : (trs st.front).length = st.nextTri := hl.symm
  have hA : Alive (trs st4.front) st.nextTri sTris [] := by
    intro j hj
    obtain ⟨g1, z, g2, g3⟩ := hs j hj
    have hjlt := (List.getElem?_eq_some_iff.1 g2).1
    refine ⟨by omega, z, ?_, ?_⟩
    · rw [hfr4, List.getElem?_append_left (by simpa using hjlt), List.getElem?_set_ne g1.symm]; exact g2
    · rcases g3 with g3 | g3
      · exact Or.inl g3
      · exact Or.inr (Or.inl g3)
  have hg : ∀ i y, [x1, x2, x3][i]? = some y → (trs st4.front)[st.nextTri + i]? = some y := by
    intro i y hy
    rw [hfr4, List.getElem?_append_right (by simp only [List.length_set]; omega)]
    simp only [List.length_set, hlenE]
    rw [Nat.add_sub_cancel_left]; exact hy
  have d12 : sorted x2.n ≠ sorted x1.n := by
    intro h
    have : x.n.c ∈ [x.n.a, x.n.b, n4] := (sorted_perm h).subset (by simp [x2])
    simp only [List.mem_cons, List.not_mem_nil, or_false] at this
    rcases this with h | h | h
    exacts [nac h.symm, nbc h.symm, ncd h]
  have d13 : sorted x1.n ≠ sorted x3.n := by
    intro h
    have : x.n.b ∈ [x.n.c, x.n.a, n4] := (sorted_perm h).subset (by simp [x1])
    simp only [List.mem_cons, List.not_mem_nil, or_false] at this
    rcases this with h | h | h
    exacts [nbc h, nab h.symm, nbd h]
  have d23 : sorted x2.n ≠ sorted x3.n := by
    intro h
    have : x.n.b ∈ [x.n.c, x.n.a, n4] := (sorted_perm h).subset (by simp [x2])
    simp only [List.mem_cons, List.not_mem_nil, or_false] at this
    rcases this with h | h | h
    exacts [nbc h, nab h.symm, nbd h]
  have nf1 : ¬ x1.n.Flat := by rintro (h | h | h); exacts [nab h, nbd h, nad h.symm]
  have nf2 : ¬ x2.n.Flat := by rintro (h | h | h); exacts [nbc h, ncd h, nbd h.symm]
  have nf3 : ¬ x3.n.Flat := by rintro (h | h | h); exacts [nac h.symm, nad h, ncd h.symm]
  unfold cleanDuplicates at h'
  rw [if_neg (by show ¬ st.nextTri + 3 < 3; omega)] at h'
  simp only [bind_ok] at h'
  obtain ⟨⟨st5, p5⟩, hc5, ⟨st6, p6⟩, hc6, ⟨st7, p7⟩, hc7, h'⟩ := h'
  have i5 : st4.nextTri - 0 - 1 = st.nextTri + 2 := by show st.nextTri + 3 - 0 - 1 = _; omega
  rw [i5] at hc5
  obtain ⟨fr5, t5, rfl, c51, c52, c53, c54, c55⟩ := round_spec hv ht (st := st4) f4' (hg 2 x3 rfl) (by omega) hA nf3 (by simp) hc5
  simp only at hc6
  have i6 : st4.nextTri - 1 - 1 = st.nextTri + 1 := by show st.nextTri + 3 - 1 - 1 = _; omega
  rw [i6] at hc6
  obtain ⟨fr6, t6, rfl, c61, c62, c63, c64, c65⟩ := round_spec hv ht (st := { st4 with front := fr5, tree := t5 }) c51
    (by show (trs fr5)[st.nextTri + 1]? = some x2; rw [c55 _ (by omega) (by omega)]; exact hg 1 x2 rfl) (by omega) c54 nf2
    (by intro z hz; rw [List.mem_singleton] at hz; subst hz; exact d23) hc6
  simp only at hc7
  have i7 : st4.nextTri - 2 - 1 = st.nextTri := by show st.nextTri + 3 - 2 - 1 = _; omega
  rw [i7] at hc7
  obtain ⟨fr7, t7, rfl, c71, c72, c73, c74, c75⟩ := round_spec hv ht (st := { st4 with front := fr6, tree := t6 }) c61
    (by show (trs fr6)[st.nextTri]? = some x1; rw [c65 _ (by omega) (by omega), c55 _ (by omega) (by omega)]; exact hg 0 x1 rfl) (by omega) c64 nf1
    (by
      intro z hz
      simp only [List.mem_cons, List.not_mem_nil, or_false] at hz
      rcases hz with rfl | rfl
      · exact fun h => d12 h.symm
      · exact d13) hc7
  have hlen7 : fr7.length = st.front.length + 3 := c73.trans (c63.trans (c53.trans hlen4))
  have hsum : ∀ f, Sym3 f → ∀ fr : List (Fr K), fsum f (trs fr) = fsum f (trs fr7) →
      esum f (withTet st.mesh x.n.a x.n.b x.n.c n4).elements + fsum f (trs fr) = esum f st.mesh.elements + fsum f (trs st.front) := by
    intro f hf fr hfr
    have hE : esum f (withTet st.mesh x.n.a x.n.b x.n.c n4).elements = esum f st.mesh.elements + four f (tetElem x.n.a x.n.b x.n.c n4) := esum_add f hi.mesh.els _
    rw [hfr, c72 f hf]
    show _ + fsum f (trs fr6) = _
    rw [c62 f hf]
    show _ + fsum f (trs fr5) = _
    rw [c52 f hf, s4, hE]
    simp only [four, tetElem, on, x1, x2, x3]
    have g1 : f x.n.b n4 x.n.c = f x.n.b x.n.c n4 := hf.perm (List.Perm.cons _ (List.Perm.swap _ _ _))
    have g2 : f x.n.a n4 x.n.b = f x.n.a x.n.b n4 := hf.perm (List.Perm.cons _ (List.Perm.swap _ _ _))
    have g3 : f x.n.a x.n.c n4 = f x.n.c x.n.a n4 := hf.perm (List.Perm.swap _ _ _)
    rw [g1, g2, g3]
    generalize esum f st.mesh.elements = E
    generalize fsum f (trs st.front) = F
    generalize f x.n.a x.n.b x.n.c = α
    generalize f x.n.b x.n.c n4 = β
    generalize f x.n.a x.n.b n4 = γ
    generalize f x.n.c x.n.a n4 = δ
    have hα := twice α
    have hβ := twice β
    have hγ := twice γ
    have hδ := twice δ
    linear_combination hα + hβ + hγ + hδ
  split_ifs at h' with h6
  · simp only [bind_ok, pure_ok] at h'
    obtain ⟨fr, hfr, rfl⟩ := h'
    obtain ⟨g1, g2, g3⟩ := adjustLoop_spec (P := P) c71 hfr
    refine ⟨fr, t7, rfl, ⟨?_, hm, g1⟩, by rw [← hlen7]; exact g3, fun f hf => hsum f hf fr (g2 f hf)⟩
    show st.nextTri + 3 = fr.length
    rw [g3]
    show _ = fr7.length
    rw [hlen7, hi.next]
  · rw [pure_ok] at h'
    subst h'
    refine ⟨fr7, t7, rfl, ⟨?_, hm, c71⟩, hlen7, fun f hf => hsum f hf fr7 rfl⟩
    show st.nextTri + 3 = fr7.length
    rw [hlen7, hi.next]

/-! ### One round -/

theorem bestNode_spec {st : St K} {x : Fr K} {sTris : List Nat} {sNodes : List Int} {a b c new : Vec3 K} {reach : K} {l : List Int} {best0 best : K × Int}
    (h : bestNode P st x sTris sNodes a b c new reach l best0 = .ok best) :
    best = best0 ∨ ∃ p, st.mesh.nodes.get? best.2 = some p ∧ bulky P a b c p := by
  induction l generalizing best0 with
  | nil =>
    simp only [bestNode, pure_ok] at h
    exact Or.inl h.symm
  | cons n t ih =>
    unfold bestNode at h
    by_cases h1 : n = x.n.a ∨ n = x.n.b ∨ n = x.n.c
    · rw [if_pos h1] at h
      exact ih h
    · rw [if_neg h1] at h
      simp only [bind_ok, nodeAt_ok] at h
      obtain ⟨p, hp, h⟩ := h
      split_ifs at h with h2
      · simp only [bind_ok] at h
        obtain ⟨q, hq, h⟩ := h
        rcases ih h with g | g
        · split_ifs at g with h3
          · refine Or.inr ⟨p, ?_, h2.2⟩
            rw [g]; exact hp
          · exact Or.inl g
        · exact Or.inr g
      · exact ih h

theorem closes_spec {st : St K} {x : Fr K} {sTris : List Nat} {sNodes : List Int} {a b c d : Vec3 K} {n4 n5 n6 : Int}
    (h : closes P st x sTris sNodes a b c d n4 n5 n6 = .ok true) : bulky P a b c d := by
  unfold closes at h
  split_ifs at h with h1 h2
  · exact h2
  · simp [pure_ok] at h
  · simp [pure_ok] at h

theorem near_found {nodes : Cont (Vec3 K)} {ks : List Tr} {t : Rtree.Node K} (h : TreeOk P nodes ks t) {q : BBox K} {tol : K} {found : List Int}
    (hf : Rtree.find [] q tol t = some found) (i : Nat) : Near ks i ((found.map Int.toNat).filter (· ≠ i)) := by
  obtain ⟨l, h1, -, h3⟩ := h
  obtain ⟨out, g1, g2⟩ := Rtree.find_good h1 [] q tol
  rw [hf] at g1
  obtain rfl : found = out := by simpa using g1
  intro j hj
  rw [List.mem_filter, List.mem_map] at hj
  obtain ⟨⟨z, hz, rfl⟩, hne⟩ := hj
  have hz' := g2.subset hz
  unfold Rtree.hits at hz'
  obtain ⟨y, hy, rfl⟩ := List.mem_map.1 hz'
  obtain ⟨k, x, a, b, c, e1, e2, e3, -⟩ := h3 y (List.mem_of_mem_filter hy)
  refine ⟨by simpa using hne, x, ?_, e3⟩
  rw [e1]; simpa using e2

/-- What a part of a call does: nodes are kept, new ones lie within the box of the surface, and the sum over the tetrahedra and the front is kept
unless the record `upset` is made. -/
structure Went (P : Par K) (st st' : St K) : Prop where
  box : st'.box = st.box
  old : ∀ id p, st.mesh.nodes.get? id = some p → st'.mesh.nodes.get? id = some p
  new : ∀ id p, st'.mesh.nodes.get? id = some p → st.mesh.nodes.get? id = some p ∨ st.box.containsPt p P.tol = true
  upset : st'.upset = false → st.upset = false
  sum : st'.upset = false → ∀ f, Sym3 f → total f st' = total f st

theorem Went.refl (st : St K) : Went P st st := ⟨rfl, fun _ _ h => h, fun _ _ h => Or.inl h, fun h => h, fun _ _ _ => rfl⟩

theorem Went.trans {st st' st'' : St K} (h : Went P st st') (h' : Went P st' st'') : Went P st st'' := by
  refine ⟨h'.box.trans h.box, fun id p hp => h'.old id p (h.old id p hp), fun id p hp => ?_, fun hu => h.upset (h'.upset hu),
    fun hu f hf => (h'.sum hu f hf).trans (h.sum (h'.upset hu) f hf)⟩
  rcases h'.new id p hp with g | g
  · exact h.new id p g
  · rw [h.box] at g; exact Or.inr g

theorem Inv.tick {st : St K} (h : Inv P st) : Inv P (tick P st) := ⟨h.next, h.mesh, h.front⟩

theorem Went.tick (st : St K) : Went P st (tick P st) := ⟨rfl, fun _ _ h => h, fun _ _ h => Or.inl h, fun h => h, fun _ _ _ => rfl⟩

theorem count_withTet (m : Mesh K) (a b c d : Int) : (withTet m a b c d).elements.count = m.elements.count + 1 := by
  show (m.elements.ids ++ [m.elements.nextId]).length = m.elements.ids.length + 1
  simp

/-- What a round does. -/
structure Round (P : Par K) (st st' : St K) : Prop where
  inv : Inv P st'
  went : Went P st st'
  size : (st'.front.length = st.front.length ∧ st'.mesh.elements.count = st.mesh.elements.count) ∨
    (st'.front.length = st.front.length + 3 ∧ st'.mesh.elements.count = st.mesh.elements.count + 1)

theorem addTet_round (hv : Rtree.VolOk P.vol) (ht : 0 ≤ P.tol) {st st' : St K} {sTris : List Nat} {k : Nat} {n4 : Int} {x : Fr K} (hi : Inv P st)
    (hs : Near (trs st.front) k sTris) (hx : st.front[k]? = some x) (hr : x.remove = false) (hu : Big (tol3 P) st.mesh.nodes x.n.a x.n.b x.n.c n4)
    (h : addTet P sTris st k n4 = .ok st') : Round P st st' ∧ st'.mesh.nodes = st.mesh.nodes ∧ st'.box = st.box := by
  obtain ⟨fr, t, rfl, h2, h3, h4⟩ := addTet_spec hv ht hi hs hx hr hu h
  exact ⟨⟨h2, ⟨rfl, fun _ _ h => h, fun _ _ h => Or.inl h, fun h => h, fun _ => h4⟩, Or.inr ⟨h3, count_withTet _ _ _ _ _⟩⟩, rfl, rfl⟩

theorem tryNew_spec (hv : Rtree.VolOk P.vol) (ht : 0 ≤ P.tol) {c : Pass K} {st st' : St K}
    {i : Nat} {x : Fr K} {sTris : List Nat} {sNodes : List Int} {n1 n2 n3 mid v new : Vec3 K} {base : K}
    (hi : Inv P st) (hs : Near (trs st.front) i sTris) (hx : st.front[i]? = some x) (hr : x.remove = false)
    (h1 : st.mesh.nodes.get? x.n.a = some n1) (h2 : st.mesh.nodes.get? x.n.b = some n2) (h3 : st.mesh.nodes.get? x.n.c = some n3)
    (h : tryNew P c st i x sTris sNodes n1 n2 n3 mid v new base = .ok st') : Round P st st' := by
  unfold tryNew at h
  simp only [bind_ok] at h
  obtain ⟨dmin, -, h⟩ := h
  generalize (if base * c.sizeFactor * c.shrinkFactor * (1 / 4) < dmin ∧ dmin < base * c.sizeFactor * c.expandFactor
    then mid + (dmin * (1 / 2)) • v else new) = w at h
  have same : st = st' → Round P st st' := by rintro rfl; exact ⟨hi, Went.refl _, Or.inl ⟨rfl, rfl⟩⟩
  split_ifs at h with hb
  · simp only [bind_ok] at h
    obtain ⟨q, -, h⟩ := h
    split_ifs at h with hq
    · simp only [bind_ok] at h
      obtain ⟨st1, hst1, h⟩ := h
      let nodes' := st.mesh.nodes.add st.mesh.nodes.nextId w
      have hext : ∀ id p, st.mesh.nodes.get? id = some p → nodes'.get? id = some p := by
        intro id p hp
        show (st.mesh.nodes.add st.mesh.nodes.nextId w).get? id = some p
        rw [Cont.get?_add, if_neg]
        · exact hp
        · rintro rfl
          rw [Cont.get?_nextId] at hp; simp at hp
      have hnew : nodes'.get? st.mesh.nodes.nextId = some w := by
        show (st.mesh.nodes.add st.mesh.nodes.nextId w).get? _ = _
        rw [Cont.get?_add, if_pos rfl]
      let stn : St K := { st with mesh := { st.mesh with nodes := nodes' } }
      have hin : Inv P stn := by
        refine ⟨hi.next, ⟨Cont.add_ok hi.mesh.nodes _ (Cont.nextId_not_mem hi.mesh.nodes), hi.mesh.faces, hi.mesh.els, ?_⟩, hi.front.ext hext⟩
        intro id e he
        obtain ⟨a, b, c, d, g1, g2⟩ := hi.mesh.tets id e he
        exact ⟨a, b, c, d, g1, g2.ext hext⟩
      obtain ⟨g1, g2, g3⟩ := addTet_round hv ht (st := stn) hin hs hx hr ⟨n1, n2, n3, w, hext _ _ h1, hext _ _ h2, hext _ _ h3, hnew, hb⟩ hst1
      split_ifs at h with h4
      · rw [pure_ok] at h
        subst h
        refine ⟨g1.inv, ⟨g3, fun id p hp => ?_, fun id p hp => ?_, g1.went.upset, g1.went.sum⟩, g1.size⟩
        · rw [g2]; exact hext id p hp
        · rw [g2] at hp
          have hp' : (st.mesh.nodes.add st.mesh.nodes.nextId w).get? id = some p := hp
          rw [Cont.get?_add] at hp'
          split_ifs at hp' with h5
          · obtain rfl : w = p := by simpa using hp'
            rw [g3] at h4
            exact Or.inr h4
          · exact Or.inl hp'
    · rw [pure_ok] at h
      exact same h
  · rw [pure_ok] at h
    exact same h

theorem advance_spec (hv : Rtree.VolOk P.vol) (ht : 0 ≤ P.tol) {c : Pass K} (hc : 0 ≤ c.minQuality) {st st' : St K}
    {i : Nat} {x : Fr K} (hi : Inv P st) (hx : st.front[i]? = some x) (hr : x.remove = false)
    (h : advance P c st i x = .ok st') : Round P st st' := by
  unfold advance at h
  simp only [bind_ok, nodeAt_ok, lift_ok] at h
  obtain ⟨n1, h1, n2, h2, n3, h3, i4, -, i5, -, i6, -, n4, h4, found, hfound, sNodes, -, close, hclose, h⟩ := h
  have hnear := near_found hi.front.tree hfound i
  cases close with
  | true =>
    rw [if_pos rfl] at h
    exact (addTet_round hv ht hi hnear hx hr ⟨n1, n2, n3, n4, h1, h2, h3, h4, closes_spec hclose⟩ h).1
  | false =>
    rw [if_neg (by simp)] at h
    simp only [bind_ok] at h
    obtain ⟨best, hbest, h⟩ := h
    by_cases hq : c.minQuality < best.1
    · rw [if_pos hq] at h
      rcases bestNode_spec hbest with g | ⟨p, g1, g2⟩
      · rw [g] at hq
        exact absurd hq (not_lt.2 hc)
      · let stm : St K := { st with inner := markInterior st.inner best.2 }
        have him : Inv P stm := ⟨hi.next, hi.mesh, hi.front⟩
        obtain ⟨k1, k2, k3⟩ := addTet_round hv ht (st := stm) him hnear hx hr ⟨n1, n2, n3, p, h1, h2, h3, g1, g2⟩ h
        exact ⟨k1.inv, ⟨k1.went.box, k1.went.old, k1.went.new, k1.went.upset, k1.went.sum⟩, k1.size⟩
    · rw [if_neg hq] at h
      by_cases h5 : c.addNodes = true
      · rw [if_pos h5] at h
        exact tryNew_spec hv ht hi hnear hx hr h1 h2 h3 h
      · rw [if_neg h5, pure_ok] at h
        subst h
        exact ⟨hi, Went.refl _, Or.inl ⟨rfl, rfl⟩⟩

/-- What a pass does. -/
structure Passed (P : Par K) (st st' : St K) : Prop where
  inv : Inv P st'
  went : Went P st st'
  size : ∃ n, st'.front.length = st.front.length + 3 * n ∧ st'.mesh.elements.count = st.mesh.elements.count + n
  limit : 0 < P.maxElem → (st.mesh.elements.count : Int) ≤ P.maxElem → (st'.mesh.elements.count : Int) ≤ P.maxElem

theorem Passed.refl {st : St K} (hi : Inv P st) : Passed P st st := ⟨hi, Went.refl _, ⟨0, by simp, by simp⟩, fun _ h => h⟩

theorem Passed.tick {st : St K} (hi : Inv P st) : Passed P st (tick P st) := ⟨hi.tick, Went.tick _, ⟨0, rfl, rfl⟩, fun _ h => h⟩

theorem Passed.trans {st st' st'' : St K} (h : Passed P st st') (h' : Passed P st' st'') : Passed P st st'' := by
  obtain ⟨n, h1, h2⟩ := h.size
  obtain ⟨n', h1', h2'⟩ := h'.size
  exact ⟨h'.inv, h.went.trans h'.went, ⟨n + n', by omega, by omega⟩, fun hp hl => h'.limit hp (h.limit hp hl)⟩

theorem Round.passed {st st' : St K} (h : Round P st st') (hl : ¬ (0 < P.maxElem ∧ P.maxElem ≤ (st.mesh.elements.count : Int))) : Passed P st st' := by
  refine ⟨h.inv, h.went, ?_, fun hp _ => ?_⟩
  · rcases h.size with ⟨h1, h2⟩ | ⟨h1, h2⟩
    · exact ⟨0, by omega, by omega⟩
    · exact ⟨1, by omega, by omega⟩
  · rcases h.size with ⟨h1, h2⟩ | ⟨h1, h2⟩ <;> rw [h2] <;> push_cast <;> omega

theorem pass_spec (hv : Rtree.VolOk P.vol) (ht : 0 ≤ P.tol) {c : Pass K} (hc : 0 ≤ c.minQuality)
    (fuel : Nat) : ∀ (i : Nat) (st st' : St K), Inv P st → pass P c fuel i st = .ok st' → Passed P st st' := by
  induction fuel with
  | zero => intro i st st' _ h; simp [pass] at h
  | succ fuel ih =>
    intro i st st' hi h
    unfold pass at h
    cases hx : st.front[i]? with
    | none =>
      rw [hx] at h
      simp only [pure_ok] at h
      subst h; exact Passed.tick hi
    | some x =>
      rw [hx] at h
      simp only at h
      split_ifs at h with h1 h2 h3
      · exact ih _ _ _ hi h
      · rw [pure_ok] at h
        subst h; exact Passed.tick hi
      · rw [bind_ok] at h
        obtain ⟨st1, hst1, h⟩ := h
        have g := advance_spec hv ht hc hi.tick hx (by simp only [not_or, Bool.not_eq_true] at h1; exact h1.1) hst1
        exact ((Passed.tick hi).trans (g.passed h3)).trans (ih _ _ _ g.inv h)

theorem runPasses_spec (hv : Rtree.VolOk P.vol) (ht : 0 ≤ P.tol) (fuel : Nat) (cs : List (Pass K)) : ∀ (st st' : St K), (∀ c ∈ cs, 0 ≤ c.minQuality) → Inv P st →
    runPasses P fuel cs st = .ok st' → Passed P st st' := by
  induction cs with
  | nil =>
    intro st st' _ hi h
    simp only [runPasses, pure_ok] at h
    subst h; exact Passed.refl hi
  | cons c cs ih =>
    intro st st' hc hi h
    simp only [runPasses, bind_ok] at h
    obtain ⟨st1, h1, h⟩ := h
    have g := pass_spec hv ht (hc c (by simp)) fuel 0 st st1 hi h1
    exact g.trans (ih _ _ (fun c hc' => hc c (by simp [hc'])) g.inv h)

end TetMesher
end ENigMA
