import Verif.Mesh.TriangleMesher
import Verif.Mesh.FacesLemmas
import Verif.Geometry.RtreeProps
import Mathlib.Algebra.BigOperators.Group.List.Basic
import Mathlib.Tactic.Abel

/-!
# Invariants of the advancing front

What each function of the mesher does to the edges of the front, to the tree and to the triangles.
-/

set_option linter.unusedSectionVars false
set_option autoImplicit false

namespace ENigMA
namespace TriMesher

variable {K : Type} [Field K] [LinearOrder K] [IsStrictOrderedRing K]

/-! ### Results -/

theorem bind_ok {α β : Type} {x : R α} {f : α → R β} {b : β} : (x >>= f) = .ok b ↔ ∃ a, x = .ok a ∧ f a = .ok b := by
  cases x with
  | error e => simp [bind, Except.bind]
  | ok a => simp [bind, Except.bind]

theorem pure_ok {α : Type} {a b : α} : (pure a : R α) = .ok b ↔ a = b := by simp [pure, Except.pure]

theorem lift_ok {α : Type} {o : Option α} {a : α} : lift o = .ok a ↔ o = some a := by cases o <;> simp [lift]

theorem edgeAt_ok {l : List (Edge K)} {k : Nat} {e : Edge K} : edgeAt l k = .ok e ↔ l[k]? = some e := lift_ok

theorem nodeAt_ok {m : Mesh K} {id : Int} {p : Vec3 K} : nodeAt m id = .ok p ↔ m.nodes.get? id = some p := lift_ok

/-! ### Edges -/

/-- What matters of an edge. -/
structure Ed where
  id : Nat
  remove : Bool
  n0 : Int
  n1 : Int

/-- What matters of an edge of the front. -/
def Edge.ed (e : Edge K) : Ed := ⟨e.id, e.remove, e.n0, e.n1⟩

/-- The edge marked as removed. -/
def Ed.gone (x : Ed) : Ed := { x with remove := true }

/-- What matters of the front. -/
abbrev eds (front : List (Edge K)) : List Ed := front.map Edge.ed

theorem eds_get {front : List (Edge K)} {k : Nat} {x : Ed} : (eds front)[k]? = some x ↔ ∃ e, front[k]? = some e ∧ e.ed = x := by
  simp [eds]

theorem eds_set {front : List (Edge K)} {k : Nat} {e : Edge K} (e' : Edge K) (h : front[k]? = some e) (he : e'.ed = e.ed) :
    eds (front.set k e') = eds front := by
  unfold eds
  rw [List.map_set]
  apply List.ext_getElem?
  intro j
  rw [List.getElem?_set]
  have hk : k < front.length := (List.getElem?_eq_some_iff.1 h).1
  split_ifs with h1 h2
  · subst h1
    simp [h, he]
  · simp at h2; omega
  · rfl

/-- The box of an edge is not empty. -/
theorem edgeBox_nonEmpty (P : Par K) (ht : 0 ≤ P.tol) (a b : Vec3 K) : (edgeBox P a b).NonEmpty := by
  unfold edgeBox BBox.grow BBox.ofPoints BBox.NonEmpty
  simp only [List.foldl_cons, List.foldl_nil, BBox.addCoordinate]
  refine ⟨?_, ?_, ?_⟩
  · have h1 := min_le_right (Min.min (BBox.reset P.big).min.x a.x) b.x
    have h2 := le_max_right (Max.max (BBox.reset P.big).max.x a.x) b.x
    linarith
  · have h1 := min_le_right (Min.min (BBox.reset P.big).min.y a.y) b.y
    have h2 := le_max_right (Max.max (BBox.reset P.big).max.y a.y) b.y
    linarith
  · have h1 := min_le_right (Min.min (BBox.reset P.big).min.z a.z) b.z
    have h2 := le_max_right (Max.max (BBox.reset P.big).max.z a.z) b.z
    linarith

theorem overlap_self {b : BBox K} (h : b.NonEmpty) : Rtree.overlap b b = true := by
  rw [Rtree.overlap_iff]
  exact ⟨⟨h.1, h.1⟩, ⟨h.2.1, h.2.1⟩, h.2.2, h.2.2⟩

/-- The tree holds edges of the front under their positions, each once, with the box of its ends; an edge of the tree that was
removed from the front joins a node to itself. -/
def TreeOk (P : Par K) (nodes : Cont (Vec3 K)) (ks : List Ed) (t : Rtree.Node K) : Prop :=
  ∃ l, Rtree.Good t l ∧ (l.map (·.2)).Nodup ∧ ∀ y ∈ l, ∃ (k : Nat) (x : Ed) (a b : Vec3 K), y.2 = (k : Int) ∧ ks[k]? = some x ∧
    (x.remove = false ∨ x.n0 = x.n1) ∧ nodes.get? x.n0 = some a ∧ nodes.get? x.n1 = some b ∧ y.1 = edgeBox P a b

theorem TreeOk.empty (P : Par K) (nodes : Cont (Vec3 K)) (ks : List Ed) : TreeOk P nodes ks Rtree.empty :=
  ⟨[], Rtree.good_empty, by simp, by simp⟩

theorem TreeOk.ext {P : Par K} {nodes nodes' : Cont (Vec3 K)} {ks : List Ed} {t : Rtree.Node K} (h : TreeOk P nodes ks t)
    (hn : ∀ id p, nodes.get? id = some p → nodes'.get? id = some p) : TreeOk P nodes' ks t := by
  obtain ⟨l, h1, h2, h3⟩ := h
  refine ⟨l, h1, h2, fun y hy => ?_⟩
  obtain ⟨k, x, a, b, g1, g2, g3, g4, g5, g6⟩ := h3 y hy
  exact ⟨k, x, a, b, g1, g2, g3, hn _ _ g4, hn _ _ g5, g6⟩

theorem TreeOk.add {P : Par K} (hv : Rtree.VolOk P.vol) (ht : 0 ≤ P.tol) {nodes : Cont (Vec3 K)} {ks : List Ed} {t t' : Rtree.Node K}
    (h : TreeOk P nodes ks t) (x : Ed) (hx : x.id = ks.length) (hr : x.remove = false) {a b : Vec3 K} (ha : nodes.get? x.n0 = some a)
    (hb : nodes.get? x.n1 = some b) (hadd : Rtree.add P.vol x.id (edgeBox P a b) t = some t') : TreeOk P nodes (ks ++ [x]) t' := by
  obtain ⟨l, h1, h2, h3⟩ := h
  obtain ⟨t'', k1, k2⟩ := Rtree.good_add hv h1 (x.id : Int) (edgeBox P a b) (edgeBox_nonEmpty P ht a b)
  rw [hadd] at k1
  obtain rfl : t' = t'' := by simpa using k1
  refine ⟨_, k2, ?_, ?_⟩
  · simp only [List.map_cons, List.nodup_cons]
    refine ⟨?_, h2⟩
    intro hm
    obtain ⟨y, hy, hid⟩ := List.mem_map.1 hm
    obtain ⟨k, z, -, -, g1, g2, -⟩ := h3 y hy
    have := (List.getElem?_eq_some_iff.1 g2).1
    omega
  · intro y hy
    rcases List.mem_cons.1 hy with rfl | hy
    · exact ⟨x.id, x, a, b, rfl, by rw [hx]; simp, Or.inl hr, ha, hb, rfl⟩
    · obtain ⟨k, z, a', b', g1, g2, g3⟩ := h3 y hy
      exact ⟨k, z, a', b', g1, by rw [List.getElem?_append_left (List.getElem?_eq_some_iff.1 g2).1]; exact g2, g3⟩

theorem TreeOk.remove {P : Par K} (hv : Rtree.VolOk P.vol) (ht : 0 ≤ P.tol) {nodes : Cont (Vec3 K)} {ks : List Ed} {t t' : Rtree.Node K}
    (h : TreeOk P nodes ks t) {k : Nat} {x : Ed} (hx : ks[k]? = some x) {a b : Vec3 K} (ha : nodes.get? x.n0 = some a)
    (hb : nodes.get? x.n1 = some b) (hrem : Rtree.remove P.vol k (edgeBox P a b) t = some t') : TreeOk P nodes (ks.set k x.gone) t' := by
  obtain ⟨l, h1, h2, h3⟩ := h
  obtain ⟨t'', k1, k2⟩ := Rtree.good_remove hv h1 (k : Int) (edgeBox P a b)
  rw [hrem] at k1
  obtain rfl : t' = t'' := by simpa using k1
  have key : ∀ l' : List (BBox K × Int), (∀ y ∈ l', y ∈ l) → (∀ y ∈ l', y.2 ≠ (k : Int)) → ∀ y ∈ l', ∃ (k' : Nat) (x' : Ed) (a b : Vec3 K), y.2 = (k' : Int) ∧
      (ks.set k x.gone)[k']? = some x' ∧
      (x'.remove = false ∨ x'.n0 = x'.n1) ∧ nodes.get? x'.n0 = some a ∧ nodes.get? x'.n1 = some b ∧ y.1 = edgeBox P a b := by
    intro l' hl' hne y hy
    obtain ⟨k', z, a', b', g1, g2, g3⟩ := h3 y (hl' y hy)
    refine ⟨k', z, a', b', g1, ?_, g3⟩
    rw [List.getElem?_set_ne]
    · exact g2
    · rintro rfl; exact hne y hy g1
  rcases k2 with ⟨g1, g2⟩ | ⟨b', l', g1, g2⟩
  · refine ⟨l, g1, h2, key l (fun _ h => h) ?_⟩
    intro y hy hk
    have := g2 y hy hk
    obtain ⟨k', z, a', b'', e1, e2, -, e4, e5, e6⟩ := h3 y hy
    obtain rfl : k = k' := by omega
    rw [hx] at e2
    obtain rfl : x = z := by simpa using e2
    rw [ha] at e4
    rw [hb] at e5
    simp only [Option.some.injEq] at e4 e5
    subst e4 e5
    rw [e6, overlap_self (edgeBox_nonEmpty P ht a b)] at this
    simp at this
  · have hnd : (((b', (k : Int)) :: l').map (·.2)).Nodup := (g1.map _).nodup_iff.1 h2
    simp only [List.map_cons, List.nodup_cons] at hnd
    refine ⟨l', g2, hnd.2, key l' (fun y hy => g1.symm.subset (by simp [hy])) ?_⟩
    intro y hy hk
    exact hnd.1 (List.mem_map.2 ⟨y, hy, hk⟩)

/-- Marking an edge that joins a node to itself as removed. -/
theorem TreeOk.drop {P : Par K} {nodes : Cont (Vec3 K)} {ks : List Ed} {t : Rtree.Node K}
    (h : TreeOk P nodes ks t) {k : Nat} {x : Ed} (hx : ks[k]? = some x) (hd : x.n0 = x.n1) : TreeOk P nodes (ks.set k x.gone) t := by
  obtain ⟨l, h1, h2, h3⟩ := h
  refine ⟨l, h1, h2, fun y hy => ?_⟩
  obtain ⟨k', z, a', b', g1, g2, g3, g4⟩ := h3 y hy
  by_cases hk : k = k'
  · subst hk
    rw [hx] at g2
    obtain rfl : x = z := by simpa using g2
    refine ⟨k, x.gone, a', b', g1, ?_, Or.inr hd, g4⟩
    rw [List.getElem?_set_self (List.getElem?_eq_some_iff.1 hx).1]
  · exact ⟨k', z, a', b', g1, by rw [List.getElem?_set_ne hk]; exact g2, g3, g4⟩

/-! ### Sums over the front -/

variable {G : Type} [AddCommGroup G]

/-- The value of an edge: nothing once it is removed. -/
def Ed.val (f : Int → Int → G) (x : Ed) : G := if x.remove then 0 else f x.n0 x.n1

/-- The sum over the edges of the front. -/
def fsum (f : Int → Int → G) (ks : List Ed) : G := (ks.map (Ed.val f)).sum

theorem fsum_set (f : Int → Int → G) {ks : List Ed} {k : Nat} {x : Ed} (hx : ks[k]? = some x) (y : Ed) :
    fsum f (ks.set k y) = fsum f ks - x.val f + y.val f := by
  induction ks generalizing k with
  | nil => simp at hx
  | cons z t ih =>
    cases k with
    | zero =>
      simp only [List.getElem?_cons_zero, Option.some.injEq] at hx
      subst hx
      simp only [fsum, List.set_cons_zero, List.map_cons, List.sum_cons]
      abel
    | succ k =>
      simp only [List.getElem?_cons_succ] at hx
      have := ih hx
      simp only [fsum, List.set_cons_succ, List.map_cons, List.sum_cons] at this ⊢
      rw [this]
      abel

theorem fsum_append (f : Int → Int → G) (ks ks' : List Ed) : fsum f (ks ++ ks') = fsum f ks + fsum f ks' := by simp [fsum]

/-! ### The invariant of the front -/

/-- The front, the tree and the nodes fit together; `tot` is the sum over the front. -/
structure FInv (P : Par K) (f : Int → Int → G) (tot : G) (nodes : Cont (Vec3 K)) (ks : List Ed) (t : Rtree.Node K) : Prop where
  ids : ∀ (k : Nat) x, ks[k]? = some x → x.id = k
  ends : ∀ x ∈ ks, (∃ a, nodes.get? x.n0 = some a) ∧ ∃ b, nodes.get? x.n1 = some b
  tree : TreeOk P nodes ks t
  sum : fsum f ks = tot

theorem FInv.setGone {P : Par K} {f : Int → Int → G} {tot : G} {nodes : Cont (Vec3 K)} {ks : List Ed} {t t' : Rtree.Node K}
    (h : FInv P f tot nodes ks t) {k : Nat} {x : Ed} (hx : ks[k]? = some x) (ht : TreeOk P nodes (ks.set k x.gone) t') :
    FInv P f (tot - x.val f) nodes (ks.set k x.gone) t' := by
  refine ⟨?_, ?_, ht, ?_⟩
  · intro j y hy
    rw [List.getElem?_set] at hy
    split_ifs at hy with h1 h2
    · subst h1
      obtain rfl : x.gone = y := by simpa using hy
      exact h.ids k x hx
    · exact h.ids j y hy
  · intro y hy
    rcases List.mem_or_eq_of_mem_set hy with h1 | rfl
    · exact h.ends y h1
    · exact h.ends x (List.mem_of_getElem? hx)
  · rw [fsum_set f hx, h.sum]
    simp [Ed.val, Ed.gone]

theorem FInv.drop {P : Par K} {f : Int → Int → G} (hf : ∀ a, f a a = 0) {tot : G} {nodes : Cont (Vec3 K)} {ks : List Ed} {t : Rtree.Node K}
    (h : FInv P f tot nodes ks t) {k : Nat} {x : Ed} (hx : ks[k]? = some x) (hd : x.n0 = x.n1) :
    FInv P f tot nodes (ks.set k x.gone) t := by
  have := h.setGone hx (h.tree.drop hx hd)
  have hv : x.val f = 0 := by simp [Ed.val, hd, hf]
  rwa [hv, sub_zero] at this

theorem FInv.ext {P : Par K} {f : Int → Int → G} {tot : G} {nodes nodes' : Cont (Vec3 K)} {ks : List Ed} {t : Rtree.Node K}
    (h : FInv P f tot nodes ks t) (hn : ∀ id p, nodes.get? id = some p → nodes'.get? id = some p) : FInv P f tot nodes' ks t :=
  ⟨h.ids, fun x hx => ⟨(h.ends x hx).1.imp fun _ => hn _ _, (h.ends x hx).2.imp fun _ => hn _ _⟩, h.tree.ext hn, h.sum⟩

theorem FInv.push {P : Par K} (hv : Rtree.VolOk P.vol) (ht : 0 ≤ P.tol) {f : Int → Int → G} {tot : G} {nodes : Cont (Vec3 K)} {ks : List Ed} {t t' : Rtree.Node K}
    (h : FInv P f tot nodes ks t) (x : Ed) (hx : x.id = ks.length) (hr : x.remove = false) {a b : Vec3 K} (ha : nodes.get? x.n0 = some a)
    (hb : nodes.get? x.n1 = some b) (hadd : Rtree.add P.vol x.id (edgeBox P a b) t = some t') :
    FInv P f (tot + f x.n0 x.n1) nodes (ks ++ [x]) t' := by
  refine ⟨?_, ?_, h.tree.add hv ht x hx hr ha hb hadd, ?_⟩
  · intro k y hy
    rw [List.getElem?_append] at hy
    split_ifs at hy with h1
    · exact h.ids k y hy
    · have : k = ks.length := by
        by_contra hne
        rw [List.getElem?_eq_none (by simp; omega)] at hy
        simp at hy
      subst this
      obtain rfl : x = y := by simpa using hy
      exact hx
  · intro y hy
    rcases List.mem_append.1 hy with h1 | h1
    · exact h.ends y h1
    · rw [List.mem_singleton] at h1
      subst h1
      exact ⟨⟨a, ha⟩, b, hb⟩
  · rw [fsum_append, h.sum]
    simp [fsum, Ed.val, hr]

/-! ### Functions that change the front -/

variable {P : Par K}

theorem addToTree_ok {st st' : St K} {e : Edge K} (h : addToTree P st e = .ok st') : ∃ a b t, st.mesh.nodes.get? e.n0 = some a ∧
    st.mesh.nodes.get? e.n1 = some b ∧ Rtree.add P.vol e.id (edgeBox P a b) st.tree = some t ∧ st' = { st with tree := t } := by
  unfold addToTree at h
  simp only [bind_ok, nodeAt_ok, lift_ok, pure_ok] at h
  obtain ⟨a, ha, b, hb, t, ht, rfl⟩ := h
  exact ⟨a, b, t, ha, hb, ht, rfl⟩

theorem removeEdge_ok {st st' : St K} {k : Nat} (h : removeEdge P st k = .ok st') : ∃ e a b t, st.front[k]? = some e ∧ st.mesh.nodes.get? e.n0 = some a ∧
    st.mesh.nodes.get? e.n1 = some b ∧ Rtree.remove P.vol e.id (edgeBox P a b) st.tree = some t ∧
    st' = { st with front := st.front.set k { e with remove := true }, tree := t } := by
  unfold removeEdge at h
  simp only [bind_ok, nodeAt_ok, edgeAt_ok, lift_ok, pure_ok] at h
  obtain ⟨e, he, a, ha, b, hb, t, ht, rfl⟩ := h
  exact ⟨e, a, b, t, he, ha, hb, ht, rfl⟩

theorem removeEdge_spec (hv : Rtree.VolOk P.vol) (ht : 0 ≤ P.tol) {f : Int → Int → G} {tot : G} {st st' : St K} {k : Nat}
    (hi : FInv P f tot st.mesh.nodes (eds st.front) st.tree) (h : removeEdge P st k = .ok st') :
    ∃ x, (eds st.front)[k]? = some x ∧ eds st'.front = (eds st.front).set k x.gone ∧ FInv P f (tot - x.val f) st.mesh.nodes (eds st'.front) st'.tree ∧
      st'.mesh = st.mesh ∧ st'.box = st.box ∧ st'.nextEdge = st.nextEdge ∧ st'.interior = st.interior := by
  obtain ⟨e, a, b, t, he, ha, hb, hrem, rfl⟩ := removeEdge_ok h
  have hx : (eds st.front)[k]? = some e.ed := eds_get.2 ⟨e, he, rfl⟩
  have hid : e.id = k := hi.ids k _ hx
  have hs : eds (st.front.set k { e with remove := true }) = (eds st.front).set k e.ed.gone := by
    unfold eds; rw [List.map_set]; rfl
  rw [hid] at hrem
  refine ⟨e.ed, hx, hs, ?_, rfl, rfl, rfl, rfl⟩
  simp only [hs]
  exact hi.setGone hx (hi.tree.remove hv ht hx ha hb hrem)

theorem sameNodes_iff (e o : Edge K) : sameNodes e o = true ↔ (o.n0 = e.n0 ∧ o.n1 = e.n1) ∨ (o.n0 = e.n1 ∧ o.n1 = e.n0) := by
  unfold sameNodes
  rw [Bool.and_eq_true, decide_eq_true_iff, decide_eq_true_iff]
  omega

theorem edgeExists_spec {front : List (Edge K)} {e : Edge K} {l : List Nat} {r : Option Nat} (h : edgeExists front e l = .ok r) :
    ∀ j, r = some j → j ∈ l ∧ j ≠ e.id ∧ ∃ o, front[j]? = some o ∧ sameNodes e o = true := by
  induction l with
  | nil =>
    simp only [edgeExists, pure_ok] at h
    subst h; simp
  | cons i t ih =>
    unfold edgeExists at h
    split_ifs at h with h1
    · intro j hj
      obtain ⟨g1, g2⟩ := ih h j hj
      exact ⟨by simp [g1], g2⟩
    · simp only [bind_ok, edgeAt_ok] at h
      obtain ⟨o, ho, h⟩ := h
      split_ifs at h with h2
      · rw [pure_ok] at h
        intro j hj
        rw [← h, Option.some.injEq] at hj
        subst hj
        exact ⟨by simp, h1, o, ho, h2⟩
      · intro j hj
        obtain ⟨g1, g2⟩ := ih h j hj
        exact ⟨by simp [g1], g2⟩

/-- What is needed of the function summed over the edges: it changes sign with the direction, is its own negative, and vanishes from a node to itself. -/
structure Chain (f : Int → Int → G) : Prop where
  anti : ∀ a b, f a b + f b a = 0
  two : ∀ a b, f a b + f a b = 0
  zero : ∀ a, f a a = 0

theorem cleanOne_spec (hv : Rtree.VolOk P.vol) (ht : 0 ≤ P.tol) {f : Int → Int → G} (hf : Chain f) {tot : G} {st st' : St K} {sEdges : List Nat} {k : Nat} {b : Bool}
    (hi : FInv P f tot st.mesh.nodes (eds st.front) st.tree) {x : Ed} (hk : (eds st.front)[k]? = some x)
    (hs : ∀ j ∈ sEdges, ∀ y, (eds st.front)[j]? = some y → (y.n0 = x.n0 ∧ y.n1 = x.n1) ∨ (y.n0 = x.n1 ∧ y.n1 = x.n0) → y.remove = false)
    (h : cleanOne P sEdges st k = .ok (st', b)) :
    FInv P f tot st.mesh.nodes (eds st'.front) st'.tree ∧ st'.mesh = st.mesh ∧ st'.box = st.box ∧ st'.nextEdge = st.nextEdge ∧ st'.interior = st.interior ∧
    (eds st'.front = eds st.front ∨ ∃ j y, j ∈ sEdges ∧ j ≠ k ∧ (eds st.front)[j]? = some y ∧ ((y.n0 = x.n0 ∧ y.n1 = x.n1) ∨ (y.n0 = x.n1 ∧ y.n1 = x.n0)) ∧
      eds st'.front = ((eds st.front).set k x.gone).set j y.gone) := by
  unfold cleanOne at h
  simp only [bind_ok, edgeAt_ok] at h
  obtain ⟨e, he, h⟩ := h
  have hex : e.ed = x := by
    have := eds_get.2 ⟨e, he, rfl⟩
    rw [hk] at this
    simpa using this.symm
  subst hex
  have hid : e.id = k := hi.ids k _ hk
  split_ifs at h with h1
  · rw [pure_ok, Prod.mk.injEq] at h
    obtain ⟨rfl, rfl⟩ := h
    exact ⟨hi, rfl, rfl, rfl, rfl, Or.inl rfl⟩
  · rw [bind_ok] at h
    obtain ⟨r, hr, h⟩ := h
    cases r with
    | none =>
      simp only [pure_ok, Prod.mk.injEq] at h
      obtain ⟨rfl, rfl⟩ := h
      exact ⟨hi, rfl, rfl, rfl, rfl, Or.inl rfl⟩
    | some j =>
      obtain ⟨hj, hne, o, ho, hsame⟩ := edgeExists_spec hr j rfl
      rw [hid] at hne
      rw [sameNodes_iff] at hsame
      simp only [bind_ok, pure_ok, Prod.mk.injEq] at h
      obtain ⟨st1, hr1, st2, hr2, rfl, rfl⟩ := h
      obtain ⟨x1, g1, g2, g3, g4, g5, g6, g7⟩ := removeEdge_spec hv ht hi hr1
      rw [hk] at g1
      obtain rfl : e.ed = x1 := by simpa using g1
      rw [← g4] at g3
      obtain ⟨y, k1, k2, k3, k4, k5, k6, k7⟩ := removeEdge_spec hv ht g3 hr2
      rw [g2, List.getElem?_set_ne hne.symm] at k1
      have hy : y = o.ed := by
        have := eds_get.2 ⟨o, ho, rfl⟩
        rw [k1] at this
        simpa using this
      subst hy
      have hlive := hs j hj o.ed k1 hsame
      have hval : tot - e.ed.val f - o.ed.val f = tot := by
        have h1' : e.ed.remove = false := by simpa [Edge.ed] using h1
        simp only [Ed.val, h1', hlive, Bool.false_eq_true, if_false]
        have h2 := hf.two e.n0 e.n1
        have h3 := hf.anti e.n0 e.n1
        have hn : ∀ a b : Int, o.ed.n0 = a → o.ed.n1 = b → f o.ed.n0 o.ed.n1 = f a b := by intro a b h h'; rw [h, h']
        rcases hsame with ⟨s1, s2⟩ | ⟨s1, s2⟩
        · rw [hn _ _ s1 s2, sub_sub]
          show tot - (f e.n0 e.n1 + f e.n0 e.n1) = tot
          rw [h2, sub_zero]
        · rw [hn _ _ s1 s2, sub_sub]
          show tot - (f e.n0 e.n1 + f e.n1 e.n0) = tot
          rw [h3, sub_zero]
      rw [hval] at k3
      refine ⟨by rw [← g4]; exact k3, k4.trans g4, k5.trans g5, k6.trans g6, k7.trans g7, Or.inr ⟨j, o.ed, hj, hne, k1, hsame, ?_⟩⟩
      rw [k2, g2]

/-! ### Connectivity -/

theorem adjustInner_spec {i : Nat} {e : Edge K} {l : List Nat} {front front' : List (Edge K)} (h : adjustInner i e l front = .ok front') :
    eds front' = eds front := by
  induction l generalizing front with
  | nil =>
    simp only [adjustInner, pure_ok] at h
    rw [h]
  | cons j t ih =>
    unfold adjustInner at h
    split_ifs at h with h1
    · exact ih h
    · simp only [bind_ok, edgeAt_ok] at h
      obtain ⟨o, ho, h⟩ := h
      split_ifs at h with h2 h3 h4
      · exact ih h
      · simp only [bind_ok, edgeAt_ok] at h
        obtain ⟨x, hx, y, hy, h⟩ := h
        exact (ih h).trans ((eds_set _ hy (by rfl)).trans (eds_set _ hx (by rfl)))
      · simp only [bind_ok, edgeAt_ok] at h
        obtain ⟨x, hx, y, hy, h⟩ := h
        exact (ih h).trans ((eds_set _ hy (by rfl)).trans (eds_set _ hx (by rfl)))
      · exact ih h

theorem adjustOne_spec {sEdges : List Nat} {front front' : List (Edge K)} {i : Nat} (h : adjustOne sEdges front i = .ok front') :
    eds front' = eds front ∨ ∃ x, (eds front)[i]? = some x ∧ x.n0 = x.n1 ∧ eds front' = (eds front).set i x.gone := by
  unfold adjustOne at h
  simp only [bind_ok, edgeAt_ok] at h
  obtain ⟨e, he, h⟩ := h
  split_ifs at h with h1 h2
  · rw [pure_ok] at h
    rw [h]; exact Or.inl rfl
  · rw [pure_ok] at h
    refine Or.inr ⟨e.ed, eds_get.2 ⟨e, he, rfl⟩, h2, ?_⟩
    rw [← h]
    unfold eds
    rw [List.map_set]
    rfl
  · simp only [bind_ok, lift_ok] at h
    obtain ⟨p, hp, q, hq, h⟩ := h
    split_ifs at h with h3
    · exact Or.inl (adjustInner_spec h)
    · rw [pure_ok] at h
      rw [h]; exact Or.inl rfl

theorem adjustLoop_spec {f : Int → Int → G} (hf : Chain f) {tot : G} {nodes : Cont (Vec3 K)} {t : Rtree.Node K} {sEdges l : List Nat} {front front' : List (Edge K)}
    (hi : FInv P f tot nodes (eds front) t) (h : l.foldlM (adjustOne sEdges) front = .ok front') :
    FInv P f tot nodes (eds front') t ∧ front'.length = front.length := by
  induction l generalizing front with
  | nil =>
    simp only [List.foldlM_nil, pure_ok] at h
    subst h
    exact ⟨hi, rfl⟩
  | cons i l ih =>
    simp only [List.foldlM_cons, bind_ok] at h
    obtain ⟨fr, h1, h⟩ := h
    have key : FInv P f tot nodes (eds fr) t ∧ fr.length = front.length := by
      rcases adjustOne_spec h1 with g | ⟨x, g1, g2, g3⟩
      · exact ⟨by rw [g]; exact hi, by simpa [eds] using congrArg List.length g⟩
      · exact ⟨by rw [g3]; exact hi.drop hf.zero g1 g2, by simpa [eds] using congrArg List.length g3⟩
    obtain ⟨k1, k2⟩ := ih key.1 h
    exact ⟨k1, k2.trans key.2⟩

/-! ### One more triangle -/

/-- The element of a triangle. -/
def triElem (t : Int × Int × Int) : Elem := ⟨.triangle, [t.1, t.2.1, t.2.2], []⟩

/-- The nodes of the triangle are stored, and it is traversed counter-clockwise seen from above. -/
def Up (nodes : Cont (Vec3 K)) (t : Int × Int × Int) : Prop :=
  ∃ a b c, nodes.get? t.1 = some a ∧ nodes.get? t.2.1 = some b ∧ nodes.get? t.2.2 = some c ∧ 0 < (Tri.rawNormal ⟨a, b, c⟩).z

/-- The mesh consists of these triangles. -/
structure MInv (m : Mesh K) (tris : List (Int × Int × Int)) : Prop where
  nodes : m.nodes.Ok
  faces : m.faces = Cont.empty
  els : Mesh.Filled m.elements (tris.map triElem)
  up : ∀ t ∈ tris, Up m.nodes t

/-- The sum over the sides of the triangles. -/
def tsum (f : Int → Int → G) (tris : List (Int × Int × Int)) : G := (tris.map fun t => f t.1 t.2.1 + f t.2.1 t.2.2 + f t.2.2 t.1).sum

theorem facesUp_raw (ht : 0 ≤ P.tol) {a b c : Vec3 K} (h : facesUp P a b c) : 0 < (Tri.rawNormal ⟨a, b, c⟩).z := by
  unfold facesUp Tri.normal Tri.normalArea at h
  simp only at h
  split_ifs at h with h1
  · have hn : 0 < P.nrm (Tri.rawNormal ⟨a, b, c⟩) := by linarith
    have h2 : P.tol < (P.nrm (Tri.rawNormal ⟨a, b, c⟩))⁻¹ * (Tri.rawNormal ⟨a, b, c⟩).z := h
    by_contra hz
    push Not at hz
    have := mul_nonpos_of_nonneg_of_nonpos (inv_nonneg.2 hn.le) hz
    linarith
  · exact lt_of_le_of_lt ht h

theorem raw_ne {a b c : Vec3 K} (h : 0 < (Tri.rawNormal ⟨a, b, c⟩).z) : a ≠ b ∧ b ≠ c ∧ c ≠ a := by
  refine ⟨?_, ?_, ?_⟩
  · rintro rfl; simp [Tri.rawNormal] at h
  · rintro rfl
    simp only [Tri.rawNormal, Vec3.cross_z, Vec3.sub_x, Vec3.sub_y] at h
    nlinarith
  · rintro rfl; simp [Tri.rawNormal] at h

/-- The state of the mesher between two rounds. -/
structure Inv (P : Par K) (f : Int → Int → G) (tot : G) (n0 : Nat) (st : St K) (tris : List (Int × Int × Int)) : Prop where
  next : st.nextEdge = st.front.length
  len : st.front.length = n0 + 2 * tris.length
  mesh : MInv st.mesh tris
  front : FInv P f (tot - tsum f tris) st.mesh.nodes (eds st.front) st.tree

/-- What a round leaves alone. -/
structure Kept (st st' : St K) : Prop where
  nodes : st'.mesh.nodes = st.mesh.nodes
  box : st'.box = st.box

theorem newEdge_ok {m : Mesh K} {id : Nat} {a b : Int} {p n : Option Nat} {e : Edge K} (h : newEdge m id a b p n = .ok e) :
    ∃ u v, m.nodes.get? a = some u ∧ m.nodes.get? b = some v ∧ e = ⟨id, false, a, b, p, n, GLine.mk2 u v⟩ := by
  unfold newEdge at h
  simp only [bind_ok, nodeAt_ok, pure_ok] at h
  obtain ⟨u, hu, v, hv, rfl⟩ := h
  exact ⟨u, v, hu, hv, rfl⟩

/-- The edges found in the tree. -/
def Near (ks : List Ed) (i : Nat) (sEdges : List Nat) : Prop :=
  ∀ j ∈ sEdges, j ≠ i ∧ ∃ x, ks[j]? = some x ∧ (x.remove = false ∨ x.n0 = x.n1)

theorem MInv.withTriangle {m : Mesh K} {tris : List (Int × Int × Int)} (h : MInv m tris) {a b c : Int} (hu : Up m.nodes (a, b, c)) :
    MInv (withTriangle m a b c) (tris ++ [(a, b, c)]) := by
  refine ⟨h.nodes, h.faces, ?_, ?_⟩
  · have := h.els.add (triElem (a, b, c))
    simpa [TriMesher.withTriangle, triElem] using this
  · intro t ht
    rcases List.mem_append.1 ht with h1 | h1
    · exact h.up t h1
    · rw [List.mem_singleton] at h1
      subst h1; exact hu

theorem addTriangle_spec (hv : Rtree.VolOk P.vol) (ht : 0 ≤ P.tol) {f : Int → Int → G} (hf : Chain f) {tot : G} {m0 : Nat} {st st' : St K}
    {tris : List (Int × Int × Int)} {sEdges : List Nat} {k : Nat} {n3 : Int} {e : Edge K} (hi : Inv P f tot m0 st tris)
    (hs : Near (eds st.front) k sEdges) (he : st.front[k]? = some e) (hr : e.remove = false) (hu : Up st.mesh.nodes (e.n0, e.n1, n3))
    (h : addTriangle P sEdges st k n3 = .ok st') : Inv P f tot m0 st' (tris ++ [(e.n0, e.n1, n3)]) ∧ Kept st st' := by
  obtain ⟨a, b, c, ha, hb, hc, hz⟩ := hu
  have hpos := raw_ne hz
  have hd : ∀ i j p q, st.mesh.nodes.get? i = some p → st.mesh.nodes.get? j = some q → p ≠ q → i ≠ j := by
    rintro i j p q h1 h2 h3 rfl
    rw [h1] at h2; exact h3 (by simpa using h2)
  have n01 : e.n0 ≠ e.n1 := hd _ _ _ _ ha hb hpos.1
  have n12 : e.n1 ≠ n3 := hd _ _ _ _ hb hc hpos.2.1
  have n20 : n3 ≠ e.n0 := hd _ _ _ _ hc ha hpos.2.2
  unfold addTriangle at h
  simp only [bind_ok, edgeAt_ok] at h
  obtain ⟨e0, he0, h⟩ := h
  rw [he] at he0
  obtain rfl : e = e0 := by simpa using he0
  rw [if_neg (by rintro (h | h); exacts [n20 h, n12 h.symm])] at h
  simp only [bind_ok, edgeAt_ok, lift_ok] at h
  obtain ⟨ip, hip, iq, hiq, p, hp, q0, hq0, e1, he1, st1, hst1, e', he', e2, he2, q, hq, st2, hst2, st3, hst3, h⟩ := h
  obtain ⟨u1, v1, hu1, hv1, rfl⟩ := newEdge_ok he1
  obtain ⟨a1, b1, t1, ha1, hb1, hadd1, rfl⟩ := addToTree_ok hst1
  obtain ⟨u2, v2, hu2, hv2, rfl⟩ := newEdge_ok he2
  obtain ⟨a2, b2, t2, ha2, hb2, hadd2, rfl⟩ := addToTree_ok hst2
  simp only at *
  have hnodes : (withTriangle st.mesh e.n0 e.n1 n3).nodes = st.mesh.nodes := rfl
  rw [hnodes] at *
  let x1 : Ed := ⟨st.nextEdge, false, e.n0, n3⟩
  let x2 : Ed := ⟨st.nextEdge + 1, false, n3, e.n1⟩
  have hl : st.nextEdge = (eds st.front).length := by rw [hi.next]; simp [eds]
  have f1 := hi.front.push hv ht x1 hl rfl ha1 hb1 hadd1
  have f2 := f1.push hv ht x2 (by simp [x2, hl]) rfl ha2 hb2 hadd2
  have eq1 : eds (st.front.set ip { p with next := some st.nextEdge }) = eds st.front := eds_set _ hp (by rfl)
  have eq2 : eds ((st.front.set ip { p with next := some st.nextEdge }).set iq { q with prev := some (st.nextEdge + 1) }) = eds st.front := by
    exact (eds_set _ hq (by rfl)).trans eq1
  obtain ⟨e3, a3, b3, t3, he3, ha3, hb3, hrem, rfl⟩ := removeEdge_ok hst3
  simp only at *
  have hx3 : (eds st.front)[k]? = some e3.ed := by rw [← eq2]; exact eds_get.2 ⟨e3, he3, rfl⟩
  have hx : (eds st.front)[k]? = some e.ed := eds_get.2 ⟨e, he, rfl⟩
  have hee : e3.ed = e.ed := by rw [hx] at hx3; simpa using hx3.symm
  have hklt : k < (eds st.front).length := (List.getElem?_eq_some_iff.1 hx).1
  have hid3 : e3.id = k := hi.front.ids k _ hx3
  have hx3' : (eds st.front ++ [x1] ++ [x2])[k]? = some e3.ed := by
    rw [List.append_assoc, List.getElem?_append_left hklt]; exact hx3
  rw [hid3] at hrem
  have f3 := f2.setGone hx3' (f2.tree.remove hv ht hx3' ha3 hb3 hrem)
  have hset : (eds st.front ++ [x1] ++ [x2]).set k e3.ed.gone = (eds st.front).set k e3.ed.gone ++ [x1, x2] := by
    rw [List.append_assoc, List.set_append_left _ _ hklt]; rfl
  rw [hset] at f3
  have hval : e3.ed.val f = f e.n0 e.n1 := by
    rw [hee]; simp [Ed.val, Edge.ed, hr]
  have htot : tot - tsum f tris + f x1.n0 x1.n1 + f x2.n0 x2.n1 - e3.ed.val f = tot - tsum f (tris ++ [(e.n0, e.n1, n3)]) := by
    rw [hval]
    simp only [tsum, List.map_append, List.sum_append, List.map_cons, List.map_nil, List.sum_cons, List.sum_nil, x1, x2]
    have h1 := hf.anti e.n0 n3
    have h2 := hf.anti n3 e.n1
    have h3 := hf.two e.n0 e.n1
    have e1 : f n3 e.n0 = - f e.n0 n3 := by rw [eq_neg_iff_add_eq_zero, add_comm]; exact h1
    have e2 : f e.n1 n3 = - f n3 e.n1 := by rw [eq_neg_iff_add_eq_zero, add_comm]; exact h2
    rw [e1, e2]
    abel
  rw [htot] at f3
  -- the two rounds of `cleanDuplicateEdges`
  let front3 := ((st.front.set ip { p with next := some st.nextEdge }).set iq { q with prev := some (st.nextEdge + 1) }).set k { e3 with remove := true }
  let E1 : Edge K := ⟨st.nextEdge, false, e.n0, n3, e.prev, some (st.nextEdge + 1), GLine.mk2 u1 v1⟩
  let E2 : Edge K := ⟨st.nextEdge + 1, false, n3, e.n1, some st.nextEdge, e'.next, GLine.mk2 u2 v2⟩
  have hfr3 : eds (front3 ++ [E1, E2]) = (eds st.front).set k e3.ed.gone ++ [x1, x2] := by
    unfold eds
    rw [List.map_append]
    show eds (List.set _ k _) ++ _ = _
    unfold eds
    rw [List.map_set]
    show (eds _).set k _ ++ _ = _
    rw [eq2]; rfl
  have hlen3 : (front3 ++ [E1, E2]).length = st.front.length + 2 := by simp [front3]
  have hm := hi.mesh.withTriangle (a := e.n0) (b := e.n1) (c := n3) ⟨a, b, c, ha, hb, hc, hz⟩
  let st3 : St K := { st with front := front3 ++ [E1, E2], tree := t3, mesh := withTriangle st.mesh e.n0 e.n1 n3, nextEdge := st.nextEdge + 2 }
  have h' : cleanDuplicateEdges P sEdges st3 = .ok st' := h
  have f3' : FInv P f (tot - tsum f (tris ++ [(e.n0, e.n1, n3)])) st.mesh.nodes (eds st3.front) st3.tree := by
    show FInv P f _ _ (eds (front3 ++ [E1, E2])) t3
    rw [hfr3]; exact f3
  clear h f1 f2 f3
  -- the edges found in the tree are still where they were
  have hnear : ∀ j ∈ sEdges, j < (eds st.front).length ∧ ∃ x, (eds st3.front)[j]? = some x ∧ (x.remove = false ∨ x.n0 = x.n1) := by
    intro j hj
    obtain ⟨g1, x, g2, g3⟩ := hs j hj
    have hjlt := (List.getElem?_eq_some_iff.1 g2).1
    refine ⟨hjlt, x, ?_, g3⟩
    show (eds (front3 ++ [E1, E2]))[j]? = _
    rw [hfr3, List.getElem?_append_left (by simpa using hjlt), List.getElem?_set_ne g1.symm]
    exact g2
  have hL : st3.nextEdge = st3.front.length := by
    show st.nextEdge + 2 = (front3 ++ [E1, E2]).length
    rw [hlen3, hi.next]
  have hlenE : (eds st.front).length = st.nextEdge := hl.symm
  have hg2 : (eds st3.front)[st.nextEdge + 1]? = some x2 := by
    show (eds (front3 ++ [E1, E2]))[st.nextEdge + 1]? = _
    rw [hfr3, List.getElem?_append_right (by simp only [List.length_set]; omega)]
    simp only [List.length_set, hlenE]
    simp
  have hg1 : (eds st3.front)[st.nextEdge]? = some x1 := by
    show (eds (front3 ++ [E1, E2]))[st.nextEdge]? = _
    rw [hfr3, List.getElem?_append_right (by simp only [List.length_set]; omega)]
    simp only [List.length_set, hlenE]
    simp
  unfold cleanDuplicateEdges at h'
  rw [if_neg (by show ¬ st.nextEdge + 2 < 2; omega)] at h'
  simp only [bind_ok] at h'
  obtain ⟨⟨st4, b4⟩, hc4, ⟨st5, b5⟩, hc5, h'⟩ := h'
  have i4 : st3.nextEdge - 0 - 1 = st.nextEdge + 1 := by show st.nextEdge + 2 - 0 - 1 = _; omega
  rw [i4] at hc4
  obtain ⟨c1, c2, c3, c4, c5, c6⟩ := cleanOne_spec hv ht hf (st := st3) f3' hg2 (by
    intro j hj y hy hsame
    obtain ⟨-, x, g2, g3⟩ := hnear j hj
    rw [hy] at g2
    obtain rfl : y = x := by simpa using g2
    rcases g3 with g3 | g3
    · exact g3
    · exfalso
      simp only [x2] at hsame
      rcases hsame with ⟨s1, s2⟩ | ⟨s1, s2⟩
      · exact n12 (by rw [← s1, ← s2, g3])
      · exact n12 (by rw [← s1, ← s2, g3])) hc4
  have hst3n : st3.mesh.nodes = st.mesh.nodes := rfl
  have i5 : st4.nextEdge - 1 - 1 = st.nextEdge := by
    rw [c4]; show st.nextEdge + 2 - 1 - 1 = _; omega
  simp only at hc5
  rw [i5] at hc5
  have hg1' : (eds st4.front)[st.nextEdge]? = some x1 := by
    rcases c6 with c6 | ⟨j, y, hj, hjk, hy, -, c6⟩
    · rw [c6]; exact hg1
    · rw [c6, List.getElem?_set_ne, List.getElem?_set_ne (by omega)]
      · exact hg1
      · have := (hnear j hj).1
        rw [hlenE] at this
        omega
  have c1' : FInv P f (tot - tsum f (tris ++ [(e.n0, e.n1, n3)])) st4.mesh.nodes (eds st4.front) st4.tree := by rw [c2]; exact c1
  obtain ⟨d1, d2, d3, d4, d5, d6⟩ := cleanOne_spec hv ht hf (st := st4) c1' hg1' (by
    intro j hj y hy hsame
    obtain ⟨hjlt, x, g2, g3⟩ := hnear j hj
    rw [hlenE] at hjlt
    have nondeg : x.n0 = y.n0 → x.n1 = y.n1 → x.remove = false := by
      intro s3 s4
      rcases g3 with g3 | g3
      · exact g3
      · exfalso
        rw [s3, s4] at g3
        simp only [x1] at hsame
        rcases hsame with ⟨s1, s2⟩ | ⟨s1, s2⟩
        · exact n20 (by rw [← s1, ← s2, g3])
        · exact n20 (by rw [← s1, ← s2, g3])
    rcases c6 with c6 | ⟨j', y', hj', hjk', hy', hs', c6⟩
    · rw [c6, g2] at hy
      obtain rfl : x = y := by simpa using hy
      exact nondeg rfl rfl
    · rw [c6] at hy
      by_cases hjj : j' = j
      · exfalso
        subst hjj
        rw [List.getElem?_set_self (by
          rw [List.length_set]
          exact (List.getElem?_eq_some_iff.1 hy').1)] at hy
        obtain rfl : y'.gone = y := by simpa using hy
        simp only [x1, x2, Ed.gone] at hsame hs'
        rcases hsame with ⟨s1, s2⟩ | ⟨s1, s2⟩ <;> rcases hs' with ⟨s3, s4⟩ | ⟨s3, s4⟩ <;> omega
      · rw [List.getElem?_set_ne hjj, List.getElem?_set_ne (by omega), g2] at hy
        obtain rfl : x = y := by simpa using hy
        exact nondeg rfl rfl) hc5
  have hlen5 : st5.front.length = st3.front.length := by
    have l4 : (eds st4.front).length = (eds st3.front).length := by
      rcases c6 with c6 | ⟨j', y', -, -, -, -, c6⟩ <;> simp [c6]
    have l5 : (eds st5.front).length = (eds st4.front).length := by
      rcases d6 with d6 | ⟨j', y', -, -, -, -, d6⟩ <;> simp [d6]
    simpa [eds] using l5.trans l4
  have hmesh5 : st5.mesh = withTriangle st.mesh e.n0 e.n1 n3 := d2.trans c2
  have hlenfin : st3.front.length = m0 + 2 * (tris ++ [(e.n0, e.n1, n3)]).length := by
    show (front3 ++ [E1, E2]).length = _
    rw [hlen3, hi.len]; simp; omega
  have hnext5 : st5.nextEdge = st3.nextEdge := d4.trans c4
  have hbox5 : st5.box = st.box := d3.trans c3
  have hn5 : st5.mesh.nodes = st.mesh.nodes := by rw [hmesh5]; rfl
  have hn4 : st4.mesh.nodes = st5.mesh.nodes := by rw [d2]
  rw [hn4] at d1
  split_ifs at h' with h6
  · simp only [bind_ok, pure_ok] at h'
    obtain ⟨fr, hfr, rfl⟩ := h'
    obtain ⟨g1, g2⟩ := adjustLoop_spec hf d1 hfr
    exact ⟨⟨by show st5.nextEdge = fr.length; rw [hnext5, g2, hlen5, hL], by show fr.length = _; rw [g2, hlen5, hlenfin],
      by show MInv st5.mesh _; rw [hmesh5]; exact hm, g1⟩, hn5, hbox5⟩
  · rw [pure_ok] at h'
    subst h'
    exact ⟨⟨by rw [hnext5, hlen5, hL], by rw [hlen5, hlenfin], by rw [hmesh5]; exact hm, d1⟩, hn5, hbox5⟩

/-! ### One round -/

theorem bestNode_spec {st : St K} {e e1 e2 : Edge K} {sEdges : List Nat} {sNodes : List Int} {a b new : Vec3 K} {reach : K} {l : List Int} {best0 best : K × Int}
    (h : bestNode P st e e1 e2 sEdges sNodes a b new reach l best0 = .ok best) :
    best = best0 ∨ ∃ p, st.mesh.nodes.get? best.2 = some p ∧ facesUp P a b p := by
  induction l generalizing best0 with
  | nil =>
    simp only [bestNode, pure_ok] at h
    exact Or.inl h.symm
  | cons n t ih =>
    unfold bestNode at h
    by_cases h1 : n = e.n0 ∨ n = e.n1
    · rw [if_pos h1] at h
      exact ih h
    · rw [if_neg h1] at h
      simp only [bind_ok, nodeAt_ok] at h
      obtain ⟨p, hp, h⟩ := h
      generalize (if n = e2.n1 ∧ obtuse P e.line.vec e2.line.vec = true then (2 : K)
        else if n = e1.n0 ∧ obtuse P e.line.vec e1.line.vec = true then 2 else 1) = fac at h
      split_ifs at h with h2
      · simp only [bind_ok] at h
        obtain ⟨q, hq, h⟩ := h
        rcases ih h with g | g
        · split_ifs at g with h3
          · refine Or.inr ⟨p, ?_, h2.2⟩
            rw [g]; exact hp
          · exact Or.inl g
        · exact Or.inr g
      · exact ih h

theorem closes_spec {st : St K} {e : Edge K} {sEdges : List Nat} {sNodes : List Int} {a b : Vec3 K} {n3 n4 : Int}
    (h : closes P st e sEdges sNodes a b n3 n4 = .ok true) : ∃ p, st.mesh.nodes.get? n3 = some p ∧ facesUp P a b p := by
  unfold closes at h
  split_ifs at h with h1
  · simp only [bind_ok, nodeAt_ok] at h
    obtain ⟨p, hp, h⟩ := h
    split_ifs at h with h2
    · exact ⟨p, hp, h2⟩
    · simp [pure_ok] at h
  · simp [pure_ok] at h

theorem near_found {nodes : Cont (Vec3 K)} {ks : List Ed} {t : Rtree.Node K} (h : TreeOk P nodes ks t) {q : BBox K} {tol : K} {found : List Int}
    (hf : Rtree.find [] q tol t = some found) (i : Nat) : Near ks i ((found.map Int.toNat).filter (· ≠ i)) := by
  obtain ⟨l, h1, -, h3⟩ := h
  obtain ⟨out, g1, g2⟩ := Rtree.find_good h1 [] q tol
  rw [hf] at g1
  obtain rfl : found = out := by simpa using g1
  intro j hj
  rw [List.mem_filter, List.mem_map] at hj
  obtain ⟨⟨z, hz, rfl⟩, hne⟩ := hj
  have hz' := g2.subset hz
  unfold Rtree.hits at hz'
  obtain ⟨y, hy, rfl⟩ := List.mem_map.1 hz'
  obtain ⟨k, x, a, b, e1, e2, e3, -⟩ := h3 y (List.mem_of_mem_filter hy)
  refine ⟨by simpa using hne, x, ?_, e3⟩
  rw [e1]; simpa using e2

/-- The nodes after a round: those before, and perhaps new ones within the box of the front, under new ids. -/
structure Grown (P : Par K) (st st' : St K) : Prop where
  box : st'.box = st.box
  old : ∀ id p, st.mesh.nodes.get? id = some p → st'.mesh.nodes.get? id = some p
  new : ∀ id p, st'.mesh.nodes.get? id = some p → st.mesh.nodes.get? id = some p ∨ st.box.containsPt p P.tol = true

theorem Grown.refl (st : St K) : Grown P st st := ⟨rfl, fun _ _ h => h, fun _ _ h => Or.inl h⟩

theorem Grown.trans {st st' st'' : St K} (h : Grown P st st') (h' : Grown P st' st'') : Grown P st st'' := by
  refine ⟨h'.box.trans h.box, fun id p hp => h'.old id p (h.old id p hp), fun id p hp => ?_⟩
  rcases h'.new id p hp with g | g
  · exact h.new id p g
  · rw [h.box] at g; exact Or.inr g

theorem Kept.grown {st st' : St K} (h : Kept st st') : Grown P st st' :=
  ⟨h.box, fun id p hp => by rw [h.nodes]; exact hp, fun id p hp => by rw [h.nodes] at hp; exact Or.inl hp⟩

/-- The state after a round: unchanged, or with one more triangle. -/
def Stepped (P : Par K) (f : Int → Int → G) (tot : G) (m0 : Nat) (st : St K) (tris : List (Int × Int × Int)) (st' : St K) : Prop :=
  Grown P st st' ∧ (Inv P f tot m0 st' tris ∨ ∃ t, Inv P f tot m0 st' (tris ++ [t]))

theorem tryNew_spec (hv : Rtree.VolOk P.vol) (ht : 0 ≤ P.tol) {f : Int → Int → G} (hf : Chain f) {tot : G} {m0 : Nat} {c : Pass K} {st st' : St K}
    {tris : List (Int × Int × Int)} {i : Nat} {e : Edge K} {sEdges : List Nat} {sNodes : List Int} {a b mid v new : Vec3 K} {base : K}
    (hi : Inv P f tot m0 st tris) (hs : Near (eds st.front) i sEdges) (he : st.front[i]? = some e) (hr : e.remove = false)
    (ha : st.mesh.nodes.get? e.n0 = some a) (hb : st.mesh.nodes.get? e.n1 = some b)
    (h : tryNew P c st i e sEdges sNodes a b mid v new base = .ok st') : Stepped P f tot m0 st tris st' := by
  unfold tryNew at h
  simp only [bind_ok] at h
  obtain ⟨dmin, -, h⟩ := h
  generalize (if base * c.sizeFactor * c.shrinkFactor * (1 / 4) < dmin ∧ dmin < base * c.sizeFactor * c.expandFactor
    then mid + (dmin * (1 / 2)) • v else new) = w at h
  split_ifs at h with h1
  · simp only [bind_ok] at h
    obtain ⟨q, -, h⟩ := h
    split_ifs at h with h2
    · simp only [bind_ok] at h
      obtain ⟨st1, hst1, h⟩ := h
      let nodes' := st.mesh.nodes.add st.mesh.nodes.nextId w
      have hext : ∀ id p, st.mesh.nodes.get? id = some p → nodes'.get? id = some p := by
        intro id p hp
        show (st.mesh.nodes.add st.mesh.nodes.nextId w).get? id = some p
        rw [Cont.get?_add, if_neg]
        · exact hp
        · rintro rfl
          rw [Cont.get?_nextId] at hp; simp at hp
      have hnew : nodes'.get? st.mesh.nodes.nextId = some w := by
        show (st.mesh.nodes.add st.mesh.nodes.nextId w).get? _ = _
        rw [Cont.get?_add, if_pos rfl]
      let stn : St K := { st with mesh := { st.mesh with nodes := nodes' } }
      have hin : Inv P f tot m0 stn tris := by
        refine ⟨hi.next, hi.len, ⟨Cont.add_ok hi.mesh.nodes _ (Cont.nextId_not_mem hi.mesh.nodes), hi.mesh.faces, hi.mesh.els, ?_⟩, hi.front.ext hext⟩
        intro t htm
        obtain ⟨a, b, c, g1, g2, g3, g4⟩ := hi.mesh.up t htm
        exact ⟨a, b, c, hext _ _ g1, hext _ _ g2, hext _ _ g3, g4⟩
      obtain ⟨g1, g2⟩ := addTriangle_spec hv ht hf (st := stn) hin hs he hr
        ⟨a, b, w, hext _ _ ha, hext _ _ hb, hnew, facesUp_raw ht h1⟩ hst1
      split_ifs at h with h3
      · rw [pure_ok] at h
        subst h
        refine ⟨⟨g2.box, fun id p hp => ?_, fun id p hp => ?_⟩, Or.inr ⟨_, g1⟩⟩
        · rw [g2.nodes]; exact hext id p hp
        · rw [g2.nodes] at hp
          have hp' : (st.mesh.nodes.add st.mesh.nodes.nextId w).get? id = some p := hp
          rw [Cont.get?_add] at hp'
          split_ifs at hp' with h4
          · obtain rfl : w = p := by simpa using hp'
            rw [g2.box] at h3
            exact Or.inr h3
          · exact Or.inl hp'
    · rw [pure_ok] at h
      subst h
      exact ⟨Grown.refl _, Or.inl hi⟩
  · rw [pure_ok] at h
    subst h
    exact ⟨Grown.refl _, Or.inl hi⟩

theorem advance_spec (hv : Rtree.VolOk P.vol) (ht : 0 ≤ P.tol) {f : Int → Int → G} (hf : Chain f) {tot : G} {m0 : Nat} {c : Pass K} (hc : 0 ≤ c.minQuality) {st st' : St K}
    {tris : List (Int × Int × Int)} {i : Nat} {e : Edge K} (hi : Inv P f tot m0 st tris) (he : st.front[i]? = some e) (hr : e.remove = false)
    (h : advance P c st i e = .ok st') : Stepped P f tot m0 st tris st' := by
  unfold advance at h
  simp only [bind_ok, nodeAt_ok, lift_ok] at h
  obtain ⟨a, ha, b, hb, e1, he1, e2, he2, found, hfound, sNodes, -, close, hclose, h⟩ := h
  have hnear := near_found hi.front.tree hfound i
  cases close with
  | true =>
    rw [if_pos rfl] at h
    obtain ⟨p, hp, h3⟩ := closes_spec hclose
    obtain ⟨g1, g2⟩ := addTriangle_spec hv ht hf hi hnear he hr ⟨a, b, p, ha, hb, hp, facesUp_raw ht h3⟩ h
    exact ⟨g2.grown, Or.inr ⟨_, g1⟩⟩
  | false =>
    rw [if_neg (by simp)] at h
    simp only [bind_ok] at h
    obtain ⟨best, hbest, h⟩ := h
    by_cases h2 : c.minQuality < best.1
    · rw [if_pos h2] at h
      rcases bestNode_spec hbest with g | ⟨p, g1, g2⟩
      · rw [g] at h2
        exact absurd h2 (not_lt.2 hc)
      · let stm : St K := { st with interior := markInterior st.interior best.2 }
        have him : Inv P f tot m0 stm tris := ⟨hi.next, hi.len, hi.mesh, hi.front⟩
        obtain ⟨k1, k2⟩ := addTriangle_spec hv ht hf (st := stm) him hnear he hr ⟨a, b, p, ha, hb, g1, facesUp_raw ht g2⟩ h
        exact ⟨⟨k2.box, (k2.grown (P := P)).old, (k2.grown (P := P)).new⟩, Or.inr ⟨_, k1⟩⟩
    · rw [if_neg h2] at h
      by_cases h3 : c.addNodes = true
      · rw [if_pos h3] at h
        exact tryNew_spec hv ht hf hi hnear he hr ha hb h
      · rw [if_neg h3, pure_ok] at h
        subst h
        exact ⟨Grown.refl _, Or.inl hi⟩

theorem pass_spec (hv : Rtree.VolOk P.vol) (ht : 0 ≤ P.tol) {f : Int → Int → G} (hf : Chain f) {tot : G} {m0 : Nat} {c : Pass K} (hc : 0 ≤ c.minQuality)
    (fuel : Nat) : ∀ (i : Nat) (st st' : St K) (tris : List (Int × Int × Int)), Inv P f tot m0 st tris → pass P c fuel i st = .ok st' →
    Grown P st st' ∧ ∃ tris', Inv P f tot m0 st' (tris ++ tris') := by
  induction fuel with
  | zero => intro i st st' tris _ h; simp [pass] at h
  | succ fuel ih =>
    intro i st st' tris hi h
    unfold pass at h
    have stop : ∀ s, (pure s : R (St K)) = .ok st' → s = st → Grown P st st' ∧ ∃ tris', Inv P f tot m0 st' (tris ++ tris') := by
      rintro s hs rfl
      rw [pure_ok] at hs
      subst hs
      exact ⟨Grown.refl _, [], by rwa [List.append_nil]⟩
    cases he : st.front[i]? with
    | none => rw [he] at h; exact stop st h rfl
    | some e =>
      rw [he] at h
      simp only at h
      split_ifs at h with h1 h2 h3
      · exact ih _ _ _ _ hi h
      · exact stop st h rfl
      · rw [bind_ok] at h
        obtain ⟨st1, hst1, h⟩ := h
        obtain ⟨g1, g2⟩ := advance_spec hv ht hf hc hi he (by simpa using h1) hst1
        rcases g2 with g2 | ⟨t, g2⟩
        · obtain ⟨k1, tris', k2⟩ := ih _ _ _ _ g2 h
          exact ⟨g1.trans k1, tris', k2⟩
        · obtain ⟨k1, tris', k2⟩ := ih _ _ _ _ g2 h
          exact ⟨g1.trans k1, t :: tris', by simpa using k2⟩

theorem passes_spec (hv : Rtree.VolOk P.vol) (ht : 0 ≤ P.tol) {f : Int → Int → G} (hf : Chain f) {tot : G} {m0 : Nat} {fuel : Nat} {st st' : St K}
    (hi : Inv P f tot m0 st []) (h : passes P fuel st = .ok st') :
    Grown P st st' ∧ ∃ tris, Inv P f tot m0 st' tris ∧ tsum f tris = tot := by
  unfold passes at h
  simp only [bind_ok] at h
  obtain ⟨st1, h1, st2, h2, st3, h3, h⟩ := h
  split_ifs at h with hu
  rw [pure_ok] at h
  subst h
  obtain ⟨g1, t1, k1⟩ := pass_spec hv ht hf (by norm_num [pass1]) fuel _ _ _ _ hi h1
  obtain ⟨g2, t2, k2⟩ := pass_spec hv ht hf (by norm_num [pass2]) fuel _ _ _ _ k1 h2
  obtain ⟨g3, t3, k3⟩ := pass_spec hv ht hf (by norm_num [pass3]) fuel _ _ _ _ k2 h3
  refine ⟨(g1.trans g2).trans g3, _, k3, ?_⟩
  have hz : fsum f (eds st3.front) = 0 := by
    unfold fsum
    apply List.sum_eq_zero
    intro x hx
    obtain ⟨y, hy, rfl⟩ := List.mem_map.1 hx
    obtain ⟨e, he, rfl⟩ := List.mem_map.1 hy
    have : e.remove = true := by
      by_contra hne
      apply hu
      unfold unfinished
      rw [List.any_eq_true]
      exact ⟨e, he, by simpa using hne⟩
    simp [Ed.val, Edge.ed, this]
  have := k3.front.sum
  rw [hz] at this
  exact (sub_eq_zero.1 this.symm).symm

/-! ### The start -/

/-- The beams of a mesh: the two node ids of each. -/
def beamIds (src : Mesh K) : List Int → List (Int × Int)
  | [] => []
  | id :: t =>
    match src.elements.get? id with
    | some ⟨.beam, [a, b], _⟩ => (a, b) :: beamIds src t
    | _ => beamIds src t

theorem copyNodes_spec {src : Mesh K} (l : List Int) (hl : l.Nodup) : ∀ (s r : Mesh K × BBox K), copyNodes src l s = .ok r →
    s.1.nodes.Ok → (∀ id ∈ l, id ∉ s.1.nodes.ids) →
    r.1.nodes.Ok ∧ r.1.faces = s.1.faces ∧ r.1.elements = s.1.elements ∧ (∀ id, r.1.nodes.get? id = if id ∈ l then src.nodes.get? id else s.1.nodes.get? id) ∧
      r.2 = (l.filterMap src.nodes.get?).foldl BBox.addCoordinate s.2 := by
  induction l with
  | nil =>
    intro s r h hs _
    simp only [copyNodes, pure_ok] at h
    subst h
    exact ⟨hs, rfl, rfl, by simp, rfl⟩
  | cons i t ih =>
    intro s r h hs hd
    rw [List.nodup_cons] at hl
    unfold copyNodes at h
    simp only [bind_ok, nodeAt_ok] at h
    obtain ⟨p, hp, h⟩ := h
    obtain ⟨g1, g2, g3, g4, g5⟩ := ih hl.2 _ r h (Cont.add_ok hs p (hd i (by simp))) (by
      intro id hid
      show id ∉ s.1.nodes.ids ++ [i]
      rw [List.mem_append, List.mem_singleton, not_or]
      exact ⟨hd id (by simp [hid]), by rintro rfl; exact hl.1 hid⟩)
    refine ⟨g1, g2, g3, fun id => ?_, ?_⟩
    · rw [g4]
      by_cases h1 : id ∈ t
      · simp [h1]
      · rw [if_neg h1]
        show (s.1.nodes.add i p).get? id = _
        rw [Cont.get?_add]
        by_cases h2 : id = i
        · subst h2; simp [hp]
        · simp [h1, h2]
    · rw [g5]; simp [hp]

theorem addBeams_spec (hv : Rtree.VolOk P.vol) (ht : 0 ≤ P.tol) {f : Int → Int → G} {src : Mesh K} {ids : SMap Int Nat} (l : List Int) :
    ∀ (st st' : St K) (tot : G), FInv P f tot st.mesh.nodes (eds st.front) st.tree → st.nextEdge = st.front.length → addBeams P src ids l st = .ok st' →
    FInv P f (tot + ((beamIds src l).map fun p => f p.1 p.2).sum) st'.mesh.nodes (eds st'.front) st'.tree ∧ st'.nextEdge = st'.front.length ∧
      st'.front.length = st.front.length + (beamIds src l).length ∧ st'.mesh = st.mesh ∧ st'.box = st.box ∧ st'.interior = st.interior := by
  induction l with
  | nil =>
    intro st st' tot hi hn h
    simp only [addBeams, pure_ok] at h
    subst h
    simpa [beamIds] using ⟨hi, hn⟩
  | cons id t ih =>
    intro st st' tot hi hn h
    unfold addBeams at h
    simp only [bind_ok, lift_ok] at h
    obtain ⟨el, hel, h⟩ := h
    obtain ⟨ty, ns, fs⟩ := el
    simp only at h
    split_ifs at h with h1
    · subst h1
      split at h
      · rename_i a b fa fb
        simp only [bind_ok] at h
        obtain ⟨e, he, p, hp, n, hnn, st1, hst1, h⟩ := h
        obtain ⟨u, v, hu, hvv, rfl⟩ := newEdge_ok he
        obtain ⟨a1, b1, t1, ha1, hb1, hadd, rfl⟩ := addToTree_ok hst1
        have hpush := hi.push hv ht ⟨st.nextEdge, false, a, b⟩ (by simp [eds, hn]) rfl ha1 hb1 hadd
        obtain ⟨g1, g2, g3, g4, g5, g6⟩ := ih _ st' _ (by simpa [eds, Edge.ed] using hpush) (by simp [hn]) h
        have hb : beamIds src (id :: t) = (a, b) :: beamIds src t := by simp [beamIds, hel]
        refine ⟨?_, g2, ?_, g4, g5, g6⟩
        · rw [hb, List.map_cons, List.sum_cons, ← add_assoc]; exact g1
        · rw [g3, hb]; simp; omega
      · simp at h
    · have hb : beamIds src (id :: t) = beamIds src t := by
        simp only [beamIds, hel]
        split
        · rename_i h2
          simp only [Option.some.injEq, Elem.mk.injEq] at h2
          exact absurd h2.1 h1
        · rfl
      rw [hb]
      exact ih st st' tot hi hn h

theorem addInterior_spec (l : List (Vec3 K)) : ∀ st : St K, st.mesh.nodes.Ok →
    (addInterior l st).mesh.nodes.Ok ∧ (addInterior l st).mesh.faces = st.mesh.faces ∧ (addInterior l st).mesh.elements = st.mesh.elements ∧
    (addInterior l st).front = st.front ∧ (addInterior l st).tree = st.tree ∧ (addInterior l st).nextEdge = st.nextEdge ∧ (addInterior l st).box = st.box ∧
    (∀ id p, st.mesh.nodes.get? id = some p → (addInterior l st).mesh.nodes.get? id = some p) ∧
    (∀ id p, (addInterior l st).mesh.nodes.get? id = some p → st.mesh.nodes.get? id = some p ∨ p ∈ l) := by
  induction l with
  | nil => intro st h; exact ⟨h, rfl, rfl, rfl, rfl, rfl, rfl, fun _ _ h => h, fun _ _ h => Or.inl h⟩
  | cons q t ih =>
    intro st h
    obtain ⟨g1, g2, g3, g4, g5, g6, g7, g8, g9⟩ := ih { st with
      mesh := { st.mesh with nodes := st.mesh.nodes.add st.mesh.nodes.nextId q }, interior := st.interior ++ [(st.mesh.nodes.nextId, false)] }
      (Cont.add_ok h q (Cont.nextId_not_mem h))
    refine ⟨g1, g2, g3, g4, g5, g6, g7, fun id p hp => g8 id p ?_, fun id p hp => ?_⟩
    · show (st.mesh.nodes.add st.mesh.nodes.nextId q).get? id = some p
      rw [Cont.get?_add, if_neg]
      · exact hp
      · rintro rfl
        rw [Cont.get?_nextId] at hp; simp at hp
    · rcases g9 id p hp with k | k
      · have k' : (st.mesh.nodes.add st.mesh.nodes.nextId q).get? id = some p := k
        rw [Cont.get?_add] at k'
        split_ifs at k' with k2
        · right; simp only [Option.some.injEq] at k'; simp [k']
        · exact Or.inl k'
      · right; simp [k]

theorem start_spec (hv : Rtree.VolOk P.vol) (ht : 0 ≤ P.tol) {f : Int → Int → G} {src : Mesh K} (hs : src.nodes.Ok) {points : List (Vec3 K)} {old : List (Int × Bool)} {st : St K}
    (h : start P src points old = .ok st) :
    Inv P f (((beamIds src src.elements.ids).map fun p => f p.1 p.2).sum) (beamIds src src.elements.ids).length st [] ∧
    (∀ id p, src.nodes.get? id = some p → st.mesh.nodes.get? id = some p) ∧
    (∀ id p, st.mesh.nodes.get? id = some p → src.nodes.get? id = some p ∨ p ∈ points) ∧
    st.box = (BBox.ofPoints P.big (src.nodes.ids.filterMap src.nodes.get?)).grow P.tol := by
  unfold start at h
  simp only [bind_ok] at h
  obtain ⟨⟨m, box⟩, hcopy, ids, -, st1, hst1, h⟩ := h
  rw [pure_ok] at h
  subst h
  obtain ⟨c1, c2, c3, c4, c5⟩ := copyNodes_spec src.nodes.ids hs.1 _ _ hcopy Cont.empty_ok (by simp [Mesh.empty, Cont.empty])
  have hget : ∀ id, m.nodes.get? id = src.nodes.get? id := by
    intro id
    rw [c4]
    split_ifs with h1
    · rfl
    · cases hid : src.nodes.get? id with
      | none => rfl
      | some p => exact absurd ((hs.2 id).2 ⟨p, hid⟩) h1
  obtain ⟨b1, b2, b3, b4, b5, b6⟩ := addBeams_spec (f := f) hv ht src.elements.ids _ st1 0 (by
    refine ⟨by simp [eds], by simp [eds], TreeOk.empty _ _ _, by simp [fsum, eds]⟩) (by simp) hst1
  have b4' : st1.mesh = m := b4
  obtain ⟨i1, i2, i3, i4, i5, i6, i7, i8, i9⟩ := addInterior_spec points st1 (by rw [b4']; exact c1)
  refine ⟨⟨?_, ?_, ⟨i1, ?_, ?_, by simp⟩, ?_⟩, ?_, ?_, ?_⟩
  · rw [i6, i4, b2]
  · rw [i4, b3]; simp
  · rw [i2, b4', c2]; rfl
  · rw [i3, b4', c3]; exact Mesh.filled_empty
  · rw [i4, i5]
    rw [zero_add] at b1
    simpa [tsum] using b1.ext i8
  · intro id p hp
    apply i8
    rw [b4', hget]; exact hp
  · intro id p hp
    rcases i9 id p hp with g | g
    · rw [b4', hget] at g; exact Or.inl g
    · exact Or.inr g
  · rw [i7, b5]
    show box.grow P.tol = _
    have : box = _ := c5
    rw [this]; rfl

/-! ### No function but the loop over the front runs out of rounds -/

/-- The result is not the end of the fuel. -/
def NF {α : Type} (x : R α) : Prop := x ≠ .error .fuel

theorem NF.bind {α β : Type} {x : R α} {f : α → R β} (hx : NF x) (hf : ∀ a, x = .ok a → NF (f a)) : NF (x >>= f) := by
  cases x with
  | error e => simpa [NF, Bind.bind, Except.bind] using hx
  | ok a => exact hf a rfl

theorem nf_pure {α : Type} (a : α) : NF (pure a : R α) := by simp [NF, pure, Except.pure]
theorem nf_ok {α : Type} (a : α) : NF (.ok a : R α) := by simp [NF]
theorem nf_lift {α : Type} (o : Option α) : NF (lift o) := by cases o <;> simp [NF, lift]
theorem nf_edgeAt (l : List (Edge K)) (k : Nat) : NF (edgeAt l k) := nf_lift _
theorem nf_nodeAt (m : Mesh K) (k : Int) : NF (nodeAt m k) := nf_lift _

theorem nf_addToTree (st : St K) (e : Edge K) : NF (addToTree P st e) :=
  (nf_nodeAt _ _).bind fun _ _ => (nf_nodeAt _ _).bind fun _ _ => (nf_lift _).bind fun _ _ => nf_pure _

theorem nf_removeEdge (st : St K) (k : Nat) : NF (removeEdge P st k) :=
  (nf_edgeAt _ _).bind fun _ _ => (nf_nodeAt _ _).bind fun _ _ => (nf_nodeAt _ _).bind fun _ _ => (nf_lift _).bind fun _ _ => nf_pure _

theorem nf_edgeExists (front : List (Edge K)) (e : Edge K) (l : List Nat) : NF (edgeExists front e l) := by
  induction l with
  | nil => exact nf_pure _
  | cons j t ih =>
    unfold edgeExists
    split_ifs
    · exact ih
    · refine (nf_edgeAt _ _).bind fun o _ => ?_
      split_ifs
      · exact nf_pure _
      · exact ih

theorem nf_edgeOk (front : List (Edge K)) (e : Edge K) (a b : Vec3 K) (l : List Nat) : NF (edgeOk P front e a b l) := by
  induction l with
  | nil => exact nf_pure _
  | cons j t ih =>
    unfold edgeOk
    split_ifs
    · exact ih
    · refine (nf_edgeAt _ _).bind fun o _ => ?_
      split_ifs
      · exact ih
      · split
        · exact nf_pure _
        · exact ih

theorem nf_closestLoop (front : List (Edge K)) (l : List Nat) : ∀ r, NF (closestLoop front l r) := by
  induction l with
  | nil => exact fun _ => nf_pure _
  | cons j t ih =>
    intro r
    unfold closestLoop
    refine (nf_edgeAt _ _).bind fun o _ => ?_
    split_ifs
    · exact ih _
    · exact ih _

theorem nf_findClosestNodes (st : St K) (l : List Nat) : NF (findClosestNodes st l) :=
  (nf_closestLoop _ _ _).bind fun _ _ => nf_pure _

theorem nf_shortestLoop (front : List (Edge K)) (line : GLine K) (cur : Nat) (l : List Nat) : ∀ d, NF (shortestLoop P front line cur l d) := by
  induction l with
  | nil => exact fun _ => nf_pure _
  | cons j t ih =>
    intro d
    unfold shortestLoop
    by_cases h1 : j = cur
    · rw [if_pos h1]; exact ih _
    · rw [if_neg h1]
      refine (nf_edgeAt _ _).bind fun o _ => ?_
      by_cases h2 : o.remove = true
      · rw [if_pos h2]; exact ih _
      · rw [if_neg h2]
        split
        · exact ih _
        · exact ih _

theorem nf_containsNode (m : Mesh K) (a b c : Vec3 K) (l : List Int) : NF (containsNode P m a b c l) := by
  induction l with
  | nil => exact nf_pure _
  | cons j t ih =>
    unfold containsNode
    refine (nf_nodeAt _ _).bind fun o _ => ?_
    simp only
    split_ifs
    · exact ih
    · exact nf_pure _
    · exact ih

theorem nf_adjustInner (i : Nat) (e : Edge K) (l : List Nat) : ∀ front : List (Edge K), NF (adjustInner i e l front) := by
  induction l with
  | nil => exact fun _ => nf_pure _
  | cons j t ih =>
    intro front
    unfold adjustInner
    split_ifs
    · exact ih _
    · refine (nf_edgeAt _ _).bind fun o _ => ?_
      split_ifs
      · exact ih _
      · exact (nf_edgeAt _ _).bind fun _ _ => (nf_edgeAt _ _).bind fun _ _ => ih _
      · exact (nf_edgeAt _ _).bind fun _ _ => (nf_edgeAt _ _).bind fun _ _ => ih _
      · exact ih _

theorem nf_adjustOne (sEdges : List Nat) (front : List (Edge K)) (i : Nat) : NF (adjustOne sEdges front i) := by
  unfold adjustOne
  refine (nf_edgeAt _ _).bind fun o _ => ?_
  split_ifs
  · exact nf_pure _
  · exact nf_pure _
  · refine (nf_lift _).bind fun _ _ => (nf_lift _).bind fun _ _ => ?_
    split_ifs
    · exact nf_adjustInner _ _ _ _
    · exact nf_pure _

theorem nf_foldlM {α β : Type} (g : β → α → R β) (hg : ∀ b a, NF (g b a)) (l : List α) : ∀ b, NF (l.foldlM g b) := by
  induction l with
  | nil => exact fun _ => nf_pure _
  | cons a t ih => intro b; rw [List.foldlM_cons]; exact (hg b a).bind fun _ _ => ih _

theorem nf_cleanOne (sEdges : List Nat) (st : St K) (k : Nat) : NF (cleanOne P sEdges st k) := by
  unfold cleanOne
  refine (nf_edgeAt _ _).bind fun o _ => ?_
  split_ifs
  · exact nf_pure _
  · refine (nf_edgeExists _ _ _).bind fun r _ => ?_
    cases r with
    | none => exact nf_pure _
    | some j => exact (nf_removeEdge _ _).bind fun _ _ => (nf_removeEdge _ _).bind fun _ _ => nf_pure _

theorem nf_clean (sEdges : List Nat) (st : St K) : NF (cleanDuplicateEdges P sEdges st) := by
  unfold cleanDuplicateEdges
  split_ifs
  · exact nf_pure _
  · refine (nf_cleanOne _ _ _).bind fun r _ => ?_
    obtain ⟨s1, b1⟩ := r
    refine (nf_cleanOne _ _ _).bind fun r _ => ?_
    obtain ⟨s2, b2⟩ := r
    simp only
    split_ifs
    · exact (nf_foldlM _ (nf_adjustOne _) _ _).bind fun _ _ => nf_pure _
    · exact nf_pure _

theorem nf_newEdge (m : Mesh K) (id : Nat) (a b : Int) (p n : Option Nat) : NF (newEdge m id a b p n) :=
  (nf_nodeAt _ _).bind fun _ _ => (nf_nodeAt _ _).bind fun _ _ => nf_pure _

theorem nf_addTriangle (sEdges : List Nat) (st : St K) (k : Nat) (n : Int) : NF (addTriangle P sEdges st k n) := by
  unfold addTriangle
  refine (nf_edgeAt _ _).bind fun o _ => ?_
  split_ifs
  · exact nf_pure _
  · exact (nf_lift _).bind fun _ _ => (nf_lift _).bind fun _ _ => (nf_edgeAt _ _).bind fun _ _ => (nf_edgeAt _ _).bind fun _ _ =>
      (nf_newEdge _ _ _ _ _ _).bind fun _ _ => (nf_addToTree _ _).bind fun _ _ => (nf_edgeAt _ _).bind fun _ _ =>
      (nf_newEdge _ _ _ _ _ _).bind fun _ _ => (nf_edgeAt _ _).bind fun _ _ => (nf_addToTree _ _).bind fun _ _ =>
      (nf_removeEdge _ _).bind fun _ _ => nf_clean _ _

theorem nf_score (st : St K) (e : Edge K) (sEdges : List Nat) (sNodes : List Int) (a b c : Vec3 K) (bound : K) : NF (score P st e sEdges sNodes a b c bound) := by
  have last : ∀ q : K, NF (if bound < q then do pure (if ← containsNode P st.mesh a b c sNodes then q - 2 else q) else (pure q : R K)) := by
    intro q
    split_ifs
    · exact (nf_containsNode _ _ _ _ _).bind fun _ _ => nf_pure _
    · exact nf_pure _
  have mid : ∀ q : K, NF (do
      let q ← if bound < q then do pure (if ← edgeOk P st.front e b c sEdges then q else q - 2) else pure q
      if bound < q then do pure (if ← containsNode P st.mesh a b c sNodes then q - 2 else q) else (pure q : R K)) := by
    intro q
    split_ifs
    · exact (nf_edgeOk _ _ _ _ _).bind fun _ _ => (nf_pure _).bind fun _ _ => last _
    · exact (nf_pure _).bind fun _ _ => last _
  unfold score
  simp only
  split_ifs
  · exact (nf_edgeOk _ _ _ _ _).bind fun _ _ => (nf_pure _).bind fun _ _ => mid _
  · exact (nf_pure _).bind fun _ _ => mid _

theorem nf_bestNode (st : St K) (e e1 e2 : Edge K) (sEdges : List Nat) (sNodes : List Int) (a b new : Vec3 K) (reach : K) (l : List Int) :
    ∀ best, NF (bestNode P st e e1 e2 sEdges sNodes a b new reach l best) := by
  induction l with
  | nil => exact fun _ => nf_pure _
  | cons n t ih =>
    intro best
    unfold bestNode
    by_cases h1 : n = e.n0 ∨ n = e.n1
    · rw [if_pos h1]; exact ih _
    · rw [if_neg h1]
      refine (nf_nodeAt _ _).bind fun p _ => ?_
      simp only
      split_ifs
      all_goals first
        | exact (nf_score _ _ _ _ _ _ _ _).bind fun _ _ => ih _
        | exact ih _

theorem nf_closes (st : St K) (e : Edge K) (sEdges : List Nat) (sNodes : List Int) (a b : Vec3 K) (n3 n4 : Int) : NF (closes P st e sEdges sNodes a b n3 n4) := by
  unfold closes
  split_ifs
  · refine (nf_nodeAt _ _).bind fun p _ => ?_
    split_ifs
    · refine (nf_edgeOk _ _ _ _ _).bind fun _ _ => ?_
      split_ifs
      · refine (nf_edgeOk _ _ _ _ _).bind fun _ _ => ?_
        split_ifs
        · exact (nf_containsNode _ _ _ _ _).bind fun _ _ => nf_pure _
        · exact nf_pure _
      · exact nf_pure _
    · exact nf_pure _
  · exact nf_pure _

theorem nf_tryNew (c : Pass K) (st : St K) (i : Nat) (e : Edge K) (sEdges : List Nat) (sNodes : List Int) (a b mid v new : Vec3 K) (base : K) :
    NF (tryNew P c st i e sEdges sNodes a b mid v new base) := by
  unfold tryNew
  refine (nf_shortestLoop _ _ _ _ _).bind fun dmin _ => ?_
  generalize (if base * c.sizeFactor * c.shrinkFactor * (1 / 4) < dmin ∧ dmin < base * c.sizeFactor * c.expandFactor
    then mid + (dmin * (1 / 2)) • v else new) = w
  simp only
  split_ifs
  · refine (nf_score _ _ _ _ _ _ _ _).bind fun q _ => ?_
    split_ifs
    · refine (nf_addTriangle _ _ _ _).bind fun _ _ => ?_
      split_ifs
      · exact nf_pure _
      · simp [NF]
    · exact nf_pure _
  · exact nf_pure _

theorem nf_advance (c : Pass K) (st : St K) (i : Nat) (e : Edge K) : NF (advance P c st i e) := by
  unfold advance
  refine (nf_nodeAt _ _).bind fun a _ => (nf_nodeAt _ _).bind fun b _ => (nf_lift _).bind fun e1 _ => (nf_lift _).bind fun e2 _ =>
    (nf_lift _).bind fun found _ => (nf_findClosestNodes _ _).bind fun sNodes _ => (nf_closes _ _ _ _ _ _ _ _).bind fun close _ => ?_
  cases close with
  | true => rw [if_pos rfl]; exact nf_addTriangle _ _ _ _
  | false =>
    rw [if_neg (by simp)]
    refine (nf_bestNode _ _ _ _ _ _ _ _ _ _ _ _).bind fun best _ => ?_
    by_cases h2 : c.minQuality < best.1
    · rw [if_pos h2]; exact nf_addTriangle _ _ _ _
    · rw [if_neg h2]
      by_cases h3 : c.addNodes = true
      · rw [if_pos h3]; exact nf_tryNew _ _ _ _ _ _ _ _ _ _ _ _
      · rw [if_neg h3]; exact nf_pure _

theorem pass_fuel (hv : Rtree.VolOk P.vol) (ht : 0 ≤ P.tol) {f : Int → Int → G} (hf : Chain f) {tot : G} {m0 : Nat} {c : Pass K} (hc : 0 ≤ c.minQuality)
    {M : Nat} (hM : P.maxElem = M) (hpos : 0 < M)
    (fuel : Nat) : ∀ (i : Nat) (st : St K) (tris : List (Int × Int × Int)), Inv P f tot m0 st tris → tris.length ≤ M → i ≤ st.front.length →
    m0 + 2 * M < fuel + i → NF (pass P c fuel i st) ∧ ∀ st', pass P c fuel i st = .ok st' → ∃ tris', Inv P f tot m0 st' tris' ∧ tris'.length ≤ M := by
  induction fuel with
  | zero =>
    intro i st tris hi hl hle hfu
    have := hi.len
    omega
  | succ fuel ih =>
    intro i st tris hi hl hle hfu
    unfold pass
    have stop : NF (pure st : R (St K)) ∧ ∀ st', (pure st : R (St K)) = .ok st' → ∃ tris', Inv P f tot m0 st' tris' ∧ tris'.length ≤ M := by
      refine ⟨nf_pure _, fun st' hst => ?_⟩
      rw [pure_ok] at hst
      subst hst
      exact ⟨tris, hi, hl⟩
    cases he : st.front[i]? with
    | none => exact stop
    | some e =>
      have hlt : i < st.front.length := (List.getElem?_eq_some_iff.1 he).1
      simp only
      split_ifs with h1 h2 h3
      · exact ih _ _ _ hi hl (by omega) (by omega)
      · exact stop
      · exact ⟨by simp [NF], by simp⟩
      · have hcount : st.mesh.elements.count = tris.length := by
          unfold Cont.count; rw [hi.mesh.els.ids]; simp [Mesh.iota]
        have hlt2 : tris.length < M := by
          rw [hcount, hM] at h3
          push Not at h3
          have := h3 (by exact_mod_cast hpos)
          exact_mod_cast this
        have key : ∀ st1, advance P c st i e = .ok st1 → ∃ tris1, Inv P f tot m0 st1 tris1 ∧ tris1.length ≤ M ∧ i + 1 ≤ st1.front.length := by
          intro st1 hst1
          obtain ⟨-, g2⟩ := advance_spec hv ht hf hc hi he (by simpa using h1) hst1
          rcases g2 with g2 | ⟨t, g2⟩
          · exact ⟨tris, g2, hl, by have := g2.len; have := hi.len; omega⟩
          · refine ⟨_, g2, by simp; omega, ?_⟩
            have := g2.len; have := hi.len
            simp only [List.length_append, List.length_singleton] at *
            omega
        constructor
        · refine (nf_advance _ _ _ _).bind fun st1 hst1 => ?_
          obtain ⟨tris1, k1, k2, k3⟩ := key st1 hst1
          exact (ih _ _ _ k1 k2 k3 (by omega)).1
        · intro st' h
          rw [bind_ok] at h
          obtain ⟨st1, hst1, h⟩ := h
          obtain ⟨tris1, k1, k2, k3⟩ := key st1 hst1
          exact (ih _ _ _ k1 k2 k3 (by omega)).2 st' h

theorem passes_fuel (hv : Rtree.VolOk P.vol) (ht : 0 ≤ P.tol) {f : Int → Int → G} (hf : Chain f) {tot : G} {m0 : Nat} {M : Nat} (hM : P.maxElem = M) (hpos : 0 < M)
    {fuel : Nat} (hfu : m0 + 2 * M < fuel) {st : St K} (hi : Inv P f tot m0 st []) :
    NF (passes P fuel st) ∧ ∀ st', passes P fuel st = .ok st' → ∃ tris, Inv P f tot m0 st' tris ∧ tris.length ≤ M := by
  have p1 := pass_fuel hv ht hf (c := pass1) (by norm_num [pass1]) hM hpos fuel 0 st [] hi (by simp) (by omega) (by omega)
  have p2 : ∀ s t, Inv P f tot m0 s t → t.length ≤ M → _ := fun s t h h' =>
    pass_fuel hv ht hf (c := pass2) (by norm_num [pass2]) hM hpos fuel 0 s t h h' (by omega) (by omega)
  have p3 : ∀ s t, Inv P f tot m0 s t → t.length ≤ M → _ := fun s t h h' =>
    pass_fuel hv ht hf (c := pass3) (by norm_num [pass3]) hM hpos fuel 0 s t h h' (by omega) (by omega)
  unfold passes
  constructor
  · refine p1.1.bind fun s1 h1 => ?_
    obtain ⟨t1, i1, l1⟩ := p1.2 s1 h1
    refine (p2 s1 t1 i1 l1).1.bind fun s2 h2 => ?_
    obtain ⟨t2, i2, l2⟩ := (p2 s1 t1 i1 l1).2 s2 h2
    refine (p3 s2 t2 i2 l2).1.bind fun s3 h3 => ?_
    split_ifs
    · simp [NF]
    · exact nf_pure _
  · intro st' h
    simp only [bind_ok] at h
    obtain ⟨s1, h1, s2, h2, s3, h3, h⟩ := h
    obtain ⟨t1, i1, l1⟩ := p1.2 s1 h1
    obtain ⟨t2, i2, l2⟩ := (p2 s1 t1 i1 l1).2 s2 h2
    obtain ⟨t3, i3, l3⟩ := (p3 s2 t2 i2 l2).2 s3 h3
    split_ifs at h
    rw [pure_ok] at h
    subst h
    exact ⟨t3, i3, l3⟩

theorem nf_copyNodes (src : Mesh K) (l : List Int) : ∀ s, NF (copyNodes src l s) := by
  induction l with
  | nil => exact fun _ => nf_pure _
  | cons i t ih => exact fun s => (nf_nodeAt _ _).bind fun _ _ => ih _

theorem nf_edgeIds (src : Mesh K) (l : List Int) : ∀ i s, NF (edgeIds src l i s) := by
  induction l with
  | nil => exact fun _ _ => nf_pure _
  | cons i t ih => exact fun _ _ => (nf_lift _).bind fun _ _ => ih _ _

theorem nf_neighbour (src : Mesh K) (ids : SMap Int Nat) (f : Int) : NF (neighbour src ids f) := by
  unfold neighbour
  refine (nf_lift _).bind fun f _ => ?_
  split_ifs
  · exact (nf_lift _).bind fun _ _ => nf_pure _
  · simp [NF]

theorem nf_addBeams (src : Mesh K) (ids : SMap Int Nat) (l : List Int) : ∀ st, NF (addBeams P src ids l st) := by
  induction l with
  | nil => exact fun _ => nf_pure _
  | cons i t ih =>
    intro st
    unfold addBeams
    refine (nf_lift _).bind fun el _ => ?_
    split_ifs
    · split
      · exact (nf_newEdge _ _ _ _ _ _).bind fun _ _ => (nf_neighbour _ _ _).bind fun _ _ => (nf_neighbour _ _ _).bind fun _ _ =>
          (nf_addToTree _ _).bind fun _ _ => ih _
      · simp [NF]
    · exact ih _

theorem nf_start (src : Mesh K) (points : List (Vec3 K)) (old : List (Int × Bool)) : NF (start P src points old) :=
  (nf_copyNodes _ _ _).bind fun _ _ => (nf_edgeIds _ _ _ _).bind fun _ _ => (nf_addBeams _ _ _ _).bind fun _ _ => nf_pure _

end TriMesher
end ENigMA
