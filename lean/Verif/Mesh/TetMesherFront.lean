import Verif.Mesh.TetMesher
import Verif.Mesh.TriangleMesherLemmas
import Mathlib.Data.ZMod.Basic
import Mathlib.Data.List.Sort

/-!
# The front of the mesher of solids

What each function of the mesher does to the triangles of the front, to the tree and to the tetrahedra.
-/

set_option linter.unusedSectionVars false
set_option autoImplicit false

namespace ENigMA
namespace TetMesher
open TriMesher (Err R lift nodeAt pushNew markInterior Pass bind_ok pure_ok lift_ok nodeAt_ok overlap_self)

variable {K : Type} [Field K] [LinearOrder K] [IsStrictOrderedRing K]

theorem triAt_ok {l : List (Fr K)} {k : Nat} {e : Fr K} : triAt l k = .ok e ↔ l[k]? = some e := lift_ok

/-! ### Triangles -/

/-- What matters of a triangle. -/
structure Tr where
  id : Nat
  remove : Bool
  n : T3 Int

/-- What matters of a triangle of the front. -/
def Fr.tr (x : Fr K) : Tr := ⟨x.id, x.remove, x.n⟩

/-- The triangle marked as removed. -/
def Tr.gone (x : Tr) : Tr := { x with remove := true }

/-- Two corners are the same node. -/
def T3.Flat (n : T3 Int) : Prop := n.a = n.b ∨ n.b = n.c ∨ n.c = n.a

/-- What matters of the front. -/
abbrev trs (front : List (Fr K)) : List Tr := front.map Fr.tr

theorem trs_get {front : List (Fr K)} {k : Nat} {x : Tr} : (trs front)[k]? = some x ↔ ∃ e, front[k]? = some e ∧ e.tr = x := by
  simp [trs]

theorem trs_set {front : List (Fr K)} {k : Nat} {e' : Fr K} (h : (trs front)[k]? = some e'.tr) : trs (front.set k e') = trs front := by
  unfold trs
  rw [List.map_set]
  apply List.ext_getElem?
  intro j
  rw [List.getElem?_set]
  have hk : k < front.length := by simpa [trs] using (List.getElem?_eq_some_iff.1 h).1
  split_ifs with h1 h2
  · subst h1
    exact h.symm
  · simp at h2; omega
  · rfl

theorem trs_length {front front' : List (Fr K)} (h : trs front' = trs front) : front'.length = front.length := by
  simpa [trs] using congrArg List.length h

theorem triBox_nonEmpty (P : Par K) (ht : 0 ≤ P.tol) (a b c : Vec3 K) : (triBox P a b c).NonEmpty := by
  unfold triBox BBox.grow BBox.ofPoints BBox.NonEmpty
  simp only [List.foldl_cons, List.foldl_nil, BBox.addCoordinate]
  refine ⟨?_, ?_, ?_⟩
  · have h1 := min_le_right (Min.min (Min.min (BBox.reset P.big).min.x a.x) b.x) c.x
    have h2 := le_max_right (Max.max (Max.max (BBox.reset P.big).max.x a.x) b.x) c.x
    linarith
  · have h1 := min_le_right (Min.min (Min.min (BBox.reset P.big).min.y a.y) b.y) c.y
    have h2 := le_max_right (Max.max (Max.max (BBox.reset P.big).max.y a.y) b.y) c.y
    linarith
  · have h1 := min_le_right (Min.min (Min.min (BBox.reset P.big).min.z a.z) b.z) c.z
    have h2 := le_max_right (Max.max (Max.max (BBox.reset P.big).max.z a.z) b.z) c.z
    linarith

/-- The three nodes are stored at these positions. -/
def At (nodes : Cont (Vec3 K)) (n : T3 Int) (a b c : Vec3 K) : Prop :=
  nodes.get? n.a = some a ∧ nodes.get? n.b = some b ∧ nodes.get? n.c = some c

/-- The tree holds triangles of the front under their positions, each once, with the box of its corners; a triangle of the tree that was
removed from the front has the same node at two corners. -/
def TreeOk (P : Par K) (nodes : Cont (Vec3 K)) (ks : List Tr) (t : Rtree.Node K) : Prop :=
  ∃ l, Rtree.Good t l ∧ (l.map (·.2)).Nodup ∧ ∀ y ∈ l, ∃ (k : Nat) (x : Tr) (a b c : Vec3 K), y.2 = (k : Int) ∧ ks[k]? = some x ∧
    (x.remove = false ∨ x.n.Flat) ∧ At nodes x.n a b c ∧ y.1 = triBox P a b c

theorem TreeOk.empty (P : Par K) (nodes : Cont (Vec3 K)) (ks : List Tr) : TreeOk P nodes ks Rtree.empty :=
  ⟨[], Rtree.good_empty, by simp, by simp⟩

theorem TreeOk.ext {P : Par K} {nodes nodes' : Cont (Vec3 K)} {ks : List Tr} {t : Rtree.Node K} (h : TreeOk P nodes ks t)
    (hn : ∀ id p, nodes.get? id = some p → nodes'.get? id = some p) : TreeOk P nodes' ks t := by
  obtain ⟨l, h1, h2, h3⟩ := h
  refine ⟨l, h1, h2, fun y hy => ?_⟩
  obtain ⟨k, x, a, b, c, g1, g2, g3, ⟨g4, g5, g6⟩, g7⟩ := h3 y hy
  exact ⟨k, x, a, b, c, g1, g2, g3, ⟨hn _ _ g4, hn _ _ g5, hn _ _ g6⟩, g7⟩

theorem TreeOk.add {P : Par K} (hv : Rtree.VolOk P.vol) (ht : 0 ≤ P.tol) {nodes : Cont (Vec3 K)} {ks : List Tr} {t t' : Rtree.Node K}
    (h : TreeOk P nodes ks t) (x : Tr) (hx : x.id = ks.length) (hr : x.remove = false) {a b c : Vec3 K} (ha : At nodes x.n a b c)
    (hadd : Rtree.add P.vol x.id (triBox P a b c) t = some t') : TreeOk P nodes (ks ++ [x]) t' := by
  obtain ⟨l, h1, h2, h3⟩ := h
  obtain ⟨t'', k1, k2⟩ := Rtree.good_add hv h1 (x.id : Int) (triBox P a b c) (triBox_nonEmpty P ht a b c)
  rw [hadd] at k1
  obtain rfl : t' = t'' := by simpa using k1
  refine ⟨_, k2, ?_, ?_⟩
  · simp only [List.map_cons, List.nodup_cons]
    refine ⟨?_, h2⟩
    intro hm
    obtain ⟨y, hy, hid⟩ := List.mem_map.1 hm
    obtain ⟨k, z, -, -, -, g1, g2, -⟩ := h3 y hy
    have := (List.getElem?_eq_some_iff.1 g2).1
    omega
  · intro y hy
    rcases List.mem_cons.1 hy with rfl | hy
    · exact ⟨x.id, x, a, b, c, rfl, by rw [hx]; simp, Or.inl hr, ha, rfl⟩
    · obtain ⟨k, z, a', b', c', g1, g2, g3⟩ := h3 y hy
      exact ⟨k, z, a', b', c', g1, by rw [List.getElem?_append_left (List.getElem?_eq_some_iff.1 g2).1]; exact g2, g3⟩

theorem At.unique {nodes : Cont (Vec3 K)} {n : T3 Int} {a b c a' b' c' : Vec3 K} (h : At nodes n a b c) (h' : At nodes n a' b' c') :
    a = a' ∧ b = b' ∧ c = c' := by
  obtain ⟨h1, h2, h3⟩ := h
  obtain ⟨g1, g2, g3⟩ := h'
  rw [h1] at g1; rw [h2] at g2; rw [h3] at g3
  exact ⟨by simpa using g1, by simpa using g2, by simpa using g3⟩

theorem TreeOk.remove {P : Par K} (hv : Rtree.VolOk P.vol) (ht : 0 ≤ P.tol) {nodes : Cont (Vec3 K)} {ks : List Tr} {t t' : Rtree.Node K}
    (h : TreeOk P nodes ks t) {k : Nat} {x : Tr} (hx : ks[k]? = some x) {a b c : Vec3 K} (ha : At nodes x.n a b c)
    (hrem : Rtree.remove P.vol k (triBox P a b c) t = some t') : TreeOk P nodes (ks.set k x.gone) t' := by
  obtain ⟨l, h1, h2, h3⟩ := h
  obtain ⟨t'', k1, k2⟩ := Rtree.good_remove hv h1 (k : Int) (triBox P a b c)
  rw [hrem] at k1
  obtain rfl : t' = t'' := by simpa using k1
  have key : ∀ l' : List (BBox K × Int), (∀ y ∈ l', y ∈ l) → (∀ y ∈ l', y.2 ≠ (k : Int)) → ∀ y ∈ l', ∃ (k' : Nat) (x' : Tr) (a b c : Vec3 K), y.2 = (k' : Int) ∧
      (ks.set k x.gone)[k']? = some x' ∧
      (x'.remove = false ∨ x'.n.Flat) ∧ At nodes x'.n a b c ∧ y.1 = triBox P a b c := by
    intro l' hl' hne y hy
    obtain ⟨k', z, a', b', c', g1, g2, g3⟩ := h3 y (hl' y hy)
    refine ⟨k', z, a', b', c', g1, ?_, g3⟩
    rw [List.getElem?_set_ne]
    · exact g2
    · rintro rfl; exact hne y hy g1
  rcases k2 with ⟨g1, g2⟩ | ⟨b', l', g1, g2⟩
  · refine ⟨l, g1, h2, key l (fun _ h => h) ?_⟩
    intro y hy hk
    have := g2 y hy hk
    obtain ⟨k', z, a', b'', c', e1, e2, -, e4, e5⟩ := h3 y hy
    obtain rfl : k = k' := by omega
    rw [hx] at e2
    obtain rfl : x = z := by simpa using e2
    obtain ⟨rfl, rfl, rfl⟩ := ha.unique e4
    rw [e5, overlap_self (triBox_nonEmpty P ht a b c)] at this
    simp at this
  · have hnd : (((b', (k : Int)) :: l').map (·.2)).Nodup := (g1.map _).nodup_iff.1 h2
    simp only [List.map_cons, List.nodup_cons] at hnd
    refine ⟨l', g2, hnd.2, key l' (fun y hy => g1.symm.subset (by simp [hy])) ?_⟩
    intro y hy hk
    exact hnd.1 (List.mem_map.2 ⟨y, hy, hk⟩)

/-- Marking a triangle with the same node at two corners as removed. -/
theorem TreeOk.drop {P : Par K} {nodes : Cont (Vec3 K)} {ks : List Tr} {t : Rtree.Node K}
    (h : TreeOk P nodes ks t) {k : Nat} {x : Tr} (hx : ks[k]? = some x) (hd : x.n.Flat) : TreeOk P nodes (ks.set k x.gone) t := by
  obtain ⟨l, h1, h2, h3⟩ := h
  refine ⟨l, h1, h2, fun y hy => ?_⟩
  obtain ⟨k', z, a', b', c', g1, g2, g3, g4⟩ := h3 y hy
  by_cases hk : k = k'
  · subst hk
    rw [hx] at g2
    obtain rfl : x = z := by simpa using g2
    refine ⟨k, x.gone, a', b', c', g1, ?_, Or.inr hd, g4⟩
    rw [List.getElem?_set_self (List.getElem?_eq_some_iff.1 hx).1]
  · exact ⟨k', z, a', b', c', g1, by rw [List.getElem?_set_ne hk]; exact g2, g3, g4⟩

/-! ### Sums modulo two over the front -/

/-- What is needed of the function summed over the triangles: it does not depend on the order of the corners and vanishes if two of them are the same. -/
structure Sym3 (f : Int → Int → Int → ZMod 2) : Prop where
  swap : ∀ a b c, f b a c = f a b c
  turn : ∀ a b c, f b c a = f a b c
  flat : ∀ a c, f a a c = 0

/-- The function on the corners of a triangle. -/
def on (f : Int → Int → Int → ZMod 2) (n : T3 Int) : ZMod 2 := f n.a n.b n.c

/-- The value of a triangle: nothing once it is removed. -/
def Tr.val (f : Int → Int → Int → ZMod 2) (x : Tr) : ZMod 2 := if x.remove then 0 else on f x.n

/-- The sum over the triangles of the front. -/
def fsum (f : Int → Int → Int → ZMod 2) (ks : List Tr) : ZMod 2 := (ks.map (Tr.val f)).sum

theorem twice (a : ZMod 2) : a + a = 0 := by revert a; decide

theorem fsum_set (f : Int → Int → Int → ZMod 2) {ks : List Tr} {k : Nat} {x : Tr} (hx : ks[k]? = some x) (y : Tr) :
    fsum f (ks.set k y) = fsum f ks - x.val f + y.val f := by
  induction ks generalizing k with
  | nil => simp at hx
  | cons z t ih =>
    cases k with
    | zero =>
      simp only [List.getElem?_cons_zero, Option.some.injEq] at hx
      subst hx
      simp only [fsum, List.set_cons_zero, List.map_cons, List.sum_cons]
      abel
    | succ k =>
      simp only [List.getElem?_cons_succ] at hx
      have := ih hx
      simp only [fsum, List.set_cons_succ, List.map_cons, List.sum_cons] at this ⊢
      rw [this]
      abel

theorem fsum_gone (f : Int → Int → Int → ZMod 2) {ks : List Tr} {k : Nat} {x : Tr} (hx : ks[k]? = some x) :
    fsum f (ks.set k x.gone) = fsum f ks + x.val f := by
  rw [fsum_set f hx]
  have : x.gone.val f = 0 := by simp [Tr.val, Tr.gone]
  rw [this]
  generalize fsum f ks = a
  generalize x.val f = b
  revert a b
  decide

theorem fsum_append (f : Int → Int → Int → ZMod 2) (ks ks' : List Tr) : fsum f (ks ++ ks') = fsum f ks + fsum f ks' := by simp [fsum]

theorem Sym3.perm {f : Int → Int → Int → ZMod 2} (hf : Sym3 f) {a b c a' b' c' : Int} (h : List.Perm [a, b, c] [a', b', c']) : f a b c = f a' b' c' := by
  have pair : ∀ {x y x' y' : Int}, List.Perm [x, y] [x', y'] → (x = x' ∧ y = y') ∨ (x = y' ∧ y = x') := by
    intro x y x' y' h
    have hx : x ∈ [x', y'] := h.subset (by simp)
    simp only [List.mem_cons, List.not_mem_nil, or_false] at hx
    rcases hx with rfl | rfl
    · have := (List.perm_cons x).1 h
      rw [List.perm_singleton] at this
      left; simpa using this
    · have := (List.perm_cons x).1 (h.trans (List.Perm.swap x x' []))
      rw [List.perm_singleton] at this
      right; simpa using this
  have sw := hf.swap
  have tu := hf.turn
  have ha : a ∈ [a', b', c'] := h.subset (by simp)
  simp only [List.mem_cons, List.not_mem_nil, or_false] at ha
  rcases ha with rfl | rfl | rfl
  · rcases pair ((List.perm_cons a).1 h) with ⟨rfl, rfl⟩ | ⟨rfl, rfl⟩
    · rfl
    · rw [← tu a c b, sw b c a, tu a b c]
  · rcases pair ((List.perm_cons a).1 (h.trans (List.Perm.swap a a' [c']))) with ⟨rfl, rfl⟩ | ⟨rfl, rfl⟩
    · exact sw _ _ _
    · rw [tu]
  · have h3 : List.Perm [a', b', a] [a, a', b'] := by
      exact (List.Perm.cons a' (List.Perm.swap a b' [])).trans (List.Perm.swap a a' [b'])
    rcases pair ((List.perm_cons a).1 (h.trans h3)) with ⟨rfl, rfl⟩ | ⟨rfl, rfl⟩
    · rw [tu a b c]
    · rw [sw b c a, tu a b c]

theorem sorted_perm {n m : T3 Int} (h : sorted n = sorted m) : List.Perm [n.a, n.b, n.c] [m.a, m.b, m.c] := by
  unfold sorted at h
  exact ((List.perm_insertionSort (· ≤ ·) _).symm.trans (by rw [h])).trans (List.perm_insertionSort (· ≤ ·) _)

theorem Sym3.on_sorted {f : Int → Int → Int → ZMod 2} (hf : Sym3 f) {n m : T3 Int} (h : sorted n = sorted m) : on f n = on f m := hf.perm (sorted_perm h)

theorem Sym3.on_flat {f : Int → Int → Int → ZMod 2} (hf : Sym3 f) {n : T3 Int} (h : n.Flat) : on f n = 0 := by
  obtain ⟨a, b, c⟩ := n
  unfold on
  rcases h with h | h | h <;> simp only at h ⊢ <;> subst h
  · exact hf.flat _ _
  · rw [← hf.turn]; exact hf.flat _ _
  · rw [hf.turn c c b]; exact hf.flat _ _

/-! ### The invariant of the front -/

/-- The front, the tree and the nodes fit together. -/
structure FInv (P : Par K) (nodes : Cont (Vec3 K)) (ks : List Tr) (t : Rtree.Node K) : Prop where
  ids : ∀ (k : Nat) x, ks[k]? = some x → x.id = k
  ends : ∀ x ∈ ks, ∃ a b c, At nodes x.n a b c
  tree : TreeOk P nodes ks t

theorem FInv.setGone {P : Par K} {nodes : Cont (Vec3 K)} {ks : List Tr} {t t' : Rtree.Node K}
    (h : FInv P nodes ks t) {k : Nat} {x : Tr} (hx : ks[k]? = some x) (ht : TreeOk P nodes (ks.set k x.gone) t') :
    FInv P nodes (ks.set k x.gone) t' := by
  refine ⟨?_, ?_, ht⟩
  · intro j y hy
    rw [List.getElem?_set] at hy
    split_ifs at hy with h1 h2
    · subst h1
      obtain rfl : x.gone = y := by simpa using hy
      exact h.ids k x hx
    · exact h.ids j y hy
  · intro y hy
    rcases List.mem_or_eq_of_mem_set hy with h1 | rfl
    · exact h.ends y h1
    · exact h.ends x (List.mem_of_getElem? hx)

theorem FInv.ext {P : Par K} {nodes nodes' : Cont (Vec3 K)} {ks : List Tr} {t : Rtree.Node K}
    (h : FInv P nodes ks t) (hn : ∀ id p, nodes.get? id = some p → nodes'.get? id = some p) : FInv P nodes' ks t := by
  refine ⟨h.ids, fun x hx => ?_, h.tree.ext hn⟩
  obtain ⟨a, b, c, g1, g2, g3⟩ := h.ends x hx
  exact ⟨a, b, c, hn _ _ g1, hn _ _ g2, hn _ _ g3⟩

theorem FInv.push {P : Par K} (hv : Rtree.VolOk P.vol) (ht : 0 ≤ P.tol) {nodes : Cont (Vec3 K)} {ks : List Tr} {t t' : Rtree.Node K}
    (h : FInv P nodes ks t) (x : Tr) (hx : x.id = ks.length) (hr : x.remove = false) {a b c : Vec3 K} (ha : At nodes x.n a b c)
    (hadd : Rtree.add P.vol x.id (triBox P a b c) t = some t') : FInv P nodes (ks ++ [x]) t' := by
  refine ⟨?_, ?_, h.tree.add hv ht x hx hr ha hadd⟩
  · intro k y hy
    rw [List.getElem?_append] at hy
    split_ifs at hy with h1
    · exact h.ids k y hy
    · have : k = ks.length := by
        by_contra hne
        rw [List.getElem?_eq_none (by simp; omega)] at hy
        simp at hy
      subst this
      obtain rfl : x = y := by simpa using hy
      exact hx
  · intro y hy
    rcases List.mem_append.1 hy with h1 | h1
    · exact h.ends y h1
    · rw [List.mem_singleton] at h1
      subst h1
      exact ⟨a, b, c, ha⟩

/-! ### Functions that change the front -/

variable {P : Par K}

theorem addToTree_ok {st st' : St K} {e : Fr K} (h : addToTree P st e = .ok st') : ∃ a b c t, At st.mesh.nodes e.n a b c ∧
    Rtree.add P.vol e.id (triBox P a b c) st.tree = some t ∧ st' = { st with tree := t } := by
  unfold addToTree at h
  simp only [bind_ok, nodeAt_ok, lift_ok, pure_ok] at h
  obtain ⟨a, ha, b, hb, c, hc, t, ht, rfl⟩ := h
  exact ⟨a, b, c, t, ⟨ha, hb, hc⟩, ht, rfl⟩

theorem removeTri_ok {st st' : St K} {k : Nat} (h : removeTri P st k = .ok st') : ∃ e a b c t, st.front[k]? = some e ∧ At st.mesh.nodes e.n a b c ∧
    Rtree.remove P.vol e.id (triBox P a b c) st.tree = some t ∧
    st' = { st with front := st.front.set k { e with remove := true }, tree := t } := by
  unfold removeTri at h
  simp only [bind_ok, nodeAt_ok, triAt_ok, lift_ok, pure_ok] at h
  obtain ⟨e, he, a, ha, b, hb, c, hc, t, ht, rfl⟩ := h
  exact ⟨e, a, b, c, t, he, ⟨ha, hb, hc⟩, ht, rfl⟩

theorem removeTri_spec (hv : Rtree.VolOk P.vol) (ht : 0 ≤ P.tol) {st st' : St K} {k : Nat}
    (hi : FInv P st.mesh.nodes (trs st.front) st.tree) (h : removeTri P st k = .ok st') :
    ∃ x fr t, st' = { st with front := fr, tree := t } ∧ (trs st.front)[k]? = some x ∧ trs fr = (trs st.front).set k x.gone ∧
      FInv P st.mesh.nodes (trs fr) t := by
  obtain ⟨e, a, b, c, t, he, ha, hrem, rfl⟩ := removeTri_ok h
  have hx : (trs st.front)[k]? = some e.tr := trs_get.2 ⟨e, he, rfl⟩
  have hid : e.id = k := hi.ids k _ hx
  have hs : trs (st.front.set k { e with remove := true }) = (trs st.front).set k e.tr.gone := by
    unfold trs; rw [List.map_set]; rfl
  rw [hid] at hrem
  refine ⟨e.tr, _, t, rfl, hx, hs, ?_⟩
  rw [hs]
  exact hi.setGone hx (hi.tree.remove hv ht hx ha hrem)

theorem triangleExists_spec {front : List (Fr K)} {e : Fr K} {l : List Nat} {r : Option Nat} (h : triangleExists front e l = .ok r) :
    ∀ j, r = some j → j ∈ l ∧ j ≠ e.id ∧ ∃ o, front[j]? = some o ∧ sorted o.n = sorted e.n := by
  induction l with
  | nil =>
    simp only [triangleExists, pure_ok] at h
    subst h; simp
  | cons i t ih =>
    unfold triangleExists at h
    split_ifs at h with h1
    · intro j hj
      obtain ⟨g1, g2⟩ := ih h j hj
      exact ⟨by simp [g1], g2⟩
    · simp only [bind_ok, triAt_ok] at h
      obtain ⟨o, ho, h⟩ := h
      split_ifs at h with h2
      · rw [pure_ok] at h
        intro j hj
        rw [← h, Option.some.injEq] at hj
        subst hj
        exact ⟨by simp, h1, o, ho, h2⟩
      · intro j hj
        obtain ⟨g1, g2⟩ := ih h j hj
        exact ⟨by simp [g1], g2⟩

theorem cleanOne_spec (hv : Rtree.VolOk P.vol) (ht : 0 ≤ P.tol) {st st' : St K} {sTris : List Nat} {k : Nat} {b : Bool}
    (hi : FInv P st.mesh.nodes (trs st.front) st.tree) {x : Tr} (hk : (trs st.front)[k]? = some x)
    (hs : ∀ j ∈ sTris, ∀ y, (trs st.front)[j]? = some y → sorted y.n = sorted x.n → y.remove = false)
    (h : cleanOne P sTris st k = .ok (st', b)) :
    ∃ fr t, st' = { st with front := fr, tree := t } ∧ FInv P st.mesh.nodes (trs fr) t ∧ (∀ f, Sym3 f → fsum f (trs fr) = fsum f (trs st.front)) ∧
    (trs fr = trs st.front ∨ ∃ j y, j ∈ sTris ∧ j ≠ k ∧ (trs st.front)[j]? = some y ∧ sorted y.n = sorted x.n ∧
      trs fr = ((trs st.front).set k x.gone).set j y.gone) := by
  unfold cleanOne at h
  simp only [bind_ok, triAt_ok] at h
  obtain ⟨e, he, h⟩ := h
  have hex : e.tr = x := by
    have := trs_get.2 ⟨e, he, rfl⟩
    rw [hk] at this
    simpa using this.symm
  subst hex
  have hid : e.id = k := hi.ids k _ hk
  have same : st = st' → ∃ fr t, st' = { st with front := fr, tree := t } ∧ FInv P st.mesh.nodes (trs fr) t ∧ (∀ f, Sym3 f → fsum f (trs fr) = fsum f (trs st.front)) ∧
    (trs fr = trs st.front ∨ ∃ j y, j ∈ sTris ∧ j ≠ k ∧ (trs st.front)[j]? = some y ∧ sorted y.n = sorted e.tr.n ∧
      trs fr = ((trs st.front).set k e.tr.gone).set j y.gone) := by
    rintro rfl
    exact ⟨st.front, st.tree, rfl, hi, fun _ _ => rfl, Or.inl rfl⟩
  split_ifs at h with h1
  · rw [pure_ok, Prod.mk.injEq] at h
    exact same h.1
  · rw [bind_ok] at h
    obtain ⟨r, hr, h⟩ := h
    cases r with
    | none =>
      simp only [pure_ok, Prod.mk.injEq] at h
      exact same h.1
    | some j =>
      obtain ⟨hj, hne, o, ho, hsame⟩ := triangleExists_spec hr j rfl
      rw [hid] at hne
      simp only [bind_ok, pure_ok, Prod.mk.injEq] at h
      obtain ⟨st1, hr1, st2, hr2, rfl, rfl⟩ := h
      obtain ⟨x1, fr1, t1, rfl, g1, g2, g3⟩ := removeTri_spec hv ht hi hr1
      rw [hk] at g1
      obtain rfl : e.tr = x1 := by simpa using g1
      obtain ⟨y, fr2, t2, rfl, k1, k2, k3⟩ := removeTri_spec hv ht (st := { st with front := fr1, tree := t1 }) g3 hr2
      simp only at k1 k2 k3
      have k1' := k1
      rw [g2, List.getElem?_set_ne hne.symm] at k1
      have hy : y = o.tr := by
        have := trs_get.2 ⟨o, ho, rfl⟩
        rw [k1] at this
        simpa using this
      subst hy
      have hlive := hs j hj o.tr k1 hsame
      refine ⟨fr2, t2, rfl, k3, fun f hf => ?_, Or.inr ⟨j, o.tr, hj, hne, k1, hsame, by rw [k2, g2]⟩⟩
      have h1' : e.tr.remove = false := by simpa [Fr.tr] using h1
      rw [k2, fsum_gone f k1', g2, fsum_gone f hk, add_assoc]
      have : e.tr.val f + o.tr.val f = 0 := by
        simp only [Tr.val, h1', hlive, Bool.false_eq_true, if_false]
        rw [show on f o.tr.n = on f e.tr.n from hf.on_sorted hsame, twice]
      rw [this, add_zero]

/-! ### Connectivity -/

theorem pairAt_tr (p : Fr K × Fr K) (k : Nat) : (pairAt p k).1.tr = p.1.tr ∧ (pairAt p k).2.tr = p.2.tr := by
  unfold pairAt
  simp only
  split <;> exact ⟨rfl, rfl⟩

theorem pairEdges_tr (x y : Fr K) : (pairEdges x y).1.tr = x.tr ∧ (pairEdges x y).2.tr = y.tr := by
  unfold pairEdges
  simp only [List.foldl_cons, List.foldl_nil]
  have h0 := pairAt_tr (x, y) 0
  have h1 := pairAt_tr (pairAt (x, y) 0) 1
  have h2 := pairAt_tr (pairAt (pairAt (x, y) 0) 1) 2
  exact ⟨h2.1.trans (h1.1.trans h0.1), h2.2.trans (h1.2.trans h0.2)⟩

theorem pairLoop_spec {i : Nat} {l : List Nat} {front front' : List (Fr K)} (h : pairLoop i l front = .ok front') : trs front' = trs front := by
  induction l generalizing front with
  | nil =>
    simp only [pairLoop, pure_ok] at h
    rw [h]
  | cons j t ih =>
    unfold pairLoop at h
    simp only [bind_ok, triAt_ok] at h
    obtain ⟨x, hx, h⟩ := h
    split_ifs at h with h1
    · exact ih h
    · simp only [bind_ok, triAt_ok] at h
      obtain ⟨y, hy, h⟩ := h
      split_ifs at h with h2
      · exact ih h
      · have e1 : trs (front.set i (pairEdges x y).1) = trs front := trs_set (trs_get.2 ⟨x, hx, (pairEdges_tr x y).1.symm⟩)
        refine (ih h).trans ((trs_set ?_).trans e1)
        rw [e1]
        exact trs_get.2 ⟨y, hy, (pairEdges_tr x y).2.symm⟩

theorem checkOpen_ok {i : Nat} {front front' : List (Fr K)} (h : checkOpen i front = .ok front') : front' = front := by
  unfold checkOpen at h
  simp only [bind_ok] at h
  obtain ⟨x, -, h⟩ := h
  split_ifs at h with h1
  rw [pure_ok] at h
  exact h.symm

theorem adjustOne_spec {sTris : List Nat} {front front' : List (Fr K)} {i : Nat} (h : adjustOne sTris front i = .ok front') :
    trs front' = trs front ∨ ∃ x, (trs front)[i]? = some x ∧ x.n.Flat ∧ trs front' = (trs front).set i x.gone := by
  unfold adjustOne at h
  simp only [bind_ok, triAt_ok] at h
  obtain ⟨e, he, h⟩ := h
  split_ifs at h with h1 h2
  · rw [pure_ok] at h
    rw [h]; exact Or.inl rfl
  · rw [pure_ok] at h
    refine Or.inr ⟨e.tr, trs_get.2 ⟨e, he, rfl⟩, h2, ?_⟩
    rw [← h]
    unfold trs
    rw [List.map_set]
    rfl
  · simp only [bind_ok, lift_ok] at h
    obtain ⟨p, hp, q, hq, r, hr, h⟩ := h
    split_ifs at h with h3
    · simp only [bind_ok] at h
      obtain ⟨fr, h4, h5⟩ := h
      rw [checkOpen_ok h5]
      exact Or.inl (pairLoop_spec h4)
    · rw [pure_ok] at h
      rw [h]; exact Or.inl rfl

theorem adjustLoop_spec {nodes : Cont (Vec3 K)} {t : Rtree.Node K} {sTris l : List Nat} {front front' : List (Fr K)}
    (hi : FInv P nodes (trs front) t) (h : l.foldlM (adjustOne sTris) front = .ok front') :
    FInv P nodes (trs front') t ∧ (∀ f, Sym3 f → fsum f (trs front') = fsum f (trs front)) ∧ front'.length = front.length := by
  induction l generalizing front with
  | nil =>
    simp only [List.foldlM_nil, pure_ok] at h
    subst h
    exact ⟨hi, fun _ _ => rfl, rfl⟩
  | cons i l ih =>
    simp only [List.foldlM_cons, bind_ok] at h
    obtain ⟨fr, h1, h⟩ := h
    have key : FInv P nodes (trs fr) t ∧ (∀ f, Sym3 f → fsum f (trs fr) = fsum f (trs front)) ∧ fr.length = front.length := by
      rcases adjustOne_spec h1 with g | ⟨x, g1, g2, g3⟩
      · exact ⟨by rw [g]; exact hi, fun _ _ => by rw [g], trs_length g⟩
      · refine ⟨by rw [g3]; exact hi.setGone g1 (hi.tree.drop g1 g2), fun f hf => ?_, by simpa [trs] using congrArg List.length g3⟩
        rw [g3, fsum_gone f g1]
        have : x.val f = 0 := by simp [Tr.val, hf.on_flat g2]
        rw [this, add_zero]
    obtain ⟨k1, k2, k3⟩ := ih key.1 h
    exact ⟨k1, fun f hf => (k2 f hf).trans (key.2.1 f hf), k3.trans key.2.2⟩

end TetMesher
end ENigMA
