import Verif.Stl.ConnectProps

/-!
# The mesh of a surface
-/

set_option linter.unusedSectionVars false
set_option autoImplicit false

namespace ENigMA
namespace Stl
variable {K : Type}

/-- Neighbours meet along equal edges, run through in opposite directions: edge `j` of a facet goes from its vertex `j` to the next; the edge `j'` of the neighbour is the one that misses the vertex stored. -/
def Joined (s : File K) : Prop :=
  ∀ id f (j : Nat) e, s.get? id = some f → f.edges[j]? = some e → e.neighbor ≠ -1 →
    ∃ g, ∃ j' < 3, s.get? e.neighbor = some g ∧ e.whichNot = (((j' + 2) % 3 : Nat) : Int) ∧ g.verts[j']? = f.verts[(j + 1) % 3]? ∧ g.verts[(j' + 1) % 3]? = f.verts[j]?

/-- Neighbours are neighbours of each other, along the same edges. -/
def Mutual (s : File K) : Prop :=
  ∀ id f (j : Nat) e, s.get? id = some f → f.edges[j]? = some e → e.neighbor ≠ -1 →
    ∃ g e', ∃ j' < 3, s.get? e.neighbor = some g ∧ e.whichNot = (((j' + 2) % 3 : Nat) : Int) ∧ g.edges[j']? = some e' ∧ e'.neighbor = id ∧ e'.whichNot = (((j + 2) % 3 : Nat) : Int)

/-- The facet across an edge, and its edge there. -/
def link (s : File K) (c : Int × Nat) : Option (Int × Nat) :=
  (s.get? c.1).bind fun f => (f.edges[c.2]?).bind fun e => if e.neighbor = -1 then none else some (e.neighbor, ((e.whichNot + 1) % 3).toNat)

/-- From a corner of a facet to the corner at the same vertex of the facet across one of the two edges there: `false` for the edge that ends at the vertex, `true` for the one that starts at it. -/
def nx (s : File K) (dir : Bool) (c : Int × Nat) : Option (Int × Nat) :=
  if c.2 < 3 then (if dir then (link s c).map fun d => (d.1, (d.2 + 1) % 3) else link s (c.1, (c.2 + 2) % 3)) else none

/-- Corners of the facets. -/
def Corner (s : File K) (c : Int × Nat) : Prop := c.1 ∈ s.ids ∧ c.2 < 3

/-- The position of a corner. -/
def vert (s : File K) (c : Int × Nat) : Option (Vec3 K) := (s.get? c.1).bind fun f => f.verts[c.2]?

theorem link_spec {s : File K} (hs : s.Ok) (ht : Triangular s) (hj : Joined s) {c d : Int × Nat} (h : link s c = some d) :
    Corner s d ∧ vert s d = vert s (c.1, (c.2 + 1) % 3) ∧ vert s (d.1, (d.2 + 1) % 3) = vert s c ∧
      ∃ f e, s.get? c.1 = some f ∧ f.edges[c.2]? = some e ∧ e.neighbor = d.1 ∧ e.neighbor ≠ -1 ∧ e.whichNot = (((d.2 + 2) % 3 : Nat) : Int) := by
  unfold link at h
  simp only [Option.bind_eq_some_iff] at h
  obtain ⟨f, hf, e, he, hd⟩ := h
  split_ifs at hd with hn
  rw [Option.some.injEq] at hd
  obtain ⟨g, j', hj3, hg, hw, hv1, hv2⟩ := hj c.1 f c.2 e hf he hn
  have hd2 : d.2 = j' := by
    rw [← hd]
    simp only
    rw [hw]
    omega
  have hd1 : d.1 = e.neighbor := by rw [← hd]
  refine ⟨⟨by rw [hd1]; exact (hs.2 _).2 ⟨g, hg⟩, by omega⟩, ?_, ?_, f, e, hf, he, hd1.symm, hn, by rw [hd2]; exact hw⟩
  · simp only [vert, hd1, hg, hd2, hf, Option.bind_some, hv1]
  · simp only [vert, hd1, hg, hd2, hf, Option.bind_some, hv2]

theorem nx_spec {s : File K} (hs : s.Ok) (ht : Triangular s) (hj : Joined s) {dir : Bool} {c d : Int × Nat} (h : nx s dir c = some d) : Corner s d ∧ vert s d = vert s c := by
  unfold nx at h
  split_ifs at h with h3 hd
  · rw [Option.map_eq_some_iff] at h
    obtain ⟨x, hx, rfl⟩ := h
    obtain ⟨h1, _, h2, _⟩ := link_spec hs ht hj hx
    exact ⟨⟨h1.1, Nat.mod_lt _ (by decide)⟩, h2⟩
  · obtain ⟨h1, h2, _⟩ := link_spec hs ht hj h
    refine ⟨h1, h2.trans ?_⟩
    congr 1
    refine Prod.ext rfl ?_
    simp only
    omega

theorem link_symm {s : File K} (hpos : ∀ id ∈ s.ids, 0 ≤ id) (hs : s.Ok) (hm : Mutual s) (ht : Triangular s) {c d : Int × Nat} (h : link s c = some d) : link s d = some c ∧ c.2 < 3 ∧ d.2 < 3 := by
  unfold link at h
  simp only [Option.bind_eq_some_iff] at h
  obtain ⟨f, hf, e, he, hd⟩ := h
  split_ifs at hd with hn
  rw [Option.some.injEq] at hd
  obtain ⟨g, e', j', hj3, hg, hw, he', hn', hw'⟩ := hm c.1 f c.2 e hf he hn
  have hc3 : c.2 < 3 := by
    have := (List.getElem?_eq_some_iff.1 he).1
    rw [(ht _ f hf).2] at this
    exact this
  have hd2 : d.2 = j' := by
    rw [← hd]
    simp only
    rw [hw]
    omega
  have hd1 : d.1 = e.neighbor := by rw [← hd]
  have hc0 : e'.neighbor ≠ -1 := by
    have := hpos c.1 ((hs.2 _).2 ⟨f, hf⟩)
    omega
  refine ⟨?_, hc3, by omega⟩
  unfold link
  rw [hd1, hg, hd2, Option.bind_some, he', Option.bind_some, if_neg hc0, hn', hw', Option.some.injEq]
  refine Prod.ext rfl ?_
  simp only
  omega

theorem nx_inverse {s : File K} (hpos : ∀ id ∈ s.ids, 0 ≤ id) (hs : s.Ok) (hm : Mutual s) (ht : Triangular s) : Fan.Inverse (nx s) := by
  intro c d
  unfold nx
  constructor
  · intro h
    split_ifs at h with h3 hff
    · exact absurd hff (by decide)
    · obtain ⟨h1, _, h4⟩ := link_symm hpos hs hm ht h
      rw [if_pos h4, if_pos rfl, h1, Option.map_some, Option.some.injEq]
      refine Prod.ext rfl ?_
      simp only
      omega
  · intro h
    split_ifs at h with h3 htt
    · rw [Option.map_eq_some_iff] at h
      obtain ⟨x, hx, rfl⟩ := h
      obtain ⟨h1, _, h4⟩ := link_symm hpos hs hm ht hx
      rw [if_pos (Nat.mod_lt _ (by decide)), if_neg (by simp)]
      rw [← h1]
      congr 1
      refine Prod.ext rfl ?_
      simp only
      omega
    · exact absurd rfl htt

/-! ### The walk -/

/-- The corners that the walk from `c0` visits. -/
abbrev trail (s : File K) (c0 : Int × Nat) := Fan.trail (nx s) Prod.fst c0

theorem trail_corner {s : File K} (hs : s.Ok) (ht : Triangular s) (hj : Joined s) {c0 : Int × Nat} (h0 : Corner s c0) : ∀ (k : Nat) (dir rev : Bool) (c : Int × Nat),
    Corner s c → vert s c = vert s c0 → ∀ d ∈ trail s c0 k dir rev c, Corner s d ∧ vert s d = vert s c0 := by
  intro k
  induction k with
  | zero => intro dir rev c _ _ d hd; simp [trail, Fan.trail] at hd
  | succ k ih =>
    intro dir rev c hc hv d hd
    unfold trail at hd
    rw [Fan.trail, List.mem_cons] at hd
    rcases hd with rfl | hd
    · exact ⟨hc, hv⟩
    · cases hn : nx s dir c with
      | none =>
        rw [hn] at hd
        simp only at hd
        split_ifs at hd
        · simp at hd
        · exact ih true true c0 h0 rfl d hd
      | some x =>
        rw [hn] at hd
        simp only at hd
        split_ifs at hd
        · obtain ⟨h1, h2⟩ := nx_spec hs ht hj hn
          exact ih dir rev x h1 (h2.trans hv) d hd
        · simp at hd

theorem mem_trail (s : File K) (c0 : Int × Nat) (k : Nat) (dir rev : Bool) (c : Int × Nat) : c ∈ trail s c0 (k + 1) dir rev c := by
  unfold trail
  rw [Fan.trail]
  exact List.mem_cons_self

theorem turn_eq (dir : Bool) {p : Nat} (hp : p < 3) :
    turn dir (if dir then (((p + 1) % 3 : Nat) : Int) else (((p + 2) % 3 : Nat) : Int)) = ((p : Int), (if dir then (p : Int) else (((p + 2) % 3 : Nat) : Int)), dir) := by
  rcases (by omega : p = 0 ∨ p = 1 ∨ p = 2) with rfl | rfl | rfl <;> cases dir <;> decide

theorem walk_eq {s : File K} (hs : s.Ok) (ht : Triangular s) (hj : Joined s) (n : Int) {c0 : Int × Nat} (h0 : Corner s c0) : ∀ (k : Nat) (dir rev : Bool) (c : Int × Nat) (m : Mesh K), Corner s c →
    walk s n c0.1 c0.2 k dir rev c.1 (if dir then (((c.2 + 1) % 3 : Nat) : Int) else (((c.2 + 2) % 3 : Nat) : Int)) m = (trail s c0 k dir rev c).foldlM (setCorner n) m := by
  intro k
  induction k with
  | zero => intro dir rev c m _; rfl
  | succ k ih =>
    intro dir rev c m hc
    unfold trail
    rw [walk, Fan.trail, turn_eq dir hc.2, List.foldlM_cons]
    have hed : (if dir = true then (c.2 : Int) else (((c.2 + 2) % 3 : Nat) : Int)) = ((if dir then c.2 else (c.2 + 2) % 3 : Nat) : Int) := by split_ifs <;> rfl
    simp only [hed]
    have hp := Int.natCast_nonneg c.2
    have hq := Int.natCast_nonneg (if dir then c.2 else (c.2 + 2) % 3 : Nat)
    simp only [if_pos hp, if_pos hq, Int.toNat_natCast, Option.bind_eq_bind, Option.bind_some]
    congr 1
    funext m1
    obtain ⟨f, hf⟩ := (hs.2 c.1).1 hc.1
    have hlt : (if dir then c.2 else (c.2 + 2) % 3 : Nat) < f.edges.length := by
      rw [(ht _ f hf).2]
      have := hc.2
      split_ifs <;> omega
    have he := List.getElem?_eq_getElem hlt
    generalize f.edges[(if dir then c.2 else (c.2 + 2) % 3 : Nat)] = e at he
    simp only [hf, he, Option.bind_some]
    by_cases hn : e.neighbor = -1
    · have hnx : nx s dir c = none := by
        unfold nx
        rw [if_pos hc.2]
        cases dir
        · simp only [Bool.false_eq_true, if_false] at he ⊢
          simp [link, hf, he, hn]
        · simp only [if_true] at he ⊢
          simp [link, hf, he, hn]
      rw [if_pos hn, hnx]
      simp only
      cases rev
      · simp only [Bool.false_eq_true, if_false]
        exact ih true true c0 m1 h0
      · rfl
    · obtain ⟨g, j', hj3, hg, hw, _, _⟩ := hj c.1 f _ e hf he hn
      have hlink : link s (c.1, if dir then c.2 else (c.2 + 2) % 3) = some (e.neighbor, j') := by
        simp only [link, hf, he, Option.bind_some, if_neg hn, hw, Option.some.injEq, Prod.mk.injEq, true_and]
        omega
      have hnx : nx s dir c = some (e.neighbor, if dir then (j' + 1) % 3 else j') := by
        unfold nx
        rw [if_pos hc.2]
        cases dir
        · simpa using hlink
        · simp only [if_true] at hlink ⊢
          rw [hlink, Option.map_some]
      rw [if_neg hn, hnx]
      simp only
      by_cases hfirst : e.neighbor ≠ c0.1
      · rw [if_pos hfirst, if_pos hfirst]
        have := ih dir rev (e.neighbor, if dir then (j' + 1) % 3 else j') m1 ⟨(hs.2 _).2 ⟨g, hg⟩, by simp only; split_ifs <;> omega⟩
        unfold trail at this
        rw [← this]
        congr 1
        rw [hw]
        cases dir
        · simp
        · simp only [if_true]; omega
      · rw [if_neg hfirst, if_neg hfirst]
        rfl

/-! ### Node ids of the corners -/

/-- The node of a corner. -/
def nodeOf (m : Mesh K) (c : Int × Nat) : Option Int := (m.elements.get? c.1).bind fun e => e.nodeIds[c.2]?

/-- A triangle for each facet. -/
def Shape (s : File K) (m : Mesh K) : Prop :=
  m.elements.Ok ∧ m.elements.ids = s.ids ∧ ∀ id e, m.elements.get? id = some e → e.elementType = .triangle ∧ e.nodeIds.length = 3

theorem setCorner_spec {s : File K} {m : Mesh K} (h : Shape s m) (n : Int) {c : Int × Nat} (hc : Corner s c) :
    ∃ m', setCorner n m c = some m' ∧ Shape s m' ∧ m'.nodes = m.nodes ∧ m'.faces = m.faces ∧ ∀ d, nodeOf m' d = if d = c then some n else nodeOf m d := by
  obtain ⟨e, he⟩ := (h.1.2 c.1).1 (h.2.1 ▸ hc.1)
  have hlen := (h.2.2 _ e he).2
  have hmod : m.elements.modify c.1 (fun e => if c.2 < e.nodeIds.length then some { e with nodeIds := e.nodeIds.set c.2 n } else none) =
      some { m.elements with map := m.elements.map.insert c.1 { e with nodeIds := e.nodeIds.set c.2 n } } :=
    Cont.modify_eq he (if_pos (by rw [hlen]; exact hc.2))
  refine ⟨{ m with elements := { m.elements with map := m.elements.map.insert c.1 { e with nodeIds := e.nodeIds.set c.2 n } } }, ?_, ⟨?_, h.2.1, ?_⟩, rfl, rfl, ?_⟩
  · unfold setCorner
    rw [hmod]
    rfl
  · exact Cont.put_ok h.1 he
  · intro id e' he'
    have he' : (Cont.mk (m.elements.map.insert c.1 { e with nodeIds := e.nodeIds.set c.2 n }) m.elements.ids m.elements.indices m.elements.counter).get? id = some e' := he'
    rw [Cont.get?_put] at he'
    split_ifs at he' with hk
    · rw [Option.some.injEq] at he'
      subst he'
      exact ⟨(h.2.2 _ e he).1, by simpa using hlen⟩
    · exact h.2.2 id e' he'
  · intro d
    have hg : (Cont.mk (m.elements.map.insert c.1 { e with nodeIds := e.nodeIds.set c.2 n }) m.elements.ids m.elements.indices m.elements.counter).get? d.1 = if d.1 = c.1 then some { e with nodeIds := e.nodeIds.set c.2 n } else m.elements.get? d.1 := Cont.get?_put _ _ _ _
    unfold nodeOf
    simp only
    rw [hg]
    by_cases h1 : d.1 = c.1
    · rw [if_pos h1, Option.bind_some]
      simp only
      by_cases h2 : d.2 = c.2
      · rw [if_pos (Prod.ext h1 h2), h2, List.getElem?_set_self (by rw [hlen]; exact hc.2)]
      · rw [if_neg (fun h => h2 (by rw [h])), List.getElem?_set_ne (Ne.symm h2), h1, he]
        rfl
    · rw [if_neg h1, if_neg (fun h => h1 (by rw [h]))]

theorem setCorners_spec {s : File K} (n : Int) (l : List (Int × Nat)) : ∀ m : Mesh K, Shape s m → (∀ c ∈ l, Corner s c) →
    ∃ m', l.foldlM (setCorner n) m = some m' ∧ Shape s m' ∧ m'.nodes = m.nodes ∧ m'.faces = m.faces ∧ ∀ d, nodeOf m' d = if d ∈ l then some n else nodeOf m d := by
  induction l with
  | nil => intro m h _; exact ⟨m, rfl, h, rfl, rfl, by simp⟩
  | cons c t ih =>
    intro m h hl
    obtain ⟨m1, a1, a2, a3, a4, a5⟩ := setCorner_spec h n (hl c (by simp))
    obtain ⟨m2, b1, b2, b3, b4, b5⟩ := ih m1 a2 fun d hd => hl d (List.mem_cons_of_mem _ hd)
    refine ⟨m2, ?_, b2, b3.trans a3, b4.trans a4, fun d => ?_⟩
    · rw [List.foldlM_cons, a1]
      exact b1
    · rw [b5, a5]
      by_cases h1 : d ∈ t
      · simp [h1]
      · by_cases h2 : d = c <;> simp [h1, h2]

/-! ### The loop over the corners -/

/-- What holds between the rounds. `Good` are the conditions under which nodes are shared exactly in fans. -/
structure Inv (s : File K) (top : Int) (Good : Prop) (done : List (Int × Nat)) (n : Int) (m : Mesh K) : Prop where
  shape : Shape s m
  faces : m.faces = Cont.empty
  nodes : m.nodes.Ok
  ids : ∀ k, k ∈ m.nodes.ids ↔ 0 ≤ k ∧ k < n
  nonneg : 0 ≤ n
  le : n ≤ done.length
  val : ∀ c, Corner s c → nodeOf m c = some top ∨ ∃ k, nodeOf m c = some k ∧ 0 ≤ k ∧ k < n ∧ m.nodes.get? k = vert s c
  set : ∀ c ∈ done, nodeOf m c ≠ some top
  share : Good → ∀ c d, Corner s c → Corner s d → nodeOf m c ≠ some top → (nodeOf m c = nodeOf m d ↔ Fan.Same (nx s) c d)

theorem vert_vertex {s : File K} (ht : Triangular s) {c : Int × Nat} {f : Facet K} (hf : s.get? c.1 = some f) (hc : c.2 < 3) : ∃ v, f.vertex? c.2 = some v ∧ vert s c = some v := by
  have hlen := (ht _ f hf).1
  have := List.getElem?_eq_getElem (l := f.verts) (i := c.2) (by omega)
  refine ⟨f.verts[c.2]'(by omega), ?_, ?_⟩
  · unfold Facet.vertex?
    rw [Nat.mod_eq_of_lt (by omega : c.2 < f.verts.length), this]
  · simp only [vert, hf, Option.bind_some, this]

theorem meshLoop_spec {s : File K} (hs : s.Ok) (ht : Triangular s) (hj : Joined s) {top : Int} {Good : Prop}
    (hgood : Good → ∀ c d, Corner s c → (d ∈ trail s c 100 false false c ↔ Fan.Same (nx s) c d)) (l : List (Int × Nat)) :
    ∀ (done : List (Int × Nat)) (n : Int) (m : Mesh K), Inv s top Good done n m → (∀ c ∈ l, Corner s c) → ((done.length + l.length : Nat) : Int) ≤ top →
    ∃ n' m', meshLoop s top l n m = some m' ∧ Inv s top Good (done ++ l) n' m' := by
  induction l with
  | nil => intro done n m h _ _; exact ⟨n, m, rfl, by simpa using h⟩
  | cons c t ih =>
    intro done n m h hl htop
    have hc := hl c (by simp)
    obtain ⟨e, he⟩ := (h.shape.1.2 c.1).1 (h.shape.2.1 ▸ hc.1)
    have hlen := (h.shape.2.2 _ e he).2
    have hi := List.getElem?_eq_getElem (l := e.nodeIds) (i := c.2) (by rw [hlen]; exact hc.2)
    generalize e.nodeIds[c.2]'(by rw [hlen]; exact hc.2) = i at hi
    have hnode : nodeOf m c = some i := by simp only [nodeOf, he, Option.bind_some, hi]
    have happ : done ++ c :: t = (done ++ [c]) ++ t := by simp
    by_cases htp : i = top
    · subst htp
      obtain ⟨f, hf⟩ := (hs.2 c.1).1 hc.1
      obtain ⟨v, hv1, hv2⟩ := vert_vertex ht hf hc.2
      have hn0 : n ∉ m.nodes.ids := by rw [h.ids]; omega
      have hnt : n < i := by
        have := h.le
        simp only [List.length_cons] at htop
        push_cast at htop
        omega
      have hshape1 : Shape s { m with nodes := m.nodes.add n v } := h.shape
      have htrail := trail_corner hs ht hj hc 100 false false c hc rfl
      obtain ⟨m2, b1, b2, b3, b4, b5⟩ := setCorners_spec n (trail s c 100 false false c) _ hshape1 fun d hd => (htrail d hd).1
      have hwalk := walk_eq hs ht hj n hc 100 false false c { m with nodes := m.nodes.add n v } hc
      rw [b1] at hwalk
      simp only [Bool.false_eq_true, if_false] at hwalk
      have hself : c ∈ trail s c 100 false false c := mem_trail s c 99 false false c
      have hb5 : ∀ d, nodeOf m2 d = if d ∈ trail s c 100 false false c then some n else nodeOf m d := b5
      have hget : ∀ k, m2.nodes.get? k = if k = n then some v else m.nodes.get? k := by
        intro k; rw [b3]; exact Cont.get?_add _ _ _ _
      have hinv : Inv s i Good (done ++ [c]) (n + 1) m2 := by
        refine ⟨b2, b4.trans h.faces, by rw [b3]; exact Cont.add_ok h.nodes v hn0, ?_, by have := h.nonneg; omega, ?_, ?_, ?_, ?_⟩
        · intro k
          rw [b3]
          simp only [Cont.add, List.mem_append, List.mem_singleton]
          rw [h.ids]
          have := h.nonneg
          omega
        · have := h.le
          simp only [List.length_append, List.length_cons, List.length_nil]
          push_cast
          omega
        · intro d hd
          rw [hb5]
          by_cases hin : d ∈ trail s c 100 false false c
          · rw [if_pos hin]
            right
            refine ⟨n, rfl, h.nonneg, by omega, ?_⟩
            rw [hget, if_pos rfl, (htrail d hin).2, hv2]
          · rw [if_neg hin]
            rcases h.val d hd with h1 | ⟨k, h1, h2, h3, h4⟩
            · exact Or.inl h1
            · refine Or.inr ⟨k, h1, h2, by omega, ?_⟩
              rw [hget, if_neg (by omega), h4]
        · intro d hd
          rw [hb5]
          by_cases hin : d ∈ trail s c 100 false false c
          · rw [if_pos hin]
            intro hcon
            rw [Option.some.injEq] at hcon
            omega
          · rw [if_neg hin]
            rcases List.mem_append.1 hd with hd | hd
            · exact h.set d hd
            · rw [List.mem_singleton] at hd
              subst hd
              exact absurd hself hin
        · intro hG x y hx hy hxt
          have hold : ∀ d, Corner s d → nodeOf m d ≠ some n := by
            intro d hd hcon
            rcases h.val d hd with h1 | ⟨k, h1, h2, h3, h4⟩
            · rw [h1, Option.some.injEq] at hcon; omega
            · rw [h1, Option.some.injEq] at hcon; omega
          have hmem := fun d => hgood hG c d hc
          rw [hb5] at hxt
          rw [hb5, hb5]
          by_cases hxin : x ∈ trail s c 100 false false c
          · by_cases hyin : y ∈ trail s c 100 false false c
            · rw [if_pos hxin, if_pos hyin]
              simp only [true_iff]
              exact Relation.EqvGen.trans _ _ _ (Relation.EqvGen.symm _ _ ((hmem x).1 hxin)) ((hmem y).1 hyin)
            · rw [if_pos hxin, if_neg hyin]
              constructor
              · intro hcon; exact absurd hcon.symm (hold y hy)
              · intro hsame
                exact absurd ((hmem y).2 (Relation.EqvGen.trans _ _ _ ((hmem x).1 hxin) hsame)) hyin
          · by_cases hyin : y ∈ trail s c 100 false false c
            · rw [if_neg hxin, if_pos hyin]
              constructor
              · intro hcon; exact absurd hcon (hold x hx)
              · intro hsame
                exact absurd ((hmem x).2 (Relation.EqvGen.trans _ _ _ ((hmem y).1 hyin) (Relation.EqvGen.symm _ _ hsame))) hxin
            · rw [if_neg hxin] at hxt ⊢
              rw [if_neg hyin]
              exact h.share hG x y hx hy hxt
      obtain ⟨n', m', r1, r2⟩ := ih (done ++ [c]) (n + 1) m2 hinv (fun d hd => hl d (List.mem_cons_of_mem _ hd)) (by
        simp only [List.length_append, List.length_cons, List.length_nil] at htop ⊢
        push_cast at htop ⊢
        omega)
      refine ⟨n', m', ?_, happ ▸ r2⟩
      rw [meshLoop]
      simp only [he, hi, hf, hv1, Option.bind_eq_bind, Option.bind_some, ne_eq, not_true_eq_false, if_false, hwalk]
      exact r1
    · obtain ⟨n', m', r1, r2⟩ := ih (done ++ [c]) n m ⟨h.shape, h.faces, h.nodes, h.ids, h.nonneg, by
          have := h.le
          simp only [List.length_append, List.length_cons, List.length_nil]
          push_cast
          omega, h.val, by
          intro d hd
          rcases List.mem_append.1 hd with hd | hd
          · exact h.set d hd
          · rw [List.mem_singleton] at hd
            subst hd
            rw [hnode]
            intro hcon
            rw [Option.some.injEq] at hcon
            exact htp hcon, h.share⟩ (fun d hd => hl d (List.mem_cons_of_mem _ hd)) (by
        simp only [List.length_append, List.length_cons, List.length_nil] at htop ⊢
        push_cast at htop ⊢
        omega)
      refine ⟨n', m', ?_, happ ▸ r2⟩
      rw [meshLoop]
      simp only [he, hi, Option.bind_eq_bind, Option.bind_some, ne_eq, htp, not_false_eq_true, if_true]
      exact r1

theorem elementsLoop_spec (top : Int) (l : List Int) : ∀ m : Mesh K, m.elements.Ok → l.Nodup → (∀ id ∈ l, id ∉ m.elements.ids) →
    (∀ id e, m.elements.get? id = some e → e = ⟨.triangle, [top, top, top], []⟩) →
    (elementsLoop top l m).elements.Ok ∧ (elementsLoop top l m).elements.ids = m.elements.ids ++ l ∧ (elementsLoop top l m).nodes = m.nodes ∧ (elementsLoop top l m).faces = m.faces ∧
      ∀ id e, (elementsLoop top l m).elements.get? id = some e → e = ⟨.triangle, [top, top, top], []⟩ := by
  induction l with
  | nil => intro m h _ _ he; exact ⟨h, by simp [elementsLoop], rfl, rfl, he⟩
  | cons a t ih =>
    intro m h hnd hl he
    rw [List.nodup_cons] at hnd
    have := ih { m with elements := m.elements.add a ⟨.triangle, [top, top, top], []⟩ } (Cont.add_ok h _ (hl a (by simp))) hnd.2 (by
      intro id hid
      simp only [Cont.add, List.mem_append, List.mem_singleton, not_or]
      exact ⟨hl id (List.mem_cons_of_mem _ hid), fun h => hnd.1 (h ▸ hid)⟩) (by
      intro id e h'
      simp only at h'
      rw [Cont.get?_add] at h'
      split_ifs at h'
      · simpa using h'.symm
      · exact he id e h')
    obtain ⟨h1, h2, h3, h4, h5⟩ := this
    exact ⟨h1, by rw [elementsLoop, h2]; simp [Cont.add], h3, h4, h5⟩

theorem toMesh_spec {s : File K} (hs : s.Ok) (ht : Triangular s) (hj : Joined s) {top : Int} (htop : 3 * (s.ids.length : Int) ≤ top) {Good : Prop}
    (hgood : Good → ∀ c d, Corner s c → (d ∈ trail s c 100 false false c ↔ Fan.Same (nx s) c d)) :
    ∃ n m, toMesh s top = some m ∧ Inv s top Good (corners s) n m := by
  obtain ⟨h1, h2, h3, h4, h5⟩ := elementsLoop_spec (K := K) top s.ids { nodes := Cont.empty, faces := Cont.empty, elements := Cont.empty, nbBoundary := 0 } Cont.empty_ok hs.1
    (by simp [Cont.empty]) (by intro id e h; simp [Cont.get?, Cont.empty] at h)
  have hlen : (corners s).length = 3 * s.ids.length := by
    unfold corners
    rw [List.length_flatMap]
    simp [Nat.mul_comm]
  have hnode : ∀ c, Corner s c → nodeOf (elementsLoop top s.ids { nodes := Cont.empty, faces := Cont.empty, elements := Cont.empty, nbBoundary := 0 } : Mesh K) c = some top := by
    intro c hc
    obtain ⟨e, he⟩ := (h1.2 c.1).1 (by rw [h2]; simpa [Cont.empty] using hc.1)
    have := h5 _ e he
    subst this
    have h3 := hc.2
    unfold nodeOf
    rw [he, Option.bind_some]
    rcases (by omega : c.2 = 0 ∨ c.2 = 1 ∨ c.2 = 2) with h | h | h <;> rw [h] <;> rfl
  have := meshLoop_spec hs ht hj hgood (top := top) (corners s) [] 0 (elementsLoop top s.ids { nodes := Cont.empty, faces := Cont.empty, elements := Cont.empty, nbBoundary := 0 })
    ⟨⟨h1, by rw [h2]; simp [Cont.empty], fun id e he => by rw [h5 id e he]; exact ⟨rfl, rfl⟩⟩, h4, by rw [h3]; exact Cont.empty_ok, by
      intro k
      rw [h3]
      simp [Cont.empty], le_refl _, by simp, fun c hc => Or.inl (hnode c hc), by simp, fun _ c d hc _ hn => absurd (hnode c hc) hn⟩ (fun c hc => mem_corners.1 hc) (by
      rw [hlen]; push_cast; simpa using htop)
  obtain ⟨n, m, r1, r2⟩ := this
  exact ⟨n, m, r1, by simpa using r2⟩

/-! ### Fans -/

theorem nx_corner {s : File K} (hs : s.Ok) {dir : Bool} {c d : Int × Nat} (h : nx s dir c = some d) : Corner s c := by
  unfold nx link at h
  split_ifs at h with h3 hd
  · rw [Option.map_eq_some_iff] at h
    obtain ⟨x, hx, rfl⟩ := h
    simp only [Option.bind_eq_some_iff] at hx
    obtain ⟨f, hf, _⟩ := hx
    exact ⟨(hs.2 _).2 ⟨f, hf⟩, h3⟩
  · simp only [Option.bind_eq_some_iff] at h
    obtain ⟨f, hf, _⟩ := h
    exact ⟨(hs.2 _).2 ⟨f, hf⟩, h3⟩

theorem same_spec {s : File K} (hs : s.Ok) (ht : Triangular s) (hj : Joined s) {c d : Int × Nat} (h : Fan.Same (nx s) c d) : vert s c = vert s d ∧ (Corner s c ↔ Corner s d) := by
  induction h with
  | rel x y h =>
    obtain ⟨h1, h2⟩ := nx_spec hs ht hj h
    exact ⟨h2.symm, by simp [h1, nx_corner hs h]⟩
  | refl x => exact ⟨rfl, Iff.rfl⟩
  | symm x y _ ih => exact ⟨ih.1.symm, ih.2.symm⟩
  | trans x y z _ _ ih1 ih2 => exact ⟨ih1.1.trans ih2.1, ih1.2.trans ih2.2⟩

theorem once_of_nodup {s : File K} (hs : s.Ok) (ht : Triangular s) (hj : Joined s) (hnd : ∀ id f, s.get? id = some f → f.verts.Nodup) {c : Int × Nat} (hc : Corner s c) : Fan.Once (nx s) Prod.fst c := by
  intro d hsame hk
  obtain ⟨h1, h2⟩ := same_spec hs ht hj hsame
  have hd := h2.1 hc
  obtain ⟨f, hf⟩ := (hs.2 c.1).1 hc.1
  have hlen := (ht _ f hf).1
  have hk : d.1 = c.1 := hk
  have hf' : s.get? d.1 = some f := by rw [hk]; exact hf
  refine Prod.ext hk ?_
  simp only [vert, hf, hf', Option.bind_some] at h1
  have hc2 := hc.2
  have hd2 := hd.2
  exact ((List.getElem?_inj (i := c.2) (by omega) (hnd _ f hf)).1 h1).symm

/-- Surfaces with at most `bound` facets have no greater fan. -/
theorem small_of_count {s : File K} (hs : s.Ok) (ht : Triangular s) (hj : Joined s) (hnd : ∀ id f, s.get? id = some f → f.verts.Nodup) {bound : Nat} (hb : s.ids.length ≤ bound) {c : Int × Nat} (hc : Corner s c) :
    Fan.Small (nx s) bound c := by
  intro l hl hsame
  have hcor : ∀ d ∈ l, Corner s d := fun d hd => (same_spec hs ht hj (hsame d hd)).2.1 hc
  have hmap : (l.map Prod.fst).Nodup := by
    rw [List.nodup_map_iff_inj_on hl]
    intro x hx y hy hxy
    exact (once_of_nodup hs ht hj hnd (hcor x hx) y (Relation.EqvGen.trans _ _ _ (Relation.EqvGen.symm _ _ (hsame x hx)) (hsame y hy)) hxy.symm).symm
  have hsub : (l.map Prod.fst).Subperm s.ids := hmap.subperm (by
    intro x hx
    obtain ⟨y, hy, rfl⟩ := List.mem_map.1 hx
    exact (hcor y hy).1)
  have := hsub.length_le
  rw [List.length_map] at this
  omega

/-- Different edges whose middles are within the tolerance are the same edge in opposite directions, and no third edge is as close. -/
def Conforming [Field K] [LinearOrder K] (s : File K) (tol : K) : Prop :=
  ∀ id j c id' j' c', MidOf s id j c → MidOf s id' j' c' → (id', j') ≠ (id, j) → Vec3.Within c' c tol →
    vert s (id', j') = vert s (id, (j + 1) % 3) ∧ vert s (id', (j' + 1) % 3) = vert s (id, j) ∧
    ∀ id'' j'' c'', MidOf s id'' j'' c'' → (id'', j'') ≠ (id, j) → Vec3.Within c'' c tol → (id'', j'') = (id', j')

end Stl

open Stl

/-- C100: on a conforming surface `generateConnectivity` finds neighbours that meet along equal edges in opposite directions, and that are neighbours of each other: what `mesh()` needs (C101). -/
theorem C100_conforming {K : Type} [Field K] [LinearOrder K] [IsStrictOrderedRing K] [FloorRing K] {mc : HashGrid.Machine K} {s : File K} (hs : s.Ok) (ht : Stl.Triangular s)
    (hpos : ∀ id ∈ s.ids, 0 ≤ id) (hg : Stl.MidsGridable mc s) {tol : K} (hc : Stl.Conforming s tol) :
    ∃ s', Stl.generateConnectivity mc s tol = some s' ∧ s'.Ok ∧ s'.ids = s.ids ∧ (∀ id f, s.get? id = some f → ∃ f', s'.get? id = some f' ∧ f'.verts = f.verts) ∧
      Stl.Triangular s' ∧ Stl.Joined s' ∧ Stl.Mutual s' := by
  obtain ⟨s', h1, h2, h3, h4⟩ := C100_connectivity hs ht hpos hg tol
  have hback : ∀ id f', s'.get? id = some f' → ∃ f, s.get? id = some f ∧ f'.verts = f.verts ∧ f'.edges.length = 3 ∧ ∀ (j : Nat) e', f'.edges[j]? = some e' → LinkedTo s tol id j e' := by
    intro id f' hf'
    obtain ⟨f, hf⟩ := (hs.2 id).1 (h3 ▸ (h2.2 id).2 ⟨f', hf'⟩)
    obtain ⟨g, g1, g2, _, g4, g5⟩ := h4 id f hf
    rw [hf', Option.some.injEq] at g1
    subst g1
    exact ⟨f, hf, g2, g4, g5⟩
  have hvert : ∀ c, vert s' c = vert s c := by
    intro c
    unfold vert
    by_cases hid : c.1 ∈ s.ids
    · obtain ⟨f, hf⟩ := (hs.2 _).1 hid
      obtain ⟨g, g1, g2, _⟩ := h4 _ f hf
      rw [hf, g1, Option.bind_some, Option.bind_some, g2]
    · have e1 : s.get? c.1 = none := by
        rw [← Option.not_isSome_iff_eq_none, Option.isSome_iff_exists]
        exact fun h => hid ((hs.2 _).2 h)
      have e2 : s'.get? c.1 = none := by
        rw [← Option.not_isSome_iff_eq_none, Option.isSome_iff_exists]
        exact fun h => hid (h3 ▸ (h2.2 _).2 h)
      rw [e1, e2]
  have htri : Triangular s' := by
    intro id f' hf'
    obtain ⟨f, hf, g2, g4, _⟩ := hback id f' hf'
    exact ⟨by rw [g2]; exact (ht id f hf).1, g4⟩
  have hmidpos : ∀ {id j c}, MidOf s id j c → 0 ≤ id := by
    rintro id j c ⟨f, _, _, hf, _⟩
    exact hpos id ((hs.2 id).2 ⟨f, hf⟩)
  refine ⟨s', h1, h2, h3, ?_, htri, ?_, ?_⟩
  · intro id f hf
    obtain ⟨g, g1, g2, _⟩ := h4 id f hf
    exact ⟨g, g1, g2⟩
  · intro id f' j e hf' he hn
    obtain ⟨f, hf, _, _, g5⟩ := hback id f' hf'
    rcases g5 j e he with ⟨h, _⟩ | ⟨id', j', c, c', hne, hm, hm', hw, e1, e2⟩
    · exact absurd h hn
    · obtain ⟨v1, v2, _⟩ := hc id j c id' j' c' hm hm' hne hw
      obtain ⟨f0, _, _, hf0, hj', _⟩ := hm'
      obtain ⟨g, hg', _⟩ := h4 id' f0 hf0
      refine ⟨g, j', hj', by rw [e1]; exact hg', e2, ?_, ?_⟩
      · rw [← hvert, ← hvert] at v1
        simpa [vert, hg', hf'] using v1
      · rw [← hvert, ← hvert] at v2
        simpa [vert, hg', hf'] using v2
  · intro id f' j e hf' he hn
    obtain ⟨f, hf, _, _, g5⟩ := hback id f' hf'
    rcases g5 j e he with ⟨h, _⟩ | ⟨id', j', c, c', hne, hm, hm', hw, e1, e2⟩
    · exact absurd h hn
    · have hw' : Vec3.Within c c' tol := ⟨hw.1, by
        have := hw.2
        simp only [Vec3.normSq, Vec3.dot, Vec3.sub_x, Vec3.sub_y, Vec3.sub_z] at this ⊢
        linarith⟩
      obtain ⟨f0, p0, q0, hf0, hj', hr0⟩ := (show MidOf s id' j' c' from hm')
      have hm' : MidOf s id' j' c' := ⟨f0, p0, q0, hf0, hj', hr0⟩
      obtain ⟨g, hg', _, _, glen, glink⟩ := h4 id' f0 hf0
      have hge := List.getElem?_eq_getElem (l := g.edges) (i := j') (by omega)
      refine ⟨g, _, j', hj', by rw [e1]; exact hg', e2, hge, ?_⟩
      rcases glink j' _ hge with ⟨_, _, h⟩ | ⟨id2, j2, c2, c2', hne2, hm2, hm2', hw2, e3, e4⟩
      · exact absurd hw' (h id j c' c (Ne.symm hne) hm' hm)
      · have hcc : c2 = c' := by
          have a := (midOf_iff ht hf0 hj' c2).1 hm2
          have b := (midOf_iff ht hf0 hj' c').1 hm'
          rw [a, Option.some.injEq] at b
          exact b
        subst hcc
        have := (hc id' j' c2 id j c hm' hm (Ne.symm hne) hw').2.2 id2 j2 c2' hm2' hne2 hw2
        rw [Prod.mk.injEq] at this
        rw [e3, e4, this.1, this.2]
        exact ⟨rfl, rfl⟩

variable {K : Type}

/-- C101: when neighbours meet along equal edges in opposite directions, `mesh()` gives a well formed mesh with a triangle for each facet, in order and under the facet's id, whose nodes lie at the vertices of the facet. -/
theorem C101_mesh {s : File K} (hs : s.Ok) (ht : Stl.Triangular s) (hj : Stl.Joined s) {top : Int} (htop : 3 * (s.ids.length : Int) ≤ top) :
    ∃ m, Stl.toMesh s top = some m ∧ m.WF ∧ m.elements.ids = s.ids ∧
      ∀ id f, s.get? id = some f → ∃ e, m.elements.get? id = some e ∧ e.elementType = .triangle ∧ m.coords e.nodeIds = f.verts.map some := by
  obtain ⟨n, m, h1, h⟩ := toMesh_spec hs ht hj htop (Good := False) (fun h => h.elim)
  have hval : ∀ c, Corner s c → ∃ k, nodeOf m c = some k ∧ 0 ≤ k ∧ k < n ∧ m.nodes.get? k = vert s c := by
    intro c hc
    rcases h.val c hc with h' | h'
    · exact absurd h' (h.set c (mem_corners.2 hc))
    · exact h'
  refine ⟨m, h1, ⟨h.nodes, by rw [h.faces]; exact Cont.empty_ok, h.shape.1, ?_, ?_⟩, h.shape.2.1, ?_⟩
  · intro id f hf
    rw [h.faces] at hf
    simp [Cont.get?, Cont.empty] at hf
  · intro id e he k hk
    obtain ⟨j, hj3, hjk⟩ := List.mem_iff_getElem.1 hk
    have hlen := (h.shape.2.2 id e he).2
    obtain ⟨k', q1, q2, q3, _⟩ := hval (id, j) ⟨h.shape.2.1 ▸ (h.shape.1.2 id).2 ⟨e, he⟩, by simp only; omega⟩
    have : nodeOf m (id, j) = some k := by simp only [nodeOf, he, Option.bind_some, List.getElem?_eq_getElem hj3, hjk]
    rw [this, Option.some.injEq] at q1
    subst q1
    exact (h.ids k).2 ⟨q2, q3⟩
  · intro id f hf
    have hid := (hs.2 id).2 ⟨f, hf⟩
    obtain ⟨e, he⟩ := (h.shape.1.2 id).1 (h.shape.2.1 ▸ hid)
    obtain ⟨hty, hlen⟩ := h.shape.2.2 id e he
    refine ⟨e, he, hty, ?_⟩
    apply List.ext_getElem?
    intro j
    have hvl := (ht id f hf).1
    by_cases hj3 : j < 3
    · obtain ⟨k, q1, _, _, q4⟩ := hval (id, j) ⟨hid, hj3⟩
      have hk : e.nodeIds[j]? = some k := by simpa [nodeOf, he] using q1
      have hv := List.getElem?_eq_getElem (l := f.verts) (i := j) (by omega)
      have hvert : vert s (id, j) = some (f.verts[j]'(by omega)) := by simp [vert, hf, hv]
      unfold Mesh.coords
      rw [List.getElem?_map, List.getElem?_map, hk, hv, Option.map_some, Option.map_some, q4, hvert]
    · unfold Mesh.coords
      rw [List.getElem?_eq_none (by rw [List.length_map]; omega), List.getElem?_eq_none (by rw [List.length_map]; omega)]

/-- C101: when moreover neighbours are mutual, no facet has two equal vertices and no more than 99 facets meet in a fan, two corners have the same node exactly when a chain of neighbours around the vertex links them. -/
theorem C101_shared {s : File K} (hs : s.Ok) (ht : Stl.Triangular s) (hj : Stl.Joined s) (hm : Stl.Mutual s) (hpos : ∀ id ∈ s.ids, 0 ≤ id) (hnd : ∀ id f, s.get? id = some f → f.verts.Nodup)
    {top : Int} (htop : 3 * (s.ids.length : Int) ≤ top) (hsmall : ∀ c, Stl.Corner s c → Fan.Small (Stl.nx s) 99 c) :
    ∃ m, Stl.toMesh s top = some m ∧ ∀ c d, Stl.Corner s c → Stl.Corner s d → (Stl.nodeOf m c = Stl.nodeOf m d ↔ Fan.Same (Stl.nx s) c d) := by
  obtain ⟨n, m, h1, h⟩ := toMesh_spec hs ht hj htop (Good := True) (fun _ c d hc => Fan.trail_eq (nx_inverse hpos hs hm ht) (hsmall c hc) (once_of_nodup hs ht hj hnd hc) d)
  exact ⟨m, h1, fun c d hc hd => h.share trivial c d hc hd (h.set c (mem_corners.2 hc))⟩

/-! ### Examples -/

namespace Stl

/-- The middles of a concrete surface. -/
theorem midOf_corner {s : File ℚ} (hs : s.Ok) (ht : Triangular s) {id : Int} {j : Nat} {c : Vec3 ℚ} (h : MidOf s id j c) : (id, j) ∈ corners s ∧ (s.get? id).bind (fun f => f.mid j) = some c := by
  obtain ⟨f, p, q, hf, hj, hr⟩ := (show MidOf s id j c from h)
  have h : MidOf s id j c := ⟨f, p, q, hf, hj, hr⟩
  exact ⟨mem_corners.2 ⟨(hs.2 id).2 ⟨f, hf⟩, hj⟩, by rw [hf, Option.bind_some]; exact (midOf_iff ht hf hj c).1 h⟩

/-- Whether the middles of two edges are within the tolerance. -/
def near (s : File ℚ) (tol : ℚ) (x y : Int × Nat) : Bool :=
  match (s.get? x.1).bind (fun f => f.mid x.2), (s.get? y.1).bind (fun f => f.mid y.2) with
  | some c, some d => decide (Vec3.normSq (d - c) ≤ tol * tol)
  | _, _ => false

theorem conforming_of {s : File ℚ} {tol : ℚ} (hs : s.Ok) (ht : Triangular s)
    (h : ∀ x ∈ corners s, ∀ y ∈ corners s, y ≠ x → near s tol x y = true → vert s y = vert s (x.1, (x.2 + 1) % 3) ∧ vert s (y.1, (y.2 + 1) % 3) = vert s x ∧ ∀ z ∈ corners s, z ≠ x → near s tol x z = true → z = y) :
    Conforming s tol := by
  intro id j c id' j' c' hm hm' hne hw
  obtain ⟨a1, a2⟩ := midOf_corner hs ht hm
  obtain ⟨b1, b2⟩ := midOf_corner hs ht hm'
  obtain ⟨q1, q2, q3⟩ := h (id, j) a1 (id', j') b1 hne (by simp only [near, a2, b2]; exact decide_eq_true hw.2)
  refine ⟨q1, q2, ?_⟩
  intro id'' j'' c'' hm'' hne'' hw''
  obtain ⟨d1, d2⟩ := midOf_corner hs ht hm''
  exact q3 (id'', j'') d1 hne'' (by simp only [near, a2, d2]; exact decide_eq_true hw''.2)

/-- The surface of a tetrahedron. -/
def tetra : File ℚ :=
  (((Cont.empty.add 3 (mk3 ⟨0, 0, 0⟩ ⟨0, 2, 0⟩ ⟨2, 0, 0⟩)).add 5 (mk3 ⟨0, 0, 0⟩ ⟨2, 0, 0⟩ ⟨0, 0, 2⟩)).add 4 (mk3 ⟨2, 0, 0⟩ ⟨0, 2, 0⟩ ⟨0, 0, 2⟩)).add 9 (mk3 ⟨0, 0, 0⟩ ⟨0, 0, 2⟩ ⟨0, 2, 0⟩)

theorem tetra_ok : tetra.Ok ∧ Triangular tetra := by
  have : tetra.Ok := Cont.add_ok (Cont.add_ok (Cont.add_ok (Cont.add_ok Cont.empty_ok _ (by decide +kernel)) _ (by decide +kernel)) _ (by decide +kernel)) _ (by decide +kernel)
  refine ⟨this, triangular_of this ?_⟩
  intro id hid
  have : id = 3 ∨ id = 5 ∨ id = 4 ∨ id = 9 := by simpa [tetra, Cont.add, Cont.empty, or_assoc] using hid
  rcases this with rfl | rfl | rfl | rfl
  · exact ⟨mk3 ⟨0, 0, 0⟩ ⟨0, 2, 0⟩ ⟨2, 0, 0⟩, by decide +kernel, rfl, rfl⟩
  · exact ⟨mk3 ⟨0, 0, 0⟩ ⟨2, 0, 0⟩ ⟨0, 0, 2⟩, by decide +kernel, rfl, rfl⟩
  · exact ⟨mk3 ⟨2, 0, 0⟩ ⟨0, 2, 0⟩ ⟨0, 0, 2⟩, by decide +kernel, rfl, rfl⟩
  · exact ⟨mk3 ⟨0, 0, 0⟩ ⟨0, 0, 2⟩ ⟨0, 2, 0⟩, by decide +kernel, rfl, rfl⟩

theorem tetra_conforming : Conforming tetra (1 / 10) := conforming_of tetra_ok.1 tetra_ok.2 (by decide +kernel)

theorem tetra_gridable : MidsGridable smallMachine tetra := by
  refine ⟨by norm_num [smallMachine], by norm_num [smallMachine], ?_, Or.inr (Or.inr ⟨3, 0, 3, 1, ⟨0, 1, 0⟩, ⟨1, 1, 0⟩, ?_, ?_, by decide +kernel⟩)⟩
  · intro id j c hm
    obtain ⟨h1, h2⟩ := midOf_corner tetra_ok.1 tetra_ok.2 hm
    have : ∀ x ∈ corners tetra, ∀ c ∈ (tetra.get? x.1).bind (fun f => f.mid x.2), Vec3.Bounded smallMachine.big c := by unfold Vec3.Bounded; decide +kernel
    exact this _ h1 c h2
  · exact ⟨mk3 ⟨0, 0, 0⟩ ⟨0, 2, 0⟩ ⟨2, 0, 0⟩, ⟨0, 0, 0⟩, ⟨0, 2, 0⟩, by decide +kernel, by decide, rfl, rfl, by decide +kernel⟩
  · exact ⟨mk3 ⟨0, 0, 0⟩ ⟨0, 2, 0⟩ ⟨2, 0, 0⟩, ⟨0, 2, 0⟩, ⟨2, 0, 0⟩, by decide +kernel, by decide, rfl, rfl, by decide +kernel⟩

end Stl

/-- The surface of a tetrahedron meets the hypotheses of `C100_connectivity` and `C100_conforming`. -/
example : tetra.Ok ∧ Stl.Triangular tetra ∧ (∀ id ∈ tetra.ids, 0 ≤ id) ∧ Stl.MidsGridable smallMachine tetra ∧ Stl.Conforming tetra (1 / 10) :=
  ⟨tetra_ok.1, tetra_ok.2, by decide +kernel, tetra_gridable, tetra_conforming⟩

/-- With its neighbours, the surface of the tetrahedron meets those of `C101_mesh` and `C101_shared`: its four facets give a mesh with four nodes. -/
example : ∃ s, Stl.generateConnectivity smallMachine tetra (1 / 10) = some s ∧ s.Ok ∧ Stl.Triangular s ∧ Stl.Joined s ∧ Stl.Mutual s ∧ (∀ id ∈ s.ids, 0 ≤ id) ∧
    (∀ id f, s.get? id = some f → f.verts.Nodup) ∧ (∀ c, Stl.Corner s c → Fan.Small (Stl.nx s) 99 c) ∧ 3 * (s.ids.length : Int) ≤ 12 := by
  obtain ⟨s, h1, h2, h3, h4, h5, h6, h7⟩ := C100_conforming tetra_ok.1 tetra_ok.2 (by decide +kernel) tetra_gridable tetra_conforming
  have hnd : ∀ id f, s.get? id = some f → f.verts.Nodup := by
    intro id f hf
    have hid := (h2.2 id).2 ⟨f, hf⟩
    rw [h3] at hid
    obtain ⟨g, hg⟩ := (tetra_ok.1.2 id).1 hid
    obtain ⟨f', q1, q2⟩ := h4 id g hg
    rw [hf, Option.some.injEq] at q1
    subst q1
    rw [q2]
    have : ∀ id ∈ tetra.ids, ∀ g ∈ tetra.get? id, g.verts.Nodup := by decide +kernel
    exact this id hid g hg
  exact ⟨s, h1, h2, h5, h6, h7, by rw [h3]; decide +kernel, hnd, fun c hc => small_of_count h2 h5 h6 hnd (by rw [h3]; decide +kernel) hc, by rw [h3]; decide +kernel⟩

example : ((Stl.generateConnectivity smallMachine tetra (1 / 10)).bind fun s => Stl.toMesh s 1000).map (fun m => (m.nodes.ids, (m.elements.ids.filterMap fun i => m.elements.get? i).map (·.nodeIds))) =
    some ([0, 1, 2, 3], [[0, 1, 2], [0, 2, 3], [2, 1, 3], [0, 3, 1]]) := by decide +kernel

namespace Stl

theorem joined_of {s : File ℚ} (hs : s.Ok) (ht : Triangular s)
    (h : ∀ c ∈ corners s, ∀ f ∈ s.get? c.1, ∀ e ∈ f.edges[c.2]?, e.neighbor = -1 ∨ ∃ j' < 3, e.whichNot = (((j' + 2) % 3 : Nat) : Int) ∧
      ∃ g ∈ s.get? e.neighbor, g.verts[j']? = f.verts[(c.2 + 1) % 3]? ∧ g.verts[(j' + 1) % 3]? = f.verts[c.2]? ∧ ∃ e' ∈ g.edges[j']?, e'.neighbor = c.1 ∧ e'.whichNot = (((c.2 + 2) % 3 : Nat) : Int)) :
    Joined s ∧ Mutual s := by
  have key : ∀ id f (j : Nat) e, s.get? id = some f → f.edges[j]? = some e → (id, j) ∈ corners s := by
    intro id f j e hf he
    have := (List.getElem?_eq_some_iff.1 he).1
    rw [(ht id f hf).2] at this
    exact mem_corners.2 ⟨(hs.2 id).2 ⟨f, hf⟩, this⟩
  constructor
  · intro id f j e hf he hn
    rcases h (id, j) (key id f j e hf he) f hf e he with h' | ⟨j', h1, h2, g, h3, h4, h5, _⟩
    · exact absurd h' hn
    · exact ⟨g, j', h1, h3, h2, h4, h5⟩
  · intro id f j e hf he hn
    rcases h (id, j) (key id f j e hf he) f hf e he with h' | ⟨j', h1, h2, g, h3, _, _, e', h6, h7, h8⟩
    · exact absurd h' hn
    · exact ⟨g, e', j', h1, h3, h2, h6, h7, h8⟩

/-- `n` facets around one vertex, each the neighbour of the next. -/
def ring (n : Nat) : File ℚ :=
  (List.range n).foldl (fun s i => s.add i ⟨[⟨0, 0, 1⟩, ⟨i, i * i, 0⟩, ⟨i + 1, (i + 1) * (i + 1), 0⟩], ⟨0, 0, 0⟩, (0, 0),
    [⟨(i : Int) - 1, if i = 0 then -1 else 1, false⟩, ⟨-1, -1, false⟩, ⟨if i + 1 = n then -1 else (i : Int) + 1, if i + 1 = n then -1 else 2, false⟩]⟩) Cont.empty

theorem ring_adds (F : Nat → Facet ℚ) (hF : ∀ i, (F i).verts.length = 3 ∧ (F i).edges.length = 3) (n : Nat) :
    ((List.range n).foldl (fun (s : File ℚ) (i : Nat) => s.add (i : Int) (F i)) Cont.empty).Ok ∧ ((List.range n).foldl (fun (s : File ℚ) (i : Nat) => s.add (i : Int) (F i)) Cont.empty).ids = (List.range n).map Int.ofNat ∧
      Triangular ((List.range n).foldl (fun (s : File ℚ) (i : Nat) => s.add (i : Int) (F i)) Cont.empty) := by
  induction n with
  | zero => exact ⟨Cont.empty_ok, rfl, fun id f h => by simp [Cont.get?, Cont.empty] at h⟩
  | succ n ih =>
    obtain ⟨h1, h2, h3⟩ := ih
    rw [List.range_succ, List.foldl_append]
    refine ⟨Cont.add_ok h1 _ ?_, ?_, ?_⟩
    · rw [h2]; simp
    · rw [List.map_append, ← h2]; rfl
    · intro id f hf
      simp only [List.foldl_cons, List.foldl_nil, Cont.get?_add] at hf
      split_ifs at hf
      · rw [Option.some.injEq] at hf
        rw [← hf]
        exact hF n
      · exact h3 id f hf

end Stl

set_option maxRecDepth 20000 in
/-- C101: a fan of more than 100 facets breaks: the walk gives up after 100 steps, and the vertex in the middle gets a second node, although neighbours meet along equal edges and are mutual. -/
theorem C101_big_fan : ∃ s : File ℚ, s.Ok ∧ Stl.Triangular s ∧ Stl.Joined s ∧ Stl.Mutual s ∧ s.ids.length = 101 ∧ (∀ id f, s.get? id = some f → f.verts.Nodup) ∧
    Fan.Same (Stl.nx s) (0, 0) (100, 0) ∧ (Stl.toMesh s 1000).map (fun m => (Stl.nodeOf m (0, 0), Stl.nodeOf m (100, 0))) = some (some 0, some 102) := by
  obtain ⟨h1, h2, h3⟩ := ring_adds (fun i => ⟨[⟨0, 0, 1⟩, ⟨i, i * i, 0⟩, ⟨i + 1, (i + 1) * (i + 1), 0⟩], ⟨0, 0, 0⟩, (0, 0),
    [⟨(i : Int) - 1, if i = 0 then -1 else 1, false⟩, ⟨-1, -1, false⟩, ⟨if i + 1 = 101 then -1 else (i : Int) + 1, if i + 1 = 101 then -1 else 2, false⟩]⟩) (fun i => ⟨rfl, rfl⟩) 101
  have h1 : (ring 101).Ok := h1
  have h2 : (ring 101).ids = (List.range 101).map Int.ofNat := h2
  have h3 : Triangular (ring 101) := h3
  obtain ⟨h4, h5⟩ := joined_of h1 h3 (by decide +kernel)
  refine ⟨ring 101, h1, h3, h4, h5, by rw [h2]; simp, ?_, ?_, by decide +kernel⟩
  · intro id f hf
    have : ∀ id ∈ (ring 101).ids, ∀ f ∈ (ring 101).get? id, f.verts.Nodup := by decide +kernel
    exact this id ((h1.2 id).2 ⟨f, hf⟩) f hf
  · have hstep : ∀ i < 100, nx (ring 101) false ((i : Nat), 0) = some (((i + 1 : Nat) : Int), 0) := by decide +kernel
    have : ∀ i ≤ 100, Fan.Same (nx (ring 101)) (0, 0) ((i : Nat), 0) := by
      intro i
      induction i with
      | zero => intro _; exact Relation.EqvGen.refl _
      | succ i ih => intro hi; exact Relation.EqvGen.trans _ _ _ (ih (by omega)) (Relation.EqvGen.rel _ _ (hstep i (by omega)))
    exact this 100 (le_refl _)

end ENigMA
