import Verif.Mesh.RemeshLemmas

/-!
# C92: splitting the long sides of a triangulation
-/

set_option linter.unusedSectionVars false
set_option autoImplicit false

namespace ENigMA
namespace Remesh
open Smooth
variable {K : Type} [Field K] [LinearOrder K] [IsStrictOrderedRing K]

theorem tinv_start {m : Mesh K} (hm : m.Triangulation) (hnum : m.Numbered) (nrm : Vec3 K → K) (size : K) :
    TInv nrm size m ⟨m.nodes, m.elements, m.elements.ids.map fun _ => false⟩ := by
  refine ⟨hm.wf.nodes, fun _ _ h => h, fun _ _ h => h, hm.wf.elements, ⟨[], by simp, ?_⟩, by simp, fun _ _ _ => rfl, ?_, ?_, fun _ _ => rfl, hnum.1, hnum.2,
    fun _ _ h => Or.inl h, ?_⟩
  · simp [List.count_replicate]
  · intro id e he
    obtain ⟨a, b, c, fs, p, q, r, rfl, h1, h2, h3, -⟩ := tri_of hm he
    exact ⟨a, b, c, fs, rfl, ⟨p, h1⟩, ⟨q, h2⟩, ⟨r, h3⟩, Or.inr ⟨_, he, rfl⟩⟩
  · intro id t ht
    have ht' : m.triAt id = some t := ht
    refine hm.up t (List.mem_filterMap.2 ⟨id, ?_, ht'⟩)
    cases h : m.elements.get? id with
    | none => unfold Mesh.triAt at ht'; rw [h] at ht'; simp at ht'
    | some e => exact (hm.wf.elements.2 id).2 ⟨e, h⟩
  · intro id _ hf
    exfalso
    have hf' : flag (m.elements.ids.map fun _ => false) id = some true := hf
    unfold flag at hf'
    split_ifs at hf'
    rw [List.getElem?_map] at hf'
    obtain ⟨_, _, h⟩ := Option.map_eq_some_iff.1 hf'
    simp at h

theorem end_tri {m : Mesh K} (hm : m.Triangulation) {nrm : Vec3 K → K} {size : K} {s : St K} (hi : TInv nrm size m s) :
    Mesh.Triangulation { m with nodes := s.nodes, elements := s.els } := by
  have hup : ∀ t ∈ Mesh.triangles { m with nodes := s.nodes, elements := s.els }, 0 < orient t.v0 t.v1 t.v2 := by
    intro t h
    obtain ⟨id, hid, h⟩ := List.mem_filterMap.1 h
    exact hi.up id t h
  refine ⟨⟨hi.nodes, hm.wf.faces, hi.els, ?_, ?_⟩, ?_, hup, ?_⟩
  · intro id f hf n hn
    obtain ⟨p, hp⟩ := (hm.wf.nodes.2 n).1 (hm.wf.faceNodes id f hf n hn)
    exact (hi.nodes.2 n).2 ⟨p, hi.old n p hp⟩
  · intro id e he n hn
    obtain ⟨a, b, c, fs, rfl, h1, h2, h3, -⟩ := hi.tri id e he
    simp only [List.mem_cons, List.not_mem_nil, or_false] at hn
    rcases hn with rfl | rfl | rfl
    · exact (hi.nodes.2 _).2 h1
    · exact (hi.nodes.2 _).2 h2
    · exact (hi.nodes.2 _).2 h3
  · intro id e he
    obtain ⟨a, b, c, fs, rfl, -⟩ := hi.tri id e he
    exact ⟨rfl, rfl⟩
  · exact apart_of hm.up hup (fun f hf => hi.sum f hf) hm.apart

theorem bounded_iff {big : K} {p : Vec3 K} : p.Bounded big ↔ ∀ v ∈ [(⟨1, 0, 0⟩ : Vec3 K), ⟨-1, 0, 0⟩, ⟨0, 1, 0⟩, ⟨0, -1, 0⟩, ⟨0, 0, 1⟩, ⟨0, 0, -1⟩], Vec3.dot v p ≤ big := by
  simp only [Vec3.Bounded, List.mem_cons, List.not_mem_nil, or_false, forall_eq_or_imp, forall_eq, Vec3.dot, zero_mul, one_mul, neg_mul, zero_add, add_zero]
  constructor
  · rintro ⟨⟨a, b⟩, ⟨c, d⟩, e, f⟩
    exact ⟨b, by linarith, d, by linarith, f, by linarith⟩
  · rintro ⟨a, b, c, d, e, f⟩
    exact ⟨⟨by linarith, a⟩, ⟨by linarith, c⟩, by linarith, e⟩

section
variable [FloorRing K]

theorem listed_of {mc : HashGrid.Machine K} {m m' : Mesh K} (hm : m.Triangulation) (hc : Machine mc m) {tol : K} (ht : 0 ≤ tol)
    (h : m.generateFaces mc tol = some m') : m'.Listed := by
  have hfull : m.FullElements := fun id e he => by
    obtain ⟨h1, h2⟩ := hm.all id e he
    rw [h1, h2]; exact le_refl 3
  have hg := good_of hm hc
  obtain ⟨m1, h1, h2, h3, h4, h5, h6, h7, h8, h9⟩ := C07_generateFaces_faces mc m hm.wf hfull hg tol ht
  rw [h] at h1
  obtain rfl := Option.some.inj h1
  obtain ⟨m2, k1, k2, -⟩ := C07_generateFaces_pairs mc m hm.wf hfull hg tol ht
  rw [h] at k1
  obtain rfl := Option.some.inj k1
  obtain ⟨e1, e2⟩ := expected_sides hm.wf.elements hm.all
  obtain ⟨m3, g1, -, -, g4, -⟩ := faces_fit hm.wf hg hm.all (distinct_of hm) (sideIds_nodup hm) ht
  rw [h] at g1
  obtain rfl := Option.some.inj g1
  have hline : ∀ i f, m'.faces.get? i = some f → f.faceType = .line := by
    intro i f hf
    have hi := (h5.faces.2 i).2 ⟨f, hf⟩
    rw [h3] at hi
    obtain ⟨k, hk, rfl⟩ := List.mem_map.1 hi
    have q := h4 k
    rw [show ((k : Nat) : Int) = Int.ofNat k from rfl, hf] at q
    obtain ⟨f0, hf0, q⟩ := Option.map_eq_some_iff.1 q.symm
    simp only [Prod.mk.injEq] at q
    rw [← q.1]
    exact (e2 f0 (List.mem_of_getElem? hf0)).1
  refine ⟨?_, ?_⟩
  · intro id e he fid
    rw [h9 id e he fid]
    constructor
    · rintro ⟨f, q1, q2⟩; exact ⟨f, q1, q2, hline _ _ q1⟩
    · rintro ⟨f, q1, q2, -⟩; exact ⟨f, q1, q2⟩
  · intro i f a b hf hl hn hs
    obtain ⟨j, g, hg1, hg2, hg3⟩ := g4.face _ hs
    refine (k2 i f hf).2 ⟨j, g, ?_, hg1, ?_⟩
    · rintro rfl
      rw [hf] at hg1
      obtain rfl := Option.some.inj hg1
      rw [hn] at hg3
      simp only [List.cons.injEq, and_true] at hg3
      obtain ⟨id, hid, hs'⟩ := List.mem_flatMap.1 hs
      obtain ⟨e, he⟩ := (h5.elements.2 id).1 hid
      rw [he] at hs'
      simp only [Option.map_some, Option.getD_some] at hs'
      obtain ⟨e0, q1, q2, q3⟩ := h7 id e he
      have w := g4.three id e he (by rw [q2]; exact (hm.all id e0 q1).1)
      refine no_both w hs' ?_
      rw [hg3.1] at hs' ⊢
      exact hs'
    · exact ⟨by rw [hl, hg2], by rw [hn, hg3]; exact List.Perm.swap _ _ _⟩

theorem loop_mono {nrm : Vec3 K → K} {size : K} {faces : Cont Face} : ∀ {fuel : Nat} (d i : Nat) {s s' : St K}, loop nrm size faces fuel i s = some s' →
    loop nrm size faces (fuel + d) i s = some s'
  | 0, d, i, s, s', h => by
    unfold loop at h
    split_ifs at h with hi
    cases d with
    | zero => unfold loop; rw [if_neg hi]; exact h
    | succ d =>
      rw [Nat.zero_add]
      unfold loop
      rw [List.getElem?_eq_none_iff.2 (by omega)]
      exact h
  | fuel + 1, d, i, s, s', h => by
    rw [Nat.add_right_comm]
    unfold loop at h ⊢
    cases hx : s.els.ids[i]? with
    | none => rw [hx] at h; exact h
    | some id =>
      rw [hx] at h
      simp only [Option.bind_eq_bind, Option.bind_eq_some_iff] at h ⊢
      obtain ⟨s1, h1, h2⟩ := h
      exact ⟨s1, h1, loop_mono d (i + 1) h2⟩

/-- The whole: with enough rounds `remesh` is defined; whenever it is, this holds. -/
theorem remesh_core {nrm : Vec3 K → K} (hsym : ∀ v, nrm (-v) = nrm v) {mc : HashGrid.Machine K} {m : Mesh K} (hm : m.Triangulation) (hfit : m.FacesFit)
    (hlist : m.Listed) (hnum : m.Numbered) (hc : Machine mc m) {size tol : K} (ht : 0 ≤ tol) :
    ∃ s m', (∀ fuel, 2 * m.elements.ids.length ≤ fuel → remesh nrm mc fuel m size tol = some m') ∧
      (∀ fuel m1, remesh nrm mc fuel m size tol = some m1 → m1 = m') ∧ TInv nrm size m s ∧ (∀ id ∈ m.elements.ids, Served nrm size m s id) ∧
      m'.Triangulation ∧ m'.FacesFit ∧ m'.Listed ∧ m'.Numbered ∧ Machine mc m' ∧ m'.nodes = s.nodes ∧ m'.elements.ids = s.els.ids ∧
      (∀ id, (m'.elements.get? id).map (fun e => (e.elementType, e.nodeIds)) = (s.els.get? id).map fun e => (e.elementType, e.nodeIds)) := by
  obtain ⟨s, h1, h2, h3⟩ := loop_spec hm.wf hm.all hfit hlist hnum hsym (size := size) (2 * m.elements.ids.length) 0 (tinv_start hm hnum nrm size)
    (fun j hj => absurd hj (by omega)) (by omega)
  have hM := end_tri hm h2
  have hcM : Machine mc { m with nodes := s.nodes, elements := s.els } := by
    refine ⟨hc.eps, hc.big, ?_⟩
    intro n p hp
    rw [bounded_iff]
    intro v hv
    exact h2.half v mc.big (fun n q hq => (bounded_iff.1 (hc.bounded n q hq)) v hv) n p hp
  obtain ⟨m', g1, g2, g3, g4, g5, g6, -, g8, g9, -⟩ := faces_fit hM.wf (good_of hM hcM) hM.all (distinct_of hM) (sideIds_nodup hM) ht
  have hdef : ∀ fuel, 2 * m.elements.ids.length ≤ fuel → remesh nrm mc fuel m size tol = some m' := by
    intro fuel hf
    obtain ⟨d, rfl⟩ := Nat.exists_eq_add_of_le hf
    unfold remesh
    rw [loop_mono d 0 h1]
    exact g1
  refine ⟨s, m', hdef, ?_, h2, h3, ⟨g2, g3, by rw [g6]; exact hM.up, by rw [g6]; exact hM.apart⟩, g4, listed_of hM hcM ht g1, ?_,
    ⟨hc.eps, hc.big, by rw [g5]; exact hcM.bounded⟩, g5, g8, g9⟩
  · intro fuel m1 hr
    unfold remesh at hr
    simp only [Option.bind_eq_bind, Option.bind_eq_some_iff] at hr
    obtain ⟨s1, r1, r2⟩ := hr
    have r3 := loop_mono (2 * m.elements.ids.length) 0 r1
    have r4 := loop_mono fuel 0 h1
    rw [Nat.add_comm, r4] at r3
    obtain rfl := Option.some.inj r3
    rw [g1] at r2
    exact (Option.some.inj r2).symm
  · constructor
    · rw [g8]; exact h2.num
    · rw [g5]; exact h2.nonneg

theorem tri_eq {m m' : Mesh K} {s : St K} (h1 : m'.nodes = s.nodes)
    (h2 : ∀ id, (m'.elements.get? id).map (fun e => (e.elementType, e.nodeIds)) = (s.els.get? id).map fun e => (e.elementType, e.nodeIds)) (id : Int) :
    m'.triAt id = Mesh.triAt { m with nodes := s.nodes, elements := s.els } id :=
  triAt_congr (m := { m with nodes := s.nodes, elements := s.els }) h1 (h2 id)

theorem tris_eq {m m' : Mesh K} {s : St K} (h1 : m'.nodes = s.nodes) (h3 : m'.elements.ids = s.els.ids)
    (h2 : ∀ id, (m'.elements.get? id).map (fun e => (e.elementType, e.nodeIds)) = (s.els.get? id).map fun e => (e.elementType, e.nodeIds)) :
    m'.triangles = Mesh.triangles { m with nodes := s.nodes, elements := s.els } := by
  unfold Mesh.triangles
  rw [h3]
  congr 1
  funext id
  exact tri_eq h1 h2 id
end
end Remesh

open Remesh Smooth
variable {K : Type} [Field K] [LinearOrder K] [IsStrictOrderedRing K] [FloorRing K]

/-- **C92 (the faces).** After `generateFaces` a triangulation has its faces in order: it meets what the theorems on `remesh` ask for. -/
theorem C92_faces (mc : HashGrid.Machine K) (m : Mesh K) (hm : m.Triangulation) (hc : Smooth.Machine mc m) (tol : K) (ht : 0 ≤ tol) :
    ∃ m', m.generateFaces mc tol = some m' ∧ m'.Triangulation ∧ m'.FacesFit ∧ m'.Listed := by
  obtain ⟨m', h1, h2, h3, -⟩ := C90_faces mc m hm hc tol ht
  exact ⟨m', h1, h2, h3, listed_of hm hc ht h1⟩

variable {nrm : Vec3 K → K} (hsym : ∀ v, nrm (-v) = nrm v) {mc : HashGrid.Machine K} {m : Mesh K} (hm : m.Triangulation) (hfit : m.FacesFit)
  (hlist : m.Listed) (hnum : m.Numbered) (hc : Smooth.Machine mc m) {size tol : K} (ht : 0 ≤ tol)
include hsym hm hfit hlist hnum hc ht

/-- **C92 (the loop ends, and the result is a triangulation).** On a triangulation with its faces in order, `remesh` ends after at most two rounds for each of the given
triangles. The result is again a triangulation with its faces in order, fit for another `remesh`; it has at most twice as many triangles; every node that was there keeps its
id and its place. -/
theorem C92_remesh : ∃ m', (∀ fuel, 2 * m.elements.ids.length ≤ fuel → remesh nrm mc fuel m size tol = some m') ∧ m'.Triangulation ∧ m'.FacesFit ∧ m'.Listed ∧
    m'.Numbered ∧ Smooth.Machine mc m' ∧ m'.elements.ids.length ≤ 2 * m.elements.ids.length ∧ ∀ n p, m.nodes.get? n = some p → m'.nodes.get? n = some p := by
  obtain ⟨s, m', h1, h2, h3, h4, h5, h6, h7, h8, h9, h10, h11, h12⟩ := remesh_core hsym hm hfit hlist hnum hc (size := size) ht
  refine ⟨m', h1, h5, h6, h7, h8, h9, ?_, ?_⟩
  · obtain ⟨extra, e1, e2⟩ := h3.ids
    have := List.count_le_length (a := true) (l := s.done)
    rw [h3.len] at this
    rw [h11, e1, List.length_append, e2]
    omega
  · rw [h10]; exact h3.old

variable {fuel : Nat} {m' : Mesh K} (h : remesh nrm mc fuel m size tol = some m')
include h

/-- **C92 (the region).** A point that is on no side, before or after, is inside a triangle after `remesh` iff it was before, and the total area is the same. -/
theorem C92_region :
    (∀ p, (∀ s ∈ m.sides, ¬ Covers s p) → (∀ s ∈ m'.sides, ¬ Covers s p) → ((∃ t ∈ m'.triangles, t.Inside p) ↔ ∃ t ∈ m.triangles, t.Inside p)) ∧
    (m'.triangles.map fun t => orient t.v0 t.v1 t.v2).sum = (m.triangles.map fun t => orient t.v0 t.v1 t.v2).sum := by
  obtain ⟨s, m1, h1, h2, h3, h4, h5, h6, h7, h8, h9, h10, h11, h12⟩ := remesh_core hsym hm hfit hlist hnum hc (size := size) ht
  obtain rfl := h2 fuel m' h
  have e := tris_eq (m := m) h10 h11 h12
  have hsum : ∀ {A : Type} [AddCommGroup A] (f : Vec3 K → Vec3 K → A), (∀ a b, f b a = - f a b) → (m'.triangles.map (around f)).sum = (m.triangles.map (around f)).sum := by
    intro A _ f hf
    rw [e]; exact h3.sum f hf
  refine ⟨fun p k1 k2 => in_iff hm.up h5.up (fun f hf => hsum f hf) k1 k2, ?_⟩
  rw [area_around, area_around]
  exact hsum _ (fun a b => by ring)

/-- **C92 (the boundary).** The sides that are traversed in one direction only are the same. -/
theorem C92_boundary (p q : Vec3 K) : ((p, q) ∈ m'.sides ∧ (q, p) ∉ m'.sides) ↔ ((p, q) ∈ m.sides ∧ (q, p) ∉ m.sides) := by
  obtain ⟨s, m1, h1, h2, h3, h4, h5, h6, h7, h8, h9, h10, h11, h12⟩ := remesh_core hsym hm hfit hlist hnum hc (size := size) ht
  obtain rfl := h2 fuel m' h
  have e := tris_eq (m := m) h10 h11 h12
  exact open_iff (sides_nodup hm) (sides_nodup h5) (fun f hf => by rw [e]; exact h3.sum f hf) p q

/-- **C92 (the new nodes).** A node that was not there is the midpoint of a long side between two triangles. -/
theorem C92_nodes (n : Int) (p : Vec3 K) (hn : m'.nodes.get? n = some p) :
    m.nodes.get? n = some p ∨ ∃ x a b, m.LongSide nrm size x ∧ m.nodes.get? x.1 = some a ∧ m.nodes.get? x.2 = some b ∧ p = (2 : K)⁻¹ • (a + b) := by
  obtain ⟨s, m1, h1, h2, h3, h4, h5, h6, h7, h8, h9, h10, h11, h12⟩ := remesh_core hsym hm hfit hlist hnum hc (size := size) ht
  obtain rfl := h2 fuel m' h
  rw [h10] at hn
  exact h3.mid n p hn

/-- **C92 (a triangle is touched only for a long side).** A triangle without a long side keeps its nodes. -/
theorem C92_short (id : Int) (e : Elem) (he : m.elements.get? id = some e) (hs : ∀ x ∈ e.triSides, ¬ m.LongSide nrm size x) :
    ∃ e', m'.elements.get? id = some e' ∧ e'.elementType = e.elementType ∧ e'.nodeIds = e.nodeIds := by
  obtain ⟨s, m1, h1, h2, h3, h4, h5, h6, h7, h8, h9, h10, h11, h12⟩ := remesh_core hsym hm hfit hlist hnum hc (size := size) ht
  obtain rfl := h2 fuel m' h
  have hid := (hm.wf.elements.2 id).2 ⟨e, he⟩
  obtain ⟨b, hb⟩ := flag_def hnum h3 hid
  have hb' : b = false := by
    cases b with
    | false => rfl
    | true =>
      obtain ⟨_, _, -, -, -, -, e1, x, k1, k2, k3⟩ := h3.cut id hid hb
      rw [he] at k1
      obtain rfl := Option.some.inj k1
      exact absurd k3 (hs x k2)
  subst hb'
  have k := h12 id
  rw [h3.same id hid hb, he] at k
  obtain ⟨e', k1, k2⟩ := Option.map_eq_some_iff.1 k
  simp only [Prod.mk.injEq] at k2
  exact ⟨e', k1, k2.1, k2.2⟩

/-- **C92 (every long side is served).** Of the two triangles at a long side, at least one is no longer there. -/
theorem C92_long (x : Int × Int) (hx : m.LongSide nrm size x) :
    ∃ id e t, m.elements.get? id = some e ∧ (x ∈ e.triSides ∨ x.swap ∈ e.triSides) ∧ m.triAt id = some t ∧ t ∉ m'.triangles := by
  obtain ⟨s, m1, h1, h2, h3, h4, h5, h6, h7, h8, h9, h10, h11, h12⟩ := remesh_core hsym hm hfit hlist hnum hc (size := size) ht
  obtain rfl := h2 fuel m' h
  obtain ⟨n1, n2⟩ := x
  obtain ⟨x1, x2, p, q, hp, hq, hlong⟩ := hx
  obtain ⟨i, f, f1, f2, f3⟩ := hfit.face _ x1
  obtain ⟨e1, e2, e3⟩ := hfit.owner i f f1 f2
  obtain ⟨y, y1, y2⟩ := e3 (hm.all _ _ e2).1
  have hpair := hlist.paired i f n1 n2 f1 f2 f3 x2
  obtain ⟨g, g1, g2, g3⟩ := hfit.pair i f f1 f2 hpair
  obtain ⟨d1, d2, d3⟩ := hfit.owner _ g g1 g2
  obtain ⟨z, z1, z2⟩ := d3 (hm.all _ _ d2).1
  have hy : y = (n1, n2) := by
    rw [f3] at y2
    simp only [List.cons.injEq, and_true] at y2
    exact Prod.ext y2.1.symm y2.2.symm
  have hz : z = (n2, n1) := by
    rw [g3, f3] at z2
    simp only [List.reverse_cons, List.reverse_nil, List.nil_append, List.singleton_append, List.cons.injEq, and_true] at z2
    exact Prod.ext z2.1.symm z2.2.symm
  subst hy hz
  have hide := (hm.wf.elements.2 _).2 ⟨_, e2⟩
  have hidd := (hm.wf.elements.2 _).2 ⟨_, d2⟩
  have hgone : ∀ id ∈ m.elements.ids, flag s.done id = some true → ∃ t, m.triAt id = some t ∧ t ∉ m'.triangles := by
    intro id hid hf
    obtain ⟨t, t', k1, k2, k3, ⟨w, w1, w2⟩, -⟩ := h3.cut id hid hf
    refine ⟨t, k1, ?_⟩
    intro hmem
    obtain ⟨j, hj, hj'⟩ := List.mem_filterMap.1 hmem
    rw [← tri_eq (m := m) h10 h12] at k2
    have hidm : id ∈ m'.elements.ids := by
      obtain ⟨extra, q1, -⟩ := h3.ids
      rw [h11, q1]
      exact List.mem_append_left _ hid
    by_cases hji : j = id
    · rw [hji, k2] at hj'
      exact k3 (Option.some.inj hj')
    · exact apart_ids h5 hji hj' k2 hj hidm w1 w2
  have hfid := (hlist.own _ _ e2 i).2 ⟨f, f1, rfl, f2⟩
  rcases h4 _ hide _ e2 i hfid f g n1 n2 p q f1 hpair g1 f3 hp hq hlong with hf | hf
  · obtain ⟨t, k1, k2⟩ := hgone _ hide hf
    exact ⟨_, _, t, e2, Or.inl y1, k1, k2⟩
  · obtain ⟨t, k1, k2⟩ := hgone _ hidd hf
    exact ⟨_, _, t, d2, Or.inr z1, k1, k2⟩

omit hsym hm hfit hlist hnum hc ht h

/-! ## A concrete case -/

/-- A rectangle of two triangles and a triangle above it. -/
def longRect : Mesh ℚ :=
  { nodes := ((((Cont.empty.add 0 ⟨0, 0, 0⟩).add 1 ⟨8, 0, 0⟩).add 2 ⟨8, 2, 0⟩).add 3 ⟨0, 2, 0⟩).add 4 ⟨4, 3, 0⟩
    faces := Cont.empty
    elements := ((Cont.empty.add 0 ⟨.triangle, [0, 1, 2], []⟩).add 1 ⟨.triangle, [0, 2, 3], []⟩).add 2 ⟨.triangle, [2, 4, 3], []⟩
    nbBoundary := 0 }

/-- Over `ℚ`, the largest coordinate stands for the length. -/
def supNorm (v : Vec3 ℚ) : ℚ := max |v.x| (max |v.y| |v.z|)

theorem longRect_ok : longRect.Triangulation ∧ longRect.Numbered ∧ Smooth.Machine smallMachine longRect ∧ ∀ v, supNorm (-v) = supNorm v := by
  refine ⟨triangulation_of_check (by decide +kernel), ⟨by decide +kernel, by decide +kernel⟩, ⟨by norm_num [smallMachine], by norm_num [smallMachine], ?_⟩, ?_⟩
  · intro n v h
    simp only [longRect, Cont.get?_add] at h
    split_ifs at h <;> first
      | (simp only [Option.some.injEq] at h; subst h; norm_num [Vec3.Bounded, smallMachine])
      | (simp [Cont.empty, Cont.get?] at h)
  · intro v
    simp [supNorm]

/-- The diagonal is cut; the triangle above the rectangle stays, although its common side with the rectangle is long, because the other triangle there was just cut. -/
example : ((longRect.generateFaces smallMachine 0).bind fun m => remesh supNorm smallMachine 6 m 2 0).map
      (fun m => (m.elements.ids.filterMap fun i => (m.elements.get? i).map Elem.nodeIds, m.nodes.get? 5)) =
    some ([[1, 2, 5], [2, 3, 5], [2, 4, 3], [0, 1, 5], [3, 0, 5]], some ⟨4, 1, 0⟩) := by decide +kernel

end ENigMA
