import Verif.Mesh.Watertight

/-!
# C158: the boundary of a mesh of solids is closed
-/

set_option linter.unusedSectionVars false
set_option autoImplicit false

namespace ENigMA
open Mesh Cont
variable {K : Type} [Field K] [LinearOrder K] [IsStrictOrderedRing K] [FloorRing K]

namespace Mesh

theorem Conforming.full {m : Mesh K} (h : Conforming m) : m.FullElements := fun id e he => le_of_eq (h.solid id e he).2.1.symm

theorem count_swap (l : List (Int × Int)) (p q : Int) : (l.map Prod.swap).count (p, q) = l.count (q, p) :=
  List.count_map_of_injective l Prod.swap Prod.swap_injective (q, p)

/-- The sides of a solid. -/
theorem solid_count {e : Elem} (ht : e.elementType = .tetrahedron ∨ e.elementType = .triangularPrism ∨ e.elementType = .hexahedron) (hn : e.nodeIds.length = e.elementType.nbNodes) (hd : e.nodeIds.Nodup) (p q : Int) :
    (Face.allEdges e.facesOf).count (p, q) = (Face.allEdges e.facesOf).count (q, p) := by
  obtain ⟨fs, e', h1, -, h3, h4, -⟩ := C05_solid_faces e ht hn hd
  rw [Elem.generateFaces_eq e hn, Option.some.injEq, Prod.mk.injEq] at h1
  obtain ⟨rfl, -⟩ := h1
  rw [h3.count, h3.count]
  exact if_congr ⟨h4 p q, h4 q p⟩ rfl rfl

theorem count_flatMap_int {α : Type} (l : List α) (f : α → List (Int × Int)) (x : Int × Int) : (((l.flatMap f).count x : Nat) : Int) = (l.map fun a => ((f a).count x : Int)).sum := by
  induction l with
  | nil => rfl
  | cons a l ih => rw [List.flatMap_cons, List.count_append, Nat.cast_add, ih]; rfl

theorem sum_map_sub' {α : Type} (l : List α) (f g : α → Int) : (l.map fun a => f a - g a).sum = (l.map f).sum - (l.map g).sum := by
  induction l with
  | nil => rfl
  | cons a l ih => simp only [List.map_cons, List.sum_cons, ih]; ring

/-- An element of the boundary is a face of a solid. -/
theorem boundary_element (mc : HashGrid.Machine K) (m : Mesh K) (hm : m.WF) (hc : Conforming m) (hg : GoodFaces mc m) (tol : K) (htol : 0 ≤ tol) (b m' : Mesh K) (hb : extractBoundary mc m tol = some (b, m'))
    (id : Int) (e : Elem) (he : b.elements.get? id = some e) :
    (e.elementType = .triangle ∨ e.elementType = .quadrilateral) ∧ e.nodeIds.length = e.elementType.nbNodes ∧ ∀ p q, (p, q) ∈ cycleEdges e.nodeIds → p ≠ q := by
  have hf := hc.full
  obtain ⟨b1, m1, e1, e2, bw, -, -, -, -, outer, s1, s2, s3, s4⟩ := C53_extractBoundary mc m hm hf hg tol htol
  obtain ⟨m2, f1, -, f3, f4, fw, -⟩ := C07_generateFaces_faces mc m hm hf hg tol htol
  rw [hb, Option.some.injEq, Prod.mk.injEq] at e1
  obtain ⟨rfl, rfl⟩ := e1
  rw [e2, Option.some.injEq] at f1
  subst f1
  have hid := (bw.elements.2 id).2 ⟨e, he⟩
  rw [s3] at hid
  obtain ⟨k, -, rfl⟩ := List.mem_map.1 hid
  have h := s4 k
  rw [show b.elements.get? (k : Int) = some e from he] at h
  obtain ⟨f, hf1, rfl⟩ := Option.map_eq_some_iff.1 h.symm
  obtain ⟨o, ho1, ho2⟩ := Option.bind_eq_some_iff.1 hf1
  have hmem := (fw.faces.2 o).2 ⟨f, ho2⟩
  rw [f3] at hmem
  obtain ⟨i, hi, rfl⟩ := List.mem_map.1 hmem
  have hi := List.mem_range.1 hi
  have h := f4 i
  rw [show m'.faces.get? (i : Int) = some f from ho2, List.getElem?_eq_getElem hi, Option.map_some, Option.map_some, Option.some.injEq, Prod.mk.injEq, Prod.mk.injEq] at h
  obtain ⟨h1, h2, -⟩ := h
  have hg := List.getElem_mem hi
  generalize m.expectedFaces[i] = x at h1 h2 hg
  rw [expectedFaces_eq hm.elements hf] at hg
  obtain ⟨eid, -, hg⟩ := List.mem_flatMap.1 hg
  cases hel : m.elements.get? eid with
  | none => rw [hel] at hg; simp at hg
  | some el =>
    rw [hel, Option.map_some, Option.getD_some, facesWithOwner] at hg
    obtain ⟨g, hg1, hg2⟩ := List.mem_map.1 hg
    obtain ⟨t1, t2, t3⟩ := hc.solid eid el hel
    obtain ⟨fs, e', c1, -, -, -, c5, c6, -⟩ := C05_solid_faces el t1 t2 t3
    rw [Elem.generateFaces_eq el t2, Option.some.injEq, Prod.mk.injEq] at c1
    obtain ⟨rfl, -⟩ := c1
    obtain ⟨n1, n2, n3⟩ := c6 g hg1
    have hgn : f.nodeIds = g.nodeIds := by rw [h2, ← hg2]
    have hgt : f.faceType = g.faceType := by rw [h1, ← hg2]
    dsimp only
    rw [hgn, hgt]
    refine ⟨?_, ?_, fun p q hpq hne => c5 g hg1 p q hpq (by rw [hne] at hpq ⊢; exact hpq)⟩
    · cases hft : g.faceType <;> rw [hft] at n1 <;> simp only [FaceType.nbNodes] at n1 <;> first | omega | simp
    · cases hft : g.faceType <;> rw [hft] at n1 <;> simp only [FaceType.nbNodes] at n1 <;> first | omega | (simp only [ElementType.nbNodes]; exact n1)

theorem boundary_closed (mc : HashGrid.Machine K) (m : Mesh K) (hm : m.WF) (hc : Conforming m) (hg : GoodFaces mc m) (tol : K) (htol : 0 ≤ tol) (b m' : Mesh K) (hb : extractBoundary mc m tol = some (b, m')) (p q : Int) :
    (sidesOf b).count (p, q) = (sidesOf b).count (q, p) := by
  have hW := boundary_sum mc m hm hc.full hg tol htol hc.two (fun l => ((cycleEdges l).count (p, q) : Int) - ((cycleEdges l).count (q, p) : Int)) (fun i j f g hf hg hij hcoin => by
    have h := hc.opposite i j f g hf hg hij hcoin
    rw [h.count_eq, h.count_eq, count_swap, count_swap]
    ring) b m' hb
  rw [faces_sum m hm hc.full (fun l => ((cycleEdges l).count (p, q) : Int) - ((cycleEdges l).count (q, p) : Int))] at hW
  have hz : ∀ l : List Int, (l.map fun id => ((m.elements.get? id).map fun e => (e.facesOf.map fun f => ((cycleEdges f.nodeIds).count (p, q) : Int) - ((cycleEdges f.nodeIds).count (q, p) : Int)).sum).getD 0).sum = 0 := fun l => by
    refine List.sum_eq_zero fun x hx => ?_
    obtain ⟨id, -, rfl⟩ := List.mem_map.1 hx
    cases he : m.elements.get? id with
    | none => rfl
    | some e =>
      obtain ⟨t1, t2, t3⟩ := hc.solid id e he
      simp only [Option.map_some, Option.getD_some]
      rw [sum_map_sub', ← count_flatMap_int, ← count_flatMap_int]
      have := solid_count t1 t2 t3 p q
      unfold Face.allEdges at this
      rw [this, sub_self]
  rw [hz] at hW
  have hs : sumOf b (fun l => ((cycleEdges l).count (p, q) : Int) - ((cycleEdges l).count (q, p) : Int)) = ((sidesOf b).count (p, q) : Int) - ((sidesOf b).count (q, p) : Int) := by
    unfold sumOf sidesOf
    rw [count_flatMap_int, count_flatMap_int, ← sum_map_sub']
    congr 1
    refine List.map_congr_left fun id _ => ?_
    cases b.elements.get? id <;> simp
  rw [hs] at hW
  omega

end Mesh

/-- **C158, closed.** The boundary that `extractBoundary` returns for a conforming mesh of solids is closed and consistently oriented: its elements run through every side as often in one direction as in the other. -/
theorem C158_closed (mc : HashGrid.Machine K) (m : Mesh K) (hm : m.WF) (hc : Conforming m) (hg : GoodFaces mc m) (tol : K) (htol : 0 ≤ tol) :
    ∃ b m', extractBoundary mc m tol = some (b, m') ∧ ∀ p q, (sidesOf b).count (p, q) = (sidesOf b).count (q, p) := by
  obtain ⟨b, m', h, -⟩ := C53_extractBoundary mc m hm hc.full hg tol htol
  exact ⟨b, m', h, boundary_closed mc m hm hc hg tol htol b m' h⟩

/-- **C158, watertight.** `generateFaces` on the boundary leaves no side without a pair, and `checkOpen` says that it is not open. -/
theorem C158_watertight (mc : HashGrid.Machine K) (m : Mesh K) (hm : m.WF) (hc : Conforming m) (hg : GoodFaces mc m) (tol tol' : K) (htol : 0 ≤ tol) (htol' : 0 ≤ tol') (b m' : Mesh K) (hb : extractBoundary mc m tol = some (b, m')) (gb : GoodFaces mc b) :
    ∃ b', generateFaces mc b tol' = some b' ∧ b'.nbBoundary = 0 ∧ (∀ i f, b'.faces.get? i = some f → f.hasPair = true) ∧ checkOpen b' = some false := by
  have hcl := boundary_closed mc m hm hc hg tol htol b m' hb
  have hel := boundary_element mc m hm hc hg tol htol b m' hb
  obtain ⟨b1, m1, e1, -, bw, -⟩ := C53_extractBoundary mc m hm hc.full hg tol htol
  rw [hb, Option.some.injEq, Prod.mk.injEq] at e1
  obtain ⟨rfl, rfl⟩ := e1
  have hfull : b.FullElements := fun id e he => le_of_eq (hel id e he).2.1.symm
  obtain ⟨b', g1, -, g3, g4, gw, -⟩ := C07_generateFaces_faces mc b bw hfull gb tol' htol'
  obtain ⟨b2, g1', p2, -, p4, -⟩ := C07_generateFaces_pairs mc b bw hfull gb tol' htol'
  rw [g1, Option.some.injEq] at g1'
  subst g1'
  -- the faces of the boundary are its sides
  have hedge : ∀ p q, (p, q) ∈ sidesOf b ↔ ∃ g ∈ b.expectedFaces, g.faceType = .line ∧ g.nodeIds = [p, q] := fun p q => by
    rw [expectedFaces_eq bw.elements hfull]
    unfold sidesOf
    constructor
    · intro h
      obtain ⟨id, hid, h⟩ := List.mem_flatMap.1 h
      obtain ⟨e, he⟩ := (bw.elements.2 id).1 hid
      rw [he, Option.map_some, Option.getD_some] at h
      obtain ⟨t1, t2, -⟩ := hel id e he
      obtain ⟨fs, e', s1, s2⟩ := C05_surface_faces e t1 t2
      rw [Elem.generateFaces_eq e t2, Option.some.injEq, Prod.mk.injEq] at s1
      obtain ⟨rfl, -⟩ := s1
      have hx : (FaceType.line, [p, q]) ∈ (cycleEdges e.nodeIds).map (fun p => (FaceType.line, [p.1, p.2])) := List.mem_map.2 ⟨(p, q), h, rfl⟩
      rw [← s2] at hx
      obtain ⟨f, hf, hfe⟩ := List.mem_map.1 hx
      rw [Prod.mk.injEq] at hfe
      refine ⟨{ f with elementId := id }, List.mem_flatMap.2 ⟨id, hid, ?_⟩, hfe.1, hfe.2⟩
      rw [he, Option.map_some, Option.getD_some, facesWithOwner]
      exact List.mem_map.2 ⟨f, hf, rfl⟩
    · rintro ⟨g, hg, -, hgn⟩
      obtain ⟨id, hid, h⟩ := List.mem_flatMap.1 hg
      obtain ⟨e, he⟩ := (bw.elements.2 id).1 hid
      rw [he, Option.map_some, Option.getD_some, facesWithOwner] at h
      obtain ⟨f, hf, rfl⟩ := List.mem_map.1 h
      obtain ⟨t1, t2, -⟩ := hel id e he
      obtain ⟨fs, e', s1, s2⟩ := C05_surface_faces e t1 t2
      rw [Elem.generateFaces_eq e t2, Option.some.injEq, Prod.mk.injEq] at s1
      obtain ⟨rfl, -⟩ := s1
      have hx : (f.faceType, f.nodeIds) ∈ e.facesOf.map (fun f => (f.faceType, f.nodeIds)) := List.mem_map.2 ⟨f, hf, rfl⟩
      rw [s2] at hx
      obtain ⟨⟨x, y⟩, hxy, hxe⟩ := List.mem_map.1 hx
      rw [Prod.mk.injEq] at hxe
      have : [x, y] = [p, q] := hxe.2.trans hgn
      simp only [List.cons.injEq, and_true] at this
      refine List.mem_flatMap.2 ⟨id, hid, ?_⟩
      rw [he, Option.map_some, Option.getD_some, ← this.1, ← this.2]
      exact hxy
  have hline : ∀ g ∈ b.expectedFaces, ∃ p q, g.faceType = .line ∧ g.nodeIds = [p, q] ∧ p ≠ q := fun g hg => by
    rw [expectedFaces_eq bw.elements hfull] at hg
    obtain ⟨id, hid, h⟩ := List.mem_flatMap.1 hg
    obtain ⟨e, he⟩ := (bw.elements.2 id).1 hid
    rw [he, Option.map_some, Option.getD_some, facesWithOwner] at h
    obtain ⟨f, hf, rfl⟩ := List.mem_map.1 h
    obtain ⟨t1, t2, t3⟩ := hel id e he
    obtain ⟨fs, e', s1, s2⟩ := C05_surface_faces e t1 t2
    rw [Elem.generateFaces_eq e t2, Option.some.injEq, Prod.mk.injEq] at s1
    obtain ⟨rfl, -⟩ := s1
    have hx : (f.faceType, f.nodeIds) ∈ e.facesOf.map (fun f => (f.faceType, f.nodeIds)) := List.mem_map.2 ⟨f, hf, rfl⟩
    rw [s2] at hx
    obtain ⟨⟨x, y⟩, hxy, hxe⟩ := List.mem_map.1 hx
    rw [Prod.mk.injEq] at hxe
    exact ⟨x, y, hxe.1.symm, hxe.2.symm, t3 x y hxy⟩
  have hpair : ∀ i f, b'.faces.get? i = some f → f.hasPair = true := by
    intro i f hf
    rw [p2 i f hf]
    have hmem := (gw.faces.2 i).2 ⟨f, hf⟩
    rw [g3] at hmem
    obtain ⟨k, hk, rfl⟩ := List.mem_map.1 hmem
    have hk := List.mem_range.1 hk
    have h := g4 k
    rw [show b'.faces.get? (k : Int) = some f from hf, List.getElem?_eq_getElem hk, Option.map_some, Option.map_some, Option.some.injEq, Prod.mk.injEq, Prod.mk.injEq] at h
    obtain ⟨p, q, l1, l2, l3⟩ := hline _ (List.getElem_mem hk)
    have hin := (hedge p q).2 ⟨_, List.getElem_mem hk, l1, l2⟩
    have hin' : (q, p) ∈ sidesOf b := List.count_pos_iff.1 (hcl p q ▸ List.count_pos_iff.2 hin)
    obtain ⟨g, hg, n1, n2⟩ := (hedge q p).1 hin'
    obtain ⟨j, hj, rfl⟩ := List.getElem_of_mem hg
    have h' := g4 j
    rw [List.getElem?_eq_getElem hj, Option.map_some] at h'
    obtain ⟨f', hf', hfe⟩ := Option.map_eq_some_iff.1 h'
    rw [Prod.mk.injEq, Prod.mk.injEq] at hfe
    refine ⟨j, f', ?_, hf', ?_, ?_⟩
    · intro hjk
      have hjk : j = k := Int.ofNat.inj hjk
      subst hjk
      rw [l2] at n2
      simp only [List.cons.injEq, and_true] at n2
      exact l3 n2.1
    · rw [h.1, hfe.1, l1, n1]
    · rw [h.2.1, hfe.2.1, l2, n2]
      exact List.Perm.swap q p []
  have hzero : b'.nbBoundary = 0 := by
    rw [p4]
    have : (b'.faces.ids.filter fun i => (b'.faces.get? i).any fun f => !f.hasPair) = [] := by
      rw [List.filter_eq_nil_iff]
      intro i _ h
      cases hfi : b'.faces.get? i with
      | none => rw [hfi] at h; simp at h
      | some f => rw [hfi] at h; simp [hpair i f hfi] at h
    rw [this]
    rfl
  obtain ⟨b3, o, q1, q2, q3, -⟩ := C35_open_iff_boundary mc b bw hfull gb tol' htol'
  rw [g1, Option.some.injEq] at q1
  subst q1
  refine ⟨b', g1, hzero, hpair, ?_⟩
  rw [q2]
  cases o with
  | false => rfl
  | true =>
    have := q3.1 rfl
    rw [hzero] at this
    exact absurd this (lt_irrefl _)

namespace Mesh

/-- The faces of a tetrahedron are triangles, and their cones add up to its volume. -/
theorem tet_faces {e : Elem} (ht : e.elementType = .tetrahedron) (hn : e.nodeIds.length = e.elementType.nbNodes) (m : Mesh K) :
    (e.facesOf.map fun f => cone6 m f.nodeIds).sum = - tet6 m e.nodeIds := by
  obtain ⟨ty, ids, fids⟩ := e
  dsimp only at ht hn ⊢
  subst ht
  simp only [ElementType.nbNodes] at hn
  match ids, hn with
  | [a, b, c, d], _ =>
    simp [Elem.facesOf, Elem.faceTemplate, Elem.idAt, cone6, tet6, Vec3.dot]
    ring

theorem tet_face (m : Mesh K) (hm : m.WF) (hc : Conforming m) (hT : ∀ id e, m.elements.get? id = some e → e.elementType = .tetrahedron) (f : Face) (hf : f ∈ m.expectedFaces) :
    ∃ x y z, f.nodeIds = [x, y, z] ∧ x ≠ y ∧ y ≠ z ∧ z ≠ x := by
  rw [expectedFaces_eq hm.elements hc.full] at hf
  obtain ⟨id, -, h⟩ := List.mem_flatMap.1 hf
  cases he : m.elements.get? id with
  | none => rw [he] at h; simp at h
  | some e =>
    rw [he, Option.map_some, Option.getD_some, facesWithOwner] at h
    obtain ⟨g, hg, rfl⟩ := List.mem_map.1 h
    obtain ⟨t1, t2, t3⟩ := hc.solid id e he
    have ht := hT id e he
    obtain ⟨fs, e', c1, -, -, -, -, c6, -⟩ := C05_solid_faces e t1 t2 t3
    rw [Elem.generateFaces_eq e t2, Option.some.injEq, Prod.mk.injEq] at c1
    obtain ⟨rfl, -⟩ := c1
    obtain ⟨n1, n2, -⟩ := c6 g hg
    have hty : g.faceType = .triangle := by
      obtain ⟨ty, ids, fids⟩ := e
      dsimp only at ht
      subst ht
      unfold Elem.facesOf at hg
      obtain ⟨t, ht, rfl⟩ := List.mem_map.1 hg
      have hall : ∀ t ∈ Elem.faceTemplate .tetrahedron, t.1 = .triangle := by decide
      exact hall t ht
    rw [hty] at n1
    dsimp only
    revert n1 n2
    generalize g.nodeIds = l
    intro n1 n2
    match l, n1 with
    | [x, y, z], _ =>
      simp only [List.nodup_cons, List.mem_cons, List.not_mem_nil, or_false, not_or] at n1 n2
      exact ⟨x, y, z, rfl, n2.1.1, n2.2.1, fun h => n2.1.2 h.symm⟩

/-- A triangle run backwards. -/
theorem cone_opposite (m : Mesh K) {x y z u v w : Int} (h1 : x ≠ y) (h2 : y ≠ z) (h3 : z ≠ x) (h : (cycleEdges [u, v, w]).Perm ((cycleEdges [x, y, z]).map Prod.swap)) : cone6 m [x, y, z] + cone6 m [u, v, w] = 0 := by
  have e : (cycleEdges [x, y, z]).map Prod.swap = [(y, x), (z, y), (x, z)] := rfl
  have e' : cycleEdges [u, v, w] = [(u, v), (v, w), (w, u)] := rfl
  rw [e, e'] at h
  have m1 : (u, v) ∈ [(y, x), (z, y), (x, z)] := h.subset (by simp)
  have m2 : (v, w) ∈ [(y, x), (z, y), (x, z)] := h.subset (by simp)
  simp only [List.mem_cons, List.not_mem_nil, or_false, Prod.mk.injEq] at m1 m2
  rcases m1 with ⟨rfl, rfl⟩ | ⟨rfl, rfl⟩ | ⟨rfl, rfl⟩ <;> rcases m2 with ⟨k, rfl⟩ | ⟨k, rfl⟩ | ⟨k, rfl⟩ <;>
    first
      | exact absurd k h1
      | exact absurd k h2
      | exact absurd k h3
      | exact absurd k.symm h1
      | exact absurd k.symm h2
      | exact absurd k.symm h3
      | (simp [cone6, Vec3.dot]; ring)

end Mesh

/-- **C158, volume.** The boundary of a conforming mesh of tetrahedra encloses the volume of the tetrahedra; its triangles point inwards if the tetrahedra are positively oriented. -/
theorem C158_volume (mc : HashGrid.Machine K) (m : Mesh K) (hm : m.WF) (hc : Conforming m) (hT : ∀ id e, m.elements.get? id = some e → e.elementType = .tetrahedron) (hg : GoodFaces mc m) (tol : K) (htol : 0 ≤ tol) :
    ∃ b m', extractBoundary mc m tol = some (b, m') ∧ sumOf b (cone6 b) = - sumOf m (tet6 m) := by
  obtain ⟨b, m', hb, -, -, hn, -⟩ := C53_extractBoundary mc m hm hc.full hg tol htol
  refine ⟨b, m', hb, ?_⟩
  have hcone : cone6 b = cone6 m := by
    have hp : b.posOf = m.posOf := by funext n; unfold posOf; rw [hn]
    funext l
    unfold cone6
    rw [hp]
  rw [hcone, boundary_sum mc m hm hc.full hg tol htol hc.two (cone6 m) (fun i j f g hf hg hij hco => ?_) b m' hb, faces_sum m hm hc.full (cone6 m)]
  · unfold sumOf
    have : ∀ l : List Int, (l.map fun id => ((m.elements.get? id).map fun e => (e.facesOf.map fun f => cone6 m f.nodeIds).sum).getD 0).sum = - (l.map fun id => ((m.elements.get? id).map fun e => tet6 m e.nodeIds).getD 0).sum := fun l => by
      induction l with
      | nil => simp
      | cons id l ih =>
        rw [List.map_cons, List.sum_cons, ih, List.map_cons, List.sum_cons, neg_add]
        congr 1
        cases he : m.elements.get? id with
        | none => simp
        | some e =>
          simp only [Option.map_some, Option.getD_some]
          exact tet_faces (hT id e he) (hc.solid id e he).2.1 m
    exact this _
  · obtain ⟨x, y, z, h1, h2, h3, h4⟩ := tet_face m hm hc hT f (List.mem_of_getElem? hf)
    obtain ⟨u, v, w, k1, -⟩ := tet_face m hm hc hT g (List.mem_of_getElem? hg)
    have := hc.opposite i j f g hf hg hij hco
    rw [h1, k1] at this ⊢
    exact cone_opposite m h2 h3 h4 this

/-! ### The hypotheses are met -/

namespace Mesh

theorem twoTets_pairs : ∀ i j : Fin 8, i ≠ j → ((twoTets.expectedFaces.map (·.nodeIds)).getD i []).Perm ((twoTets.expectedFaces.map (·.nodeIds)).getD j []) →
    ((i = 1 ∧ j = 5) ∨ (i = 5 ∧ j = 1)) ∧ (cycleEdges ((twoTets.expectedFaces.map (·.nodeIds)).getD j [])).Perm ((cycleEdges ((twoTets.expectedFaces.map (·.nodeIds)).getD i [])).map Prod.swap) := by
  decide +kernel

theorem twoTets_conforming : Conforming twoTets := by
  have hlen : twoTets.expectedFaces.length = 8 := by decide +kernel
  have hlt : ∀ (i : Nat) f, twoTets.expectedFaces[i]? = some f → i < 8 := fun i f h => hlen ▸ (List.getElem?_eq_some_iff.1 h).1
  have hkey : ∀ (i j : Nat) f g, twoTets.expectedFaces[i]? = some f → twoTets.expectedFaces[j]? = some g → i ≠ j → Coincide f g → ((i = 1 ∧ j = 5) ∨ (i = 5 ∧ j = 1)) ∧ (cycleEdges g.nodeIds).Perm ((cycleEdges f.nodeIds).map Prod.swap) := by
    intro i j f g hf hg hij hc
    have e : ∀ (k : Nat) h, twoTets.expectedFaces[k]? = some h → (twoTets.expectedFaces.map (·.nodeIds)).getD k [] = h.nodeIds := fun k h hk => by simp [List.getD, List.getElem?_map, hk]
    have h := twoTets_pairs ⟨i, hlt i f hf⟩ ⟨j, hlt j g hg⟩ (fun h => hij (Fin.mk.inj h)) (by rw [e i f hf, e j g hg]; exact hc.2)
    rw [e i f hf, e j g hg] at h
    refine ⟨?_, h.2⟩
    rcases h.1 with ⟨a, b⟩ | ⟨a, b⟩
    · exact .inl ⟨congrArg Fin.val a, congrArg Fin.val b⟩
    · exact .inr ⟨congrArg Fin.val a, congrArg Fin.val b⟩
  refine ⟨fun id e h => ?_, fun i j k f g h hf hg hh h1 h2 h3 h4 => ?_, fun i j f g hf hg hij hc => ?_⟩
  · simp only [twoTets, get?_add] at h
    split_ifs at h <;> first
      | (simp only [Option.some.injEq] at h; subst h; decide)
      | (simp [Cont.empty, Cont.get?] at h)
  · have := (hkey i j f g hf hg h3 h1).1
    have := (hkey i k f h hf hh h4 h2).1
    omega
  · exact (hkey i j f g hf hg hij hc).2

end Mesh

example : ∃ b m', extractBoundary smallMachine twoTets 0 = some (b, m') ∧ ∀ p q, (sidesOf b).count (p, q) = (sidesOf b).count (q, p) :=
  C158_closed smallMachine twoTets twoTets_ok.1 twoTets_conforming twoTets_ok.2.2 0 le_rfl

example : (extractBoundary smallMachine twoTets 0).map (fun r => (sumOf r.1 (cone6 r.1), sumOf twoTets (tet6 twoTets))) = some (-3, 3) := by decide +kernel

example : ((extractBoundary smallMachine twoTets 0).bind fun r => (generateFaces smallMachine r.1 0).bind fun b => (checkOpen b).map fun o => (b.faces.ids.length, b.nbBoundary, o)) = some (18, 0, false) := by decide +kernel

/-- The hypotheses of `C158_watertight`, on a machine that defines the cast of NaN. -/
example : ∃ b m' b', extractBoundary { smallMachine with bad := some 0 } twoTets 0 = some (b, m') ∧ generateFaces { smallMachine with bad := some 0 } b 0 = some b' ∧ checkOpen b' = some false := by
  have gm : GoodFaces { smallMachine with bad := some 0 } twoTets := ⟨twoTets_ok.2.2.eps, twoTets_ok.2.2.big, twoTets_ok.2.2.bounded, .inl (by simp)⟩
  obtain ⟨b, m', h1, -, -, hn, -⟩ := C53_extractBoundary _ twoTets twoTets_ok.1 twoTets_ok.2.1 gm 0 le_rfl
  have gb : GoodFaces { smallMachine with bad := some 0 } b := ⟨gm.eps, gm.big, fun n v h => gm.bounded n v (hn n ▸ h), .inl (by simp)⟩
  obtain ⟨b', h2, -, -, h3⟩ := C158_watertight _ twoTets twoTets_ok.1 twoTets_conforming gm 0 0 le_rfl le_rfl b m' h1 gb
  exact ⟨b, m', b', h1, h2, h3⟩

end ENigMA
