import Verif.Mesh.Element
import Verif.Base.Vec3
import Mathlib.Data.List.Nodup
import Mathlib.Data.List.Rotate
import Mathlib.Data.Rat.Lemmas
import Mathlib.Algebra.Order.Ring.Rat

/-! # C05, C06: faces and inversion of mesh elements -/

namespace ENigMA

namespace Elem

/-- The node ids of an element as a function of the local index. -/
def idAt (e : Elem) (k : Nat) : Int := (e.nodeIds[k]?).getD 0

/-- The faces, written with `idAt`. -/
def facesOf (e : Elem) : List Face :=
  (faceTemplate e.elementType).map fun t => { faceType := t.1, nodeIds := t.2.map e.idAt }

theorem template_lt (t : ElementType) : ∀ f ∈ faceTemplate t, ∀ k ∈ f.2, k < t.nbNodes := by
  cases t <;> decide

theorem generateFaces_eq' (e : Elem) (hn : e.elementType.nbNodes ≤ e.nodeIds.length) :
    e.generateFaces = some (e.facesOf, { e with faceIds := [] }) := by
  unfold generateFaces
  have h : (faceTemplate e.elementType).mapM (fun t => do
      let ids ← t.2.mapM (fun k => e.nodeIds[k]?)
      return ({ faceType := t.1, nodeIds := ids } : Face)) = some e.facesOf := by
    apply mapM_option_eq
    intro t ht
    have : t.2.mapM (fun k => e.nodeIds[k]?) = some (t.2.map e.idAt) := by
      apply mapM_option_eq
      intro k hk
      have := lt_of_lt_of_le (template_lt _ t ht k hk) hn
      simp [idAt, List.getElem?_eq_getElem this]
    simp [this]
  rw [h]
  rfl

theorem generateFaces_eq (e : Elem) (hn : e.nodeIds.length = e.elementType.nbNodes) :
    e.generateFaces = some (e.facesOf, { e with faceIds := [] }) := generateFaces_eq' e (le_of_eq hn.symm)

theorem idAt_inj {e : Elem} (hd : e.nodeIds.Nodup) {i j : Nat} (hi : i < e.nodeIds.length)
    (hj : j < e.nodeIds.length) (h : e.idAt i = e.idAt j) : i = j := by
  simp only [idAt, List.getElem?_eq_getElem hi, List.getElem?_eq_getElem hj, Option.getD_some] at h
  exact (List.Nodup.getElem_inj_iff hd).1 h

theorem cycleEdges_map {α β : Type} (f : α → β) (l : List α) :
    cycleEdges (l.map f) = (cycleEdges l).map (Prod.map f f) := by
  unfold cycleEdges
  rw [← List.map_rotate, List.zip_map]

/-- Directed edges of the template, in local indices. -/
def templateEdges (t : ElementType) : List (Nat × Nat) := (faceTemplate t).flatMap fun f => cycleEdges f.2

theorem allEdges_facesOf (e : Elem) :
    Face.allEdges e.facesOf = (templateEdges e.elementType).map (Prod.map e.idAt e.idAt) := by
  unfold Face.allEdges facesOf templateEdges
  rw [List.flatMap_map, List.map_flatMap]
  apply List.flatMap_congr
  intro f _
  simp only
  rw [cycleEdges_map]

end Elem

open Elem

/-- **C05 (solids are closed and consistently oriented).** For every tetrahedron, triangular prism and hexahedron with
pairwise distinct node ids, `generateFaces` is defined, every directed edge occurs exactly once among all the faces, its
reverse also occurs, and never on the same face. Every face has the number of nodes of its type and every node of
the element is on a face. -/
theorem C05_solid_faces (e : Elem)
    (ht : e.elementType = .tetrahedron ∨ e.elementType = .triangularPrism ∨ e.elementType = .hexahedron)
    (hn : e.nodeIds.length = e.elementType.nbNodes) (hd : e.nodeIds.Nodup) :
    ∃ fs e', e.generateFaces = some (fs, e') ∧ e'.nodeIds = e.nodeIds ∧
      (Face.allEdges fs).Nodup ∧
      (∀ a b, (a, b) ∈ Face.allEdges fs → (b, a) ∈ Face.allEdges fs) ∧
      (∀ f ∈ fs, ∀ a b, (a, b) ∈ cycleEdges f.nodeIds → (b, a) ∉ cycleEdges f.nodeIds) ∧
      (∀ f ∈ fs, f.nodeIds.length = f.faceType.nbNodes ∧ f.nodeIds.Nodup ∧ 3 ≤ f.nodeIds.length) ∧
      (∀ n, n ∈ e.nodeIds ↔ ∃ f ∈ fs, n ∈ f.nodeIds) := by
  refine ⟨e.facesOf, _, generateFaces_eq e hn, rfl, ?_, ?_, ?_, ?_, ?_⟩
  · rw [allEdges_facesOf]
    have key : (templateEdges e.elementType).Nodup ∧
        ∀ p ∈ templateEdges e.elementType, p.1 < e.elementType.nbNodes ∧ p.2 < e.elementType.nbNodes := by
      rcases ht with h | h | h <;> rw [h] <;> decide
    refine (List.nodup_map_iff_inj_on key.1).2 ?_
    rintro ⟨a, b⟩ hp ⟨c, d⟩ hq h
    have h1 := key.2 _ hp
    have h2 := key.2 _ hq
    simp only [Prod.map_apply, Prod.mk.injEq] at h
    rw [← hn] at h1 h2
    exact Prod.ext (idAt_inj hd h1.1 h2.1 h.1) (idAt_inj hd h1.2 h2.2 h.2)
  · intro a b hab
    rw [allEdges_facesOf] at hab ⊢
    obtain ⟨⟨i, j⟩, hp, h⟩ := List.mem_map.1 hab
    have key : ∀ p ∈ templateEdges e.elementType, (p.2, p.1) ∈ templateEdges e.elementType := by
      rcases ht with h | h | h <;> rw [h] <;> decide
    simp only [Prod.map_apply, Prod.mk.injEq] at h
    exact List.mem_map.2 ⟨(j, i), key _ hp, by simp [h.1, h.2]⟩
  · intro f hf a b hab hba
    unfold facesOf at hf
    obtain ⟨t, htm, rfl⟩ := List.mem_map.1 hf
    simp only at hab hba
    rw [cycleEdges_map] at hab hba
    obtain ⟨⟨i, j⟩, hp, h⟩ := List.mem_map.1 hab
    obtain ⟨⟨k, l⟩, hq, h'⟩ := List.mem_map.1 hba
    have key : ∀ f ∈ faceTemplate e.elementType, ∀ p ∈ cycleEdges f.2,
        (p.1 < e.elementType.nbNodes ∧ p.2 < e.elementType.nbNodes) ∧ (p.2, p.1) ∉ cycleEdges f.2 := by
      rcases ht with h | h | h <;> rw [h] <;> decide
    have k1 := key t htm _ hp
    have k2 := key t htm _ hq
    simp only [Prod.map_apply, Prod.mk.injEq] at h h'
    rw [← hn] at k1 k2
    have e1 := idAt_inj hd k1.1.1 k2.1.2 (h.1.trans h'.2.symm)
    have e2 := idAt_inj hd k1.1.2 k2.1.1 (h.2.trans h'.1.symm)
    simp only at e1 e2
    subst e1 e2
    exact k1.2 hq
  · intro f hf
    unfold facesOf at hf
    obtain ⟨t, htm, rfl⟩ := List.mem_map.1 hf
    have key : ∀ f ∈ faceTemplate e.elementType, f.2.length = f.1.nbNodes ∧ f.2.Nodup ∧ 3 ≤ f.2.length := by
      rcases ht with h | h | h <;> rw [h] <;> decide
    have k := key t htm
    refine ⟨by simpa using k.1, ?_, by simpa using k.2.2⟩
    refine (List.nodup_map_iff_inj_on k.2.1).2 ?_
    intro i hi j hj h
    have := template_lt _ t htm
    exact idAt_inj hd (hn ▸ this i hi) (hn ▸ this j hj) h
  · intro n
    have key : ∀ k < e.elementType.nbNodes, ∃ f ∈ faceTemplate e.elementType, k ∈ f.2 := by
      rcases ht with h | h | h <;> rw [h] <;> decide
    constructor
    · intro hm
      obtain ⟨k, hk, rfl⟩ := List.getElem_of_mem hm
      obtain ⟨f, hf, hkf⟩ := key k (hn ▸ hk)
      refine ⟨_, List.mem_map.2 ⟨f, hf, rfl⟩, List.mem_map.2 ⟨k, hkf, ?_⟩⟩
      simp [idAt, List.getElem?_eq_getElem hk]
    · rintro ⟨f, hf, hnf⟩
      obtain ⟨t, htm, rfl⟩ := List.mem_map.1 hf
      obtain ⟨k, hk, rfl⟩ := List.mem_map.1 hnf
      have := template_lt _ t htm k hk
      rw [← hn] at this
      simp [idAt, List.getElem?_eq_getElem this]

/-- **C05 (surface elements).** A triangle or quadrilateral generates one line per edge, and together they are the closed
cycle of its nodes. -/
theorem C05_surface_faces (e : Elem) (ht : e.elementType = .triangle ∨ e.elementType = .quadrilateral)
    (hn : e.nodeIds.length = e.elementType.nbNodes) :
    ∃ fs e', e.generateFaces = some (fs, e') ∧
      fs.map (fun f => (f.faceType, f.nodeIds)) = (cycleEdges e.nodeIds).map (fun p => (FaceType.line, [p.1, p.2])) := by
  refine ⟨_, _, generateFaces_eq e hn, ?_⟩
  obtain ⟨ty, ids, fids⟩ := e
  rcases ht with h | h <;> simp only at h hn <;> subst h <;> simp only [ElementType.nbNodes] at hn
  · match ids, hn with
    | [a, b, c], _ => rfl
  · match ids, hn with
    | [a, b, c, d], _ => rfl

/-- Signed volume enclosed by oriented polygonal faces (six times, each polygon split as a fan from its first vertex). -/
def fanVolume6 {K : Type} [CommRing K] (pos : Int → Vec3 K) (fs : List Face) : K :=
  (fs.map fun f => match f.nodeIds.map pos with
    | [p0, p1, p2] => Vec3.dot p0 (Vec3.cross p1 p2)
    | [p0, p1, p2, p3] => Vec3.dot p0 (Vec3.cross p1 p2) + Vec3.dot p0 (Vec3.cross p2 p3)
    | _ => 0).sum

/-- **C05 (orientation).** The generated faces of a tetrahedron enclose minus its signed volume
`(v₁-v₀)·((v₂-v₀)×(v₃-v₀))`; likewise for prisms (`v₃,v₄,v₅` = `v₀,v₁,v₂` shifted by `c`) and parallelepipeds: the faces of
positively oriented elements all point inwards. -/
theorem C05_faces_inward {K : Type} [CommRing K] (pos : Int → Vec3 K) (n : Fin 8 → Int) (o a b c : Vec3 K) :
    (∀ fs e', Elem.generateFaces ⟨.tetrahedron, [n 0, n 1, n 2, n 3], []⟩ = some (fs, e') →
      fanVolume6 pos fs = - Vec3.dot (pos (n 1) - pos (n 0)) (Vec3.cross (pos (n 2) - pos (n 0)) (pos (n 3) - pos (n 0)))) ∧
    (pos (n 0) = o → pos (n 1) = o + a → pos (n 2) = o + b → pos (n 3) = o + c → pos (n 4) = o + a + c →
      pos (n 5) = o + b + c →
      ∀ fs e', Elem.generateFaces ⟨.triangularPrism, [n 0, n 1, n 2, n 3, n 4, n 5], []⟩ = some (fs, e') →
      fanVolume6 pos fs = - (3 * Vec3.dot a (Vec3.cross b c))) ∧
    (pos (n 0) = o → pos (n 1) = o + a → pos (n 2) = o + a + b → pos (n 3) = o + b → pos (n 4) = o + c →
      pos (n 5) = o + a + c → pos (n 6) = o + a + b + c → pos (n 7) = o + b + c →
      ∀ fs e', Elem.generateFaces ⟨.hexahedron, [n 0, n 1, n 2, n 3, n 4, n 5, n 6, n 7], []⟩ = some (fs, e') →
      fanVolume6 pos fs = - (6 * Vec3.dot a (Vec3.cross b c))) := by
  refine ⟨?_, ?_, ?_⟩
  · intro fs e' h
    rw [generateFaces_eq _ rfl] at h
    simp only [Option.some.injEq, Prod.mk.injEq] at h
    rw [← h.1]
    simp [fanVolume6, facesOf, faceTemplate, idAt, Vec3.dot]
    ring
  · intro h0 h1 h2 h3 h4 h5 fs e' h
    rw [generateFaces_eq _ rfl] at h
    simp only [Option.some.injEq, Prod.mk.injEq] at h
    rw [← h.1]
    simp [fanVolume6, facesOf, faceTemplate, idAt, Vec3.dot, h0, h1, h2, h3, h4, h5]
    ring
  · intro h0 h1 h2 h3 h4 h5 h6 h7 fs e' h
    rw [generateFaces_eq _ rfl] at h
    simp only [Option.some.injEq, Prod.mk.injEq] at h
    rw [← h.1]
    simp [fanVolume6, facesOf, faceTemplate, idAt, Vec3.dot, h0, h1, h2, h3, h4, h5, h6, h7]
    ring

/-- A hexahedron with distinct node ids meets the hypotheses of `C05_solid_faces`. -/
example : let e : Elem := ⟨.hexahedron, [10, 11, 13, 12, 4, 5, 7, 6], [99]⟩
    e.nodeIds.length = e.elementType.nbNodes ∧ e.nodeIds.Nodup ∧
    (e.generateFaces).map (fun r => r.1.length) = some 6 := by decide

/-! ### C06 -/

/-- Number of nodes that `invert` needs. -/
theorem invert_defined (e : Elem) (hn : e.nodeIds.length = e.elementType.nbNodes) : ∃ e', e.invert = some e' := by
  obtain ⟨ty, ids, fids⟩ := e
  cases ty <;> simp only [ElementType.nbNodes] at hn <;> try exact ⟨_, rfl⟩
  · match ids, hn with
    | [a, b], _ => exact ⟨_, rfl⟩
  · match ids, hn with
    | [a, b, c], _ => exact ⟨_, rfl⟩
  · match ids, hn with
    | [a, b, c, d], _ => exact ⟨_, rfl⟩
  · match ids, hn with
    | [a, b, c, d], _ => exact ⟨_, rfl⟩

/-- **C06 (involution).** For every element with the right number of nodes, `invert()` is defined, permutes the node ids,
keeps type and faces, and a second `invert()` restores the element. -/
theorem C06_invert_involution (e : Elem) (hn : e.nodeIds.length = e.elementType.nbNodes) :
    ∃ e', e.invert = some e' ∧ e'.nodeIds.Perm e.nodeIds ∧ e'.elementType = e.elementType ∧
      e'.faceIds = e.faceIds ∧ e'.invert = some e := by
  obtain ⟨ty, ids, fids⟩ := e
  cases ty <;> simp only [ElementType.nbNodes] at hn <;>
    try exact ⟨_, rfl, List.Perm.refl _, rfl, rfl, rfl⟩
  · match ids, hn with
    | [a, b], _ => exact ⟨_, rfl, List.Perm.swap _ _ _, rfl, rfl, rfl⟩
  · match ids, hn with
    | [a, b, c], _ => exact ⟨_, rfl, (List.Perm.swap _ _ _).cons _, rfl, rfl, rfl⟩
  · match ids, hn with
    | [a, b, c, d], _ =>
      refine ⟨⟨.quadrilateral, [a, d, c, b], fids⟩, rfl, ?_, rfl, rfl, rfl⟩
      refine List.Perm.cons _ ?_
      have h1 : [d, c, b].Perm [c, d, b] := List.Perm.swap _ _ _
      have h2 : [c, d, b].Perm [c, b, d] := (List.Perm.swap _ _ _).cons _
      exact (h1.trans h2).trans (List.Perm.swap _ _ _)
  · match ids, hn with
    | [a, b, c, d], _ => exact ⟨_, rfl, (List.Perm.swap _ _ _).cons _, rfl, rfl, rfl⟩

/-- Signed measure of an element: the edge vector, the vector area (doubled), resp. six times the signed volume along
the first axis. Independent of the code. -/
def signedMeasure {K : Type} [CommRing K] (t : ElementType) (p : List (Vec3 K)) : Vec3 K :=
  match t, p with
  | .beam, [a, b] => b - a
  | .triangle, [a, b, c] => Vec3.cross (b - a) (c - a)
  | .quadrilateral, [a, b, c, d] => Vec3.cross (c - a) (d - b)
  | .tetrahedron, [a, b, c, d] => ⟨Vec3.dot (b - a) (Vec3.cross (c - a) (d - a)), 0, 0⟩
  | _, _ => 0

/-- **C06 (orientation reversal).** Inverting a beam, triangle, quadrilateral or tetrahedron negates its signed
measure, for all node coordinates. -/
theorem C06_invert_reverses {K : Type} [CommRing K] (e : Elem) (pos : Int → Vec3 K)
    (ht : e.elementType ∈ [ElementType.beam, .triangle, .quadrilateral, .tetrahedron])
    (hn : e.nodeIds.length = e.elementType.nbNodes) (e' : Elem) (he : e.invert = some e') :
    signedMeasure e'.elementType (e'.nodeIds.map pos) = - signedMeasure e.elementType (e.nodeIds.map pos) := by
  obtain ⟨ty, ids, fids⟩ := e
  cases ty <;> simp only [ElementType.nbNodes] at hn <;> simp at ht
  · match ids, hn with
    | [a, b], _ =>
      simp [invert, swapAt] at he; subst he
      simp [signedMeasure]
  · match ids, hn with
    | [a, b, c], _ =>
      simp [invert, swapAt] at he; subst he
      ext <;> simp [signedMeasure] <;> ring
  · match ids, hn with
    | [a, b, c, d], _ =>
      simp [invert, swapAt] at he; subst he
      ext <;> simp [signedMeasure] <;> ring
  · match ids, hn with
    | [a, b, c, d], _ =>
      simp [invert, swapAt] at he; subst he
      ext <;> simp [signedMeasure, Vec3.dot] <;> ring

/-- **C06 (unsupported types).** For prisms and hexahedra the code leaves the element unchanged: `invert()` does not reverse
their orientation. -/
theorem C06_prism_hexahedron_unchanged (ids fids : List Int) :
    Elem.invert ⟨.triangularPrism, ids, fids⟩ = some ⟨.triangularPrism, ids, fids⟩ ∧
    Elem.invert ⟨.hexahedron, ids, fids⟩ = some ⟨.hexahedron, ids, fids⟩ := ⟨rfl, rfl⟩

/-- The unit right tetrahedron has signed measure 1, its inverse −1. -/
example : let pos : Int → Vec3 ℚ := fun i => if i = 1 then ⟨1, 0, 0⟩ else if i = 2 then ⟨0, 1, 0⟩ else
      if i = 3 then ⟨0, 0, 1⟩ else 0
    signedMeasure .tetrahedron ([0, 1, 2, 3].map pos) = ⟨1, 0, 0⟩ ∧
    (Elem.invert ⟨.tetrahedron, [0, 1, 2, 3], []⟩).map (fun e => signedMeasure e.elementType (e.nodeIds.map pos)) =
      some ⟨-1, 0, 0⟩ := by
  constructor
  · ext <;> simp [signedMeasure, Vec3.dot]
  · simp [Elem.invert, Elem.swapAt, signedMeasure, Vec3.dot]

end ENigMA
