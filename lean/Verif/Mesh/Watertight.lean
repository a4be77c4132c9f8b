import Verif.Mesh.FacesProps
import Mathlib.Algebra.BigOperators.Group.Finset.Basic
import Mathlib.Data.Finset.Sort

/-!
# The boundary of a mesh of solids (C158)
-/

set_option linter.unusedSectionVars false
set_option autoImplicit false

namespace ENigMA
namespace Mesh
open Cont

/-! ### Specification -/

section
variable {K : Type}

/-- The elements are tetrahedra, triangular prisms and hexahedra with different nodes. Of all their faces no three coincide, and if two coincide the sides of the one are those of the other run backwards. -/
structure Conforming (m : Mesh K) : Prop where
  solid : ∀ id e, m.elements.get? id = some e →
    (e.elementType = .tetrahedron ∨ e.elementType = .triangularPrism ∨ e.elementType = .hexahedron) ∧ e.nodeIds.length = e.elementType.nbNodes ∧ e.nodeIds.Nodup
  two : ∀ (i j k : Nat) f g h, m.expectedFaces[i]? = some f → m.expectedFaces[j]? = some g → m.expectedFaces[k]? = some h → Coincide f g → Coincide f h → i ≠ j → i ≠ k → j = k
  opposite : ∀ (i j : Nat) f g, m.expectedFaces[i]? = some f → m.expectedFaces[j]? = some g → i ≠ j → Coincide f g → (cycleEdges g.nodeIds).Perm ((cycleEdges f.nodeIds).map Prod.swap)

/-- The sides of all elements of a surface mesh, in the direction in which the elements run through them. -/
def sidesOf (b : Mesh K) : List (Int × Int) := b.elements.ids.flatMap fun id => ((b.elements.get? id).map fun e => cycleEdges e.nodeIds).getD []

/-- The sum of a quantity over the elements. -/
def sumOf {M : Type} [AddCommMonoid M] (b : Mesh K) (W : List Int → M) : M := (b.elements.ids.map fun id => ((b.elements.get? id).map fun e => W e.nodeIds).getD 0).sum

/-- Six times the signed volume of the tetrahedron of the origin and a triangle. -/
def cone6 [Field K] (b : Mesh K) : List Int → K
  | [i, j, k] => Vec3.dot (b.posOf i) (Vec3.cross (b.posOf j) (b.posOf k))
  | _ => 0

/-- Six times the signed volume of a tetrahedron. -/
def tet6 [Field K] (m : Mesh K) : List Int → K
  | [i, j, k, l] => Vec3.dot (m.posOf j - m.posOf i) (Vec3.cross (m.posOf k - m.posOf i) (m.posOf l - m.posOf i))
  | _ => 0

end

/-! ### The faces between elements cancel -/

section
variable {M : Type} [AddCommGroup M]

theorem map_getElem (l : List Int) (h : Option Int → M) : (List.range l.length).map (fun k => h l[k]?) = l.map fun x => h (some x) := by
  refine List.ext_getElem (by simp) fun k h1 h2 => ?_
  simp only [List.length_map, List.length_range] at h1
  simp [List.getElem?_eq_getElem h1]

/-- What the pairs add up to is zero. -/
theorem cancel (n : Nat) (w : Nat → M) (R : Nat → Nat → Prop) (hsymm : ∀ i j, R i j → R j i) (htwo : ∀ i < n, ∀ j < n, ∀ k < n, R i j → R i k → i ≠ j → i ≠ k → j = k) (hw : ∀ i < n, ∀ j < n, i ≠ j → R i j → w i + w j = 0)
    (out : List Nat) (hs : out.Nodup) (ho : ∀ i, i ∈ out ↔ i < n ∧ ∀ j < n, j ≠ i → ¬ R i j) : ((List.range n).map w).sum = (out.map w).sum := by
  classical
  rw [← List.sum_toFinset w hs, ← List.sum_toFinset w List.nodup_range]
  have hR : (List.range n).toFinset = Finset.range n := by ext; simp
  have hO : out.toFinset = (Finset.range n).filter fun i => ∀ j < n, j ≠ i → ¬ R i j := by
    ext i
    rw [List.mem_toFinset, ho, Finset.mem_filter, Finset.mem_range]
  rw [hR, hO, ← Finset.sum_filter_add_sum_filter_not (Finset.range n) (fun i => ∀ j < n, j ≠ i → ¬ R i j) w]
  suffices h : ∑ i ∈ (Finset.range n).filter (fun i => ¬ ∀ j < n, j ≠ i → ¬ R i j), w i = 0 by rw [h, add_zero]
  have hex : ∀ i, i ∈ (Finset.range n).filter (fun i => ¬ ∀ j < n, j ≠ i → ¬ R i j) → ∃ j, j < n ∧ j ≠ i ∧ R i j := fun i hi => by
    have := (Finset.mem_filter.1 hi).2
    push Not at this
    exact this
  refine Finset.sum_involution (fun i hi => (hex i hi).choose) (fun i hi => ?_) (fun i hi _ => (hex i hi).choose_spec.2.1) (fun i hi => ?_) (fun i hi => ?_)
  · obtain ⟨h1, h2, h3⟩ := (hex i hi).choose_spec
    exact hw i (Finset.mem_range.1 (Finset.mem_filter.1 hi).1) _ h1 h2.symm h3
  · obtain ⟨h1, h2, h3⟩ := (hex i hi).choose_spec
    refine Finset.mem_filter.2 ⟨Finset.mem_range.2 h1, fun hn => ?_⟩
    exact hn i (Finset.mem_range.1 (Finset.mem_filter.1 hi).1) h2.symm (hsymm _ _ h3)
  · have hin := Finset.mem_range.1 (Finset.mem_filter.1 hi).1
    obtain ⟨h1, h2, h3⟩ := (hex i hi).choose_spec
    set j := (hex i hi).choose with hj
    have hmem : j ∈ (Finset.range n).filter (fun i => ¬ ∀ j < n, j ≠ i → ¬ R i j) := Finset.mem_filter.2 ⟨Finset.mem_range.2 h1, fun hn => hn i hin h2.symm (hsymm _ _ h3)⟩
    obtain ⟨g1, g2, g3⟩ := (hex j hmem).choose_spec
    exact htwo j h1 _ g1 i hin g3 (hsymm _ _ h3) g2.symm h2

end

variable {K : Type} [Field K] [LinearOrder K] [IsStrictOrderedRing K] [FloorRing K]

theorem Coincide.symm {f g : Face} (h : Coincide f g) : Coincide g f := ⟨h.1.symm, h.2.symm⟩

/-- A quantity that cancels between coinciding faces has the same sum over the boundary as over the faces of all elements. -/
theorem boundary_sum {M : Type} [AddCommGroup M] (mc : HashGrid.Machine K) (m : Mesh K) (hm : m.WF) (hf : m.FullElements) (hg : GoodFaces mc m) (tol : K) (htol : 0 ≤ tol)
    (htwo : ∀ (i j k : Nat) f g h, m.expectedFaces[i]? = some f → m.expectedFaces[j]? = some g → m.expectedFaces[k]? = some h → Coincide f g → Coincide f h → i ≠ j → i ≠ k → j = k)
    (W : List Int → M) (hW : ∀ (i j : Nat) f g, m.expectedFaces[i]? = some f → m.expectedFaces[j]? = some g → i ≠ j → Coincide f g → W f.nodeIds + W g.nodeIds = 0) (b m' : Mesh K) (hb : extractBoundary mc m tol = some (b, m')) :
    sumOf b W = (m.expectedFaces.map fun f => W f.nodeIds).sum := by
  obtain ⟨b1, m1, e1, e2, -, -, -, -, -, outer, s1, s2, s3, s4⟩ := C53_extractBoundary mc m hm hf hg tol htol
  obtain ⟨m2, f1, -, f3, f4, -⟩ := C07_generateFaces_faces mc m hm hf hg tol htol
  rw [hb, Option.some.injEq, Prod.mk.injEq] at e1
  obtain ⟨rfl, rfl⟩ := e1
  rw [e2, Option.some.injEq] at f1
  subst f1
  set F := m.expectedFaces with hF
  rw [f3] at s1
  obtain ⟨L, hL, rfl⟩ := List.sublist_map_iff.1 s1
  have hnd : L.Nodup := hL.nodup List.nodup_range
  -- a stored face and the expected one
  have hface : ∀ k : Nat, k < F.length → ∃ f g, m'.faces.get? (k : Int) = some f ∧ F[k]? = some g ∧ f.faceType = g.faceType ∧ f.nodeIds = g.nodeIds := fun k hk => by
    have h := f4 k
    rw [List.getElem?_eq_getElem hk, Option.map_some] at h
    obtain ⟨f, hf1, hf2⟩ := Option.map_eq_some_iff.1 h
    simp only [Prod.mk.injEq] at hf2
    exact ⟨f, _, hf1, List.getElem?_eq_getElem hk, hf2.1, hf2.2.1⟩
  have hnot : ∀ j f, m'.faces.get? j = some f → ∃ k : Nat, j = k ∧ k < F.length := fun j f h => by
    have hw := (C07_generateFaces_faces mc m hm hf hg tol htol)
    obtain ⟨m3, q1, -, -, -, q5, -⟩ := hw
    rw [e2, Option.some.injEq] at q1
    subst q1
    have := (q5.faces.2 j).2 ⟨f, h⟩
    rw [f3] at this
    obtain ⟨k, hk, rfl⟩ := List.mem_map.1 this
    exact ⟨k, rfl, List.mem_range.1 hk⟩
  let R : Nat → Nat → Prop := fun i j => ∀ f g, F[i]? = some f → F[j]? = some g → Coincide f g
  let w : Nat → M := fun i => ((F[i]?).map fun f => W f.nodeIds).getD 0
  have hget : ∀ i, i < F.length → ∃ f, F[i]? = some f := fun i hi => ⟨_, List.getElem?_eq_getElem hi⟩
  have h1 : (F.map fun f => W f.nodeIds).sum = ((List.range F.length).map w).sum := by
    congr 1
    refine List.ext_getElem (by simp) fun k h1 h2 => ?_
    simp only [List.length_map] at h1
    simp [w, List.getElem?_eq_getElem h1]
  have h2 : sumOf b W = (L.map w).sum := by
    unfold sumOf
    rw [s3, List.map_map]
    have : ((List.range (L.map Int.ofNat).length).map ((fun id => ((b.elements.get? id).map fun e => W e.nodeIds).getD 0) ∘ Int.ofNat)) =
        (List.range (L.map Int.ofNat).length).map fun k => (fun o : Option Int => ((o.bind m'.faces.get?).map fun f => W f.nodeIds).getD 0) (L.map Int.ofNat)[k]? := by
      refine List.map_congr_left fun k _ => ?_
      show (Option.map (fun e => W e.nodeIds) (b.elements.get? (k : Int))).getD 0 = _
      rw [s4 k, Option.map_map]
      rfl
    rw [this, map_getElem (L.map Int.ofNat) (fun o : Option Int => ((o.bind m'.faces.get?).map fun f => W f.nodeIds).getD 0), List.map_map]
    congr 1
    refine List.map_congr_left fun k hk => ?_
    obtain ⟨f, g, q1, q2, -, q4⟩ := hface k (List.mem_range.1 (hL.subset hk))
    show (Option.map (fun f => W f.nodeIds) (m'.faces.get? (k : Int))).getD 0 = ((F[k]?).map fun f => W f.nodeIds).getD 0
    rw [q1, q2]
    simp [q4]
  rw [h1, h2]
  refine (cancel F.length w R ?_ ?_ ?_ L hnd ?_).symm
  · exact fun i j h f g hf hg => (h g f hg hf).symm
  · intro i hi j hj k hk h1 h2 h3 h4
    obtain ⟨f, hf⟩ := hget i hi
    obtain ⟨g, hg⟩ := hget j hj
    obtain ⟨h, hh⟩ := hget k hk
    exact htwo i j k f g h hf hg hh (h1 f g hf hg) (h2 f h hf hh) h3 h4
  · intro i hi j hj hij hr
    obtain ⟨f, hf⟩ := hget i hi
    obtain ⟨g, hg⟩ := hget j hj
    simp only [w, hf, hg, Option.map_some, Option.getD_some]
    exact hW i j f g hf hg hij (hr f g hf hg)
  · intro i
    constructor
    · intro hi
      have hlt := List.mem_range.1 (hL.subset hi)
      refine ⟨hlt, fun j hj hne hr => ?_⟩
      obtain ⟨f, f', q1, q2, q3, q4⟩ := hface i hlt
      obtain ⟨g, g', r1, r2, r3, r4⟩ := hface j hj
      refine (s2 i f q1).1 (List.mem_map.2 ⟨i, hi, rfl⟩) j g r1 (by exact_mod_cast hne) ?_
      have := hr f' g' q2 r2
      exact ⟨q3.trans (this.1.trans r3.symm), by rw [q4, r4]; exact this.2⟩
    · rintro ⟨hlt, hno⟩
      obtain ⟨f, f', q1, q2, q3, q4⟩ := hface i hlt
      have := (s2 i f q1).2 fun j g hg hne hc => by
        obtain ⟨k, rfl, hk⟩ := hnot j g hg
        obtain ⟨g1, g', r1, r2, r3, r4⟩ := hface k hk
        rw [hg, Option.some.injEq] at r1
        subst r1
        refine hno k hk (by exact_mod_cast hne) fun x y hx hy => ?_
        rw [q2, Option.some.injEq] at hx
        rw [r2, Option.some.injEq] at hy
        subst hx hy
        exact ⟨q3.symm.trans (hc.1.trans r3), by rw [← q4, ← r4]; exact hc.2⟩
      obtain ⟨k, hk, hki⟩ := List.mem_map.1 this
      have : k = i := Int.ofNat.inj hki
      exact this ▸ hk

/-- The sum over the faces of all elements. -/
theorem faces_sum {M : Type} [AddCommMonoid M] (m : Mesh K) (hm : m.WF) (hf : m.FullElements) (W : List Int → M) :
    (m.expectedFaces.map fun f => W f.nodeIds).sum = (m.elements.ids.map fun id => ((m.elements.get? id).map fun e => (e.facesOf.map fun f => W f.nodeIds).sum).getD 0).sum := by
  rw [expectedFaces_eq hm.elements hf]
  have : ∀ l : List Int, (∀ id ∈ l, id ∈ m.elements.ids) → ((l.flatMap fun id => ((m.elements.get? id).map (facesWithOwner id)).getD []).map fun f => W f.nodeIds).sum =
      (l.map fun id => ((m.elements.get? id).map fun e => (e.facesOf.map fun f => W f.nodeIds).sum).getD 0).sum := fun l hl => by
    induction l with
    | nil => rfl
    | cons id l ih =>
      rw [List.flatMap_cons, List.map_append, List.sum_append, ih fun x hx => hl x (by simp [hx]), List.map_cons, List.sum_cons]
      congr 1
      obtain ⟨e, he⟩ := (hm.elements.2 id).1 (hl id (by simp))
      simp only [he, Option.map_some, Option.getD_some, facesWithOwner, List.map_map]
      rfl
  exact this _ fun _ h => h

end Mesh
end ENigMA
