import Verif.Geometry.TriTriProps
import Verif.Mesh.CrossingsLemmas

/-!
# C141: the search for elements that cross
-/

set_option linter.unusedSectionVars false
set_option autoImplicit false

namespace ENigMA

variable {K : Type} [Field K] [LinearOrder K] [IsStrictOrderedRing K]

/-- **C141, what is tested.** In a mesh of triangles `checkIntersections` tests every triangle against one other triangle only: there is a choice `first` of one other triangle
for every triangle whose box meets the box of another one, and the answer is yes exactly if some triangle is said to cross the one chosen for it. -/
theorem C141_first (sqrt : K → K) (hs : IsSqrt sqrt) (c : K) (hc : 0 ≤ c) (nrm : Vec3 K → K) (eps big cos1 tol : K) (m : Mesh K) (hm : m.elements.Ok)
    (hb : ∀ n p, m.nodes.get? n = some p → p.Bounded big) (hT : m.OnlyTriangles) :
    ∃ (r : Bool) (first : Int → Option Int), m.checkIntersections (Rtree.sphericalVolume sqrt c) nrm eps big cos1 tol = some r ∧
      (∀ i t, i ∈ m.elements.ids → m.Corners i t → first i = none → ∀ j u, j ∈ m.elements.ids → j ≠ i → m.Corners j u → ¬ BoxesMeet (t.bbox big) (u.bbox big)) ∧
      (∀ i t j, i ∈ m.elements.ids → m.Corners i t → first i = some j → j ∈ m.elements.ids ∧ j ≠ i ∧ ∃ u, m.Corners j u ∧ BoxesMeet (t.bbox big) (u.bbox big)) ∧
      (r = true ↔ ∃ i ∈ m.elements.ids, ∃ j t u, first i = some j ∧ m.Corners i t ∧ m.Corners j u ∧ t.SaidToCross nrm eps big cos1 tol u) := by
  classical
  have : Nonempty (Tri K) := ⟨⟨0, 0, 0⟩⟩
  choose! T hT using hT
  obtain ⟨tree, h1, h2⟩ := Mesh.candidates hs hc hm hb hT
  choose! cand hcand using h2
  have hin : ∀ i ∈ m.elements.ids, ∀ j ∈ cand i, m.Corners j (T j) := fun i hi j hj => hT j (((hcand i hi).2.2 j).1 hj).1
  have he := Mesh.crossElements_eq nrm eps big cos1 tol m T tree cand m.elements.ids hT fun i hi => ⟨(hcand i hi).1, hin i hi⟩
  refine ⟨_, fun i => (cand i).find? (fun j => decide (j ≠ i)), by rw [Mesh.checkIntersections, h1]; exact he, ?_, ?_, ?_⟩
  · intro i t hi ht hnone j u hj hji hu hmeet
    rw [ht.unique (hT i hi), hu.unique (hT j hj)] at hmeet
    have := List.find?_eq_none.1 hnone j (((hcand i hi).2.2 j).2 ⟨hj, hmeet⟩)
    exact this (by simpa using hji)
  · intro i t j hi ht hsome
    have hmem := ((hcand i hi).2.2 j).1 (List.mem_of_find?_eq_some hsome)
    have hne := List.find?_some hsome
    rw [ht.unique (hT i hi)]
    exact ⟨hmem.1, by simpa using hne, T j, hT j hmem.1, hmem.2⟩
  · rw [List.any_eq_true]
    constructor
    · rintro ⟨i, hi, h⟩
      cases hf : (cand i).find? (fun j => decide (j ≠ i)) with
      | none => rw [hf] at h; simp at h
      | some j =>
        rw [hf] at h
        have hmem := ((hcand i hi).2.2 j).1 (List.mem_of_find?_eq_some hf)
        exact ⟨i, hi, j, T i, T j, hf, hT i hi, hT j hmem.1, (triCounts_iff _).1 h⟩
    · rintro ⟨i, hi, j, t, u, hf, ht, hu, h⟩
      have hmem := ((hcand i hi).2.2 j).1 (List.mem_of_find?_eq_some hf)
      rw [ht.unique (hT i hi), hu.unique (hT j hmem.1)] at h
      refine ⟨i, hi, ?_⟩
      dsimp only at hf
      rw [hf]
      exact (triCounts_iff _).2 h

/-- **C141, no invention.** In a mesh of triangles `checkIntersections` always answers, and if it answers yes, then two different triangles, with boxes that meet, are said to
cross by the test of the two. -/
theorem C141_said (sqrt : K → K) (hs : IsSqrt sqrt) (c : K) (hc : 0 ≤ c) (nrm : Vec3 K → K) (eps big cos1 tol : K) (m : Mesh K) (hm : m.elements.Ok)
    (hb : ∀ n p, m.nodes.get? n = some p → p.Bounded big) (hT : m.OnlyTriangles) :
    (∃ r, m.checkIntersections (Rtree.sphericalVolume sqrt c) nrm eps big cos1 tol = some r) ∧
    (m.checkIntersections (Rtree.sphericalVolume sqrt c) nrm eps big cos1 tol = some true →
      ∃ i j t u, i ≠ j ∧ m.Corners i t ∧ m.Corners j u ∧ BoxesMeet (t.bbox big) (u.bbox big) ∧ t.SaidToCross nrm eps big cos1 tol u) := by
  obtain ⟨r, first, h1, h2, h3, h4⟩ := C141_first sqrt hs c hc nrm eps big cos1 tol m hm hb hT
  refine ⟨⟨r, h1⟩, fun h => ?_⟩
  rw [h1] at h
  obtain ⟨i, hi, j, t, u, hf, ht, hu, hx⟩ := h4.1 (Option.some.inj h)
  obtain ⟨hj, hji, u', hu', hmeet⟩ := h3 i t j hi ht hf
  rw [hu'.unique hu] at hmeet
  exact ⟨i, j, t, u, fun h => hji h.symm, ht, hu, hmeet, hx⟩

/-- **C141 (partial: sparse meshes).** In a mesh of triangles in which the box of a triangle meets the box of at most one other, `checkIntersections` answers yes exactly if two
different triangles, with boxes that meet, are said to cross by the test of the two. (Without the proviso this fails: `C141_missed`.) -/
theorem C141_sparse_partial (sqrt : K → K) (hs : IsSqrt sqrt) (c : K) (hc : 0 ≤ c) (nrm : Vec3 K → K) (eps big cos1 tol : K) (m : Mesh K) (hm : m.elements.Ok)
    (hb : ∀ n p, m.nodes.get? n = some p → p.Bounded big) (hT : m.OnlyTriangles)
    (hone : ∀ i j k t u w, i ≠ j → i ≠ k → m.Corners i t → m.Corners j u → m.Corners k w → BoxesMeet (t.bbox big) (u.bbox big) → BoxesMeet (t.bbox big) (w.bbox big) → j = k) :
    m.checkIntersections (Rtree.sphericalVolume sqrt c) nrm eps big cos1 tol = some true ↔
      ∃ i j t u, i ≠ j ∧ m.Corners i t ∧ m.Corners j u ∧ BoxesMeet (t.bbox big) (u.bbox big) ∧ t.SaidToCross nrm eps big cos1 tol u := by
  refine ⟨(C141_said sqrt hs c hc nrm eps big cos1 tol m hm hb hT).2, ?_⟩
  rintro ⟨i, j, t, u, hij, ht, hu, hmeet, hx⟩
  obtain ⟨r, first, h1, h2, h3, h4⟩ := C141_first sqrt hs c hc nrm eps big cos1 tol m hm hb hT
  have mem : ∀ {k w}, m.Corners k w → k ∈ m.elements.ids := by
    rintro k w ⟨e, -, -, -, h, -⟩
    exact (hm.2 k).2 ⟨e, h⟩
  rw [h1, h4.2]
  cases hf : first i with
  | none => exact absurd hmeet (h2 i t (mem ht) ht hf j u (mem hu) (Ne.symm hij) hu)
  | some k =>
    obtain ⟨hk, hki, w, hw, hmeet'⟩ := h3 i t k (mem ht) ht hf
    have := hone i j k t u w hij (Ne.symm hki) ht hu hw hmeet hmeet'
    subst this
    exact ⟨i, mem ht, j, t, u, hf, ht, hu, hx⟩

/-! ### Neighbours -/

/-- The triangles have two corners in common, and no other corner of one is within `tol` of a corner of the other. -/
def Tri.ShareEdge (nrm : Vec3 K → K) (tol : K) (t u : Tri K) : Prop :=
  ∃ i0 i1 j0 j1 : Fin 3, i0 ≠ i1 ∧ j0 ≠ j1 ∧ t.v i0 = u.v j0 ∧ t.v i1 = u.v j1 ∧
    ∀ i j : Fin 3, (i, j) ≠ (i0, j0) → (i, j) ≠ (i1, j1) → tol ≤ nrm (t.v i - u.v j)

theorem Tri.ShareEdge.near {nrm : Vec3 K → K} (hN : IsNorm nrm) {tol : K} (h0 : 0 < tol) {t u : Tri K} (h : t.ShareEdge nrm tol u) : t.nearVertices nrm u tol = 2 := by
  obtain ⟨i0, i1, j0, j1, hi, hj, e0, e1, hf⟩ := h
  have hz : nrm (0 : Vec3 K) < tol := by rw [hN.eq_zero.2 rfl]; exact h0
  have ea : ∀ v : Vec3 K, v - v = 0 := fun v => by ext <;> simp
  have key : ∀ i j : Fin 3, decide (nrm (t.v i - u.v j) < tol) = decide ((i, j) = (i0, j0) ∨ (i, j) = (i1, j1)) := by
    intro i j
    by_cases h1 : (i, j) = (i0, j0)
    · obtain ⟨rfl, rfl⟩ := Prod.mk.inj h1
      simp [e0, ea, hz]
    · by_cases h2 : (i, j) = (i1, j1)
      · obtain ⟨rfl, rfl⟩ := Prod.mk.inj h2
        simp [e1, ea, hz]
      · rw [decide_eq_false (not_lt.2 (hf i j h1 h2)), decide_eq_false (by tauto)]
  have row : ∀ g : Nat → Bool, ([0, 1, 2].filter g).length = (g 0).toNat + (g 1).toNat + (g 2).toNat := by
    intro g
    cases h0 : g 0 <;> cases h1 : g 1 <;> cases h2 : g 2 <;> simp [h0, h1, h2]
  unfold Tri.nearVertices
  simp only [List.flatMap_cons, List.flatMap_nil, List.length_append, row, List.length_nil]
  have k00 := key 0 0
  have k01 := key 0 1
  have k02 := key 0 2
  have k10 := key 1 0
  have k11 := key 1 1
  have k12 := key 1 2
  have k20 := key 2 0
  have k21 := key 2 1
  have k22 := key 2 2
  simp only [Fin.val_zero, Fin.val_one, Fin.val_two] at k00 k01 k02 k10 k11 k12 k20 k21 k22
  rw [k00, k01, k02, k10, k11, k12, k20, k21, k22]
  clear k00 k01 k02 k10 k11 k12 k20 k21 k22 hf e0 e1 key row
  revert i0 i1 j0 j1
  decide

theorem Tri.ShareEdge.crosses {nrm : Vec3 K → K} (hN : IsNorm nrm) (eps big cos1 : K) {tol : K} (h0 : 0 < tol) {t u : Tri K}
    (ht : ∀ p ∈ [t.v0, t.v1, t.v2], p.Bounded big) (hu : ∀ p ∈ [u.v0, u.v1, u.v2], p.Bounded big) (h : t.ShareEdge nrm tol u) :
    t.SaidToCross nrm eps big cos1 tol u := by
  have hnv := h.near hN h0
  obtain ⟨i0, -, j0, -, -, -, e0, -, -⟩ := h
  have mem : ∀ (t : Tri K) (k : Nat), t.v k ∈ [t.v0, t.v1, t.v2] := by
    intro t k; unfold Tri.v; split_ifs <;> simp
  have hbox : (t.bbox big).intersects (u.bbox big) tol = true := by
    obtain ⟨a1, a2, a3⟩ := t.bbox_mem ht _ (mem t i0)
    obtain ⟨b1, b2, b3⟩ := u.bbox_mem hu _ (mem u j0)
    rw [← e0] at b1 b2 b3
    simp only [BBox.intersects, Bool.and_eq_true, decide_eq_true_eq, ge_iff_le]
    refine ⟨⟨⟨⟨⟨?_, ?_⟩, ?_⟩, ?_⟩, ?_⟩, ?_⟩ <;> linarith [a1.1, a1.2, a2.1, a2.2, a3.1, a3.2, b1.1, b1.2, b2.1, b2.2, b3.1, b3.2]
  have hside : Tri.oneSide tol ((t.normal nrm).dot u.v0 - (t.normal nrm).dot t.v0) ((t.normal nrm).dot u.v1 - (t.normal nrm).dot t.v0)
      ((t.normal nrm).dot u.v2 - (t.normal nrm).dot t.v0) = false := by
    have hz : (t.normal nrm).dot (u.v j0) - (t.normal nrm).dot t.v0 = 0 := by
      rw [← e0, t.normal_dot_has (t.has_v i0), sub_self]
    have hn : ¬ tol < 0 := not_lt.2 h0.le
    have hn' : ¬ 0 < -tol := by linarith
    have hv := mem u j0
    unfold Tri.oneSide
    simp only [List.mem_cons, List.not_mem_nil, or_false] at hv
    rcases hv with hv | hv | hv <;> rw [hv] at hz <;> simp [hz, hn, hn']
  unfold Tri.SaidToCross Tri.intersects
  simp only [hbox, hside, hnv, u.oneSide_self (nrm := nrm) h0.le, Bool.not_true, Bool.false_eq_true, if_false, if_true]
  rw [if_neg (by norm_num)]
  split_ifs
  · exact ⟨_, rfl, by decide⟩
  · exact ⟨_, rfl, by decide⟩
  · exact ⟨_, rfl, by decide⟩

/-- **C141 fails (neighbours).** With a positive tolerance a sound surface is said to cross itself: it is enough that there is a triangle that shares an edge with every other
triangle whose box meets its own, and that there is at least one. -/
theorem C141_neighbours (sqrt : K → K) (hs : IsSqrt sqrt) (c : K) (hc : 0 ≤ c) (nrm : Vec3 K → K) (hN : IsNorm nrm) (eps big cos1 tol : K) (h0 : 0 < tol) (m : Mesh K)
    (hm : m.elements.Ok) (hb : ∀ n p, m.nodes.get? n = some p → p.Bounded big) (hT : m.OnlyTriangles) (i : Int) (t : Tri K) (ht : m.Corners i t)
    (hex : ∃ j u, j ≠ i ∧ m.Corners j u ∧ BoxesMeet (t.bbox big) (u.bbox big))
    (hall : ∀ j u, j ≠ i → m.Corners j u → BoxesMeet (t.bbox big) (u.bbox big) → t.ShareEdge nrm tol u) :
    m.checkIntersections (Rtree.sphericalVolume sqrt c) nrm eps big cos1 tol = some true := by
  obtain ⟨r, first, h1, h2, h3, h4⟩ := C141_first sqrt hs c hc nrm eps big cos1 tol m hm hb hT
  have hi : i ∈ m.elements.ids := by
    obtain ⟨e, -, -, -, h, -⟩ := ht
    exact (hm.2 i).2 ⟨e, h⟩
  rw [h1, h4.2]
  cases hf : first i with
  | none =>
    obtain ⟨j, u, hji, hu, hmeet⟩ := hex
    have hj : j ∈ m.elements.ids := by
      obtain ⟨e, -, -, -, h, -⟩ := hu
      exact (hm.2 j).2 ⟨e, h⟩
    exact absurd hmeet (h2 i t hi ht hf j u hj hji hu)
  | some j =>
    obtain ⟨hj, hji, u, hu, hmeet⟩ := h3 i t j hi ht hf
    exact ⟨i, hi, j, t, u, hf, ht, hu, (hall j u hji hu hmeet).crosses hN eps big cos1 h0 (ht.bounded hb) (hu.bounded hb)⟩

end ENigMA
