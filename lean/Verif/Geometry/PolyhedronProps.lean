import Verif.Geometry.Polyhedron
import Verif.Geometry.PolygonProps
import Verif.Geometry.SolidsProps

/-!
# C60: the volume of a polyhedron
-/

set_option linter.unusedSectionVars false

namespace ENigMA
namespace Polyhedron

open Polygon

/-! ### Specification -/

section Spec
variable {K : Type} [Field K] [LinearOrder K] [IsStrictOrderedRing K]

/-- The directed edges of a polygon, going round back to its first vertex. -/
def loopEdges : List (Vec3 K) → List (Vec3 K × Vec3 K)
  | [] => []
  | a :: l => (a :: l).zip (l ++ [a])

/-- The faces fit together into a closed surface: every directed edge occurs as often as its reverse. -/
def ClosedSurface (faces : List (List (Vec3 K))) : Prop :=
  (faces.flatMap loopEdges).Perm ((faces.flatMap loopEdges).map Prod.swap)

/-- The signed volume of the cone with apex `o` over a face, cut into the tetrahedra over the triangles (first vertex, edge). -/
def coneVolume (o : Vec3 K) : List (Vec3 K) → K
  | [] => 0
  | f :: l => ((loopEdges (f :: l)).map fun e => (⟨f, e.1, e.2, o⟩ : Tet K).volume).sum

/-- A polyhedron built by `addPolygon` calls on a fresh object, from polygons set from polylines. -/
def build (l : List (Int × List (Vec3 K))) : Polyhedron K :=
  empty.addPolygons (l.map fun f => (f.1, Polygon.ofPolyline f.2))

end Spec

/-! ### Lemmas -/

section Edges
variable {K : Type} [Field K] [LinearOrder K] [IsStrictOrderedRing K]

theorem openArea2_zip (a : Vec3 K) (l : List (Vec3 K)) :
    openArea2 (a :: l) = (((a :: l).zip l).map fun e => Vec3.cross e.1 e.2).sum := by
  induction l generalizing a with
  | nil => simp
  | cons b l ih => rw [openArea2_cons_cons, ih]; simp

theorem vecArea2_edges (vs : List (Vec3 K)) : vecArea2 vs = ((loopEdges vs).map fun e => Vec3.cross e.1 e.2).sum := by
  cases vs with
  | nil => rfl
  | cons a l =>
    rw [vecArea2, List.cons_append, openArea2_zip, loopEdges]
    congr 2
    have : ∀ (x y : List (Vec3 K)) (z : Vec3 K), x.length = y.length → (x ++ [z]).zip y = x.zip y := by
      intro x
      induction x with
      | nil => intro y z h; cases y <;> simp_all
      | cons b x ih =>
        intro y z h
        cases y with
        | nil => simp at h
        | cons c y => simp only [List.cons_append, List.zip_cons_cons, ih y z (by simpa using h)]
    rw [← List.cons_append]
    exact this _ _ _ (by simp)

theorem cross_swap_sum (es : List (Vec3 K × Vec3 K)) :
    ((es.map Prod.swap).map fun e => Vec3.cross e.1 e.2).sum = -(es.map fun e => Vec3.cross e.1 e.2).sum := by
  induction es with
  | nil => simp
  | cons e t ih =>
    simp only [List.map_cons, List.sum_cons, ih, Prod.fst_swap, Prod.snd_swap, neg_add]
    rw [Vec3.cross_swap e.2 e.1]

theorem closed_sum (faces : List (List (Vec3 K))) (h : ClosedSurface faces) : (faces.map vecArea2).sum = 0 := by
  have h1 : (faces.map vecArea2).sum = ((faces.flatMap loopEdges).map fun e => Vec3.cross e.1 e.2).sum := by
    clear h
    induction faces with
    | nil => rfl
    | cons f t ih => rw [List.map_cons, List.sum_cons, List.flatMap_cons, List.map_append, List.sum_append, ih, vecArea2_edges]
  have h2 := (h.map fun e => Vec3.cross e.1 e.2).sum_eq
  rw [cross_swap_sum, ← h1] at h2
  ext
  · have := congrArg Vec3.x h2; simp at this ⊢; linarith
  · have := congrArg Vec3.y h2; simp at this ⊢; linarith
  · have := congrArg Vec3.z h2; simp at this ⊢; linarith

theorem sum_dot (w : Vec3 K) (l : List (Vec3 K)) : w.dot l.sum = (l.map w.dot).sum := by
  induction l with
  | nil => simp [Vec3.dot]
  | cons a t ih => rw [List.sum_cons, List.map_cons, List.sum_cons, ← ih]; simp [Vec3.dot]; ring

theorem loopEdges_map (g : Vec3 K → Vec3 K) (vs : List (Vec3 K)) :
    loopEdges (vs.map g) = (loopEdges vs).map fun e => (g e.1, g e.2) := by
  cases vs with
  | nil => rfl
  | cons a l =>
    simp only [loopEdges, List.map_cons]
    rw [show List.map g l ++ [g a] = List.map g (l ++ [a]) by simp, ← List.map_cons, List.zip_map]
    rfl

theorem coneVolume_eq (o f : Vec3 K) (l : List (Vec3 K)) : coneVolume o (f :: l) = (f - o).dot (vecArea2 (f :: l)) / 6 := by
  rw [← vecArea2_translate f, vecArea2_edges, loopEdges_map, List.map_map, sum_dot, List.map_map, coneVolume]
  generalize loopEdges (f :: l) = es
  induction es with
  | nil => simp
  | cons e t ih =>
  rw [List.map_cons, List.map_cons, List.sum_cons, List.sum_cons, ih, (C38_volume _).1]
  simp only [Function.comp, Vec3.dot, Vec3.cross_x, Vec3.cross_y, Vec3.cross_z, Vec3.sub_x, Vec3.sub_y, Vec3.sub_z]
  ring

theorem coneVolume_sum_origin (faces : List (List (Vec3 K))) (h : ClosedSurface faces) (o o' : Vec3 K) :
    (faces.map (coneVolume o)).sum = (faces.map (coneVolume o')).sum := by
  have key : ∀ (fs : List (List (Vec3 K))),
      (fs.map (coneVolume o)).sum = (fs.map (coneVolume o')).sum + (o' - o).dot (fs.map vecArea2).sum / 6 := by
    intro fs
    induction fs with
    | nil => simp [Vec3.dot]
    | cons f t ih =>
      simp only [List.map_cons, List.sum_cons, ih]
      cases f with
      | nil => simp [coneVolume, vecArea2]
      | cons a l =>
        rw [coneVolume_eq, coneVolume_eq]
        simp only [Vec3.dot, Vec3.sub_x, Vec3.sub_y, Vec3.sub_z, Vec3.add_x, Vec3.add_y, Vec3.add_z]
        ring
  rw [key, closed_sum faces h]
  simp [Vec3.dot]

end Edges

section Build
variable {K : Type} [Field K] [LinearOrder K] [IsStrictOrderedRing K]

theorem addPolygons_spec (l : List (Int × Polygon K)) : ∀ p : Polyhedron K, (l.map (·.1)).Nodup → (∀ e ∈ l, p.polygons.find? e.1 = none) →
    (p.addPolygons l).ids = p.ids ++ l.map (·.1) ∧
    (∀ e ∈ l, (p.addPolygons l).polygons.find? e.1 = some e.2) ∧
    (∀ i, i ∉ l.map (·.1) → (p.addPolygons l).polygons.find? i = p.polygons.find? i) ∧
    (p.addPolygons l).polygons.entries.length = p.polygons.entries.length + l.length ∧
    (p.addPolygons l).bVolume = p.bVolume := by
  induction l with
  | nil => intro p _ _; simp [addPolygons]
  | cons e t ih =>
    intro p hnd hnew
    obtain ⟨id, q⟩ := e
    rw [List.map_cons, List.nodup_cons] at hnd
    have hget : ∀ j, (p.addPolygon id q).polygons.find? j = if j = id then some q else p.polygons.find? j :=
      fun j => SMap.find?_insert p.polygons id j q
    obtain ⟨h1, h2, h3, h4, h5⟩ := ih (p.addPolygon id q) hnd.2 (by
      intro e he
      rw [hget, if_neg, hnew e (by simp [he])]
      rintro rfl
      exact hnd.1 (List.mem_map.2 ⟨e, he, rfl⟩))
    refine ⟨?_, ?_, ?_, ?_, h5⟩
    · rw [addPolygons, h1]; simp [addPolygon]
    · intro e he
      rcases List.mem_cons.1 he with rfl | he
      · rw [addPolygons, h3 _ hnd.1, hget, if_pos rfl]
      · exact h2 e he
    · intro i hi
      rw [List.map_cons, List.mem_cons, not_or] at hi
      rw [addPolygons, h3 i hi.2, hget, if_neg hi.1]
    · rw [addPolygons, h4, addPolygon]
      have : p.polygons.find? id = none := hnew (id, q) (by simp)
      simp only [SMap.insert]
      have hl : ∀ (m : List (Int × Polygon K)), SMap.findL id m = none → (SMap.insertL id q m).length = m.length + 1 := by
        intro m
        induction m with
        | nil => intro _; rfl
        | cons x y ihm =>
          obtain ⟨k', v'⟩ := x
          intro hm
          simp only [SMap.findL] at hm
          by_cases hk : id = k'
          · rw [if_pos hk] at hm; simp at hm
          · rw [if_neg hk] at hm
            simp only [SMap.insertL]
            split_ifs with h1
            · rfl
            · simp [ihm hm]
      rw [hl _ this]
      simp; omega

theorem build_polygon (l : List (Int × List (Vec3 K))) (hnd : (l.map (·.1)).Nodup) :
    (build l).ids = l.map (·.1) ∧ (∀ f ∈ l, (build l).polygon f.1 = Polygon.ofPolyline f.2) ∧
      (build l).polygons.entries.length = l.length ∧ (build l).bVolume = false := by
  obtain ⟨h1, h2, h3, h4, h5⟩ := addPolygons_spec (l.map fun f => (f.1, Polygon.ofPolyline f.2)) empty
    (by simpa [Function.comp_def] using hnd) (fun _ _ => rfl)
  refine ⟨by rw [build, h1]; simp [empty, Function.comp_def], ?_, by rw [build, h4]; simp [empty, SMap.empty], h5⟩
  intro f hf
  rw [polygon, build, h2 (f.1, Polygon.ofPolyline f.2) (List.mem_map.2 ⟨f, hf, rfl⟩)]
  rfl

theorem volumeTerm_eq (nrm : Vec3 K → K) (hN : IsNorm nrm) (eps : K) (heps : 0 ≤ eps ∧ eps < 1) (v0 : Vec3 K) (vs : List (Vec3 K))
    (hp : Planar vs) (hc : HasCorner nrm eps vs) :
    volumeTerm nrm eps v0 (Polygon.ofPolyline vs) = 3 * coneVolume v0 vs := by
  obtain ⟨-, -, h3, -⟩ := C37_area nrm hN eps heps vs hp hc
  have hlen : 1 < vs.length := by
    obtain ⟨l, a, b, c, r, hvs, -⟩ := hc
    rw [hvs]; simp; omega
  have hm : (ofPolyline vs).calculateArea nrm eps false = ⟨vs, normal nrm eps vs, true, area nrm eps vs, true⟩ := by
    simp [calculateArea, calculateNormal, ofPolyline, hlen, area]
  rw [volumeTerm, hm]
  cases vs with
  | nil => simp at hlen
  | cons v l =>
    simp only
    rw [coneVolume_eq, ← h3, Vec3.dot_smul]
    ring

/-- The value of `calculateVolume` on a freshly built polyhedron, before any assumption on how the faces fit together. -/
theorem volume_build (nrm : Vec3 K → K) (hN : IsNorm nrm) (eps : K) (heps : 0 ≤ eps ∧ eps < 1) (id : Int) (v0 : Vec3 K)
    (r : List (Vec3 K)) (t : List (Int × List (Vec3 K))) (hids : (((id, v0 :: r) :: t).map (·.1)).Nodup)
    (h4 : 4 ≤ ((id, v0 :: r) :: t).length) (hp : ∀ f ∈ t, Planar f.2 ∧ HasCorner nrm eps f.2) :
    ((build ((id, v0 :: r) :: t)).calculateVolume nrm eps false).m_volume =
      ((((id, v0 :: r) :: t).map (·.2)).map (coneVolume v0)).sum := by
  obtain ⟨h1, h2, h3, h5⟩ := build_polygon _ hids
  have hq := h2 (id, v0 :: r) (by simp)
  have hfold : ∀ (u : List (Int × List (Vec3 K))) (acc : K), (∀ f ∈ u, f ∈ t) →
      (u.map (·.1)).foldl (fun acc i => acc + volumeTerm nrm eps v0 ((build ((id, v0 :: r) :: t)).polygon i)) acc =
        acc + 3 * ((u.map (·.2)).map (coneVolume v0)).sum := by
    intro u
    induction u with
    | nil => intro acc _; simp
    | cons f u ih =>
      intro acc hu
      have hf := hu f (by simp)
      rw [List.map_cons, List.foldl_cons, ih _ (fun g hg => hu g (by simp [hg])), h2 f (by simp [hf]),
        volumeTerm_eq nrm hN eps heps v0 f.2 (hp f hf).1 (hp f hf).2]
      simp only [List.map_cons, List.sum_cons]
      ring
  have hvol : (build ((id, v0 :: r) :: t)).volumeOf nrm eps = ((((id, v0 :: r) :: t).map (·.2)).map (coneVolume v0)).sum := by
    unfold volumeOf
    rw [if_pos (by rw [h3]; exact h4), h1, List.map_cons]
    simp only [hq, ofPolyline]
    rw [hfold t 0 (fun g hg => hg)]
    have h0 : coneVolume v0 (v0 :: r) = 0 := by rw [coneVolume_eq]; simp [Vec3.dot]
    simp only [List.map_cons, List.sum_cons, h0, zero_add]
    field_simp
  simp only [calculateVolume, h5, Bool.not_false, Bool.true_or, if_true, hvol]

theorem close_append (nrm : Vec3 K → K) (hN : IsNorm nrm) (a b c : Vec3 K) (l : List (Vec3 K)) (h : a ≠ c) :
    Polyline.close nrm 0 (a :: b :: l ++ [c]) = a :: b :: l ++ [c] ++ [a] := by
  have h1 : (a :: b :: l ++ [c]).getLast? = some c := by rw [List.getLast?_append]; simp
  have h2 : 0 < nrm (c - a) := hN.pos (fun h0 => h (by rw [sub_eq_zero] at h0; exact h0.symm))
  unfold Polyline.close
  rw [h1]
  simp only [List.cons_append, List.head?_cons]
  rw [if_pos ⟨by simp, h2⟩]

end Build
end Polyhedron

open Polyhedron Polygon
variable {K : Type} [Field K] [LinearOrder K] [IsStrictOrderedRing K]

/-- **C60.** For a polyhedron built from any number (at least four) of planar faces that fit together into a closed surface, the
volume calculated is the sum of the signed volumes of the cones from ANY point `o` to the faces: it does not depend on the
face and vertex the algorithm starts from. -/
theorem C60_volume (nrm : Vec3 K → K) (hN : IsNorm nrm) (eps : K) (heps : 0 ≤ eps ∧ eps < 1) (l : List (Int × List (Vec3 K)))
    (hids : (l.map (·.1)).Nodup) (h4 : 4 ≤ l.length) (hp : ∀ f ∈ l, Planar f.2 ∧ HasCorner nrm eps f.2)
    (hc : ClosedSurface (l.map (·.2))) (o : Vec3 K) :
    ((build l).calculateVolume nrm eps false).m_volume = (l.map fun f => coneVolume o f.2).sum := by
  have hlm : (l.map fun f => coneVolume o f.2) = (l.map (·.2)).map (coneVolume o) := by simp [Function.comp_def]
  rw [hlm]
  cases l with
  | nil => simp at h4
  | cons f t =>
    obtain ⟨id, vs⟩ := f
    obtain ⟨hpf, hcf⟩ := hp (id, vs) (by simp)
    cases vs with
    | nil => obtain ⟨x, a, b, c, r, hvs, -⟩ := hcf; simp at hvs
    | cons v0 r =>
      rw [coneVolume_sum_origin _ hc o v0]
      exact volume_build nrm hN eps heps id v0 r t hids h4 (fun f hf => hp f (by simp [hf]))

/-- Two tetrahedra glued along a face, the lists of faces in the order of the constructor: the second has the shared face turned round. -/
def glued (K : Type) [Field K] : List (Int × List (Vec3 K)) :=
  [(3, [⟨1, 0, 0⟩, ⟨0, 0, 0⟩, ⟨0, 0, 1⟩]), (1, [⟨0, 0, 0⟩, ⟨0, 1, 0⟩, ⟨0, 0, 1⟩]), (7, [⟨0, 1, 0⟩, ⟨1, 0, 0⟩, ⟨0, 0, 1⟩]),
   (4, [⟨0, 0, 0⟩, ⟨1, 0, 0⟩, ⟨0, 0, -1⟩]), (5, [⟨0, 1, 0⟩, ⟨0, 0, 0⟩, ⟨0, 0, -1⟩]), (6, [⟨1, 0, 0⟩, ⟨0, 1, 0⟩, ⟨0, 0, -1⟩])]

example : ClosedSurface ((glued ℚ).map (·.2)) ∧ ((glued ℚ).map (·.1)).Nodup ∧ 4 ≤ (glued ℚ).length ∧
    ((glued ℚ).map fun f => coneVolume ⟨5, 7, 1⟩ f.2).sum = -1 / 3 := by
  unfold ClosedSurface
  decide +kernel

/-- A face usable by the constructors: planar, first and last vertex different, some corner longer than `eps`. -/
def GoodFace (nrm : Vec3 K → K) (eps : K) (a b : Vec3 K) (l : List (Vec3 K)) (c : Vec3 K) : Prop :=
  Planar (a :: b :: l ++ [c]) ∧ HasCorner nrm eps (a :: b :: l ++ [c]) ∧ a ≠ c

theorem GoodFace.closed {nrm : Vec3 K → K} (hN : IsNorm nrm) {eps : K} {a b : Vec3 K} {l : List (Vec3 K)} {c : Vec3 K}
    (h : GoodFace nrm eps a b l c) : Polyline.close nrm 0 (a :: b :: l ++ [c]) = a :: b :: l ++ [c] ++ [a] ∧
      Planar (a :: b :: l ++ [c] ++ [a]) ∧ HasCorner nrm eps (a :: b :: l ++ [c] ++ [a]) := by
  obtain ⟨⟨m, d, hm, hd⟩, ⟨x, p, q, r, y, hx, hn⟩, hac⟩ := h
  refine ⟨close_append nrm hN a b c l hac, ⟨m, d, hm, ?_⟩, ⟨x, p, q, r, y ++ [a], ?_, hn⟩⟩
  · intro v hv
    rw [List.mem_append, List.mem_singleton] at hv
    rcases hv with hv | rfl
    · exact hd v hv
    · exact hd _ (by simp)
  · rw [hx]; simp

theorem goodFace_triangle (nrm : Vec3 K → K) (hN : IsNorm nrm) (eps : K) (heps : 0 ≤ eps) (a b c : Vec3 K)
    (h : eps < nrm (Vec3.cross (b - a) (c - a))) : GoodFace nrm eps a b [] c := by
  have hne : Vec3.cross (b - a) (c - a) ≠ 0 := by
    intro h0; rw [h0, hN.zero] at h; exact absurd h (not_lt.2 heps)
  refine ⟨⟨_, (Vec3.cross (b - a) (c - a)).dot a, hne, ?_⟩, ⟨[], a, b, c, [], rfl, h⟩, ?_⟩
  · intro v hv
    simp only [List.cons_append, List.nil_append, List.mem_cons, List.not_mem_nil, or_false] at hv
    rcases hv with rfl | rfl | rfl
    · rfl
    · simp only [Vec3.dot, Vec3.cross_x, Vec3.cross_y, Vec3.cross_z, Vec3.sub_x, Vec3.sub_y, Vec3.sub_z]; ring
    · simp only [Vec3.dot, Vec3.cross_x, Vec3.cross_y, Vec3.cross_z, Vec3.sub_x, Vec3.sub_y, Vec3.sub_z]; ring
  · rintro rfl
    apply hne
    ext <;> simp

theorem Planar.det_zero {a b c d : Vec3 K} {l : List (Vec3 K)} (h : Planar l) (ha : a ∈ l) (hb : b ∈ l) (hc : c ∈ l) (hd : d ∈ l) :
    (Vec3.cross (b - a) (c - a)).dot (d - a) = 0 := by
  obtain ⟨m, e, hm, he⟩ := h
  exact det_zero_of_orthogonal hm (by rw [Vec3.dot_sub, he b hb, he a ha, sub_self])
    (by rw [Vec3.dot_sub, he c hc, he a ha, sub_self]) (by rw [Vec3.dot_sub, he d hd, he a ha, sub_self])

/-- **C60.** The polyhedron constructed from a tetrahedron has the tetrahedron's volume (with its sign), provided the faces are not
degenerate. -/
theorem C60_tetrahedron (nrm : Vec3 K → K) (hN : IsNorm nrm) (eps : K) (heps : 0 ≤ eps ∧ eps < 1) (t : Tet K)
    (h1 : eps < nrm (Vec3.cross (t.v0 - t.v1) (t.v3 - t.v1))) (h2 : eps < nrm (Vec3.cross (t.v0 - t.v3) (t.v2 - t.v3)))
    (h3 : eps < nrm (Vec3.cross (t.v2 - t.v3) (t.v1 - t.v3))) :
    ((ofTet nrm t).calculateVolume nrm eps false).m_volume = t.volume := by
  obtain ⟨a1, b1, c1⟩ := (goodFace_triangle nrm hN eps heps.1 _ _ _ h1).closed hN
  obtain ⟨a2, b2, c2⟩ := (goodFace_triangle nrm hN eps heps.1 _ _ _ h2).closed hN
  obtain ⟨a3, b3, c3⟩ := (goodFace_triangle nrm hN eps heps.1 _ _ _ h3).closed hN
  simp only [List.nil_append, List.cons_append] at a1 a2 a3 b1 b2 b3 c1 c2 c3
  obtain ⟨r, hr⟩ : ∃ r, Polyline.close nrm 0 [t.v0, t.v1, t.v2] = t.v0 :: r := by
    simp only [Polyline.close, List.head?_cons, List.getLast?_cons_cons, List.getLast?_singleton]
    split_ifs <;> exact ⟨_, rfl⟩
  have he : ofTet nrm t = build [(0, t.v0 :: r), (1, [t.v1, t.v0, t.v3, t.v1]), (2, [t.v3, t.v0, t.v2, t.v3]),
      (3, [t.v3, t.v2, t.v1, t.v3])] := by
    simp only [ofTet, ofFaces, List.zipIdx_cons, List.zipIdx_nil, List.map_cons, List.map_nil, hr, a1, a2, a3, build]
    rfl
  rw [he, volume_build nrm hN eps heps 0 t.v0 r _ (by simp) (by simp) (by
    intro f hf
    simp only [List.mem_cons, List.not_mem_nil, or_false] at hf
    rcases hf with rfl | rfl | rfl
    · exact ⟨b1, c1⟩
    · exact ⟨b2, c2⟩
    · exact ⟨b3, c3⟩)]
  simp only [List.map_cons, List.map_nil, List.sum_cons, List.sum_nil, coneVolume_eq, (C38_volume t).1]
  simp only [vecArea2, List.cons_append, List.nil_append, openArea2_cons_cons, openArea2_single, Vec3.dot, Vec3.cross_x, Vec3.cross_y,
    Vec3.cross_z, Vec3.sub_x, Vec3.sub_y, Vec3.sub_z, Vec3.add_x, Vec3.add_y, Vec3.add_z, Vec3.zero_x, Vec3.zero_y, Vec3.zero_z]
  ring

/-- **C60.** The polyhedron constructed from any hexahedron with planar, non-degenerate faces has the volume of the six tetrahedra
of `decimate()` together; for a parallelepiped this is the hexahedron's own `volume()` (C39). -/
theorem C60_hexahedron (nrm : Vec3 K → K) (hN : IsNorm nrm) (eps : K) (heps : 0 ≤ eps ∧ eps < 1) (h : Hex K)
    (f0 : GoodFace nrm eps h.v0 h.v1 [h.v2] h.v3) (f1 : GoodFace nrm eps h.v7 h.v6 [h.v5] h.v4)
    (f2 : GoodFace nrm eps h.v3 h.v2 [h.v6] h.v7) (f3 : GoodFace nrm eps h.v5 h.v1 [h.v0] h.v4)
    (f4 : GoodFace nrm eps h.v6 h.v2 [h.v1] h.v5) (f5 : GoodFace nrm eps h.v3 h.v7 [h.v4] h.v0) :
    ((ofHex nrm h).calculateVolume nrm eps false).m_volume = ((h.decimate []).map Tet.volume).sum := by
  obtain ⟨a0, b0, c0⟩ := f0.closed hN
  obtain ⟨a1, b1, c1⟩ := f1.closed hN
  obtain ⟨a2, b2, c2⟩ := f2.closed hN
  obtain ⟨a3, b3, c3⟩ := f3.closed hN
  obtain ⟨a4, b4, c4⟩ := f4.closed hN
  obtain ⟨a5, b5, c5⟩ := f5.closed hN
  have p0 := f0.1.det_zero (a := h.v0) (b := h.v1) (c := h.v2) (d := h.v3) (by simp) (by simp) (by simp) (by simp)
  have p1 := f1.1.det_zero (a := h.v7) (b := h.v6) (c := h.v5) (d := h.v4) (by simp) (by simp) (by simp) (by simp)
  have p2 := f2.1.det_zero (a := h.v3) (b := h.v2) (c := h.v6) (d := h.v7) (by simp) (by simp) (by simp) (by simp)
  have p3 := f3.1.det_zero (a := h.v5) (b := h.v1) (c := h.v0) (d := h.v4) (by simp) (by simp) (by simp) (by simp)
  have p4 := f4.1.det_zero (a := h.v6) (b := h.v2) (c := h.v1) (d := h.v5) (by simp) (by simp) (by simp) (by simp)
  have p5 := f5.1.det_zero (a := h.v3) (b := h.v7) (c := h.v4) (d := h.v0) (by simp) (by simp) (by simp) (by simp)
  simp only [List.nil_append, List.cons_append] at a0 a1 a2 a3 a4 a5 b0 b1 b2 b3 b4 b5 c0 c1 c2 c3 c4 c5
  have he : ofHex nrm h = build [(0, [h.v0, h.v1, h.v2, h.v3, h.v0]), (1, [h.v7, h.v6, h.v5, h.v4, h.v7]),
      (2, [h.v3, h.v2, h.v6, h.v7, h.v3]), (3, [h.v5, h.v1, h.v0, h.v4, h.v5]), (4, [h.v6, h.v2, h.v1, h.v5, h.v6]),
      (5, [h.v3, h.v7, h.v4, h.v0, h.v3])] := by
    simp only [ofHex, ofFaces, List.zipIdx_cons, List.zipIdx_nil, List.map_cons, List.map_nil, a0, a1, a2, a3, a4, a5, build]
    rfl
  rw [he, volume_build nrm hN eps heps 0 h.v0 _ _ (by simp) (by simp) (by
    intro f hf
    simp only [List.mem_cons, List.not_mem_nil, or_false] at hf
    rcases hf with rfl | rfl | rfl | rfl | rfl
    · exact ⟨b1, c1⟩
    · exact ⟨b2, c2⟩
    · exact ⟨b3, c3⟩
    · exact ⟨b4, c4⟩
    · exact ⟨b5, c5⟩)]
  simp only [Hex.decimate, List.nil_append, List.map_cons, List.map_nil, List.sum_cons, List.sum_nil, coneVolume_eq]
  simp only [vecArea2, List.cons_append, List.nil_append, openArea2_cons_cons, openArea2_single, Vec3.dot, Vec3.cross_x, Vec3.cross_y,
    Vec3.cross_z, Vec3.sub_x, Vec3.sub_y, Vec3.sub_z, Vec3.add_x, Vec3.add_y, Vec3.add_z, Vec3.zero_x, Vec3.zero_y, Vec3.zero_z,
    Tet.volume, det4one, det4, det3] at p0 p1 p2 p3 p4 p5 ⊢
  linear_combination (-1 / 6) * p0 + (-1 / 6) * p2 + (-1 / 6) * p3 + (-1 / 6) * p5

/-- A hexahedron that is not a parallelepiped: a truncated pyramid. -/
def frustum : Hex ℝ := ⟨⟨0, 0, 0⟩, ⟨0, 4, 0⟩, ⟨4, 4, 0⟩, ⟨4, 0, 0⟩, ⟨1, 1, 2⟩, ⟨1, 3, 2⟩, ⟨3, 3, 2⟩, ⟨3, 1, 2⟩⟩

theorem goodFace_of {nrm : Vec3 K → K} (hN : IsNorm nrm) (a b c d : Vec3 K) (hp : (Vec3.cross (b - a) (c - a)).dot (d - a) = 0)
    (h1 : 1 < (Vec3.cross (b - a) (c - a)).normSq) (hne : a ≠ d) : GoodFace nrm (1 / 2) a b [c] d := by
  have hlong : 1 < nrm (Vec3.cross (b - a) (c - a)) := by
    rw [← hN.sq] at h1
    by_contra hle
    have := hN.nonneg (Vec3.cross (b - a) (c - a))
    nlinarith [not_lt.1 hle]
  refine ⟨⟨Vec3.cross (b - a) (c - a), (Vec3.cross (b - a) (c - a)).dot a, ?_, ?_⟩, ⟨[], a, b, c, [d], rfl, lt_trans (by norm_num) hlong⟩, hne⟩
  · intro h0; rw [h0] at h1; simp [Vec3.normSq, Vec3.dot] at h1; linarith
  · intro v hv
    simp only [List.cons_append, List.nil_append, List.mem_cons, List.not_mem_nil, or_false] at hv
    rcases hv with rfl | rfl | rfl | rfl
    · rfl
    · simp only [Vec3.dot, Vec3.cross_x, Vec3.cross_y, Vec3.cross_z, Vec3.sub_x, Vec3.sub_y, Vec3.sub_z]; ring
    · simp only [Vec3.dot, Vec3.cross_x, Vec3.cross_y, Vec3.cross_z, Vec3.sub_x, Vec3.sub_y, Vec3.sub_z]; ring
    · rw [← sub_eq_zero, ← Vec3.dot_sub]; exact hp

example : GoodFace realNorm (1 / 2) frustum.v0 frustum.v1 [frustum.v2] frustum.v3 ∧
    GoodFace realNorm (1 / 2) frustum.v7 frustum.v6 [frustum.v5] frustum.v4 ∧
    GoodFace realNorm (1 / 2) frustum.v3 frustum.v2 [frustum.v6] frustum.v7 ∧
    GoodFace realNorm (1 / 2) frustum.v5 frustum.v1 [frustum.v0] frustum.v4 ∧
    GoodFace realNorm (1 / 2) frustum.v6 frustum.v2 [frustum.v1] frustum.v5 ∧
    GoodFace realNorm (1 / 2) frustum.v3 frustum.v7 [frustum.v4] frustum.v0 ∧
    ((frustum.decimate []).map Tet.volume).sum = 56 / 3 := by
  refine ⟨?_, ?_, ?_, ?_, ?_, ?_, ?_⟩
  · refine goodFace_of isNorm_real _ _ _ _ ?_ ?_ ?_ <;> simp [frustum, Vec3.dot, Vec3.normSq] <;> norm_num
  · refine goodFace_of isNorm_real _ _ _ _ ?_ ?_ ?_ <;> simp [frustum, Vec3.dot, Vec3.normSq] <;> norm_num
  · refine goodFace_of isNorm_real _ _ _ _ ?_ ?_ ?_ <;> simp [frustum, Vec3.dot, Vec3.normSq] <;> norm_num
  · refine goodFace_of isNorm_real _ _ _ _ ?_ ?_ ?_ <;> simp [frustum, Vec3.dot, Vec3.normSq] <;> norm_num
  · refine goodFace_of isNorm_real _ _ _ _ ?_ ?_ ?_ <;> simp [frustum, Vec3.dot, Vec3.normSq] <;> norm_num
  · refine goodFace_of isNorm_real _ _ _ _ ?_ ?_ ?_ <;> simp [frustum, Vec3.dot, Vec3.normSq] <;> norm_num
  · simp [frustum, Hex.decimate, Tet.volume, det4one, det4, det3, Vec3.dot]; norm_num

/-- **C60.** The polyhedron constructed from the prism over any non-degenerate triangle, with any translation vector, has the
prism's own `volume()`. -/
theorem C60_prism (nrm : Vec3 K → K) (hN : IsNorm nrm) (eps : K) (heps : 0 ≤ eps ∧ eps < 1) (o a b c : Vec3 K) (h : Prism K)
    (hh : h = ⟨o, o + a, o + b, o + c, o + a + c, o + b + c⟩) (f1 : GoodFace nrm eps h.v5 h.v4 [] h.v3)
    (f2 : GoodFace nrm eps h.v1 h.v0 [h.v3] h.v4) (f3 : GoodFace nrm eps h.v2 h.v1 [h.v4] h.v5)
    (f4 : GoodFace nrm eps h.v0 h.v2 [h.v5] h.v3) :
    ((ofPrism nrm h).calculateVolume nrm eps false).m_volume = h.volume := by
  obtain ⟨a1, b1, c1⟩ := f1.closed hN
  obtain ⟨a2, b2, c2⟩ := f2.closed hN
  obtain ⟨a3, b3, c3⟩ := f3.closed hN
  obtain ⟨a4, b4, c4⟩ := f4.closed hN
  simp only [List.nil_append, List.cons_append] at a1 a2 a3 a4 b1 b2 b3 b4 c1 c2 c3 c4
  obtain ⟨r, hr⟩ : ∃ r, Polyline.close nrm 0 [h.v0, h.v1, h.v2] = h.v0 :: r := by
    simp only [Polyline.close, List.head?_cons, List.getLast?_cons_cons, List.getLast?_singleton]
    split_ifs <;> exact ⟨_, rfl⟩
  have he : ofPrism nrm h = build [(0, h.v0 :: r), (1, [h.v5, h.v4, h.v3, h.v5]), (2, [h.v1, h.v0, h.v3, h.v4, h.v1]),
      (3, [h.v2, h.v1, h.v4, h.v5, h.v2]), (4, [h.v0, h.v2, h.v5, h.v3, h.v0])] := by
    simp only [ofPrism, ofFaces, List.zipIdx_cons, List.zipIdx_nil, List.map_cons, List.map_nil, hr, a1, a2, a3, a4, build]
    rfl
  rw [he, volume_build nrm hN eps heps 0 h.v0 r _ (by simp) (by simp) (by
    intro f hf
    simp only [List.mem_cons, List.not_mem_nil, or_false] at hf
    rcases hf with rfl | rfl | rfl | rfl
    · exact ⟨b1, c1⟩
    · exact ⟨b2, c2⟩
    · exact ⟨b3, c3⟩
    · exact ⟨b4, c4⟩)]
  simp only [List.map_cons, List.map_nil, List.sum_cons, List.sum_nil, coneVolume_eq, hh, Prism.volume]
  simp only [vecArea2, List.cons_append, List.nil_append, openArea2_cons_cons, openArea2_single, Vec3.dot, Vec3.cross_x, Vec3.cross_y,
    Vec3.cross_z, Vec3.sub_x, Vec3.sub_y, Vec3.sub_z, Vec3.add_x, Vec3.add_y, Vec3.add_z, Vec3.zero_x, Vec3.zero_y, Vec3.zero_z]
  ring

example : let h : Prism ℝ := ⟨⟨0, 0, 0⟩, ⟨0, 4, 0⟩, ⟨4, 0, 0⟩, ⟨1, 0, 2⟩, ⟨1, 4, 2⟩, ⟨5, 0, 2⟩⟩
    GoodFace realNorm (1 / 2) h.v1 h.v0 [h.v3] h.v4 ∧ GoodFace realNorm (1 / 2) h.v2 h.v1 [h.v4] h.v5 ∧
    GoodFace realNorm (1 / 2) h.v0 h.v2 [h.v5] h.v3 ∧ h.volume = 16 := by
  refine ⟨?_, ?_, ?_, ?_⟩
  · refine goodFace_of isNorm_real _ _ _ _ ?_ ?_ ?_ <;> simp [Vec3.dot, Vec3.normSq] <;> norm_num
  · refine goodFace_of isNorm_real _ _ _ _ ?_ ?_ ?_ <;> simp [Vec3.dot, Vec3.normSq] <;> norm_num
  · refine goodFace_of isNorm_real _ _ _ _ ?_ ?_ ?_ <;> simp [Vec3.dot, Vec3.normSq] <;> norm_num
  · simp [Prism.volume, Vec3.dot]; norm_num

/-- `reset()` and `set()` do not invalidate the cached volume: a polyhedron whose volume has been calculated keeps reporting that
value after it is given other faces, whatever they are, unless recalculation is forced. -/
theorem C60_set_stale (nrm : Vec3 K → K) (eps : K) (p other : Polyhedron K) :
    ((((p.calculateVolume nrm eps false).set other).calculateVolume nrm eps false).m_volume =
      (p.calculateVolume nrm eps false).m_volume) ∧
    ((((p.calculateVolume nrm eps false).set other).calculateVolume nrm eps true).m_volume =
      ((p.calculateVolume nrm eps false).set other).volumeOf nrm eps) := by
  have hb : (p.calculateVolume nrm eps false).bVolume = true := by
    unfold calculateVolume
    cases h : p.bVolume <;> simp [h]
  have key : ∀ (l : List (Int × Polygon K)) (q : Polyhedron K), (q.addPolygons l).bVolume = q.bVolume ∧
      (q.addPolygons l).m_volume = q.m_volume := by
    intro l
    induction l with
    | nil => intro q; exact ⟨rfl, rfl⟩
    | cons e t ih => intro q; exact ih (q.addPolygon e.1 e.2)
  have h1 := key (other.ids.map fun id => (id, other.polygon id)) (p.calculateVolume nrm eps false).reset
  constructor
  · generalize hq : (p.calculateVolume nrm eps false).set other = q
    have hb' : q.bVolume = true := by rw [← hq, Polyhedron.set, h1.1]; exact hb
    have hv' : q.m_volume = (p.calculateVolume nrm eps false).m_volume := by rw [← hq, Polyhedron.set, h1.2]; rfl
    rw [← hv', calculateVolume, hb']
    rfl
  · generalize (p.calculateVolume nrm eps false).set other = q
    simp [calculateVolume]

end ENigMA
