import Verif.Mesh.TetSmoothLemmas
import Verif.Mesh.QualityProps

/-!
# C104, C105 and C106: improving a mesh of tetrahedra

C104 is about `flipEdges23`, C105 and C106 about `relaxNodes` of the tetrahedron mesher. The hypotheses are on the mesh only: that it fills a region (`Mesh.Filling`) and
that its faces are up to date (`Mesh.TetFit`), as they are after `generateFaces`.
-/

set_option linter.unusedSectionVars false
set_option autoImplicit false

namespace ENigMA
open TetSmooth Space

variable {K : Type} [Field K] [LinearOrder K] [IsStrictOrderedRing K]

namespace TetSmooth

theorem alike_quality {q : Tet K → K} (h1 : ∀ a b c d, q ⟨b, c, a, d⟩ = q ⟨a, b, c, d⟩) (h2 : ∀ a b c d, q ⟨b, a, d, c⟩ = q ⟨a, b, c, d⟩) (t u : Tet K) (h : Alike t u) :
    q u = q t := by
  induction h with
  | refl => rfl
  | turn _ ih => rw [h1]; exact ih
  | swap _ ih => rw [h2]; exact ih

theorem worst {q : Tet K → K} {l l' : List (Tet K)} (hne : l' ≠ [] → l ≠ []) (h : ∀ k, (∀ t ∈ l, k ≤ q t) → ∀ t ∈ l', k ≤ q t) : ∀ t ∈ l', ∃ u ∈ l, q u ≤ q t := by
  intro t ht
  obtain ⟨u, hu, hmin⟩ : ∃ u ∈ l, ∀ v ∈ l, q u ≤ q v := by
    have hl := hne (List.ne_nil_of_mem ht)
    clear hne h ht
    induction l with
    | nil => exact absurd rfl hl
    | cons a l ih =>
      by_cases hl : l = []
      · exact ⟨a, by simp, by simp [hl]⟩
      · obtain ⟨u, hu, hu2⟩ := ih hl
        rcases le_total (q a) (q u) with h | h
        · refine ⟨a, by simp, fun v hv => ?_⟩
          rcases List.mem_cons.1 hv with rfl | hv
          · exact le_rfl
          · exact h.trans (hu2 v hv)
        · refine ⟨u, List.mem_cons_of_mem _ hu, fun v hv => ?_⟩
          rcases List.mem_cons.1 hv with rfl | hv
          · exact h
          · exact hu2 v hv
  exact ⟨u, hu, h _ hmin t ht⟩

theorem volume_behind (t : Tet K) : t.volume = behind ⟨t.v0, t.v1, t.v2⟩ t.v3 / 6 := by
  simp only [Tet.volume, det4one, det4, behind, det3, Vec3.cross, Vec3.dot, Vec3.sub_x, Vec3.sub_y, Vec3.sub_z]; ring

theorem volumes_same {l l' : List (Tet K)} (h : SameHull l l') : (l'.map Tet.volume).sum = (l.map Tet.volume).sum := by
  have e : ∀ l : List (Tet K), (l.map Tet.volume).sum = (l.map fun t => behind ⟨t.v0, t.v1, t.v2⟩ t.v3).sum / 6 := by
    intro l
    induction l with
    | nil => simp
    | cons a l ih => simp only [List.map_cons, List.sum_cons, ih, volume_behind]; ring
  rw [e, e, volume_same h]

theorem ne_nil {l l' : List (Tet K)} (hl : ∀ t ∈ l, t.Positive) (hl' : ∀ t ∈ l', t.Positive) (h : SameHull l l') : l' ≠ [] → l ≠ [] := by
  rintro h1 rfl
  have := volume_same h
  obtain ⟨a, l', rfl⟩ := List.exists_cons_of_ne_nil h1
  have h2 : ∀ l : List (Tet K), (∀ t ∈ l, t.Positive) → 0 ≤ (l.map fun t => behind ⟨t.v0, t.v1, t.v2⟩ t.v3).sum := by
    intro l hl
    apply List.sum_nonneg
    intro x hx
    obtain ⟨t, ht, rfl⟩ := List.mem_map.1 hx
    exact (hl t ht).le
  have h3 := hl' a (by simp)
  have h4 := h2 l' (fun t ht => hl' t (List.mem_cons_of_mem _ ht))
  simp only [List.map_nil, List.sum_nil, List.map_cons, List.sum_cons] at this
  unfold Tet.Positive at h3
  linarith

end TetSmooth

/-! ## C104 -/

section
variable [FloorRing K]

/-- **C104 (preparation).** On every mesh that fills a region with tetrahedra, `generateFaces` gives a mesh that meets the hypothesis `TetFit` of the theorems below
and has the same tetrahedra. A node is on the boundary, in the sense of `OnBoundary`, iff it is a corner of a face that no other tetrahedron has in the other
direction. -/
theorem C104_faces (mc : HashGrid.Machine K) (m : Mesh K) (hm : m.Filling) (hc : Smooth.Machine mc m) (tol : K) (ht : 0 ≤ tol) :
    ∃ m', m.generateFaces mc tol = some m' ∧ m'.Filling ∧ m'.TetFit ∧ m'.nodes = m.nodes ∧ m'.tets = m.tets ∧
      ∀ n, m'.OnBoundary n ↔ ∃ s ∈ m.tetFaceIds, (∀ t ∈ m.tetFaceIds, ¬ SameTri (turned s) t) ∧ (n = s.1 ∨ n = s.2.1 ∨ n = s.2.2) := by
  obtain ⟨m', g1, g2, g3, g4, g5, -, -, g8⟩ := faces_fit hm hc ht
  exact ⟨m', g1, g2, g3, g4, g5, g8⟩

variable (P : Par K) (mc : HashGrid.Machine K) (m : Mesh K)

/-- **C104 (the mesh still fills a region).** On every mesh of tetrahedra of positive volume that do not overlap, with up-to-date faces, and for every tolerance
`≥ 0`, `flipEdges23` is defined. It moves no node, removes no element, and its result has the same properties: all volumes are positive, no point is inside two
tetrahedra, and the faces are up to date. So it can be called again. -/
theorem C104_flip (ht : 0 ≤ P.tol) (hm : m.Filling) (hfit : m.TetFit) (hc : Smooth.Machine mc m) :
    ∃ m', flipEdges23 P mc m = some m' ∧ m'.Filling ∧ m'.TetFit ∧ m'.nodes = m.nodes ∧ ∀ id ∈ m.elements.ids, id ∈ m'.elements.ids := by
  obtain ⟨m', h1, h2, h3, h4, h5, -⟩ := flip_core ht hm hfit hc
  exact ⟨m', h1, h2, h3, h4, h5⟩

variable {P mc m}

/-- **C104 (the region).** A point, any point, is in a tetrahedron or on its boundary after `flipEdges23` iff it was before; the sum of the volumes does not
change. -/
theorem C104_region (ht : 0 ≤ P.tol) (hm : m.Filling) (hfit : m.TetFit) (hc : Smooth.Machine mc m) {m' : Mesh K} (h : flipEdges23 P mc m = some m') :
    (∀ p, Fill m'.tets p ↔ Fill m.tets p) ∧ (m'.tets.map Tet.volume).sum = (m.tets.map Tet.volume).sum := by
  obtain ⟨h1, -, -, -, h5⟩ := flip_core' ht hm hfit hc h
  exact ⟨fun p => (fill_same hm.positive h1.positive (flips_hull h5) p).symm, volumes_same (flips_hull h5)⟩

/-- **C104 (the boundary).** The triangles that are a face of a tetrahedron on one side only are the same before and after. -/
theorem C104_boundary (ht : 0 ≤ P.tol) (hm : m.Filling) (hfit : m.TetFit) (hc : Smooth.Machine mc m) {m' : Mesh K} (h : flipEdges23 P mc m = some m')
    (a b c : Vec3 K) : (HasFace m'.tets a b c ∧ ¬ HasFace m'.tets b a c) ↔ (HasFace m.tets a b c ∧ ¬ HasFace m.tets b a c) := by
  obtain ⟨h1, -, -, -, h5⟩ := flip_core' ht hm hfit hc h
  exact (boundary_same hm.positive h1.positive hm.apart h1.apart (flips_hull h5) a b c).symm

/-- **C104 (the quality).** For every measure of quality that does not depend on the order in which the corners of a tetrahedron are read, no tetrahedron after
`flipEdges23` is worse than the worst before. -/
theorem C104_quality (ht : 0 ≤ P.tol) (hm : m.Filling) (hfit : m.TetFit) (hc : Smooth.Machine mc m) {m' : Mesh K} (h : flipEdges23 P mc m = some m')
    (hq : ∀ a b c d, P.quality ⟨b, c, a, d⟩ = P.quality ⟨a, b, c, d⟩) (hq' : ∀ a b c d, P.quality ⟨b, a, d, c⟩ = P.quality ⟨a, b, c, d⟩) :
    ∀ t ∈ m'.tets, ∃ u ∈ m.tets, P.quality u ≤ P.quality t := by
  obtain ⟨h1, -, -, -, h5⟩ := flip_core' ht hm hfit hc h
  exact worst (ne_nil hm.positive h1.positive (flips_hull h5)) fun k hk => flips_quality (alike_quality hq hq') h5 k hk

end

/-! ## C105 -/

variable {P : Par K} {m : Mesh K}

/-- **C105 (the mesh still fills a region).** On every mesh of tetrahedra of positive volume that do not overlap, with up-to-date faces, for every tolerance `> 0`
and every factor, `relaxNodes` is defined. It changes positions of nodes only; the nodes of the boundary do not move; all volumes stay positive and no point is
inside two tetrahedra. -/
theorem C105_relax (factor : K) (ht : 0 < P.tol) (hm : m.Filling) (hfit : m.TetFit) :
    ∃ m', relaxNodes P factor m = some m' ∧ m'.Filling ∧ m'.TetFit ∧ m'.elements = m.elements ∧ m'.faces = m.faces ∧ m'.nodes.ids = m.nodes.ids ∧
      ∀ n, m.OnBoundary n → m'.nodes.get? n = m.nodes.get? n := by
  obtain ⟨N, h, hi⟩ := relaxNodes_spec (P := P) factor hm hfit
  exact ⟨_, h, relax_core ht hm hi, ⟨hfit.owner, hfit.face, hfit.pair⟩, rfl, rfl, hi.ids, hi.fixed⟩

/-- **C105 (the region).** A point, any point, is in a tetrahedron or on its boundary after `relaxNodes` iff it was before; the sum of the volumes does not
change. -/
theorem C105_region (factor : K) (ht : 0 < P.tol) (hm : m.Filling) (hfit : m.TetFit) {m' : Mesh K} (h : relaxNodes P factor m = some m') :
    (∀ p, Fill m'.tets p ↔ Fill m.tets p) ∧ (m'.tets.map Tet.volume).sum = (m.tets.map Tet.volume).sum := by
  obtain ⟨N, h1, hi⟩ := relaxNodes_spec (P := P) factor hm hfit
  rw [h] at h1
  obtain rfl := Option.some.inj h1
  exact ⟨fun p => (fill_same hm.positive (relax_core ht hm hi).positive hi.hull p).symm, volumes_same hi.hull⟩

/-- **C105 (the boundary).** The triangles that are a face of a tetrahedron on one side only are the same before and after. -/
theorem C105_boundary (factor : K) (ht : 0 < P.tol) (hm : m.Filling) (hfit : m.TetFit) {m' : Mesh K} (h : relaxNodes P factor m = some m') (a b c : Vec3 K) :
    (HasFace m'.tets a b c ∧ ¬ HasFace m'.tets b a c) ↔ (HasFace m.tets a b c ∧ ¬ HasFace m.tets b a c) := by
  obtain ⟨N, h1, hi⟩ := relaxNodes_spec (P := P) factor hm hfit
  rw [h] at h1
  obtain rfl := Option.some.inj h1
  have h2 := relax_core ht hm hi
  exact (boundary_same hm.positive h2.positive hm.apart h2.apart hi.hull a b c).symm

/-- **C105 (the quality).** For every measure of quality that is at most one, no tetrahedron after `relaxNodes` is worse than the worst before. -/
theorem C105_quality (factor : K) (ht : 0 < P.tol) (hm : m.Filling) (hfit : m.TetFit) {m' : Mesh K} (h : relaxNodes P factor m = some m') (hq : ∀ t, P.quality t ≤ 1) :
    ∀ t ∈ m'.tets, ∃ u ∈ m.tets, P.quality u ≤ P.quality t := by
  obtain ⟨N, h1, hi⟩ := relaxNodes_spec (P := P) factor hm hfit
  rw [h] at h1
  obtain rfl := Option.some.inj h1
  intro t htt
  have hne := ne_nil hm.positive (relax_core ht hm hi).positive hi.hull
  exact worst hne (fun k hk => by
    by_cases hk1 : k ≤ 1
    · exact hi.quality k hk1 hk
    · intro u hu
      obtain ⟨v, hv⟩ := List.exists_mem_of_ne_nil _ (hne (List.ne_nil_of_mem hu))
      exact absurd ((hk v hv).trans (hq v)) hk1) t htt

/-! ## The measure of quality of the code -/

namespace TetSmooth

theorem normSq_sub_comm (a b : Vec3 ℝ) : realNorm (a - b) = realNorm (b - a) := by
  unfold realNorm
  congr 1
  simp only [Vec3.normSq, Vec3.dot, Vec3.sub_x, Vec3.sub_y, Vec3.sub_z]; ring

theorem area_turn (a b c : Vec3 ℝ) : ((Tri.mk b c a).normalArea realNorm).2 = ((Tri.mk a b c).normalArea realNorm).2 := by
  show realNorm _ * (1 / 2) = realNorm _ * (1 / 2)
  unfold realNorm Tri.rawNormal
  congr 2
  simp only [Vec3.normSq, Vec3.dot, Vec3.cross_x, Vec3.cross_y, Vec3.cross_z, Vec3.sub_x, Vec3.sub_y, Vec3.sub_z]; ring

theorem area_swap (a b c : Vec3 ℝ) : ((Tri.mk b a c).normalArea realNorm).2 = ((Tri.mk a b c).normalArea realNorm).2 := by
  show realNorm _ * (1 / 2) = realNorm _ * (1 / 2)
  unfold realNorm Tri.rawNormal
  congr 2
  simp only [Vec3.normSq, Vec3.dot, Vec3.cross_x, Vec3.cross_y, Vec3.cross_z, Vec3.sub_x, Vec3.sub_y, Vec3.sub_z]; ring

theorem quality_congr {t u : Tet ℝ} (h1 : Quality.surfaceArea t = Quality.surfaceArea u) (h2 : t.volume = u.volume) (h3 : Quality.longest t = Quality.longest u) :
    Quality.tetrahedron t = Quality.tetrahedron u := by
  unfold Quality.tetrahedron
  rw [h1, h2, h3]

theorem max_six (a b c d e f : ℝ) (p q r s t u : ℝ) (h : ∀ x, (x = a ∨ x = b ∨ x = c ∨ x = d ∨ x = e ∨ x = f) ↔ (x = p ∨ x = q ∨ x = r ∨ x = s ∨ x = t ∨ x = u)) :
    max a (max b (max c (max d (max e f)))) = max p (max q (max r (max s (max t u)))) := by
  have key : ∀ a b c d e f p q r s t u : ℝ, (∀ x, (x = a ∨ x = b ∨ x = c ∨ x = d ∨ x = e ∨ x = f) → (x = p ∨ x = q ∨ x = r ∨ x = s ∨ x = t ∨ x = u)) →
      max a (max b (max c (max d (max e f)))) ≤ max p (max q (max r (max s (max t u)))) := by
    intro a b c d e f p q r s t u h
    have hx : ∀ x, (x = p ∨ x = q ∨ x = r ∨ x = s ∨ x = t ∨ x = u) → x ≤ max p (max q (max r (max s (max t u)))) := by
      rintro x (rfl | rfl | rfl | rfl | rfl | rfl) <;> simp
    exact max_le (hx _ (h a (by simp))) (max_le (hx _ (h b (by simp))) (max_le (hx _ (h c (by simp))) (max_le (hx _ (h d (by simp)))
      (max_le (hx _ (h e (by simp))) (hx _ (h f (by simp)))))))
  exact le_antisymm (key _ _ _ _ _ _ _ _ _ _ _ _ fun x => (h x).1) (key _ _ _ _ _ _ _ _ _ _ _ _ fun x => (h x).2)

end TetSmooth

/-- **C104, C105 (the measure of quality of the code).** `CMshTetrahedron::calculateQuality` meets the hypotheses of `C104_quality` and `C105_quality`: it does not
depend on the order in which the corners are read, and it is at most one. -/
theorem C104_measure (a b c d : Vec3 ℝ) : Quality.tetrahedron ⟨b, c, a, d⟩ = Quality.tetrahedron ⟨a, b, c, d⟩ ∧
    Quality.tetrahedron ⟨b, a, d, c⟩ = Quality.tetrahedron ⟨a, b, c, d⟩ ∧ Quality.tetrahedron ⟨a, b, c, d⟩ ≤ 1 := by
  refine ⟨quality_congr ?_ ?_ ?_, quality_congr ?_ ?_ ?_, (C82_tetrahedron _).2.1⟩
  · simp only [Quality.surfaceArea]
    rw [area_turn a b c]; ring
  · simp only [Tet.volume, det4one, det4, det3, Vec3.cross, Vec3.dot]; ring
  · simp only [Quality.longest]
    rw [TetSmooth.normSq_sub_comm b a, TetSmooth.normSq_sub_comm c b, TetSmooth.normSq_sub_comm a c]
    rw [TetSmooth.normSq_sub_comm a b, TetSmooth.normSq_sub_comm b c, TetSmooth.normSq_sub_comm c a]
    exact max_six _ _ _ _ _ _ _ _ _ _ _ _ fun x => by tauto
  · simp only [Quality.surfaceArea]
    rw [area_swap a b d, area_swap a b c, show ((Tri.mk a d c).normalArea realNorm).2 = ((Tri.mk c a d).normalArea realNorm).2 from area_turn c a d,
      show ((Tri.mk d b c).normalArea realNorm).2 = ((Tri.mk b c d).normalArea realNorm).2 from by rw [← area_turn d b c]]
    ring
  · simp only [Tet.volume, det4one, det4, det3, Vec3.cross, Vec3.dot]; ring
  · simp only [Quality.longest]
    exact max_six _ _ _ _ _ _ _ _ _ _ _ _ fun x => by
      rw [TetSmooth.normSq_sub_comm a b, TetSmooth.normSq_sub_comm b d, TetSmooth.normSq_sub_comm c b, TetSmooth.normSq_sub_comm c a, TetSmooth.normSq_sub_comm c d,
        TetSmooth.normSq_sub_comm d a]
      tauto

/-! ## A concrete case -/

namespace TetSmooth

/-- A face of the first keeps the second in front of it. -/
def Separated (t u : Tet K) : Prop := ∃ f ∈ t.faces, behind f u.v0 ≤ 0 ∧ behind f u.v1 ≤ 0 ∧ behind f u.v2 ≤ 0 ∧ behind f u.v3 ≤ 0

instance decSeparated (t u : Tet K) : Decidable (Separated t u) := by unfold Separated; infer_instance

theorem separated_disjoint {t u : Tet K} (hu : u.Positive) (h : Separated t u) {p : Vec3 K} (ht : t.Inside p) : ¬ u.Inside p := by
  intro hi
  obtain ⟨f, hf, k0, k1, k2, k3⟩ := h
  have h0 := hi ⟨u.v1, u.v3, u.v2⟩ (by simp [Tet.faces])
  have h1 := hi ⟨u.v0, u.v2, u.v3⟩ (by simp [Tet.faces])
  have h2 := hi ⟨u.v0, u.v3, u.v1⟩ (by simp [Tet.faces])
  have h3 := hi ⟨u.v0, u.v1, u.v2⟩ (by simp [Tet.faces])
  have key : behind f p * behind ⟨u.v0, u.v1, u.v2⟩ u.v3 = behind ⟨u.v1, u.v3, u.v2⟩ p * behind f u.v0 + behind ⟨u.v0, u.v2, u.v3⟩ p * behind f u.v1 +
      behind ⟨u.v0, u.v3, u.v1⟩ p * behind f u.v2 + behind ⟨u.v0, u.v1, u.v2⟩ p * behind f u.v3 := by
    simp only [behind, det3, Vec3.cross, Vec3.dot, Vec3.sub_x, Vec3.sub_y, Vec3.sub_z]; ring
  have := mul_pos (ht f hf) hu
  rw [key] at this
  nlinarith [mul_nonneg h0.le (neg_nonneg.2 k0), mul_nonneg h1.le (neg_nonneg.2 k1), mul_nonneg h2.le (neg_nonneg.2 k2), mul_nonneg h3.le (neg_nonneg.2 k3)]

theorem apart_of_separated {l : List (Tet K)} (hup : ∀ t ∈ l, t.Positive) (h : l.Pairwise fun t u => Separated t u ∨ Separated u t) : Apart l := by
  intro p
  induction l with
  | nil => simp
  | cons a l ih =>
    rw [List.pairwise_cons] at h
    have ih := ih (fun t ht => hup t (List.mem_cons_of_mem _ ht)) h.2
    rw [List.countP_cons]
    by_cases ha : a.Inside p
    · have h0 : (l.countP fun t => decide (t.Inside p)) = 0 := by
        rw [List.countP_eq_zero]
        intro u hu
        simp only [decide_eq_true_eq]
        rcases h.1 u hu with h1 | h1
        · exact separated_disjoint (hup u (List.mem_cons_of_mem _ hu)) h1 ha
        · exact fun hc => separated_disjoint (hup a (by simp)) h1 hc ha
      simp [h0, ha]
    · simpa [ha] using ih

/-- A test that shows concrete meshes to fill a region. -/
def checkFilling (m : Mesh ℚ) : Bool :=
  m.check && m.elements.map.entries.all (fun p => decide (p.2.elementType = .tetrahedron ∧ p.2.nodeIds.length = 4)) &&
  m.tets.all (fun t => decide t.Positive) && decide (m.tets.Pairwise fun t u => Separated t u ∨ Separated u t)

theorem filling_of_check {m : Mesh ℚ} (h : checkFilling m = true) : m.Filling := by
  simp only [checkFilling, Bool.and_eq_true, List.all_eq_true, decide_eq_true_iff] at h
  obtain ⟨⟨⟨h1, h2⟩, h3⟩, h4⟩ := h
  refine ⟨Mesh.wf_of_check h1, ?_, h3, apart_of_separated h3 h4⟩
  intro id e he
  exact h2 _ ((SMap.find?_eq_some_iff _ _ _).1 he)

/-- A rational measure of quality: the ratio of the square of the volume to the third power of the sum of the squares of the sides. -/
def ratQuality (t : Tet ℚ) : ℚ :=
  t.volume * t.volume / ((t.v1 - t.v0).normSq + (t.v2 - t.v1).normSq + (t.v0 - t.v2).normSq + (t.v3 - t.v0).normSq + (t.v3 - t.v1).normSq + (t.v3 - t.v2).normSq) ^ 3

def exPar : Par ℚ := ⟨ratQuality, 1 / 1000⟩

/-- Two flat tetrahedra on the two sides of a triangle, and a third beside the first. -/
def bipyramid : Mesh ℚ :=
  { nodes := (((((Cont.empty.add 1 ⟨4, 0, 0⟩).add 2 ⟨-2, 3, 0⟩).add 3 ⟨-2, -3, 0⟩).add 4 ⟨0, 0, -1⟩).add 5 ⟨0, 0, 1⟩).add 6 ⟨3, 5, -3⟩
    faces := Cont.empty
    elements := ((Cont.empty.add 0 ⟨.tetrahedron, [1, 2, 3, 4], []⟩).add 1 ⟨.tetrahedron, [3, 2, 1, 5], []⟩).add 7 ⟨.tetrahedron, [4, 1, 2, 6], []⟩
    nbBoundary := 0 }

/-- A tetrahedron with a node inside, moved by `v`. -/
def starAt (v : Vec3 ℚ) : Mesh ℚ :=
  { nodes := ((((Cont.empty.add 0 (⟨0, 0, 0⟩ + v)).add 1 (⟨12, 0, 0⟩ + v)).add 2 (⟨0, 12, 0⟩ + v)).add 3 (⟨0, 0, 12⟩ + v)).add 9 (⟨1, 2, 1⟩ + v)
    faces := Cont.empty
    elements := (((Cont.empty.add 0 ⟨.tetrahedron, [1, 0, 2, 9], []⟩).add 1 ⟨.tetrahedron, [0, 1, 3, 9], []⟩).add 2 ⟨.tetrahedron, [2, 0, 3, 9], []⟩).add 3 ⟨.tetrahedron, [1, 2, 3, 9], []⟩
    nbBoundary := 0 }

/-- Where `relaxNodes` puts the node inside. -/
def relaxed (v : Vec3 ℚ) (factor : ℚ) : Option (Vec3 ℚ) :=
  ((starAt v).generateFaces smallMachine 0).bind fun m => (relaxNodes exPar factor m).bind fun m => m.nodes.get? 9

end TetSmooth

/-- Both meshes meet the hypotheses of `C104_faces`, whose result meets those of the other theorems. -/
theorem bipyramid_ok : bipyramid.Filling ∧ Smooth.Machine smallMachine bipyramid ∧ (starAt 0).Filling ∧ Smooth.Machine smallMachine (starAt 0) ∧ 0 < exPar.tol := by
  refine ⟨filling_of_check (by decide +kernel), ⟨by norm_num [smallMachine], by norm_num [smallMachine], ?_⟩, filling_of_check (by decide +kernel),
    ⟨by norm_num [smallMachine], by norm_num [smallMachine], ?_⟩, by decide +kernel⟩
  · intro n v h
    simp only [bipyramid, Cont.get?_add] at h
    split_ifs at h <;> first
      | (simp only [Option.some.injEq] at h; subst h; norm_num [Vec3.Bounded, smallMachine])
      | (simp [Cont.empty, Cont.get?] at h)
  · intro n v h
    simp only [starAt, Cont.get?_add] at h
    split_ifs at h <;> first
      | (simp only [Option.some.injEq] at h; subst h; norm_num [Vec3.Bounded, smallMachine])
      | (simp [Cont.empty, Cont.get?] at h)

example : ∃ m', bipyramid.generateFaces smallMachine 0 = some m' ∧ m'.Filling ∧ m'.TetFit := by
  obtain ⟨m', h1, h2, h3, -⟩ := C104_faces smallMachine bipyramid bipyramid_ok.1 bipyramid_ok.2.1 0 le_rfl
  exact ⟨m', h1, h2, h3⟩

/-- The two flat tetrahedra become three around the line from node 4 to node 5; the third stays. -/
example : ((bipyramid.generateFaces smallMachine 0).bind (flipEdges23 exPar smallMachine)).map (fun m => m.elements.ids.filterMap fun i => (m.elements.get? i).map Elem.nodeIds) =
    some [[1, 2, 5, 4], [2, 3, 5, 4], [4, 1, 2, 6], [1, 3, 4, 5]] := by decide +kernel

/-! ## C106 -/

/-- The second mesh is the first with the map applied to the positions of the nodes. -/
structure Moved (f : Vec3 K → Vec3 K) (m m2 : Mesh K) : Prop where
  elements : m2.elements = m.elements
  faces : m2.faces = m.faces
  ids : m2.nodes.ids = m.nodes.ids
  nodes : ∀ n, m2.nodes.get? n = (m.nodes.get? n).map f

/-- The tetrahedron with the map applied to its corners. -/
def Tet.image (f : Vec3 K → Vec3 K) (t : Tet K) : Tet K := ⟨f t.v0, f t.v1, f t.v2, f t.v3⟩

/-- A linear map that keeps volumes and the measure of quality, such as a rotation about an axis through the origin. -/
structure Keeps (P : Par K) (f : Vec3 K → Vec3 K) : Prop where
  add : ∀ a b, f (a + b) = f a + f b
  smul : ∀ (c : K) a, f (c • a) = c • f a
  volume : ∀ t : Tet K, (t.image f).volume = t.volume
  quality : ∀ t : Tet K, P.quality (t.image f) = P.quality t

namespace TetSmooth

theorem gather_moved {f : Vec3 K → Vec3 K} (hf : Keeps P f) {N M : Cont (Vec3 K)} (hg : ∀ n, M.get? n = (N.get? n).map f) (els : Cont Elem) (l : List Int) :
    ∀ s : Vec3 K × K, gather M els l (f s.1, s.2) = (gather N els l s).map fun r => (f r.1, r.2) := by
  induction l with
  | nil => intro s; rfl
  | cons id t ih =>
    intro s
    simp only [gather]
    cases he : els.get? id with
    | none => simp only [Option.bind_eq_bind, Option.bind_none, Option.map_none]
    | some e =>
      simp only [Option.bind_eq_bind, Option.bind_some]
      by_cases ht : e.elementType = .tetrahedron
      · simp only [ht, ne_eq, not_true_eq_false, if_false]
        cases e.nodeIds[0]? with
        | none => simp only [Option.bind_none, Option.map_none, Option.bind_some, Option.map_some]
        | some i =>
        cases e.nodeIds[1]? with
        | none => simp only [Option.bind_none, Option.map_none, Option.bind_some, Option.map_some]
        | some j =>
        cases e.nodeIds[2]? with
        | none => simp only [Option.bind_none, Option.map_none, Option.bind_some, Option.map_some]
        | some k =>
        cases e.nodeIds[3]? with
        | none => simp only [Option.bind_none, Option.map_none, Option.bind_some, Option.map_some]
        | some l =>
        simp only [Option.bind_some, hg]
        cases N.get? i with
        | none => simp only [Option.bind_none, Option.map_none, Option.bind_some, Option.map_some]
        | some a =>
        cases N.get? j with
        | none => simp only [Option.bind_none, Option.map_none, Option.bind_some, Option.map_some]
        | some b =>
        cases N.get? k with
        | none => simp only [Option.bind_none, Option.map_none, Option.bind_some, Option.map_some]
        | some c =>
        cases N.get? l with
        | none => simp only [Option.bind_none, Option.map_none, Option.bind_some, Option.map_some]
        | some d =>
        simp only [Option.bind_some, Option.map_some]
        rw [← ih, show Tet.volume ⟨f a, f b, f c, f d⟩ = Tet.volume ⟨a, b, c, d⟩ from hf.volume ⟨a, b, c, d⟩]
        simp only [hf.smul, hf.add]
      · simp only [ht, ne_eq, not_false_eq_true, if_true]
        exact ih s

theorem corner_moved (f : Vec3 K → Vec3 K) (n : Int) (new : Vec3 K) (i : Int) (p : Vec3 K) : Smooth.corner n (f new) i (f p) = f (Smooth.corner n new i p) := by
  unfold Smooth.corner; split_ifs <;> rfl

theorem judge_moved {f : Vec3 K → Vec3 K} (hf : Keeps P f) {N M : Cont (Vec3 K)} (hg : ∀ n, M.get? n = (N.get? n).map f) (els : Cont Elem) (n : Int) (new : Vec3 K)
    (l : List Int) : ∀ q, judge P M els n (f new) l q = judge P N els n new l q := by
  induction l with
  | nil => intro q; rfl
  | cons id t ih =>
    intro q
    simp only [judge]
    cases he : els.get? id with
    | none => simp only [Option.bind_eq_bind, Option.bind_none, Option.map_none]
    | some e =>
      simp only [Option.bind_eq_bind, Option.bind_some]
      by_cases ht : e.elementType = .tetrahedron
      · simp only [ht, ne_eq, not_true_eq_false, if_false]
        cases e.nodeIds[0]? with
        | none => simp only [Option.bind_none, Option.map_none, Option.bind_some, Option.map_some]
        | some i =>
        cases e.nodeIds[1]? with
        | none => simp only [Option.bind_none, Option.map_none, Option.bind_some, Option.map_some]
        | some j =>
        cases e.nodeIds[2]? with
        | none => simp only [Option.bind_none, Option.map_none, Option.bind_some, Option.map_some]
        | some k =>
        cases e.nodeIds[3]? with
        | none => simp only [Option.bind_none, Option.map_none, Option.bind_some, Option.map_some]
        | some l =>
        simp only [Option.bind_some, hg]
        cases N.get? i with
        | none => simp only [Option.bind_none, Option.map_none, Option.bind_some, Option.map_some]
        | some a =>
        cases N.get? j with
        | none => simp only [Option.bind_none, Option.map_none, Option.bind_some, Option.map_some]
        | some b =>
        cases N.get? k with
        | none => simp only [Option.bind_none, Option.map_none, Option.bind_some, Option.map_some]
        | some c =>
        cases N.get? l with
        | none => simp only [Option.bind_none, Option.map_none, Option.bind_some, Option.map_some]
        | some d =>
        simp only [Option.bind_some, Option.map_some, corner_moved]
        have h1 : ∀ a b c d : Vec3 K, Tet.volume ⟨f a, f b, f c, f d⟩ = Tet.volume ⟨a, b, c, d⟩ := fun a b c d => hf.volume ⟨a, b, c, d⟩
        have h2 : ∀ a b c d : Vec3 K, P.quality ⟨f a, f b, f c, f d⟩ = P.quality ⟨a, b, c, d⟩ := fun a b c d => hf.quality ⟨a, b, c, d⟩
        rw [h1, h2, h2, ih]
      · simp only [ht, ne_eq, not_false_eq_true, if_true]
        exact ih q

/-- The nodes agree up to the map. -/
def Agree (f : Vec3 K → Vec3 K) (N M : Cont (Vec3 K)) : Prop := M.ids = N.ids ∧ ∀ n, M.get? n = (N.get? n).map f

/-- Both are undefined, or both are defined and agree. -/
def AgreeOpt (f : Vec3 K → Vec3 K) : Option (Cont (Vec3 K)) → Option (Cont (Vec3 K)) → Prop
  | some N, some M => Agree f N M
  | none, none => True
  | _, _ => False

theorem attempt_moved {f : Vec3 K → Vec3 K} (hf : Keeps P f) {N M : Cont (Vec3 K)} (hg : Agree f N M) (els : Cont Elem) (ids : List Int) (n : Int) (l : List (Vec3 K)) :
    AgreeOpt f (attempt P els ids N n l) (attempt P els ids M n (l.map f)) := by
  induction l with
  | nil => exact hg
  | cons new t ih =>
    simp only [attempt, List.map_cons, judge_moved hf hg.2]
    cases judge P N els n new ids (1, 1) with
    | none => trivial
    | some r =>
      simp only [Option.bind_eq_bind, Option.bind_some]
      cases r with
      | none => exact ih
      | some q =>
        obtain ⟨q1, q2⟩ := q
        simp only
        split_ifs
        · simp only [Cont.modify, hg.2]
          cases hN : N.get? n with
          | none => trivial
          | some p =>
            refine ⟨hg.1, fun k => ?_⟩
            rw [Cont.get?_put, Cont.get?_put]
            split_ifs
            · rfl
            · exact hg.2 k
        · exact ih

theorem relaxNode_moved {f : Vec3 K → Vec3 K} (hf : Keeps P f) {N M : Cont (Vec3 K)} (hg : Agree f N M) (factor : K) (query : Int → List Int) (b : SMap Int Bool)
    (els : Cont Elem) (n : Int) : AgreeOpt f (relaxNode P factor query b els N n) (relaxNode P factor query b els M n) := by
  have h0 : f 0 = 0 := by have := hf.smul 0 0; rwa [zero_smul, zero_smul] at this
  have hsub : ∀ a b, f (a - b) = f a - f b := fun a b => by
    have := hf.add (a - b) b
    rw [sub_add_cancel] at this
    exact eq_sub_of_add_eq this.symm
  unfold relaxNode
  rw [hg.2]
  cases N.get? n with
  | none => trivial
  | some p =>
  simp only [Option.map_some, Option.bind_eq_bind, Option.bind_some]
  cases b.find? n with
  | none => trivial
  | some x =>
  cases x with
  | true => exact hg
  | false =>
  simp only [Option.bind_some, Bool.false_eq_true, if_false]
  have hgm := gather_moved hf hg.2 els (query n) (0, 0)
  rw [h0] at hgm
  rw [hgm]
  cases gather N els (query n) (0, 0) with
  | none => trivial
  | some s =>
  simp only [Option.map_some, Option.bind_some]
  have := attempt_moved hf hg els (query n) n [p + factor • ((if 0 < s.2 then (1 / s.2) • s.1 else s.1) - p), p - factor • ((if 0 < s.2 then (1 / s.2) • s.1 else s.1) - p)]
  have hif : f (if 0 < s.2 then (1 / s.2) • s.1 else s.1) = if 0 < s.2 then (1 / s.2) • f s.1 else f s.1 := by split_ifs <;> simp only [hf.smul]
  simpa only [List.map_cons, List.map_nil, hf.add, hsub, hf.smul, hif] using this

theorem relaxLoop_moved {f : Vec3 K → Vec3 K} (hf : Keeps P f) (factor : K) (query : Int → List Int) (b : SMap Int Bool) (els : Cont Elem) (l : List Int) :
    ∀ {N M : Cont (Vec3 K)}, Agree f N M → AgreeOpt f (relaxLoop P factor query b els l N) (relaxLoop P factor query b els l M) := by
  induction l with
  | nil => intro N M h; exact h
  | cons n t ih =>
    intro N M h
    have := relaxNode_moved hf h factor query b els n
    simp only [relaxLoop]
    cases h1 : relaxNode P factor query b els N n with
    | none =>
      cases h2 : relaxNode P factor query b els M n with
      | none => trivial
      | some M' => rw [h1, h2] at this; exact this.elim
    | some N' =>
      cases h2 : relaxNode P factor query b els M n with
      | none => rw [h1, h2] at this; exact this.elim
      | some M' => rw [h1, h2] at this; exact ih this

end TetSmooth

/-- **C106 (linear maps).** A linear map that keeps volumes and the measure of quality, such as a rotation about an axis through the origin, may be applied to a mesh
before or after `relaxNodes`, with the same result. This holds for every mesh. Missing: the same for translations, which is false (`C106_not_translated`). -/
theorem C106_linear_partial (f : Vec3 K → Vec3 K) (hf : Keeps P f) (factor : K) (m2 : Mesh K) (h : Moved f m m2) :
    (∀ m', relaxNodes P factor m = some m' → ∃ m2', relaxNodes P factor m2 = some m2' ∧ Moved f m' m2') ∧
    (relaxNodes P factor m = none → relaxNodes P factor m2 = none) := by
  have hq : MeshQuery.ofMesh m2 = MeshQuery.ofMesh m := by unfold MeshQuery.ofMesh; rw [h.elements]
  unfold relaxNodes
  rw [h.faces, h.ids, hq, h.elements]
  cases Smooth.markBoundary m.faces m.faces.ids (Mesh.setAll false m.nodes.ids SMap.empty) with
  | none => exact ⟨fun _ h => by simp at h, fun _ => rfl⟩
  | some b =>
  cases MeshQuery.ofMesh m with
  | none => exact ⟨fun _ h => by simp at h, fun _ => rfl⟩
  | some q =>
  simp only [Option.bind_eq_bind, Option.bind_some]
  have := relaxLoop_moved hf factor (fun n => (q.sharingNode n).2) b m.elements m.nodes.ids (N := m.nodes) (M := m2.nodes) ⟨h.ids, h.nodes⟩
  cases h1 : relaxLoop P factor (fun n => (q.sharingNode n).2) b m.elements m.nodes.ids m.nodes with
  | none =>
    cases h2 : relaxLoop P factor (fun n => (q.sharingNode n).2) b m.elements m.nodes.ids m2.nodes with
    | none => exact ⟨fun _ h => by simp at h, fun _ => rfl⟩
    | some M' => rw [h1, h2] at this; exact this.elim
  | some N' =>
    cases h2 : relaxLoop P factor (fun n => (q.sharingNode n).2) b m.elements m.nodes.ids m2.nodes with
    | none => rw [h1, h2] at this; exact this.elim
    | some M' =>
      rw [h1, h2] at this
      refine ⟨fun m' hm' => ?_, fun hn => by simp at hn⟩
      simp only [Option.bind_some, Option.some.injEq] at hm'
      subst hm'
      exact ⟨_, rfl, rfl, rfl, this.1, this.2⟩

/-- A quarter turn about the third axis meets the hypothesis, with the rational measure of quality. -/
example : Keeps exPar (fun v => ⟨-v.y, v.x, v.z⟩) := by
  have hv : ∀ t : Tet ℚ, (t.image fun v => ⟨-v.y, v.x, v.z⟩).volume = t.volume := fun t => by
    simp only [Tet.image, Tet.volume, det4one, det4, det3, Vec3.cross, Vec3.dot]; ring
  refine ⟨fun a b => ?_, fun c a => ?_, hv, fun t => ?_⟩
  · ext
    · simp only [Vec3.add_y, Vec3.add_x]; ring
    · simp
    · simp
  · ext
    · simp only [Vec3.smul_y, Vec3.smul_x]; ring
    · simp
    · simp
  · simp only [exPar, ratQuality, hv]
    congr 2
    simp only [Tet.image, Vec3.normSq, Vec3.dot, Vec3.sub_x, Vec3.sub_y, Vec3.sub_z]; ring

example (v : Vec3 ℚ) : Moved (fun p => p + v) (starAt 0) (starAt v) := by
  refine ⟨rfl, rfl, rfl, fun n => ?_⟩
  simp only [starAt, Cont.get?_add]
  split_ifs <;> simp [Cont.empty, Cont.get?]

/-- The node inside moves, and the factor decides how far. -/
example : relaxed 0 (1 / 1000) = some ⟨2513 / 1200, 9139 / 3000, 7453 / 6000⟩ ∧ relaxed 0 (1 / 2000) = some ⟨3713 / 2400, 15139 / 6000, 13453 / 12000⟩ := by decide +kernel

/-- **C106 fails: the result depends on where the mesh is.** The point towards which `relaxNodes` moves a node is meant to be the mean of the centres of the
tetrahedra, weighted by the volumes. But the sum so far is multiplied by the volume and divided by four in each round, so the point does not move along with the
mesh. The node moves in the mesh `starAt 0`, and it stays in the same mesh moved by `(12, 12, 12)`. -/
theorem C106_not_translated : ∃ v, (starAt 0).Filling ∧ (starAt v).Filling ∧ (∃ p, relaxed 0 (1 / 1000) = some p ∧ p ≠ ⟨1, 2, 1⟩) ∧ relaxed v (1 / 1000) = some (⟨1, 2, 1⟩ + v) :=
  ⟨⟨12, 12, 12⟩, filling_of_check (by decide +kernel), filling_of_check (by decide +kernel), ⟨⟨2513 / 1200, 9139 / 3000, 7453 / 6000⟩, by decide +kernel, by decide +kernel⟩, by decide +kernel⟩

/-- **C106 fails: the target is far outside.** With the factor one a node should be moved to the mean of the centres, which is inside the box of the nodes, `[0, 12]³`.
The point that the code computes for `starAt 0` has all coordinates above 240, so the node is not moved at all. -/
theorem C106_target_outside : (∃ s, gather (starAt 0).nodes (starAt 0).elements [0, 1, 2, 3] (0, 0) = some s ∧ 0 < s.2 ∧ 240 < s.1.x / s.2 ∧ 240 < s.1.y / s.2 ∧ 240 < s.1.z / s.2) ∧
    relaxed 0 1 = some ⟨1, 2, 1⟩ := by
  refine ⟨⟨_, rfl, ?_, ?_, ?_, ?_⟩, by decide +kernel⟩ <;> decide +kernel

end ENigMA
