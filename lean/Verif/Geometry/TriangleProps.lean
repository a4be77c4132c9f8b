import Verif.Geometry.SolidsProps
import Verif.Geometry.LineProps
import Verif.Geometry.PolygonLemmas

/-! # C42: distance to a triangle, C58: point location in a triangle -/

set_option linter.unusedSectionVars false

namespace ENigMA

variable {K : Type} [Field K] [LinearOrder K] [IsStrictOrderedRing K]

/-- `p` is a convex combination of the three points. -/
def InHull3 (a b c p : Vec3 K) : Prop :=
  ∃ l0 l1 l2 : K, 0 ≤ l0 ∧ 0 ≤ l1 ∧ 0 ≤ l2 ∧ l0 + l1 + l2 = 1 ∧ p = l0 • a + l1 • b + l2 • c

theorem bbox_hull3 (big : K) (a b c p : Vec3 K) (tol : K) (ht : 0 ≤ tol) (h : InHull3 a b c p) :
    (BBox.ofPoints big [a, b, c]).containsPt p tol = true := by
  obtain ⟨l0, l1, l2, h0, h1, h2, hs, rfl⟩ := h
  have lo : ∀ m x0 x1 x2 : K, m ≤ x0 → m ≤ x1 → m ≤ x2 → m - tol ≤ l0 * x0 + l1 * x1 + l2 * x2 := by
    intro m x0 x1 x2 a0 a1 a2
    have e : m = l0 * m + l1 * m + l2 * m := by rw [← add_mul, ← add_mul, hs, one_mul]
    have := mul_le_mul_of_nonneg_left a0 h0
    have := mul_le_mul_of_nonneg_left a1 h1
    have := mul_le_mul_of_nonneg_left a2 h2
    linarith
  have hi : ∀ m x0 x1 x2 : K, x0 ≤ m → x1 ≤ m → x2 ≤ m → l0 * x0 + l1 * x1 + l2 * x2 ≤ m + tol := by
    intro m x0 x1 x2 a0 a1 a2
    have e : m = l0 * m + l1 * m + l2 * m := by rw [← add_mul, ← add_mul, hs, one_mul]
    have := mul_le_mul_of_nonneg_left a0 h0
    have := mul_le_mul_of_nonneg_left a1 h1
    have := mul_le_mul_of_nonneg_left a2 h2
    linarith
  rw [BBox.containsPt_iff]
  simp only [InBox, BBox.ofPoints, List.foldl, BBox.addCoordinate, BBox.reset, Vec3.add_x, Vec3.add_y, Vec3.add_z,
    Vec3.smul_x, Vec3.smul_y, Vec3.smul_z]
  refine ⟨⟨lo _ _ _ _ ?_ ?_ ?_, hi _ _ _ _ ?_ ?_ ?_⟩, ⟨lo _ _ _ _ ?_ ?_ ?_, hi _ _ _ _ ?_ ?_ ?_⟩,
    ⟨lo _ _ _ _ ?_ ?_ ?_, hi _ _ _ _ ?_ ?_ ?_⟩⟩ <;>
    simp only [min_le_iff, le_max_iff, le_refl, true_or, or_true]

namespace Tri

variable {nrm : Vec3 K → K} (hN : IsNorm nrm) (t : Tri K)
include hN

theorem area_pos (hd : t.rawNormal ≠ 0) : 0 < nrm t.rawNormal := hN.pos hd

theorem normal_eq (hd : t.rawNormal ≠ 0) : t.normal nrm = (nrm t.rawNormal)⁻¹ • t.rawNormal := by
  have := hN.pos hd
  have h2 : 0 < nrm t.rawNormal * (1 / 2) := by linarith
  unfold normal normalArea
  simp only [if_pos h2]

theorem normal_unit (hd : t.rawNormal ≠ 0) : (t.normal nrm).normSq = 1 := by
  have hp := hN.pos hd
  have h := hN.sq t.rawNormal
  rw [t.normal_eq hN hd]
  have e : ((nrm t.rawNormal)⁻¹ • t.rawNormal).normSq = (nrm t.rawNormal)⁻¹ * (nrm t.rawNormal)⁻¹ * t.rawNormal.normSq := by
    simp only [Vec3.normSq, Vec3.dot, Vec3.smul_x, Vec3.smul_y, Vec3.smul_z]; ring
  rw [e, ← h]
  field_simp

theorem raw_dot_normal (hd : t.rawNormal ≠ 0) : t.rawNormal.dot (t.normal nrm) = nrm t.rawNormal := by
  have hp := hN.pos hd
  have h := hN.sq t.rawNormal
  rw [t.normal_eq hN hd]
  have e : t.rawNormal.dot ((nrm t.rawNormal)⁻¹ • t.rawNormal) = (nrm t.rawNormal)⁻¹ * t.rawNormal.normSq := by
    simp only [Vec3.normSq, Vec3.dot, Vec3.smul_x, Vec3.smul_y, Vec3.smul_z]; ring
  rw [e, ← h]
  field_simp

omit hN in
/-- The three side values always add up to twice the area. -/
theorem side_sum (p : Vec3 K) :
    t.side nrm p 0 + t.side nrm p 1 + t.side nrm p 2 = t.rawNormal.dot (t.normal nrm) := by
  simp only [side, v, rawNormal]
  generalize t.normal nrm = n
  simp [Vec3.dot]
  ring

omit hN in
theorem side_comb (l0 l1 l2 : K) (hs : l0 + l1 + l2 = 1) :
    let p := l0 • t.v0 + l1 • t.v1 + l2 • t.v2
    t.side nrm p 0 = l2 * t.rawNormal.dot (t.normal nrm) ∧ t.side nrm p 1 = l0 * t.rawNormal.dot (t.normal nrm) ∧
      t.side nrm p 2 = l1 * t.rawNormal.dot (t.normal nrm) := by
  intro p
  have h0 : l0 = 1 - l1 - l2 := by linarith
  subst h0
  simp only [side, v, rawNormal, p]
  generalize t.normal nrm = n
  refine ⟨?_, ?_, ?_⟩ <;> simp [Vec3.dot] <;> ring

omit hN in
/-- `contains` with its exits listed. -/
theorem contains_cases (big : K) (p : Vec3 K) (tol : K) :
    (t.contains nrm big p tol ≠ .outside ↔ (t.bbox big).containsPt p tol = true ∧
      (nrm (p - t.v0) ≤ tol ∨ (-tol < t.side nrm p 0 ∧
        (nrm (p - t.v1) ≤ tol ∨ (-tol < t.side nrm p 1 ∧
          (nrm (p - t.v2) ≤ tol ∨ -tol < t.side nrm p 2)))))) := by
  unfold contains
  cases hb : (t.bbox big).containsPt p tol
  · simp
  · simp only [Bool.not_true, Bool.false_eq_true, if_false, true_and]
    by_cases h0 : nrm (p - t.v0) ≤ tol
    · simp [h0]
    by_cases s0 : t.side nrm p 0 ≤ -tol
    · simp [h0, s0]
    by_cases h1 : nrm (p - t.v1) ≤ tol
    · simp [h0, s0, h1, not_le.1 s0]
    by_cases s1 : t.side nrm p 1 ≤ -tol
    · simp [h0, s0, h1, s1]
    by_cases h2 : nrm (p - t.v2) ≤ tol
    · simp [h0, s0, h1, s1, h2, not_le.1 s0, not_le.1 s1]
    by_cases s2 : t.side nrm p 2 ≤ -tol
    · simp [h0, s0, h1, s1, h2, s2]
    · simp only [if_neg h0, if_neg s0, if_neg h1, if_neg s1, if_neg h2, if_neg s2, not_le.1 s0, not_le.1 s1,
        not_le.1 s2, or_true, true_and, iff_true]
      split_ifs <;> simp

end Tri

/-- **C58.** For a triangle of positive area and a positive tolerance, every point of the closed triangle (corners and
edges included) is reported as contained. -/
theorem C58_contains (nrm : Vec3 K → K) (hN : IsNorm nrm) (big : K) (t : Tri K) (hd : t.rawNormal ≠ 0) (p : Vec3 K)
    (tol : K) (ht : 0 < tol) (hp : InHull3 t.v0 t.v1 t.v2 p) : t.contains nrm big p tol ≠ .outside := by
  have hb := bbox_hull3 big t.v0 t.v1 t.v2 p tol ht.le hp
  obtain ⟨l0, l1, l2, h0, h1, h2, hs, rfl⟩ := hp
  obtain ⟨e0, e1, e2⟩ := t.side_comb (nrm := nrm) l0 l1 l2 hs
  have hD := hN.pos hd
  rw [t.raw_dot_normal hN hd] at e0 e1 e2
  rw [Tri.contains_cases]
  refine ⟨hb, Or.inr ⟨?_, Or.inr ⟨?_, Or.inr ?_⟩⟩⟩
  · rw [e0]; have := mul_nonneg h2 hD.le; linarith
  · rw [e1]; have := mul_nonneg h0 hD.le; linarith
  · rw [e2]; have := mul_nonneg h1 hD.le; linarith

/-- **C58.** Conversely, a point of the triangle's plane that is reported as contained is within `tol` of a corner or has
barycentric coordinates above `-tol / (2 area)`. -/
theorem C58_contains_sound (nrm : Vec3 K → K) (hN : IsNorm nrm) (big : K) (t : Tri K) (hd : t.rawNormal ≠ 0)
    (l0 l1 l2 : K) (hs : l0 + l1 + l2 = 1) (p : Vec3 K) (hp : p = l0 • t.v0 + l1 • t.v1 + l2 • t.v2) (tol : K)
    (h : t.contains nrm big p tol ≠ .outside) :
    (nrm (p - t.v0) ≤ tol ∨ nrm (p - t.v1) ≤ tol ∨ nrm (p - t.v2) ≤ tol) ∨
      ∀ l ∈ [l0, l1, l2], -tol < l * nrm t.rawNormal := by
  obtain ⟨e0, e1, e2⟩ := t.side_comb (nrm := nrm) l0 l1 l2 hs
  rw [t.raw_dot_normal hN hd, ← hp] at e0 e1 e2
  rw [Tri.contains_cases, e0, e1, e2] at h
  simp only [List.mem_cons, List.not_mem_nil, or_false, forall_eq_or_imp, forall_eq]
  tauto

example : (⟨⟨0, 0, 0⟩, ⟨2, 0, 0⟩, ⟨0, 2, 0⟩⟩ : Tri ℚ).rawNormal ≠ 0 := by decide +kernel

/-- With tolerance zero the boundary is lost: of the closed triangle only the interior and the first vertex are
reported as contained. -/
theorem C58_zero_tolerance (nrm : Vec3 K → K) (hN : IsNorm nrm) (big : K) (t : Tri K) (hd : t.rawNormal ≠ 0)
    (l0 l1 l2 : K) (h0 : 0 ≤ l0) (h1 : 0 ≤ l1) (h2 : 0 ≤ l2) (hs : l0 + l1 + l2 = 1) :
    t.contains nrm big (l0 • t.v0 + l1 • t.v1 + l2 • t.v2) 0 ≠ .outside ↔ l0 = 1 ∨ (0 < l0 ∧ 0 < l1 ∧ 0 < l2) := by
  have hb := bbox_hull3 big t.v0 t.v1 t.v2 _ 0 le_rfl ⟨l0, l1, l2, h0, h1, h2, hs, rfl⟩
  obtain ⟨e0, e1, e2⟩ := t.side_comb (nrm := nrm) l0 l1 l2 hs
  have hD := hN.pos hd
  rw [t.raw_dot_normal hN hd] at e0 e1 e2
  rw [Tri.contains_cases, e0, e1, e2]
  have hb' : (t.bbox big).containsPt (l0 • t.v0 + l1 • t.v1 + l2 • t.v2) 0 = true := hb
  have z : ∀ v : Vec3 K, nrm v ≤ 0 ↔ v = 0 := fun v => by
    rw [← hN.eq_zero]; exact ⟨fun h => le_antisymm h (hN.nonneg v), fun h => h.le⟩
  -- the point equals a corner exactly when the corresponding coordinate is one
  have c : ∀ p, p = l0 • t.v0 + l1 • t.v1 + l2 • t.v2 → ∀ q : Vec3 K, p = q → t.side nrm q 0 = l2 * nrm t.rawNormal ∧
      t.side nrm q 1 = l0 * nrm t.rawNormal ∧ t.side nrm q 2 = l1 * nrm t.rawNormal := by
    rintro _ rfl _ rfl; exact ⟨e0, e1, e2⟩
  have v0 := t.side_comb (nrm := nrm) 1 0 0 (by ring)
  have v1 := t.side_comb (nrm := nrm) 0 1 0 (by ring)
  have v2 := t.side_comb (nrm := nrm) 0 0 1 (by ring)
  simp only [one_smul, zero_smul, add_zero, zero_add, t.raw_dot_normal hN hd, one_mul, zero_mul] at v0 v1 v2
  have E0 : l0 • t.v0 + l1 • t.v1 + l2 • t.v2 - t.v0 = 0 ↔ l0 = 1 := by
    constructor
    · intro h
      obtain ⟨_, b, _⟩ := c _ rfl _ (sub_eq_zero.1 h)
      rw [v0.2.1] at b
      exact (mul_right_cancel₀ hD.ne' (by rw [one_mul]; exact b)).symm
    · intro h
      have a1 : l1 = 0 := by linarith
      have a2 : l2 = 0 := by linarith
      rw [h, a1, a2]; simp
  have P : ∀ l : K, 0 < l * nrm t.rawNormal ↔ 0 < l := fun l => mul_pos_iff_of_pos_right hD
  simp only [z, neg_zero, P, hb', true_and]
  rw [E0]
  constructor
  · rintro (h | ⟨a, (h | ⟨b, (h | d)⟩)⟩)
    · exact Or.inl h
    · exfalso
      obtain ⟨q, _, _⟩ := c _ rfl _ (sub_eq_zero.1 h)
      rw [v1.1] at q
      have := mul_pos a hD
      linarith
    · exfalso
      obtain ⟨_, q, _⟩ := c _ rfl _ (sub_eq_zero.1 h)
      rw [v2.2.1] at q
      have := mul_pos b hD
      linarith
    · exact Or.inr ⟨b, d, a⟩
  · rintro (h | ⟨a, b, d⟩)
    · exact Or.inl h
    · exact Or.inr ⟨d, Or.inr ⟨a, Or.inr b⟩⟩

/-- The classification `IT_EDGE` is unreachable unless the tolerance is of the order of the area: for a tolerance of at
most a third of twice the area no point, in particular no point of an edge, is reported as lying on an edge. (The code
compares the smallest side value with the sum of the other two instead of with zero.) -/
theorem C58_edge_never (nrm : Vec3 K → K) (hN : IsNorm nrm) (big : K) (t : Tri K) (hd : t.rawNormal ≠ 0) (p : Vec3 K)
    (hbig : ∀ k < 3, t.side nrm p k < big) (tol : K) (ht : 3 * tol ≤ nrm t.rawNormal) :
    t.contains nrm big p tol ≠ .edge := by
  have hD := hN.pos hd
  have hsum := t.side_sum (nrm := nrm) p
  rw [t.raw_dot_normal hN hd] at hsum
  have b0 := hbig 0 (by norm_num)
  generalize hs0 : t.side nrm p 0 = s0 at *
  generalize hs1 : t.side nrm p 1 = s1 at *
  generalize hs2 : t.side nrm p 2 = s2 at *
  have key : ∀ x y z : K, x ≤ y → x ≤ z → x + y + z = nrm t.rawNormal → ¬ |x - (y + z)| < tol := by
    intro x y z h1 h2 h3 h4
    have := (abs_lt.1 h4).1
    linarith
  unfold Tri.contains
  simp only [hs0, hs1, hs2, if_pos b0]
  by_cases g1 : s1 < s0
  · simp only [if_pos g1]
    by_cases g2 : s2 < s1
    · simp only [if_pos g2]
      have := key s2 s0 s1 (by linarith) (by linarith) (by linarith)
      simp only [Nat.reduceMod, Nat.reduceAdd, hs0, hs1, hs2, if_neg this]
      split_ifs <;> exact fun h => nomatch h
    · simp only [if_neg g2]
      have := key s1 s2 s0 (by linarith) (by linarith) (by linarith)
      simp only [Nat.reduceMod, Nat.reduceAdd, hs0, hs1, hs2, if_neg this]
      split_ifs <;> exact fun h => nomatch h
  · simp only [if_neg g1]
    by_cases g2 : s2 < s0
    · simp only [if_pos g2]
      have := key s2 s0 s1 (by linarith) (by linarith) (by linarith)
      simp only [Nat.reduceMod, Nat.reduceAdd, hs0, hs1, hs2, if_neg this]
      split_ifs <;> exact fun h => nomatch h
    · simp only [if_neg g2]
      have := key s0 s1 s2 (by linarith) (by linarith) (by linarith)
      simp only [Nat.reduceMod, Nat.reduceAdd, hs0, hs1, hs2, if_neg this]
      split_ifs <;> exact fun h => nomatch h

/-- **C42** (partial: the foot of the perpendicular must lie in the triangle, see `C42_vertex_fallback`). For a triangle
of positive area and a positive tolerance: if the foot of the perpendicular from `p` lies in the closed triangle, the
reported point is that foot, it is a point of the triangle, the reported distance is the distance to it, and no point of
the triangle is closer. -/
theorem C42_distance_partial (nrm : Vec3 K → K) (hN : IsNorm nrm) (big : K) (t : Tri K) (hd : t.rawNormal ≠ 0)
    (p foot : Vec3 K) (hfoot : InHull3 t.v0 t.v1 t.v2 foot)
    (hperp : (p - foot).dot (t.v1 - t.v0) = 0 ∧ (p - foot).dot (t.v2 - t.v0) = 0) (tol : K) (ht : 0 < tol) :
    (t.distance nrm big p tol).1 = foot ∧ (t.distance nrm big p tol).2 = nrm (p - foot) ∧
      ∀ x, InHull3 t.v0 t.v1 t.v2 x → (t.distance nrm big p tol).2 ≤ nrm (p - x) := by
  have hu := t.normal_unit hN hd
  have hin := C58_contains nrm hN big t hd foot tol ht hfoot
  have hne := t.normal_eq hN hd
  set n := t.normal nrm with hn
  -- n is orthogonal to the plane of the triangle
  have o1 : n.dot (t.v1 - t.v0) = 0 := by
    rw [hne]; simp only [Tri.rawNormal, Vec3.dot, Vec3.smul_x, Vec3.smul_y, Vec3.smul_z, Vec3.cross_x, Vec3.cross_y,
      Vec3.cross_z]; ring
  have o2 : n.dot (t.v2 - t.v0) = 0 := by
    rw [hne]; simp only [Tri.rawNormal, Vec3.dot, Vec3.smul_x, Vec3.smul_y, Vec3.smul_z, Vec3.cross_x, Vec3.cross_y,
      Vec3.cross_z]; ring
  have oh : ∀ x, InHull3 t.v0 t.v1 t.v2 x → ∀ w : Vec3 K, w.dot (t.v1 - t.v0) = 0 → w.dot (t.v2 - t.v0) = 0 →
      w.dot x = w.dot t.v0 := by
    rintro x ⟨l0, l1, l2, _, _, _, hs, rfl⟩ w h1 h2
    have h0 : l0 = 1 - l1 - l2 := by linarith
    subst h0
    simp only [Vec3.dot, Vec3.add_x, Vec3.add_y, Vec3.add_z, Vec3.sub_x, Vec3.sub_y, Vec3.sub_z, Vec3.smul_x,
      Vec3.smul_y, Vec3.smul_z] at *
    linear_combination l1 * h1 + l2 * h2
  -- p - foot is a multiple of n
  have hpar : p - foot = (n.dot (p - foot)) • n := by
    have hz : (p - foot).cross t.rawNormal = 0 := by
      obtain ⟨a, b⟩ := hperp
      have e : (p - foot).cross t.rawNormal =
          ((p - foot).dot (t.v2 - t.v0)) • (t.v1 - t.v0) - ((p - foot).dot (t.v1 - t.v0)) • (t.v2 - t.v0) := by
        generalize p - foot = w
        unfold Tri.rawNormal
        ext <;> simp [Vec3.dot] <;> ring
      rw [e, a, b]; simp
    have hz' : (p - foot).cross n = 0 := by
      rw [hne, Vec3.cross_smul_right, hz, smul_zero]
    have e : (n.dot (p - foot)) • n - n.normSq • (p - foot) = n.cross (n.cross (p - foot)) := by
      generalize p - foot = w
      ext <;> simp [Vec3.dot, Vec3.normSq] <;> ring
    rw [Vec3.cross_swap n (p - foot), hz', neg_zero, hu, one_smul] at e
    have hc0 : n.cross 0 = 0 := by ext <;> simp
    rw [hc0, sub_eq_zero] at e
    exact e.symm
  have hs : n.dot p - n.dot t.v0 = n.dot (p - foot) := by
    rw [← oh foot hfoot n o1 o2]
    simp only [Vec3.dot, Vec3.sub_x, Vec3.sub_y, Vec3.sub_z]; ring
  have hq : p - (n.dot p - n.dot t.v0) • n = foot := by
    rw [hs, ← hpar]; abel
  have hres : t.distance nrm big p tol = (foot, |n.dot p - n.dot t.v0|) := by
    unfold Tri.distance GPlane.project
    simp only [← hn, hq]
    rw [if_neg hin]
  have hdist : |n.dot p - n.dot t.v0| = nrm (p - foot) := by
    conv_rhs => rw [hpar]
    have hn1 : nrm n = 1 := hN.eq_of_sq zero_le_one (by rw [hu, one_mul])
    rw [hN.smul, hs, hn1, mul_one]
  rw [hres]
  refine ⟨rfl, hdist, fun x hx => ?_⟩
  change |n.dot p - n.dot t.v0| ≤ _
  rw [hdist, hN.le_iff]
  have h1 := oh x hx (p - foot) hperp.1 hperp.2
  have h2 := oh foot hfoot (p - foot) hperp.1 hperp.2
  have h3 : (p - x).normSq = (p - foot).normSq + (foot - x).normSq + 2 * ((p - foot).dot foot - (p - foot).dot x) := by
    simp only [Vec3.normSq, Vec3.dot, Vec3.sub_x, Vec3.sub_y, Vec3.sub_z]; ring
  rw [h3, h1, h2]
  have := Vec3.normSq_nonneg (foot - x)
  linarith

theorem nearestVertex_spec (nrm : Vec3 K → K) (p : Vec3 K) (vs : List (Vec3 K)) (b : Vec3 K × K) :
    (Tri.nearestVertex nrm p vs b = b ∨ ∃ v ∈ vs, Tri.nearestVertex nrm p vs b = (v, nrm (p - v))) ∧
      (Tri.nearestVertex nrm p vs b).2 ≤ b.2 ∧ ∀ v ∈ vs, (Tri.nearestVertex nrm p vs b).2 ≤ nrm (p - v) := by
  induction vs generalizing b with
  | nil => exact ⟨Or.inl rfl, le_rfl, by simp⟩
  | cons v vs ih =>
    unfold Tri.nearestVertex
    obtain ⟨h1, h2, h3⟩ := ih (if nrm (p - v) < b.2 then (v, nrm (p - v)) else b)
    by_cases h : nrm (p - v) < b.2
    · rw [if_pos h] at h1 h2 h3 ⊢
      refine ⟨Or.inr ?_, le_trans h2 h.le, ?_⟩
      · rcases h1 with h1 | ⟨w, hw, h1⟩
        · exact ⟨v, List.mem_cons_self, h1⟩
        · exact ⟨w, List.mem_cons_of_mem _ hw, h1⟩
      · intro w hw
        rcases List.mem_cons.1 hw with rfl | hw
        · exact h2
        · exact h3 w hw
    · rw [if_neg h] at h1 h2 h3 ⊢
      refine ⟨?_, h2, ?_⟩
      · rcases h1 with h1 | ⟨w, hw, h1⟩
        · exact Or.inl h1
        · exact Or.inr ⟨w, List.mem_cons_of_mem _ hw, h1⟩
      · intro w hw
        rcases List.mem_cons.1 hw with rfl | hw
        · exact le_trans h2 (not_lt.1 h)
        · exact h3 w hw

/-- **C42.** Whatever the point, the reported distance is the distance from it to the reported point, and it never exceeds
the distance to any corner when the foot is rejected; the reported point is then a corner. -/
theorem C42_outside (nrm : Vec3 K → K) (big : K) (t : Tri K) (p : Vec3 K) (tol : K)
    (hbig : nrm (p - t.v0) < big)
    (hout : t.contains nrm big (p - ((t.normal nrm).dot p - (t.normal nrm).dot t.v0) • t.normal nrm) tol = .outside) :
    (∃ v ∈ [t.v0, t.v1, t.v2], t.distance nrm big p tol = (v, nrm (p - v))) ∧
      ∀ v ∈ [t.v0, t.v1, t.v2], (t.distance nrm big p tol).2 ≤ nrm (p - v) := by
  have hres : t.distance nrm big p tol = Tri.nearestVertex nrm p [t.v0, t.v1, t.v2]
      (p - ((t.normal nrm).dot p - (t.normal nrm).dot t.v0) • t.normal nrm, big) := by
    unfold Tri.distance GPlane.project
    simp only
    rw [if_pos hout]
  rw [hres]
  obtain ⟨h1, _, h3⟩ := nearestVertex_spec nrm p [t.v0, t.v1, t.v2]
      (p - ((t.normal nrm).dot p - (t.normal nrm).dot t.v0) • t.normal nrm, big)
  refine ⟨?_, h3⟩
  rcases h1 with h1 | h1
  · exfalso
    have := h3 t.v0 (by simp)
    rw [h1] at this
    exact absurd hbig (not_lt.2 this)
  · exact h1

/-- The full claim (closest point of the triangle for every `p`) fails: beside an edge the code falls back to the nearest
corner, although a point of the edge is closer. -/
theorem C42_vertex_fallback (nrm : Vec3 K → K) (hN : IsNorm nrm) (big : K) (hbig : 2 < big) (tol : K) (h0 : 0 ≤ tol)
    (ht : tol < 1) :
    let t : Tri K := ⟨⟨0, 0, 0⟩, ⟨2, 0, 0⟩, ⟨0, 2, 0⟩⟩
    let p : Vec3 K := ⟨1, -1, 0⟩
    ∃ x, InHull3 t.v0 t.v1 t.v2 x ∧ nrm (p - x) < (t.distance nrm big p tol).2 := by
  intro t p
  refine ⟨⟨1, 0, 0⟩, ⟨1 / 2, 1 / 2, 0, by norm_num, by norm_num, le_rfl, by norm_num, ?_⟩, ?_⟩
  · ext <;> simp [t]
  have hd : t.rawNormal ≠ 0 := by
    intro h
    have := congrArg Vec3.z h
    simp [t, Tri.rawNormal] at this
  have hraw : t.rawNormal = ⟨0, 0, 4⟩ := by ext <;> simp [t, Tri.rawNormal] ; norm_num
  have h4 : nrm t.rawNormal = 4 := hN.eq_of_sq (by norm_num) (by rw [hraw]; simp [Vec3.normSq, Vec3.dot])
  have hn : t.normal nrm = ⟨0, 0, 1⟩ := by
    rw [t.normal_eq hN hd, h4, hraw]; ext <;> simp
  have hq : p - ((t.normal nrm).dot p - (t.normal nrm).dot t.v0) • t.normal nrm = p := by
    rw [hn]; ext <;> simp [t, p, Vec3.dot]
  have hout : t.contains nrm big p tol = .outside := by
    by_contra hc
    have := ((t.contains_cases (nrm := nrm) big p tol).1 hc).1
    unfold Tri.bbox at this
    rw [BBox.containsPt_iff] at this
    have h := this.2.1.1
    simp only [BBox.ofPoints, List.foldl, BBox.addCoordinate, BBox.reset, t, p] at h
    have : min (min (min big 0) 0) 2 = (0 : K) := by
      rw [min_eq_right (by linarith : (0 : K) ≤ big)]; simp
    rw [this] at h
    linarith
  have hlt : ∀ (v : Vec3 K) (c : K), 0 < c → v.normSq = 2 → nrm (⟨0, -1, 0⟩ : Vec3 K) < nrm v := by
    intro v c _ hv
    rw [hN.lt_iff, hv]; simp [Vec3.normSq, Vec3.dot]
  have hsub : p - (⟨1, 0, 0⟩ : Vec3 K) = ⟨0, -1, 0⟩ := by ext <;> simp [p]
  have h2 : (p - t.v0).normSq = 2 := by simp [p, t, Vec3.normSq, Vec3.dot]; norm_num
  have hb : nrm (p - t.v0) < big := by
    have hs := hN.sq (p - t.v0)
    rw [h2] at hs
    have := hN.nonneg (p - t.v0)
    nlinarith
  obtain ⟨⟨v, hv, hr⟩, _⟩ := C42_outside nrm big t p tol hb (by rw [hq]; exact hout)
  rw [hr, hsub]
  change nrm _ < nrm (p - v)
  rw [hN.lt_iff]
  simp only [List.mem_cons, List.not_mem_nil, or_false] at hv
  rcases hv with rfl | rfl | rfl <;> simp [p, t, Vec3.normSq, Vec3.dot] <;> norm_num

/-- Non-vacuity for `C42_distance_partial`: a point above the middle of a triangle, with its foot. -/
example : InHull3 (⟨0, 0, 0⟩ : Vec3 ℚ) ⟨2, 0, 0⟩ ⟨0, 2, 0⟩ ⟨1 / 2, 1 / 2, 0⟩ ∧
    ((⟨1 / 2, 1 / 2, 5⟩ : Vec3 ℚ) - ⟨1 / 2, 1 / 2, 0⟩).dot (⟨2, 0, 0⟩ - ⟨0, 0, 0⟩) = 0 :=
  ⟨⟨1 / 2, 1 / 4, 1 / 4, by decide +kernel, by decide +kernel, by decide +kernel, by decide +kernel, by decide +kernel⟩,
    by decide +kernel⟩

end ENigMA
