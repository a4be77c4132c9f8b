import Verif.Geometry.Solids
import Verif.Geometry.BBoxProps
import Mathlib.LinearAlgebra.Matrix.Determinant.Basic
import Mathlib.Data.Matrix.Reflection
import Mathlib.Tactic.FinCases

/-!
# C38: tetrahedron point location, C39: decomposition, C42: closest point on a triangle, C43: circumsphere and
circumcircle, C58: triangle point location
-/

set_option linter.unusedSectionVars false

namespace ENigMA

variable {K : Type} [Field K] [LinearOrder K] [IsStrictOrderedRing K]

/-- `det4` is the determinant of the matrix with the given columns (Mathlib's `Matrix.det`). -/
theorem det4_eq_det (a b c d : Vec3 K) (p q r s : K) :
    det4 a p b q c r d s = Matrix.det !![a.x, b.x, c.x, d.x; a.y, b.y, c.y, d.y; a.z, b.z, c.z, d.z; p, q, r, s] := by
  rw [Matrix.det_succ_row_zero]
  simp only [Fin.sum_univ_succ, Matrix.det_fin_three, Matrix.submatrix_apply, Finset.univ_eq_empty,
    Finset.sum_empty]
  simp [det4, det3, Vec3.dot, Fin.succAbove, Matrix.cons_val, Fin.lt_def]
  ring

/-! ### Tetrahedra -/

/-- `p` is a convex combination of the four points. -/
def InHull4 (a b c d p : Vec3 K) : Prop :=
  ∃ l0 l1 l2 l3 : K, 0 ≤ l0 ∧ 0 ≤ l1 ∧ 0 ≤ l2 ∧ 0 ≤ l3 ∧ l0 + l1 + l2 + l3 = 1 ∧
    p = l0 • a + l1 • b + l2 • c + l3 • d

theorem bbox_hull4 (big : K) (a b c d p : Vec3 K) (tol : K) (ht : 0 ≤ tol) (h : InHull4 a b c d p) :
    (BBox.ofPoints big [a, b, c, d]).containsPt p tol = true := by
  obtain ⟨l0, l1, l2, l3, h0, h1, h2, h3, hs, rfl⟩ := h
  have lo : ∀ m x0 x1 x2 x3 : K, m ≤ x0 → m ≤ x1 → m ≤ x2 → m ≤ x3 →
      m - tol ≤ l0 * x0 + l1 * x1 + l2 * x2 + l3 * x3 := by
    intro m x0 x1 x2 x3 a0 a1 a2 a3
    have e : m = l0 * m + l1 * m + l2 * m + l3 * m := by rw [← add_mul, ← add_mul, ← add_mul, hs, one_mul]
    have := mul_le_mul_of_nonneg_left a0 h0
    have := mul_le_mul_of_nonneg_left a1 h1
    have := mul_le_mul_of_nonneg_left a2 h2
    have := mul_le_mul_of_nonneg_left a3 h3
    linarith
  have hi : ∀ m x0 x1 x2 x3 : K, x0 ≤ m → x1 ≤ m → x2 ≤ m → x3 ≤ m →
      l0 * x0 + l1 * x1 + l2 * x2 + l3 * x3 ≤ m + tol := by
    intro m x0 x1 x2 x3 a0 a1 a2 a3
    have e : m = l0 * m + l1 * m + l2 * m + l3 * m := by rw [← add_mul, ← add_mul, ← add_mul, hs, one_mul]
    have := mul_le_mul_of_nonneg_left a0 h0
    have := mul_le_mul_of_nonneg_left a1 h1
    have := mul_le_mul_of_nonneg_left a2 h2
    have := mul_le_mul_of_nonneg_left a3 h3
    linarith
  rw [BBox.containsPt_iff]
  simp only [InBox, BBox.ofPoints, List.foldl, BBox.addCoordinate, BBox.reset, Vec3.add_x, Vec3.add_y, Vec3.add_z,
    Vec3.smul_x, Vec3.smul_y, Vec3.smul_z]
  refine ⟨⟨lo _ _ _ _ _ ?_ ?_ ?_ ?_, hi _ _ _ _ _ ?_ ?_ ?_ ?_⟩, ⟨lo _ _ _ _ _ ?_ ?_ ?_ ?_,
    hi _ _ _ _ _ ?_ ?_ ?_ ?_⟩, ⟨lo _ _ _ _ _ ?_ ?_ ?_ ?_, hi _ _ _ _ _ ?_ ?_ ?_ ?_⟩⟩ <;>
    simp only [min_le_iff, le_max_iff, le_refl, true_or, or_true]

/-- The four partial determinants add up to the whole one. -/
theorem det_sum (a b c d p : Vec3 K) :
    det4one p b c d + det4one a p c d + det4one a b p d + det4one a b c p = det4one a b c d := by
  simp only [det4one, det4, det3, Vec3.dot, Vec3.cross_x, Vec3.cross_y, Vec3.cross_z]; ring

/-- Cramer's rule for the point. -/
theorem det_cramer (a b c d p : Vec3 K) :
    det4one p b c d • a + det4one a p c d • b + det4one a b p d • c + det4one a b c p • d =
      det4one a b c d • p := by
  ext <;> simp only [det4one, det4, det3, Vec3.dot, Vec3.cross_x, Vec3.cross_y, Vec3.cross_z, Vec3.add_x, Vec3.add_y,
    Vec3.add_z, Vec3.smul_x, Vec3.smul_y, Vec3.smul_z] <;> ring

/-- The partial determinants of a combination. -/
theorem det_comb (a b c d : Vec3 K) (l0 l1 l2 l3 : K) (hs : l0 + l1 + l2 + l3 = 1) :
    let p := l0 • a + l1 • b + l2 • c + l3 • d
    det4one p b c d = l0 * det4one a b c d ∧ det4one a p c d = l1 * det4one a b c d ∧
      det4one a b p d = l2 * det4one a b c d ∧ det4one a b c p = l3 * det4one a b c d := by
  intro p
  have h0 : l0 = 1 - l1 - l2 - l3 := by linarith
  subst h0
  refine ⟨?_, ?_, ?_, ?_⟩ <;>
    simp only [p, det4one, det4, det3, Vec3.dot, Vec3.cross_x, Vec3.cross_y, Vec3.cross_z, Vec3.add_x, Vec3.add_y,
      Vec3.add_z, Vec3.smul_x, Vec3.smul_y, Vec3.smul_z] <;> ring

/-- **C38.** For a tetrahedron of positive volume and a non-negative tolerance, `contains(p)` is true exactly when
`p` is a convex combination of the four vertices. -/
theorem C38_contains (big : K) (t : Tet K) (hv : 0 < t.volume) (p : Vec3 K) (tol : K) (ht : 0 ≤ tol) :
    t.contains big p tol = true ↔ InHull4 t.v0 t.v1 t.v2 t.v3 p := by
  have hd : 0 < det4one t.v0 t.v1 t.v2 t.v3 := by
    unfold Tet.volume at hv
    have := mul_pos hv (by norm_num : (0 : K) < 6)
    rwa [div_mul_cancel₀ _ (by norm_num)] at this
  have hsum := det_sum t.v0 t.v1 t.v2 t.v3 p
  set D := det4one t.v0 t.v1 t.v2 t.v3 with hD
  set s := det4one p t.v1 t.v2 t.v3 with hs
  set t' := det4one t.v0 p t.v2 t.v3 with ht'
  set u := det4one t.v0 t.v1 p t.v3 with hu
  set v := det4one t.v0 t.v1 t.v2 p with hv'
  have hx : s / D + t' / D + u / D + v / D = 1 := by
    rw [← add_div, ← add_div, ← add_div, hsum, div_self hd.ne']
  have hsign : ∀ a : K, a / D < 0 ↔ a < 0 := fun a => by
    rw [div_lt_iff₀ hd, zero_mul]
  constructor
  · intro h
    unfold Tet.contains at h
    simp only [← hD, ← hs, ← ht', ← hu, ← hv'] at h
    split_ifs at h with h1 h2 h3 h4 h5 h6 h7
    rw [not_lt] at h3 h4 h5 h6
    refine ⟨s / D, t' / D, u / D, v / D, h3, h4, h5, h6, hx, ?_⟩
    have hc := det_cramer t.v0 t.v1 t.v2 t.v3 p
    rw [← hD, ← hs, ← ht', ← hu, ← hv'] at hc
    have : p = D⁻¹ • (s • t.v0 + t' • t.v1 + u • t.v2 + v • t.v3) := by
      rw [hc, smul_smul, inv_mul_cancel₀ hd.ne', one_smul]
    calc p = _ := this
      _ = _ := by ext <;> simp <;> ring
  · intro h
    have hbox := bbox_hull4 big t.v0 t.v1 t.v2 t.v3 p tol ht h
    obtain ⟨l0, l1, l2, l3, h0, h1, h2, h3, hl, hp⟩ := h
    have hc := det_comb t.v0 t.v1 t.v2 t.v3 l0 l1 l2 l3 hl
    simp only [← hp, ← hD, ← hs, ← ht', ← hu, ← hv'] at hc
    obtain ⟨c0, c1, c2, c3⟩ := hc
    have e : ∀ a l : K, a = l * D → 0 ≤ l → ¬ a / D < 0 := fun a l ha hl => by
      rw [ha, mul_div_assoc, div_self hd.ne', mul_one]; exact not_lt.2 hl
    unfold Tet.contains
    simp only [← hD, ← hs, ← ht', ← hu, ← hv']
    rw [if_neg (by unfold Tet.bbox; rw [hbox]; simp), if_neg (not_le.2 hd), if_neg (e _ _ c0 h0),
      if_neg (e _ _ c1 h1), if_neg (e _ _ c2 h2), if_neg (e _ _ c3 h3), if_neg]
    rw [hx]
    rintro (h | h) <;> linarith

example : (⟨⟨0, 0, 0⟩, ⟨0, 1, 0⟩, ⟨1, 0, 0⟩, ⟨0, 0, 1⟩⟩ : Tet ℚ).volume = 1 / 6 ∧
    (⟨⟨0, 0, 0⟩, ⟨0, 1, 0⟩, ⟨1, 0, 0⟩, ⟨0, 0, 1⟩⟩ : Tet ℚ).contains 1000 ⟨1 / 4, 1 / 4, 1 / 4⟩ 0 = true := by
  decide +kernel

/-- A tetrahedron listed with the opposite orientation (non-positive `volume()`) contains nothing, not even its own
vertices: the sign of the determinant decides before the point is looked at. -/
theorem C38_nonpositive_volume (big : K) (t : Tet K) (hv : t.volume ≤ 0) (p : Vec3 K) (tol : K) :
    t.contains big p tol = false := by
  have hd : det4one t.v0 t.v1 t.v2 t.v3 ≤ 0 := by
    unfold Tet.volume at hv
    by_contra hc
    exact absurd (div_pos (not_le.1 hc) (by norm_num : (0 : K) < 6)) (not_lt.2 hv)
  unfold Tet.contains
  simp only
  split_ifs <;> rfl

/-- The volume is a sixth of the triple product of the edges at the first vertex (negative for a right-handed
tetrahedron), so swapping two vertices changes its sign. -/
theorem C38_volume (t : Tet K) :
    t.volume = -((t.v1 - t.v0).dot (Vec3.cross (t.v2 - t.v0) (t.v3 - t.v0))) / 6 ∧
      (⟨t.v1, t.v0, t.v2, t.v3⟩ : Tet K).volume = -t.volume := by
  constructor <;>
    simp only [Tet.volume, det4one, det4, det3, Vec3.dot, Vec3.cross_x, Vec3.cross_y, Vec3.cross_z, Vec3.sub_x,
      Vec3.sub_y, Vec3.sub_z] <;> ring

/-! ### Decomposition -/

/-- The parallelepiped at `o` spanned by `a`, `b`, `c`, with the vertex order of the hexahedron. -/
def box (o a b c : Vec3 K) : Hex K :=
  ⟨o, o + a, o + a + b, o + b, o + c, o + a + c, o + a + b + c, o + b + c⟩

/-- **C39.** `decimate()` of a parallelepiped appends six tetrahedra, each of exactly a sixth of `volume()`; in
particular their volumes have equal signs and add up to the volume of the hexahedron. -/
theorem C39_hexahedron (o a b c : Vec3 K) (ts : List (Tet K)) :
    ∃ news, (box o a b c).decimate ts = ts ++ news ∧ news.length = 6 ∧
      (∀ t ∈ news, t.volume = (box o a b c).volume / 6) ∧
      (news.map Tet.volume).sum = (box o a b c).volume := by
  refine ⟨_, rfl, rfl, ?_, ?_⟩
  · intro t ht
    simp only [List.mem_cons, List.not_mem_nil, or_false] at ht
    rcases ht with rfl | rfl | rfl | rfl | rfl | rfl <;>
      simp only [box, Tet.volume, Hex.volume, det4one, det4, det3, Vec3.dot, Vec3.cross_x, Vec3.cross_y, Vec3.cross_z,
        Vec3.sub_x, Vec3.sub_y, Vec3.sub_z, Vec3.add_x, Vec3.add_y, Vec3.add_z] <;> ring
  · simp only [List.map_cons, List.map_nil, List.sum_cons, List.sum_nil, box, Tet.volume, Hex.volume, det4one, det4,
      det3, Vec3.dot, Vec3.cross_x, Vec3.cross_y, Vec3.cross_z,
        Vec3.sub_x, Vec3.sub_y, Vec3.sub_z, Vec3.add_x, Vec3.add_y, Vec3.add_z]
    ring

example : (box (⟨0, 0, 0⟩ : Vec3 ℚ) ⟨0, 2, 0⟩ ⟨3, 0, 0⟩ ⟨0, 0, 5⟩).volume = 30 := by decide +kernel

/-- **C39.** The volumes of the six tetrahedra of `decimate()` of any hexahedron add up to a quantity that does not
depend on the interior diagonal chosen: it is the sum over the twelve boundary triangles the six tetrahedra induce.
Hence two hexahedra sharing a face (with matching triangles) lose no volume between them. -/
theorem C39_hexahedron_boundary (h : Hex K) (o : Vec3 K) :
    ((h.decimate []).map Tet.volume).sum =
      (([(h.v0, h.v1, h.v3), (h.v0, h.v3, h.v7), (h.v0, h.v7, h.v4), (h.v0, h.v4, h.v1), (h.v4, h.v7, h.v5),
        (h.v4, h.v5, h.v1), (h.v1, h.v2, h.v3), (h.v2, h.v7, h.v3), (h.v6, h.v7, h.v2), (h.v1, h.v6, h.v2),
        (h.v1, h.v5, h.v6), (h.v5, h.v7, h.v6)] : List (Vec3 K × Vec3 K × Vec3 K)).map
          fun f => (⟨f.1, f.2.1, f.2.2, o⟩ : Tet K).volume).sum := by
  simp only [Hex.decimate, List.nil_append, List.map_cons, List.map_nil, List.sum_cons, List.sum_nil, Tet.volume,
    det4one, det4, det3, Vec3.dot, Vec3.cross_x, Vec3.cross_y, Vec3.cross_z]
  ring

/-- **C39.** `decimate()` of a quadrilateral gives two triangles whose vector areas add up to the vector area that
the quadrilateral's own `calculateNormal` uses; both use only corners of the quadrilateral. -/
theorem C39_quadrilateral (q : Quad K) (ts : List (Tri K)) :
    ∃ t1 t2, q.decimate ts = ts ++ [t1, t2] ∧
      t1.rawNormal + t2.rawNormal = Vec3.cross (q.v2 - q.v0) (q.v3 - q.v1) ∧
      t1.rawNormal + t2.rawNormal =
        Vec3.cross q.v0 q.v1 + Vec3.cross q.v1 q.v2 + Vec3.cross q.v2 q.v3 + Vec3.cross q.v3 q.v0 := by
  refine ⟨_, _, rfl, ?_, ?_⟩ <;> ext <;> simp [Tri.rawNormal] <;> ring

/-- **C39.** The volume of a prism made by translating a triangle is half that of the parallelepiped on the same
edges, and the sum of the volumes of the three tetrahedra `(0,1,2,3)`, `(1,2,3,4)`, `(2,3,4,5)` (with orientation). -/
theorem C39_prism (o a b c : Vec3 K) :
    (⟨o, o + a, o + b, o + c, o + a + c, o + b + c⟩ : Prism K).volume = (box o a b c).volume / 2 ∧
    (⟨o, o + a, o + b, o + c, o + a + c, o + b + c⟩ : Prism K).volume =
      (⟨o, o + a, o + b, o + c⟩ : Tet K).volume + (⟨o + a, o + b, o + c, o + a + c⟩ : Tet K).volume +
        (⟨o + b, o + c, o + a + c, o + b + c⟩ : Tet K).volume := by
  constructor <;>
    simp only [box, Prism.volume, Hex.volume, Tet.volume, det4one, det4, det3, Vec3.dot, Vec3.cross_x, Vec3.cross_y,
      Vec3.cross_z, Vec3.sub_x, Vec3.sub_y, Vec3.sub_z, Vec3.add_x, Vec3.add_y, Vec3.add_z] <;> ring

/-! ### Circumsphere and circumcircle -/

/-- `sqrt` is a square root on non-negative numbers. -/
def IsSqrt (sqrt : K → K) : Prop := ∀ x, 0 ≤ x → 0 ≤ sqrt x ∧ sqrt x * sqrt x = x

theorem isSqrt_real : IsSqrt Real.sqrt := fun x hx => ⟨Real.sqrt_nonneg x, Real.mul_self_sqrt hx⟩

/-- **C43.** The sphere built from four points that are not coplanar (non-zero determinant, tolerance zero) passes
through all four: the distance from the centre to each of them is the radius. -/
theorem C43_sphere (nrm : Vec3 K → K) (hN : IsNorm nrm) (sqrt : K → K) (hS : IsSqrt sqrt) (p1 p2 p3 p4 : Vec3 K)
    (h : det4one p1 p2 p3 p4 ≠ 0) (p : Vec3 K) (hp : p = p1 ∨ p = p2 ∨ p = p3 ∨ p = p4) :
    nrm (p - (sphere4 sqrt p1 p2 p3 p4 0).center) = (sphere4 sqrt p1 p2 p3 p4 0).radius := by
  have hm : ¬ |det4 p1 1 p2 1 p3 1 p4 1| ≤ (0 : K) * 0 := by
    rw [mul_zero, abs_nonpos_iff]; exact h
  unfold sphere4
  simp only [if_neg hm]
  have h' : det4 p1 1 p2 1 p3 1 p4 1 ≠ 0 := h
  set m11 := det4 p1 1 p2 1 p3 1 p4 1 with hm11
  generalize hm12 : det4 (⟨p1.normSq, p1.y, p1.z⟩ : Vec3 K) 1 ⟨p2.normSq, p2.y, p2.z⟩ 1 ⟨p3.normSq, p3.y, p3.z⟩ 1
    ⟨p4.normSq, p4.y, p4.z⟩ 1 = m12
  generalize hm13 : det4 (⟨p1.x, p1.normSq, p1.z⟩ : Vec3 K) 1 ⟨p2.x, p2.normSq, p2.z⟩ 1 ⟨p3.x, p3.normSq, p3.z⟩ 1
    ⟨p4.x, p4.normSq, p4.z⟩ 1 = m13
  generalize hm14 : det4 (⟨p1.x, p1.y, p1.normSq⟩ : Vec3 K) 1 ⟨p2.x, p2.y, p2.normSq⟩ 1 ⟨p3.x, p3.y, p3.normSq⟩ 1
    ⟨p4.x, p4.y, p4.normSq⟩ 1 = m14
  generalize hm15 : det4 (⟨p1.normSq, p1.x, p1.y⟩ : Vec3 K) p1.z ⟨p2.normSq, p2.x, p2.y⟩ p2.z
    ⟨p3.normSq, p3.x, p3.y⟩ p3.z ⟨p4.normSq, p4.x, p4.y⟩ p4.z = m15
  have key : p.normSq * m11 - p.x * m12 - p.y * m13 - p.z * m14 + m15 = 0 := by
    rw [hm11, ← hm12, ← hm13, ← hm14, ← hm15]
    rcases hp with rfl | rfl | rfl | rfl <;>
      simp only [det4, det3, Vec3.dot, Vec3.cross_x, Vec3.cross_y, Vec3.cross_z] <;> ring
  have hsq : (p - ⟨1 / 2 * m12 / m11, 1 / 2 * m13 / m11, 1 / 2 * m14 / m11⟩ : Vec3 K).normSq =
      (⟨1 / 2 * m12 / m11, 1 / 2 * m13 / m11, 1 / 2 * m14 / m11⟩ : Vec3 K).normSq - m15 / m11 := by
    have e : p.normSq = p.x * (m12 / m11) + p.y * (m13 / m11) + p.z * (m14 / m11) - m15 / m11 := by
      field_simp
      linear_combination key
    simp only [Vec3.normSq, Vec3.dot, Vec3.sub_x, Vec3.sub_y, Vec3.sub_z] at e ⊢
    linear_combination e
  have hnn : 0 ≤ (⟨1 / 2 * m12 / m11, 1 / 2 * m13 / m11, 1 / 2 * m14 / m11⟩ : Vec3 K).normSq - m15 / m11 := by
    rw [← hsq]; exact Vec3.normSq_nonneg _
  obtain ⟨r1, r2⟩ := hS _ hnn
  exact hN.eq_of_sq r1 (by rw [r2, hsq])

example : det4one (⟨1, 0, 0⟩ : Vec3 ℚ) ⟨-1, 0, 0⟩ ⟨0, 1, 0⟩ ⟨0, 0, 1⟩ ≠ 0 ∧
    (sphere4 (fun x => x) (⟨1, 0, 0⟩ : Vec3 ℚ) ⟨-1, 0, 0⟩ ⟨0, 1, 0⟩ ⟨0, 0, 1⟩ 0).center = ⟨0, 0, 0⟩ := by
  decide +kernel

/-- **C43.** Each of the four points is reported as contained for any non-negative tolerance; four coplanar points
give the degenerate sphere of radius zero at the origin. -/
theorem C43_sphere_contains (nrm : Vec3 K → K) (hN : IsNorm nrm) (sqrt : K → K) (hS : IsSqrt sqrt)
    (p1 p2 p3 p4 : Vec3 K) :
    (det4one p1 p2 p3 p4 ≠ 0 → ∀ p ∈ [p1, p2, p3, p4], ∀ tol : K, 0 ≤ tol →
      (sphere4 sqrt p1 p2 p3 p4 0).contains nrm p tol = true) ∧
    (det4one p1 p2 p3 p4 = 0 → sphere4 sqrt p1 p2 p3 p4 0 = ⟨⟨0, 0, 0⟩, 0⟩) := by
  constructor
  · intro h p hp tol ht
    have := C43_sphere nrm hN sqrt hS p1 p2 p3 p4 h p (by simpa using hp)
    unfold Ball.contains
    rw [this, decide_eq_true_eq]
    linarith
  · intro h
    have hm : |det4 p1 1 p2 1 p3 1 p4 1| ≤ (0 : K) * 0 := by
      rw [mul_zero, abs_nonpos_iff]; exact h
    unfold sphere4
    simp only [if_pos hm]

/-- **C43** (partial: see `C43_circle_undefined`). For three points of a plane `z = const`, the circle built by the
constructor passes through all three, provided either the first side is vertical and the second horizontal, or
neither side is vertical and the first is not horizontal (the slopes the source divides by are finite and non-zero),
and the points are not collinear. -/
theorem C43_circle_partial (nrm : Vec3 K → K) (hN : IsNorm nrm) (p1 p2 p3 : Vec3 K) (hz2 : p2.z = p1.z)
    (hz3 : p3.z = p1.z)
    (hgen : (p2.x = p1.x ∧ p3.y = p2.y) ∨ (p2.x ≠ p1.x ∧ p3.x ≠ p2.x ∧ p2.y ≠ p1.y))
    (hcol : (p2.x - p1.x) * (p3.y - p2.y) - (p2.y - p1.y) * (p3.x - p2.x) ≠ 0) :
    ∃ b, circle3 nrm p1 p2 p3 0 = some b ∧ ∀ p ∈ [p1, p2, p3], nrm (p - b.center) = b.radius := by
  have fin : ∀ c : Vec3 K, (p2 - c).normSq = (p1 - c).normSq → (p3 - c).normSq = (p1 - c).normSq →
      ∀ p ∈ [p1, p2, p3], nrm (p - c) = nrm (p1 - c) := by
    intro c h2 h3 p hp
    simp only [List.mem_cons, List.not_mem_nil, or_false] at hp
    rcases hp with rfl | rfl | rfl
    · rfl
    · exact hN.eq_of_sq (hN.nonneg _) (by rw [hN.sq, h2])
    · exact hN.eq_of_sq (hN.nonneg _) (by rw [hN.sq, h3])
  unfold circle3
  simp only [mul_zero, abs_nonpos_iff, sub_eq_zero]
  rcases hgen with ⟨hx, hy⟩ | ⟨hx, hx', hy⟩
  · rw [if_pos ⟨hx, hy⟩]
    refine ⟨_, rfl, fin _ ?_ ?_⟩
    · simp only [Vec3.normSq, Vec3.dot, Vec3.sub_x, Vec3.sub_y, Vec3.sub_z, hz2, hx]; ring
    · simp only [Vec3.normSq, Vec3.dot, Vec3.sub_x, Vec3.sub_y, Vec3.sub_z, hz3, hx, hy]; ring
  · rw [if_neg (fun h => hx h.1)]
    have ha : p2.x - p1.x ≠ 0 := sub_ne_zero.2 hx
    have hb : p3.x - p2.x ≠ 0 := sub_ne_zero.2 hx'
    have hya : p2.y - p1.y ≠ 0 := sub_ne_zero.2 hy
    set sa := (p2.y - p1.y) / (p2.x - p1.x) with hsa
    set sb := (p3.y - p2.y) / (p3.x - p2.x) with hsb
    have hsa0 : sa ≠ 0 := div_ne_zero hya ha
    have ea : p2.y - p1.y = sa * (p2.x - p1.x) := by rw [hsa]; field_simp
    have eb : p3.y - p2.y = sb * (p3.x - p2.x) := by rw [hsb]; field_simp
    have hne : sa ≠ sb := by
      intro he
      apply hcol
      rw [ea, eb, he]; ring
    have hden : 2 * (sb - sa) ≠ 0 := mul_ne_zero two_ne_zero (sub_ne_zero.2 (Ne.symm hne))
    have hd' : sb - sa ≠ 0 := sub_ne_zero.2 (Ne.symm hne)
    simp only [fdiv, if_neg ha, if_neg hb, Option.bind_eq_bind, Option.bind_some, ← hsa, ← hsb, if_neg hne,
      if_neg hden, if_neg hsa0]
    set cx := (sa * sb * (p1.y - p3.y) + sb * (p1.x + p2.x) - sa * (p2.x + p3.x)) / (2 * (sb - sa)) with hcx
    have ecx : cx * (2 * (sb - sa)) = sa * sb * (p1.y - p3.y) + sb * (p1.x + p2.x) - sa * (p2.x + p3.x) := by
      rw [hcx]; field_simp
    set cy := -(cx - (p1.x + p2.x) * (1 / 2)) / sa + (p1.y + p2.y) * (1 / 2) with hcy
    have ecy : (cy - (p1.y + p2.y) / 2) * sa = -(cx - (p1.x + p2.x) / 2) := by
      rw [hcy]; field_simp; ring
    refine ⟨_, rfl, fin _ ?_ ?_⟩
    · simp only [Vec3.normSq, Vec3.dot, Vec3.sub_x, Vec3.sub_y, Vec3.sub_z, hz2]
      -- perpendicular bisector of the first side
      have : (p2.x - p1.x) * ((cy - (p1.y + p2.y) / 2) * sa + (cx - (p1.x + p2.x) / 2)) = 0 := by
        rw [ecy]; ring
      linear_combination (-2 : K) * this - (2 * cy - (p1.y + p2.y)) * ea
    · simp only [Vec3.normSq, Vec3.dot, Vec3.sub_x, Vec3.sub_y, Vec3.sub_z, hz3]
      -- the second bisector follows after multiplying by the slope of the first side
      have h1 : (p2.x - p1.x) * ((cy - (p1.y + p2.y) / 2) * sa + (cx - (p1.x + p2.x) / 2)) = 0 := by
        rw [ecy]; ring
      have h2 : sa * ((cy - (p2.y + p3.y) / 2) * sb + (cx - (p2.x + p3.x) / 2)) = 0 := by
        linear_combination sb * ecy - ecx / 2
      have h3 : (cy - (p2.y + p3.y) / 2) * sb + (cx - (p2.x + p3.x) / 2) = 0 :=
        (mul_eq_zero.1 h2).resolve_left hsa0
      linear_combination (-2 : K) * h1 - (2 * cy - (p1.y + p2.y)) * ea - 2 * (p3.x - p2.x) * h3 -
        (2 * cy - (p2.y + p3.y)) * eb

example : circle3 (fun v : Vec3 ℚ => |v.x|) ⟨-1, 0, 0⟩ ⟨0, 1, 0⟩ ⟨1, 0, 0⟩ 0 = some ⟨⟨0, 0, 0⟩, 1⟩ := by
  decide +kernel

/-- The full claim fails: for perfectly good triangles whose first side is horizontal, or with one vertical side not
paired with a horizontal one, the constructor divides by zero and the centre is not a number. -/
theorem C43_circle_undefined (nrm : Vec3 K → K) (p1 p2 p3 : Vec3 K)
    (hcol : (p2.x - p1.x) * (p3.y - p2.y) - (p2.y - p1.y) * (p3.x - p2.x) ≠ 0)
    (h : p2.y = p1.y ∨ (p3.x = p2.x) ∨ (p2.x = p1.x ∧ p3.y ≠ p2.y)) :
    circle3 nrm p1 p2 p3 0 = none := by
  unfold circle3
  simp only [mul_zero, abs_nonpos_iff, sub_eq_zero]
  have hnot : ¬ (p2.x = p1.x ∧ p3.y = p2.y) := by
    rintro ⟨h1, h2⟩
    rcases h with h | h | h
    · exact hcol (by rw [h1, h]; ring)
    · exact hcol (by rw [h, h1]; ring)
    · exact h.2 h2
  rw [if_neg hnot]
  unfold fdiv
  by_cases hx : p2.x - p1.x = 0
  · simp [hx]
  · simp only [if_neg hx, Option.bind_eq_bind, Option.bind_some]
    by_cases hx' : p3.x - p2.x = 0
    · simp [hx']
    · simp only [if_neg hx', Option.bind_some]
      have hy : p2.y = p1.y := by
        rcases h with h | h | h
        · exact h
        · exact absurd (sub_eq_zero.2 h) hx'
        · exact absurd (sub_eq_zero.2 h.1) hx
      have hsa : (p2.y - p1.y) / (p2.x - p1.x) = 0 := by rw [hy]; simp
      rw [hsa]
      have hsb : (p3.y - p2.y) / (p3.x - p2.x) ≠ 0 := by
        apply div_ne_zero _ hx'
        intro h0
        exact hcol (by rw [h0, hy]; ring)
      rw [if_neg (Ne.symm hsb), if_neg (by simpa using hsb)]
      simp

example : circle3 (fun v : Vec3 ℚ => |v.x|) ⟨0, 0, 0⟩ ⟨1, 0, 0⟩ ⟨0, 1, 0⟩ 0 = none := by decide +kernel

end ENigMA
