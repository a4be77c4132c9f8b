import Verif.Stl.SplitProps
import Mathlib.Analysis.SpecialFunctions.Trigonometric.Inverse

/-!
# The measures of facets, over the real numbers
-/

set_option linter.unusedSectionVars false
set_option autoImplicit false

namespace ENigMA
namespace Stl

/-- `norm()` of a vector. -/
noncomputable def length (v : Vec3 ℝ) : ℝ := √v.normSq

/-- trunk/src/geometry/GeoVector_Imp.hpp:17-32, `angle`; `eps` stands for `numeric_limits<Real>::epsilon()`. -/
noncomputable def angle (eps : ℝ) (u v : Vec3 ℝ) : ℝ :=
  let rad := if eps < u.normSq ∧ eps < v.normSq then u.dot v / √(u.normSq * v.normSq) else 0
  let rad := if rad < -1 then -1 else rad
  let rad := if 1 < rad then 1 else rad
  Real.arccos rad

/-- trunk/src/stl/StlUtils_Imp.hpp:780-789: the quality of a facet. -/
noncomputable def quality (eps : ℝ) (p0 p1 p2 : Vec3 ℝ) : ℝ :=
  let v0 := p1 - p0
  let v1 := p2 - p1
  let v2 := p0 - p2
  let a := angle eps v0 (-v2)
  let b := angle eps v1 (-v0)
  let c := angle eps v2 (-v1)
  let d := Real.sin a + Real.sin b + Real.sin c
  if eps < d then 4 * Real.sin a * Real.sin b * Real.sin c / d else 0

/-- The measures of the code; the normals of new facets do not matter here. -/
noncomputable def realGauge (eps : ℝ) (normal : Vec3 ℝ → Vec3 ℝ → Vec3 ℝ → Vec3 ℝ) : Gauge ℝ := ⟨length, quality eps, normal⟩

/-- Twice the area. -/
noncomputable def area2 (a b c : Vec3 ℝ) : ℝ := length (Vec3.cross (b - a) (c - a))

theorem length_smul {t : ℝ} (ht : 0 ≤ t) (v : Vec3 ℝ) : length (t • v) = t * length v := by
  unfold length
  rw [show (t • v).normSq = t ^ 2 * v.normSq by simp [Vec3.normSq, Vec3.dot]; ring, Real.sqrt_mul (by positivity), Real.sqrt_sq ht]

theorem area2_like : AreaLike area2 := by
  refine ⟨fun a b c => Real.sqrt_nonneg _, fun a b c => ?_, fun a b c t h0 h1 => ⟨?_, ?_⟩⟩
  · unfold area2
    congr 1
    ext <;> simp <;> ring
  · unfold area2
    rw [← length_smul h0.le]
    congr 1
    ext <;> simp <;> ring
  · unfold area2
    rw [← length_smul (by linarith : 0 ≤ 1 - t)]
    congr 1
    ext <;> simp <;> ring

theorem area2_additive : Additive area2 :=
  ⟨area2_like.turn, fun a b c t h0 h1 => by rw [(area2_like.cut a b c t h0 h1).1, (area2_like.cut a b c t h0 h1).2]; ring⟩

theorem lagrange (u v : Vec3 ℝ) : (Vec3.cross u v).normSq = u.normSq * v.normSq - u.dot v ^ 2 := by
  simp only [Vec3.normSq, Vec3.dot, Vec3.cross_x, Vec3.cross_y, Vec3.cross_z]; ring

theorem sin_angle_mem (eps : ℝ) (u v : Vec3 ℝ) : 0 ≤ Real.sin (angle eps u v) ∧ Real.sin (angle eps u v) ≤ 1 := by
  refine ⟨?_, Real.sin_le_one _⟩
  unfold angle
  exact Real.sin_nonneg_of_mem_Icc ⟨Real.arccos_nonneg _, Real.arccos_le_pi _⟩

theorem sin_angle {eps : ℝ} (h0 : 0 ≤ eps) {u v : Vec3 ℝ} (hu : eps < u.normSq) (hv : eps < v.normSq) : Real.sin (angle eps u v) * (length u * length v) = length (Vec3.cross u v) := by
  have pu : 0 < u.normSq := lt_of_le_of_lt h0 hu
  have pv : 0 < v.normSq := lt_of_le_of_lt h0 hv
  have pp : 0 < u.normSq * v.normSq := mul_pos pu pv
  have hl := lagrange u v
  have hn : 0 ≤ (Vec3.cross u v).normSq := Vec3.normSq_nonneg _
  set r := u.dot v / √(u.normSq * v.normSq) with hr
  have hr2 : r ^ 2 = u.dot v ^ 2 / (u.normSq * v.normSq) := by rw [hr, div_pow, Real.sq_sqrt pp.le]
  have hr1 : r ^ 2 ≤ 1 := by rw [hr2, div_le_one pp]; linarith
  have hb := abs_le.1 ((sq_le_one_iff_abs_le_one r).1 hr1)
  have ha : angle eps u v = Real.arccos r := by
    unfold angle
    simp only [hu, hv, and_self, if_true, ← hr]
    rw [if_neg (by linarith : ¬ r < -1), if_neg (by linarith : ¬ 1 < r)]
  rw [ha, Real.sin_arccos]
  unfold length
  rw [← Real.sqrt_mul pu.le, ← Real.sqrt_mul (by linarith), hr2]
  congr 1
  rw [hl]
  field_simp

theorem quality_le {eps : ℝ} (h0 : 0 ≤ eps) {x y z : ℝ} (hx : 0 ≤ x) (hy : 0 ≤ y ∧ y ≤ 1) (hz : 0 ≤ z ∧ z ≤ 1) : (if eps < x + y + z then 4 * x * y * z / (x + y + z) else 0) ≤ 2 * x := by
  split_ifs with h
  · rw [div_le_iff₀ (by linarith)]
    have h1 : y * z ≤ y := by nlinarith [hy.1, hz.2]
    have h2 : y * z ≤ z := by nlinarith [hz.1, hy.2]
    nlinarith [mul_nonneg hx hx, mul_nonneg hx (sub_nonneg.2 h1), mul_nonneg hx (sub_nonneg.2 h2)]
  · linarith

theorem length_gt {x : ℝ} (hx : 0 ≤ x) {v : Vec3 ℝ} : x < length v ↔ x ^ 2 < v.normSq := by
  unfold length
  exact Real.lt_sqrt hx

theorem length_neg (v : Vec3 ℝ) : length (-v) = length v := by
  unfold length
  congr 1
  simp [Vec3.normSq, Vec3.dot]

/-- One corner with a long and a short, but not tiny edge is enough. -/
theorem corner_bound {eps size fq x : ℝ} (h0 : 0 < eps) (hs : √eps ≤ size) (hq : 0 < fq) (hx : fq ≤ 2 * x) {u v : Vec3 ℝ} (hsin : x = Real.sin (angle eps u v)) (h : (size < length u ∧ √eps < length v) ∨ (size < length v ∧ √eps < length u)) :
    fq * size * √eps / 2 ≤ length (Vec3.cross u v) := by
  have he : 0 < √eps := Real.sqrt_pos.2 h0
  have hu : √eps < length u := by rcases h with h | h <;> linarith [h.1, h.2]
  have hv : √eps < length v := by rcases h with h | h <;> linarith [h.1, h.2]
  have h1 := (length_gt he.le).1 hu
  have h2 := (length_gt he.le).1 hv
  rw [Real.sq_sqrt h0.le] at h1 h2
  rw [← sin_angle h0.le h1 h2, ← hsin]
  have hp : size * √eps ≤ length u * length v := by
    rcases h with ⟨a1, a2⟩ | ⟨a1, a2⟩
    · exact mul_le_mul a1.le a2.le he.le (by linarith)
    · rw [mul_comm (length u)]
      exact mul_le_mul a1.le a2.le he.le (by linarith)
  have hp0 : 0 < size * √eps := mul_pos (by linarith) he
  nlinarith [mul_le_mul hx hp hp0.le (by linarith : (0 : ℝ) ≤ 2 * x)]

theorem bigEdge_long (g : Gauge ℝ) {size : ℝ} {p0 p1 p2 : Vec3 ℝ} (h : size < (bigEdge g p0 p1 p2).2) : size < g.norm (p1 - p0) ∨ size < g.norm (p2 - p1) ∨ size < g.norm (p0 - p2) := by
  unfold bigEdge at h
  simp only at h
  split_ifs at h <;> simp only at h <;> simp [h]

theorem other_long {eps size : ℝ} (h0 : 0 < eps) (hs : 2 * √eps ≤ size) {u v w : Vec3 ℝ} (hsum : u + v + w = 0) (h : size < length u) : √eps < length v ∨ √eps < length w := by
  have he : 0 < √eps := Real.sqrt_pos.2 h0
  by_contra hc
  rw [not_or, not_lt, not_lt] at hc
  have h1 := (length_gt (by linarith : 0 ≤ 2 * √eps)).1 (lt_of_le_of_lt hs h)
  have h2 : v.normSq ≤ eps := by
    by_contra h'
    exact absurd ((length_gt he.le).2 (by rw [Real.sq_sqrt h0.le]; exact not_le.1 h')) (not_lt.2 hc.1)
  have h3 : w.normSq ≤ eps := by
    by_contra h'
    exact absurd ((length_gt he.le).2 (by rw [Real.sq_sqrt h0.le]; exact not_le.1 h')) (not_lt.2 hc.2)
  rw [mul_pow, Real.sq_sqrt h0.le] at h1
  have hu : u = -(v + w) := by
    rw [eq_neg_iff_add_eq_zero, ← add_assoc]; exact hsum
  have h4 : u.normSq ≤ 2 * v.normSq + 2 * w.normSq := by
    rw [hu]
    simp only [Vec3.normSq, Vec3.dot, Vec3.neg_x, Vec3.neg_y, Vec3.neg_z, Vec3.add_x, Vec3.add_y, Vec3.add_z]
    nlinarith [sq_nonneg (v.x - w.x), sq_nonneg (v.y - w.y), sq_nonneg (v.z - w.z)]
  linarith

theorem big_area {eps size fq : ℝ} (h0 : 0 < eps) (hs : 2 * √eps ≤ size) (hq : 0 < fq) (normal : Vec3 ℝ → Vec3 ℝ → Vec3 ℝ → Vec3 ℝ) (p0 p1 p2 : Vec3 ℝ) (h1 : fq ≤ (realGauge eps normal).quality p0 p1 p2)
    (h2 : size < (bigEdge (realGauge eps normal) p0 p1 p2).2) : fq * size * √eps / 2 ≤ area2 p0 p1 p2 := by
  have he : 0 < √eps := Real.sqrt_pos.2 h0
  have hs' : √eps ≤ size := by linarith
  have h1' : fq ≤ quality eps p0 p1 p2 := h1
  unfold quality at h1'
  simp only at h1'
  have ma := sin_angle_mem eps (p1 - p0) (-(p0 - p2))
  have mb := sin_angle_mem eps (p2 - p1) (-(p1 - p0))
  have mc := sin_angle_mem eps (p0 - p2) (-(p2 - p1))
  have ga : fq ≤ 2 * Real.sin (angle eps (p1 - p0) (-(p0 - p2))) := le_trans h1' (quality_le h0.le ma.1 mb mc)
  have gb : fq ≤ 2 * Real.sin (angle eps (p2 - p1) (-(p1 - p0))) := by
    refine le_trans h1' (le_trans (le_of_eq ?_) (quality_le h0.le mb.1 ma mc))
    rw [add_comm (Real.sin (angle eps (p1 - p0) (-(p0 - p2))))]
    congr 2
    ring
  have gc : fq ≤ 2 * Real.sin (angle eps (p0 - p2) (-(p2 - p1))) := by
    refine le_trans h1' (le_trans (le_of_eq ?_) (quality_le h0.le mc.1 ma mb))
    rw [show ∀ a b c : ℝ, a + b + c = c + a + b from fun a b c => by ring]
    congr 2
    ring
  have area_a : area2 p0 p1 p2 = length (Vec3.cross (p1 - p0) (-(p0 - p2))) := by unfold area2; congr 1; ext <;> simp <;> ring
  have area_b : area2 p0 p1 p2 = length (Vec3.cross (p2 - p1) (-(p1 - p0))) := by unfold area2; congr 1; ext <;> simp <;> ring
  have area_c : area2 p0 p1 p2 = length (Vec3.cross (p0 - p2) (-(p2 - p1))) := by unfold area2; congr 1; ext <;> simp <;> ring
  have s0 : (p1 - p0) + (p2 - p1) + (p0 - p2) = 0 := by abel
  have s1 : (p2 - p1) + (p0 - p2) + (p1 - p0) = 0 := by abel
  have s2 : (p0 - p2) + (p1 - p0) + (p2 - p1) = 0 := by abel
  have A := corner_bound h0 hs' hq ga rfl
  have B := corner_bound h0 hs' hq gb rfl
  have C := corner_bound h0 hs' hq gc rfl
  rw [← area_a, length_neg] at A
  rw [← area_b, length_neg] at B
  rw [← area_c, length_neg] at C
  rcases bigEdge_long _ h2 with h | h | h
  · rcases other_long h0 hs s0 h with h' | h'
    · exact B (Or.inr ⟨h, h'⟩)
    · exact A (Or.inl ⟨h, h'⟩)
  · rcases other_long h0 hs s1 h with h' | h'
    · exact C (Or.inr ⟨h, h'⟩)
    · exact B (Or.inl ⟨h, h'⟩)
  · rcases other_long h0 hs s2 h with h' | h'
    · exact A (Or.inr ⟨h, h'⟩)
    · exact C (Or.inl ⟨h, h'⟩)

end Stl
end ENigMA
