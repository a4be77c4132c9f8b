import Verif.Mesh.Quality
import Verif.Mesh.ContainerSpec
import Mathlib.Tactic.Linarith
import Mathlib.Tactic.LinearCombination
import Mathlib.Tactic.FieldSimp
import Mathlib.Tactic.Positivity

/-!
# C82: quality of elements
-/

set_option linter.unusedSectionVars false
set_option autoImplicit false

namespace ENigMA
open Quality

namespace Quality

/-- Distance of two points. -/
noncomputable def len (p q : Vec3 ℝ) : ℝ := realNorm (q - p)

/-- The quality of a triangle with sides of the lengths `a`, `b`, `c`: twice the radius of the inscribed circle over that of the circumscribed circle. -/
noncomputable def radiusRatio (a b c : ℝ) : ℝ := (b + c - a) * (c + a - b) * (a + b - c) / (a * b * c)

/-- The sides of the triangle are not too short to have an angle: the square of their lengths is above `epsilon`. -/
def Sized (eps : ℝ) (p0 p1 p2 : Vec3 ℝ) : Prop := eps < (p1 - p0).normSq ∧ eps < (p2 - p1).normSq ∧ eps < (p0 - p2).normSq

theorem lagrange (a b : Vec3 ℝ) : (Vec3.cross a b).normSq = a.normSq * b.normSq - a.dot b ^ 2 := by
  simp only [Vec3.normSq, Vec3.dot, Vec3.cross_x, Vec3.cross_y, Vec3.cross_z]; ring

theorem normSq_neg (a : Vec3 ℝ) : (-a).normSq = a.normSq := by simp [Vec3.normSq, Vec3.dot]

theorem realNorm_neg (a : Vec3 ℝ) : realNorm (-a) = realNorm a := by simp [realNorm, normSq_neg]

theorem realNorm_sq (a : Vec3 ℝ) : realNorm a ^ 2 = a.normSq := by rw [sq]; exact isNorm_real.sq a

theorem sin_angle {eps : ℝ} (h0 : 0 ≤ eps) {a b : Vec3 ℝ} (ha : eps < a.normSq) (hb : eps < b.normSq) :
    Real.sin (angle eps a b) = realNorm (Vec3.cross a b) / (realNorm a * realNorm b) := by
  have hA : 0 < a.normSq := by linarith
  have hB : 0 < b.normSq := by linarith
  have hAB := mul_pos hA hB
  have hs := Real.sqrt_pos.2 hAB
  have hsq : Real.sqrt (a.normSq * b.normSq) ^ 2 = a.normSq * b.normSq := Real.sq_sqrt hAB.le
  have hx : (a.dot b / Real.sqrt (a.normSq * b.normSq)) ^ 2 = a.dot b ^ 2 / (a.normSq * b.normSq) := by rw [div_pow, hsq]
  have hle : a.dot b ^ 2 ≤ a.normSq * b.normSq := by
    have := Vec3.normSq_nonneg (Vec3.cross a b); rw [lagrange] at this; linarith
  have hx1 : (a.dot b / Real.sqrt (a.normSq * b.normSq)) ^ 2 ≤ 1 := by rw [hx, div_le_one hAB]; exact hle
  obtain ⟨l1, l2⟩ := abs_le.1 ((sq_le_one_iff_abs_le_one _).1 hx1)
  unfold angle
  rw [if_pos ⟨ha, hb⟩]
  simp only [gt_iff_lt, not_lt.2 l1, if_false, not_lt.2 l2]
  rw [Real.sin_arccos, hx]
  unfold realNorm
  rw [lagrange, ← Real.sqrt_mul hA.le, ← Real.sqrt_div (by linarith)]
  congr 1
  field_simp

/-- The value computed from the sines is the ratio of the radii. -/
theorem corners_eq {eps : ℝ} (h0 : 0 ≤ eps) (f : ℝ) {p0 p1 p2 : Vec3 ℝ} (h : Sized eps p0 p1 p2) :
    corners eps f p0 p1 p2 = if eps < 2 * ((Tri.mk p0 p1 p2).normalArea realNorm).2 * (len p0 p1 + len p1 p2 + len p2 p0) / (len p0 p1 * len p1 p2 * len p2 p0)
      then f / 4 * radiusRatio (len p0 p1) (len p1 p2) (len p2 p0) else 0 := by
  obtain ⟨h1, h2, h3⟩ := h
  have s0 := sin_angle h0 h1 (b := -(p0 - p2)) (by rw [normSq_neg]; exact h3)
  have s1 := sin_angle h0 h2 (b := -(p1 - p0)) (by rw [normSq_neg]; exact h1)
  have s2 := sin_angle h0 h3 (b := -(p2 - p1)) (by rw [normSq_neg]; exact h2)
  have c0 : realNorm (Vec3.cross (p1 - p0) (-(p0 - p2))) = realNorm (Tri.mk p0 p1 p2).rawNormal := by
    congr 1; ext <;> simp [Tri.rawNormal]
  have c1 : realNorm (Vec3.cross (p2 - p1) (-(p1 - p0))) = realNorm (Tri.mk p0 p1 p2).rawNormal := by
    congr 1; ext <;> simp [Tri.rawNormal] <;> ring
  have c2 : realNorm (Vec3.cross (p0 - p2) (-(p2 - p1))) = realNorm (Tri.mk p0 p1 p2).rawNormal := by
    congr 1; ext <;> simp [Tri.rawNormal] <;> ring
  have area : 2 * ((Tri.mk p0 p1 p2).normalArea realNorm).2 = realNorm (Tri.mk p0 p1 p2).rawNormal := by
    simp only [Tri.normalArea]; ring
  rw [c0, realNorm_neg] at s0
  rw [c1, realNorm_neg] at s1
  rw [c2, realNorm_neg] at s2
  rw [area]
  unfold corners
  simp only [s0, s1, s2]
  have ha : 0 < len p0 p1 := Real.sqrt_pos.2 (by linarith)
  have hb : 0 < len p1 p2 := Real.sqrt_pos.2 (by linarith)
  have hc : 0 < len p2 p0 := Real.sqrt_pos.2 (by linarith)
  have qa : len p0 p1 ^ 2 = (p1 - p0).normSq := realNorm_sq _
  have qb : len p1 p2 ^ 2 = (p2 - p1).normSq := realNorm_sq _
  have qc : len p2 p0 ^ 2 = (p0 - p2).normSq := realNorm_sq _
  have qD : realNorm (Tri.mk p0 p1 p2).rawNormal ^ 2 = (Tri.mk p0 p1 p2).rawNormal.normSq := realNorm_sq _
  have hD : 0 ≤ realNorm (Tri.mk p0 p1 p2).rawNormal := isNorm_real.nonneg _
  have heron : 4 * (Tri.mk p0 p1 p2).rawNormal.normSq = 2 * (p1 - p0).normSq * (p2 - p1).normSq + 2 * (p2 - p1).normSq * (p0 - p2).normSq +
      2 * (p0 - p2).normSq * (p1 - p0).normSq - (p1 - p0).normSq ^ 2 - (p2 - p1).normSq ^ 2 - (p0 - p2).normSq ^ 2 := by
    simp only [Tri.rawNormal, Vec3.normSq, Vec3.dot, Vec3.cross_x, Vec3.cross_y, Vec3.cross_z, Vec3.sub_x, Vec3.sub_y, Vec3.sub_z]; ring
  change (if eps < _ / (len p0 p1 * len p2 p0) + _ / (len p1 p2 * len p0 p1) + _ / (len p2 p0 * len p1 p2) then
    f * (_ / (len p0 p1 * len p2 p0)) * (_ / (len p1 p2 * len p0 p1)) * (_ / (len p2 p0 * len p1 p2)) /
      (_ / (len p0 p1 * len p2 p0) + _ / (len p1 p2 * len p0 p1) + _ / (len p2 p0 * len p1 p2)) else 0) = _
  rw [← qa, ← qb, ← qc, ← qD] at heron
  generalize len p0 p1 = a at *
  generalize len p1 p2 = b at *
  generalize len p2 p0 = c at *
  generalize realNorm (Tri.mk p0 p1 p2).rawNormal = D at *
  have hd : D / (a * c) + D / (b * a) + D / (c * b) = D * (a + b + c) / (a * b * c) := by field_simp; ring
  rw [hd]
  split_ifs with hif
  · have hpos : 0 < D * (a + b + c) / (a * b * c) := by linarith
    have hD' : D ≠ 0 := by rintro rfl; simp at hpos
    unfold radiusRatio
    have : a + b + c ≠ 0 := by positivity
    field_simp
    linear_combination f * heron
  · rfl

theorem abs_dot_le (a b : Vec3 ℝ) : |a.dot b| ≤ realNorm a * realNorm b := by
  have ha := isNorm_real.nonneg a
  have hb := isNorm_real.nonneg b
  refine abs_le_of_sq_le_sq ?_ (mul_nonneg ha hb)
  rw [mul_pow, realNorm_sq, realNorm_sq]
  have := Vec3.normSq_nonneg (Vec3.cross a b)
  rw [lagrange] at this
  linarith

theorem norm_cross_le (a b : Vec3 ℝ) : realNorm (Vec3.cross a b) ≤ realNorm a * realNorm b := by
  have ha := isNorm_real.nonneg a
  have hb := isNorm_real.nonneg b
  refine abs_le_of_sq_le_sq' ?_ (mul_nonneg ha hb) |>.2
  rw [mul_pow, realNorm_sq, realNorm_sq, realNorm_sq, lagrange]
  nlinarith [sq_nonneg (a.dot b)]

theorem norm_add_le (a b : Vec3 ℝ) : realNorm (a + b) ≤ realNorm a + realNorm b := by
  have ha := isNorm_real.nonneg a
  have hb := isNorm_real.nonneg b
  refine abs_le_of_sq_le_sq' ?_ (add_nonneg ha hb) |>.2
  have e : (a + b).normSq = a.normSq + b.normSq + 2 * a.dot b := by simp only [Vec3.normSq, Vec3.dot, Vec3.add_x, Vec3.add_y, Vec3.add_z]; ring
  have h := (abs_le.1 (abs_dot_le a b)).2
  rw [realNorm_sq, e, add_sq, realNorm_sq, realNorm_sq]
  linarith

theorem triangle_sides (p0 p1 p2 : Vec3 ℝ) : len p0 p1 ≤ len p1 p2 + len p2 p0 := by
  have h := norm_add_le (-(p2 - p1)) (-(p0 - p2))
  have e : -(p2 - p1) + -(p0 - p2) = p1 - p0 := by ext <;> simp
  rw [e, realNorm_neg, realNorm_neg] at h
  exact h

/-- The ratio of the radii of a triangle is between zero and one, and one only for equal sides. -/
theorem ratio_bounds {a b c : ℝ} (ha : 0 < a) (hb : 0 < b) (hc : 0 < c) (h1 : a ≤ b + c) (h2 : b ≤ c + a) (h3 : c ≤ a + b) :
    0 ≤ radiusRatio a b c ∧ radiusRatio a b c ≤ 1 ∧ (radiusRatio a b c = 1 ↔ a = b ∧ b = c) := by
  have hp : 0 < a * b * c := by positivity
  have hx : 0 ≤ b + c - a := by linarith
  have hy : 0 ≤ c + a - b := by linarith
  have hz : 0 ≤ a + b - c := by linarith
  have key : a * b * c - (b + c - a) * (c + a - b) * (a + b - c) =
      1 / 2 * ((b + c - a) * (b - c) ^ 2 + (c + a - b) * (c - a) ^ 2 + (a + b - c) * (a - b) ^ 2) := by ring
  have k1 := mul_nonneg hx (sq_nonneg (b - c))
  have k2 := mul_nonneg hy (sq_nonneg (c - a))
  have k3 := mul_nonneg hz (sq_nonneg (a - b))
  refine ⟨by unfold radiusRatio; positivity, by unfold radiusRatio; rw [div_le_one hp]; linarith, ?_⟩
  unfold radiusRatio
  rw [div_eq_one_iff_eq hp.ne']
  constructor
  · intro h
    rw [h, sub_self] at key
    have e1 : (b + c - a) * (b - c) ^ 2 = 0 := by linarith
    have e2 : (c + a - b) * (c - a) ^ 2 = 0 := by linarith
    have e3 : (a + b - c) * (a - b) ^ 2 = 0 := by linarith
    have f1 : b + c - a ≠ 0 := by rintro h'; rw [h'] at h; simp at h; rcases h with (h | h) | h <;> linarith
    have f2 : c + a - b ≠ 0 := by rintro h'; rw [h'] at h; simp at h; rcases h with (h | h) | h <;> linarith
    have f3 : a + b - c ≠ 0 := by rintro h'; rw [h'] at h; simp at h; rcases h with (h | h) | h <;> linarith
    have g1 := pow_eq_zero_iff (two_ne_zero) |>.1 ((mul_eq_zero.1 e1).resolve_left f1)
    have g3 := pow_eq_zero_iff (two_ne_zero) |>.1 ((mul_eq_zero.1 e3).resolve_left f3)
    constructor <;> linarith
  · rintro ⟨rfl, rfl⟩; ring

/-- Heron's formula for the area the library calculates. -/
theorem heron_area (t : Tri ℝ) : (len t.v0 t.v1 + len t.v1 t.v2 + len t.v2 t.v0) * ((len t.v1 t.v2 + len t.v2 t.v0 - len t.v0 t.v1) *
    (len t.v2 t.v0 + len t.v0 t.v1 - len t.v1 t.v2) * (len t.v0 t.v1 + len t.v1 t.v2 - len t.v2 t.v0)) = (t.normalArea realNorm).2 ^ 2 * 16 := by
  have qa : len t.v0 t.v1 ^ 2 = (t.v1 - t.v0).normSq := realNorm_sq _
  have qb : len t.v1 t.v2 ^ 2 = (t.v2 - t.v1).normSq := realNorm_sq _
  have qc : len t.v2 t.v0 ^ 2 = (t.v0 - t.v2).normSq := realNorm_sq _
  have qD : (t.normalArea realNorm).2 ^ 2 * 4 = t.rawNormal.normSq := by
    rw [← realNorm_sq]; simp only [Tri.normalArea]; ring
  have heron : 4 * t.rawNormal.normSq = 2 * (t.v1 - t.v0).normSq * (t.v2 - t.v1).normSq + 2 * (t.v2 - t.v1).normSq * (t.v0 - t.v2).normSq +
      2 * (t.v0 - t.v2).normSq * (t.v1 - t.v0).normSq - (t.v1 - t.v0).normSq ^ 2 - (t.v2 - t.v1).normSq ^ 2 - (t.v0 - t.v2).normSq ^ 2 := by
    simp only [Tri.rawNormal, Vec3.normSq, Vec3.dot, Vec3.cross_x, Vec3.cross_y, Vec3.cross_z, Vec3.sub_x, Vec3.sub_y, Vec3.sub_z]; ring
  rw [← qa, ← qb, ← qc, ← qD] at heron
  linear_combination -heron

theorem tri_area_nonneg (t : Tri ℝ) : 0 ≤ (t.normalArea realNorm).2 := mul_nonneg (isNorm_real.nonneg _) (by norm_num)

theorem corners_bounds {eps : ℝ} (h0 : 0 ≤ eps) {f : ℝ} (hf : 0 ≤ f) {p0 p1 p2 : Vec3 ℝ} (h : Sized eps p0 p1 p2) : 0 ≤ corners eps f p0 p1 p2 ∧ corners eps f p0 p1 p2 ≤ f / 4 := by
  have ha : 0 < len p0 p1 := Real.sqrt_pos.2 (by linarith [h.1])
  have hb : 0 < len p1 p2 := Real.sqrt_pos.2 (by linarith [h.2.1])
  have hc : 0 < len p2 p0 := Real.sqrt_pos.2 (by linarith [h.2.2])
  obtain ⟨r1, r2, -⟩ := ratio_bounds ha hb hc (triangle_sides _ _ _) (triangle_sides _ _ _) (triangle_sides _ _ _)
  rw [corners_eq h0 f h]
  split_ifs
  · exact ⟨mul_nonneg (by linarith) r1, by nlinarith⟩
  · exact ⟨le_rfl, by linarith⟩

theorem angle_tiny {eps : ℝ} {a b : Vec3 ℝ} (h : a.normSq ≤ eps ∨ b.normSq ≤ eps) : Real.sin (angle eps a b) = 1 := by
  have : ¬(a.normSq > eps ∧ b.normSq > eps) := by rintro ⟨h1, h2⟩; rcases h with h | h <;> linarith
  unfold angle
  rw [if_neg this]
  norm_num

theorem angle_comm (eps : ℝ) (a b : Vec3 ℝ) : angle eps a b = angle eps b a := by
  unfold angle
  simp only [Vec3.dot_comm a b, mul_comm a.normSq, and_comm]

theorem angle_neg (eps : ℝ) (a b : Vec3 ℝ) : angle eps (-a) b = angle eps a (-b) := by
  unfold angle
  simp only [normSq_neg, Vec3.neg_dot, Vec3.dot_neg]

theorem angle_turn (eps : ℝ) (a b : Vec3 ℝ) : angle eps (-a) (- -b) = angle eps b (-a) := by
  rw [neg_neg, angle_comm]

end Quality

/-- **C82, triangles.** With sides that are not too short, the quality is twice the ratio of the radii of the inscribed and the circumscribed circle, or zero for a triangle that is
almost a line (its sines sum to at most `epsilon`); it is between zero and one, and one for equilateral triangles only. -/
theorem C82_triangle {eps : ℝ} (h0 : 0 ≤ eps) (h2 : eps < 2) (t : Tri ℝ) (h : Sized eps t.v0 t.v1 t.v2) :
    triangle eps t = (if eps * (len t.v0 t.v1 * len t.v1 t.v2 * len t.v2 t.v0) < 2 * (t.normalArea realNorm).2 * (len t.v0 t.v1 + len t.v1 t.v2 + len t.v2 t.v0)
      then radiusRatio (len t.v0 t.v1) (len t.v1 t.v2) (len t.v2 t.v0) else 0) ∧
    0 ≤ triangle eps t ∧ triangle eps t ≤ 1 ∧ (triangle eps t = 1 ↔ len t.v0 t.v1 = len t.v1 t.v2 ∧ len t.v1 t.v2 = len t.v2 t.v0) := by
  have ha : 0 < len t.v0 t.v1 := Real.sqrt_pos.2 (by linarith [h.1])
  have hb : 0 < len t.v1 t.v2 := Real.sqrt_pos.2 (by linarith [h.2.1])
  have hc : 0 < len t.v2 t.v0 := Real.sqrt_pos.2 (by linarith [h.2.2])
  obtain ⟨r1, r2, r3⟩ := ratio_bounds ha hb hc (triangle_sides _ _ _) (triangle_sides _ _ _) (triangle_sides _ _ _)
  have e := corners_eq h0 4 h
  rw [div_self (by norm_num), one_mul] at e
  change triangle eps t = if eps < 2 * (t.normalArea realNorm).2 * _ / _ then _ else _ at e
  have hA := heron_area t
  have hA0 := tri_area_nonneg t
  simp only [lt_div_iff₀ (mul_pos (mul_pos ha hb) hc)] at e
  refine ⟨e, ?_⟩
  generalize (t.normalArea realNorm).2 = A at *
  generalize len t.v0 t.v1 = a at *
  generalize len t.v1 t.v2 = b at *
  generalize len t.v2 t.v0 = c at *
  split_ifs at e with hif
  · rw [e]; exact ⟨r1, r2, r3⟩
  · rw [e]
    refine ⟨le_rfl, zero_le_one, fun h => absurd h (by norm_num), ?_⟩
    rintro ⟨rfl, rfl⟩
    exfalso
    apply hif
    have h3 : A ^ 2 * 16 = 3 * a ^ 4 := by linear_combination -hA
    have hAa : a ^ 2 ≤ 3 * A := by
      by_contra hcon
      have hcon := not_le.1 hcon
      have : (3 * A) ^ 2 < (a ^ 2) ^ 2 := pow_lt_pow_left₀ hcon (by linarith) two_ne_zero
      nlinarith [pow_pos ha 4]
    have : eps * (a * a * a) < 2 * (a * a * a) := mul_lt_mul_of_pos_right h2 (by positivity)
    nlinarith [mul_le_mul_of_nonneg_right hAa ha.le]

/-- **C82, tiny triangles.** When the squares of two sides are at most `epsilon`, the quality is 4/3, whatever the shape. -/
theorem C82_triangle_tiny {eps : ℝ} (h3 : eps < 3) (t : Tri ℝ) (h1 : (t.v1 - t.v0).normSq ≤ eps) (h2 : (t.v2 - t.v1).normSq ≤ eps) : triangle eps t = 4 / 3 := by
  unfold triangle corners
  have e1 := angle_tiny (eps := eps) (a := t.v1 - t.v0) (b := -(t.v0 - t.v2)) (Or.inl h1)
  have e2 := angle_tiny (eps := eps) (a := t.v2 - t.v1) (b := -(t.v1 - t.v0)) (Or.inl h2)
  have e3 := angle_tiny (eps := eps) (a := t.v0 - t.v2) (b := -(t.v2 - t.v1)) (Or.inr (by rw [normSq_neg]; exact h2))
  simp only [e1, e2, e3]
  rw [if_pos (by norm_num; exact h3)]
  norm_num

/-- **C82, vertices in another order.** The quality of a triangle does not depend on its first vertex nor on its orientation. -/
theorem C82_triangle_order (eps : ℝ) (a b c : Vec3 ℝ) : triangle eps ⟨b, c, a⟩ = triangle eps ⟨a, b, c⟩ ∧ triangle eps ⟨a, c, b⟩ = triangle eps ⟨a, b, c⟩ := by
  constructor
  · unfold triangle corners
    simp only
    have e : ∀ x y z : ℝ, x + y + z = z + x + y := fun x y z => by ring
    rw [e (Real.sin (angle eps (c - b) (-(b - a))))]
    congr 2
    ring
  · unfold triangle corners
    simp only
    have e0 : angle eps (c - a) (-(a - b)) = angle eps (b - a) (-(a - c)) := by rw [angle_comm, neg_sub, neg_sub]
    have e1 : angle eps (b - c) (-(c - a)) = angle eps (a - c) (-(c - b)) := by rw [angle_comm, neg_sub, neg_sub]
    have e2 : angle eps (a - b) (-(b - c)) = angle eps (c - b) (-(b - a)) := by rw [angle_comm, neg_sub, neg_sub]
    rw [e0, e1, e2]
    have e : ∀ x y z : ℝ, x + y + z = x + z + y := fun x y z => by ring
    rw [e (Real.sin (angle eps (b - a) (-(a - c))))]
    congr 2
    ring

/-- **C82, similar triangles.** The quality depends on the ratio of the sides only, for triangles that are not too small. -/
theorem C82_triangle_similar {eps : ℝ} (h0 : 0 ≤ eps) (h2 : eps < 2) (t t' : Tri ℝ) (h : Sized eps t.v0 t.v1 t.v2) (h' : Sized eps t'.v0 t'.v1 t'.v2) (s : ℝ)
    (e0 : len t'.v0 t'.v1 = s * len t.v0 t.v1) (e1 : len t'.v1 t'.v2 = s * len t.v1 t.v2) (e2 : len t'.v2 t'.v0 = s * len t.v2 t.v0) : triangle eps t' = triangle eps t := by
  have ha : 0 < len t.v0 t.v1 := Real.sqrt_pos.2 (by linarith [h.1])
  have ha' : 0 < len t'.v0 t'.v1 := Real.sqrt_pos.2 (by linarith [h'.1])
  have hs : 0 < s := by rw [e0] at ha'; exact (mul_pos_iff_of_pos_right ha).1 ha'
  have hA : (t'.normalArea realNorm).2 = s ^ 2 * (t.normalArea realNorm).2 := by
    have e := heron_area t
    have e' := heron_area t'
    rw [e0, e1, e2] at e'
    have : (t'.normalArea realNorm).2 ^ 2 = (s ^ 2 * (t.normalArea realNorm).2) ^ 2 := by linear_combination s ^ 4 * e / 16 - e' / 16
    exact (pow_left_inj₀ (tri_area_nonneg t') (mul_nonneg (sq_nonneg s) (tri_area_nonneg t)) two_ne_zero).1 this
  rw [(C82_triangle h0 h2 t h).1, (C82_triangle h0 h2 t' h').1, e0, e1, e2, hA]
  have hr : radiusRatio (s * len t.v0 t.v1) (s * len t.v1 t.v2) (s * len t.v2 t.v0) = radiusRatio (len t.v0 t.v1) (len t.v1 t.v2) (len t.v2 t.v0) := by
    unfold radiusRatio
    rw [show s * len t.v0 t.v1 * (s * len t.v1 t.v2) * (s * len t.v2 t.v0) = s ^ 3 * (len t.v0 t.v1 * len t.v1 t.v2 * len t.v2 t.v0) by ring,
      ← mul_div_mul_left _ (len t.v0 t.v1 * len t.v1 t.v2 * len t.v2 t.v0) (pow_pos hs 3).ne']
    congr 1; ring
  rw [hr]
  congr 1
  have e3 : ∀ x y : ℝ, s ^ 3 * x < s ^ 3 * y ↔ x < y := fun x y => mul_lt_mul_iff_right₀ (pow_pos hs 3)
  apply propext
  rw [← e3 (eps * (len t.v0 t.v1 * len t.v1 t.v2 * len t.v2 t.v0))]
  constructor <;> intro h <;> linarith


/-- **C82, quadrilaterals.** The quality is between zero and one; it is one for squares only (the diagonals cut each other in the middle, at a right angle, and have the same length),
and zero when the diagonals are parallel. It is not defined when all corners coincide. -/
theorem C82_quadrilateral (q : Quad ℝ) :
    (quadrilateral q = none ↔ q.v1 = q.v0 ∧ q.v2 = q.v0 ∧ q.v3 = q.v0) ∧
    ∀ x, quadrilateral q = some x → 0 ≤ x ∧ x ≤ 1 ∧ (x = 0 ↔ Vec3.cross (q.v2 - q.v0) (q.v3 - q.v1) = 0) ∧
      (x = 1 ↔ q.v0 + q.v2 = q.v1 + q.v3 ∧ (q.v2 - q.v0).dot (q.v3 - q.v1) = 0 ∧ (q.v2 - q.v0).normSq = (q.v3 - q.v1).normSq) := by
  have n0 := Vec3.normSq_nonneg (q.v1 - q.v0)
  have n1 := Vec3.normSq_nonneg (q.v2 - q.v1)
  have n2 := Vec3.normSq_nonneg (q.v3 - q.v2)
  have n3 := Vec3.normSq_nonneg (q.v0 - q.v3)
  have euler : (q.v1 - q.v0).normSq + (q.v2 - q.v1).normSq + (q.v3 - q.v2).normSq + (q.v0 - q.v3).normSq =
      (q.v2 - q.v0).normSq + (q.v3 - q.v1).normSq + (q.v0 + q.v2 - (q.v1 + q.v3)).normSq := by
    simp only [Vec3.normSq, Vec3.dot, Vec3.sub_x, Vec3.sub_y, Vec3.sub_z, Vec3.add_x, Vec3.add_y, Vec3.add_z]; ring
  have d1 := Vec3.normSq_nonneg (q.v2 - q.v0)
  have d2 := Vec3.normSq_nonneg (q.v3 - q.v1)
  have d3 := Vec3.normSq_nonneg (q.v0 + q.v2 - (q.v1 + q.v3))
  have hc := norm_cross_le (q.v2 - q.v0) (q.v3 - q.v1)
  have hc0 := isNorm_real.nonneg (Vec3.cross (q.v2 - q.v0) (q.v3 - q.v1))
  have q1 := realNorm_sq (q.v2 - q.v0)
  have q2 := realNorm_sq (q.v3 - q.v1)
  have qc := realNorm_sq (Vec3.cross (q.v2 - q.v0) (q.v3 - q.v1))
  rw [lagrange] at qc
  constructor
  · unfold quadrilateral
    simp only [ite_eq_left_iff, reduceCtorEq, imp_false, not_not]
    constructor
    · intro h
      have e0 : (q.v1 - q.v0).normSq = 0 := by linarith
      have e1 : (q.v2 - q.v1).normSq = 0 := by linarith
      have e2 : (q.v3 - q.v2).normSq = 0 := by linarith
      have e0 := sub_eq_zero.1 (Vec3.normSq_eq_zero.1 e0)
      have e1 := sub_eq_zero.1 (Vec3.normSq_eq_zero.1 e1)
      have e2 := sub_eq_zero.1 (Vec3.normSq_eq_zero.1 e2)
      exact ⟨e0, e1.trans e0, e2.trans (e1.trans e0)⟩
    · rintro ⟨e0, e1, e2⟩
      rw [e0, e1, e2]
      simp [Vec3.normSq]
  · intro x hx
    unfold quadrilateral at hx
    simp only at hx
    rw [euler] at hx
    split_ifs at hx with hz
    simp only [Option.some.injEq, Quad.normalArea] at hx
    have hpos : 0 < (q.v2 - q.v0).normSq + (q.v3 - q.v1).normSq + (q.v0 + q.v2 - (q.v1 + q.v3)).normSq := lt_of_le_of_ne (by linarith) (Ne.symm hz)
    have hx' : x = 2 * realNorm (Vec3.cross (q.v2 - q.v0) (q.v3 - q.v1)) / ((q.v2 - q.v0).normSq + (q.v3 - q.v1).normSq + (q.v0 + q.v2 - (q.v1 + q.v3)).normSq) := by
      rw [← hx]; congr 1; ring
    rw [hx']
    have hab := sq_nonneg (realNorm (q.v2 - q.v0) - realNorm (q.v3 - q.v1))
    refine ⟨div_nonneg (by linarith) hpos.le, ?_, ?_, ?_⟩
    · rw [div_le_one hpos]; nlinarith
    · rw [div_eq_zero_iff, or_iff_left hpos.ne']
      rw [mul_eq_zero, or_iff_right two_ne_zero, isNorm_real.eq_zero]
    · rw [div_eq_one_iff_eq hpos.ne']
      constructor
      · intro h
        have h3 : (q.v0 + q.v2 - (q.v1 + q.v3)).normSq = 0 := by nlinarith
        have hn : (realNorm (q.v2 - q.v0) - realNorm (q.v3 - q.v1)) ^ 2 = 0 := by nlinarith
        have hn := sub_eq_zero.1 ((pow_eq_zero_iff two_ne_zero).1 hn)
        have hnn : (q.v2 - q.v0).normSq = (q.v3 - q.v1).normSq := by rw [← q1, ← q2, hn]
        refine ⟨sub_eq_zero.1 (Vec3.normSq_eq_zero.1 h3), ?_, hnn⟩
        have : realNorm (Vec3.cross (q.v2 - q.v0) (q.v3 - q.v1)) = (q.v2 - q.v0).normSq := by linarith
        rw [this, ← hnn] at qc
        have : (q.v2 - q.v0).dot (q.v3 - q.v1) ^ 2 = 0 := by linarith
        exact (pow_eq_zero_iff two_ne_zero).1 this
      · rintro ⟨h1, h2, h3⟩
        rw [h1, sub_self, h3]
        rw [h2, h3] at qc
        have : realNorm (Vec3.cross (q.v2 - q.v0) (q.v3 - q.v1)) = (q.v3 - q.v1).normSq :=
          (pow_left_inj₀ hc0 d2 two_ne_zero).1 (by rw [qc]; ring)
        rw [this]
        simp [Vec3.normSq]
        ring

namespace Quality

/-- The distance of a vertex from the middle of the opposite face. -/
noncomputable def median (p a b c : Vec3 ℝ) : ℝ := realNorm (p - (1 / 3 : ℝ) • (a + b + c))

theorem volume_median {n d : Vec3 ℝ} {A m V : ℝ} (hA : A = realNorm n * (1 / 2)) (hm : m = realNorm d) (hV : V = n.dot d / 6 ∨ V = -(n.dot d) / 6) : 3 * |V| ≤ A * m := by
  have h := abs_dot_le n d
  have e : |V| = |n.dot d| / 6 := by
    rcases hV with rfl | rfl <;> rw [abs_div] <;> simp
  rw [e, hA, hm]
  linarith

theorem two_le {u v x : ℝ} (hu : 0 ≤ u) (hv : 0 ≤ v) (h : x ^ 2 ≤ u * v) : 2 * x ≤ u + v := by
  have : (2 * x) ^ 2 ≤ (u + v) ^ 2 := by nlinarith [sq_nonneg (u - v)]
  exact le_of_sq_le_sq (by linarith) (by linarith)
where
  le_of_sq_le_sq {a b : ℝ} (h : a ^ 2 ≤ b ^ 2) (hb : 0 ≤ b) : a ≤ b := (abs_le_of_sq_le_sq' h hb).2

/-- The sum of the medians of a tetrahedron bounds its volume by its surface. -/
theorem surface_medians {A0 A1 A2 A3 m0 m1 m2 m3 x : ℝ} (hx : 0 ≤ x) (a0 : 0 ≤ A0) (a1 : 0 ≤ A1) (a2 : 0 ≤ A2) (a3 : 0 ≤ A3) (b0 : 0 ≤ m0) (b1 : 0 ≤ m1) (b2 : 0 ≤ m2) (b3 : 0 ≤ m3)
    (h0 : x ≤ A0 * m0) (h1 : x ≤ A1 * m1) (h2 : x ≤ A2 * m2) (h3 : x ≤ A3 * m3) : 16 * x ≤ (A0 + A1 + A2 + A3) * (m0 + m1 + m2 + m3) := by
  have key : ∀ {A m B n : ℝ}, 0 ≤ A → 0 ≤ m → 0 ≤ B → 0 ≤ n → x ≤ A * m → x ≤ B * n → 2 * x ≤ A * n + B * m := by
    intro A m B n hA hm hB hn h h'
    refine two_le (mul_nonneg hA hn) (mul_nonneg hB hm) ?_
    have := mul_le_mul h h' hx (mul_nonneg hA hm)
    nlinarith
  have k01 := key a0 b0 a1 b1 h0 h1
  have k02 := key a0 b0 a2 b2 h0 h2
  have k03 := key a0 b0 a3 b3 h0 h3
  have k12 := key a1 b1 a2 b2 h1 h2
  have k13 := key a1 b1 a3 b3 h1 h3
  have k23 := key a2 b2 a3 b3 h2 h3
  nlinarith

end Quality


namespace Quality

theorem longest_le (t : Tet ℝ) : realNorm (t.v1 - t.v0) ≤ longest t ∧ realNorm (t.v2 - t.v1) ≤ longest t ∧ realNorm (t.v0 - t.v2) ≤ longest t ∧
    realNorm (t.v3 - t.v0) ≤ longest t ∧ realNorm (t.v3 - t.v1) ≤ longest t ∧ realNorm (t.v3 - t.v2) ≤ longest t := by
  unfold longest
  refine ⟨?_, ?_, ?_, ?_, ?_, ?_⟩ <;> simp [le_max_iff]

/-- All edges have the length `l`. -/
def Regular (t : Tet ℝ) (l : ℝ) : Prop := (t.v1 - t.v0).normSq = l ^ 2 ∧ (t.v2 - t.v1).normSq = l ^ 2 ∧ (t.v0 - t.v2).normSq = l ^ 2 ∧
  (t.v3 - t.v0).normSq = l ^ 2 ∧ (t.v3 - t.v1).normSq = l ^ 2 ∧ (t.v3 - t.v2).normSq = l ^ 2

/-- The sum of the medians. -/
noncomputable def medians (t : Tet ℝ) : ℝ := median t.v3 t.v0 t.v1 t.v2 + median t.v2 t.v0 t.v1 t.v3 + median t.v0 t.v1 t.v2 t.v3 + median t.v1 t.v2 t.v0 t.v3

theorem surface_nonneg (t : Tet ℝ) : 0 ≤ surfaceArea t := by
  unfold surfaceArea
  have := tri_area_nonneg (Tri.mk t.v0 t.v1 t.v2)
  have := tri_area_nonneg (Tri.mk t.v0 t.v1 t.v3)
  have := tri_area_nonneg (Tri.mk t.v1 t.v2 t.v3)
  have := tri_area_nonneg (Tri.mk t.v2 t.v0 t.v3)
  linarith

theorem tet_surface (t : Tet ℝ) : 48 * |t.volume| ≤ surfaceArea t * medians t := by
  have e3 := volume_median (n := (Tri.mk t.v0 t.v1 t.v2).rawNormal) (d := t.v3 - (1 / 3 : ℝ) • (t.v0 + t.v1 + t.v2)) (V := t.volume) rfl rfl (by
    first
    | (left; simp only [Tet.volume, det4one, det4, det3, Tri.rawNormal, Vec3.dot, Vec3.cross_x, Vec3.cross_y, Vec3.cross_z, Vec3.sub_x, Vec3.sub_y, Vec3.sub_z, Vec3.smul_x, Vec3.smul_y,
        Vec3.smul_z, Vec3.add_x, Vec3.add_y, Vec3.add_z]; ring1)
    | (right; simp only [Tet.volume, det4one, det4, det3, Tri.rawNormal, Vec3.dot, Vec3.cross_x, Vec3.cross_y, Vec3.cross_z, Vec3.sub_x, Vec3.sub_y, Vec3.sub_z, Vec3.smul_x, Vec3.smul_y,
        Vec3.smul_z, Vec3.add_x, Vec3.add_y, Vec3.add_z]; ring1))
  have e2 := volume_median (n := (Tri.mk t.v0 t.v1 t.v3).rawNormal) (d := t.v2 - (1 / 3 : ℝ) • (t.v0 + t.v1 + t.v3)) (V := t.volume) rfl rfl (by
    first
    | (left; simp only [Tet.volume, det4one, det4, det3, Tri.rawNormal, Vec3.dot, Vec3.cross_x, Vec3.cross_y, Vec3.cross_z, Vec3.sub_x, Vec3.sub_y, Vec3.sub_z, Vec3.smul_x, Vec3.smul_y,
        Vec3.smul_z, Vec3.add_x, Vec3.add_y, Vec3.add_z]; ring1)
    | (right; simp only [Tet.volume, det4one, det4, det3, Tri.rawNormal, Vec3.dot, Vec3.cross_x, Vec3.cross_y, Vec3.cross_z, Vec3.sub_x, Vec3.sub_y, Vec3.sub_z, Vec3.smul_x, Vec3.smul_y,
        Vec3.smul_z, Vec3.add_x, Vec3.add_y, Vec3.add_z]; ring1))
  have e0 := volume_median (n := (Tri.mk t.v1 t.v2 t.v3).rawNormal) (d := t.v0 - (1 / 3 : ℝ) • (t.v1 + t.v2 + t.v3)) (V := t.volume) rfl rfl (by
    first
    | (left; simp only [Tet.volume, det4one, det4, det3, Tri.rawNormal, Vec3.dot, Vec3.cross_x, Vec3.cross_y, Vec3.cross_z, Vec3.sub_x, Vec3.sub_y, Vec3.sub_z, Vec3.smul_x, Vec3.smul_y,
        Vec3.smul_z, Vec3.add_x, Vec3.add_y, Vec3.add_z]; ring1)
    | (right; simp only [Tet.volume, det4one, det4, det3, Tri.rawNormal, Vec3.dot, Vec3.cross_x, Vec3.cross_y, Vec3.cross_z, Vec3.sub_x, Vec3.sub_y, Vec3.sub_z, Vec3.smul_x, Vec3.smul_y,
        Vec3.smul_z, Vec3.add_x, Vec3.add_y, Vec3.add_z]; ring1))
  have e1 := volume_median (n := (Tri.mk t.v2 t.v0 t.v3).rawNormal) (d := t.v1 - (1 / 3 : ℝ) • (t.v2 + t.v0 + t.v3)) (V := t.volume) rfl rfl (by
    first
    | (left; simp only [Tet.volume, det4one, det4, det3, Tri.rawNormal, Vec3.dot, Vec3.cross_x, Vec3.cross_y, Vec3.cross_z, Vec3.sub_x, Vec3.sub_y, Vec3.sub_z, Vec3.smul_x, Vec3.smul_y,
        Vec3.smul_z, Vec3.add_x, Vec3.add_y, Vec3.add_z]; ring1)
    | (right; simp only [Tet.volume, det4one, det4, det3, Tri.rawNormal, Vec3.dot, Vec3.cross_x, Vec3.cross_y, Vec3.cross_z, Vec3.sub_x, Vec3.sub_y, Vec3.sub_z, Vec3.smul_x, Vec3.smul_y,
        Vec3.smul_z, Vec3.add_x, Vec3.add_y, Vec3.add_z]; ring1))
  have := surface_medians (x := 3 * |t.volume|) (by positivity) (tri_area_nonneg (Tri.mk t.v0 t.v1 t.v2)) (tri_area_nonneg (Tri.mk t.v0 t.v1 t.v3))
    (tri_area_nonneg (Tri.mk t.v1 t.v2 t.v3)) (tri_area_nonneg (Tri.mk t.v2 t.v0 t.v3)) (isNorm_real.nonneg _) (isNorm_real.nonneg _) (isNorm_real.nonneg _)
    (isNorm_real.nonneg _) e3 e2 e0 e1
  unfold surfaceArea medians median
  linarith

theorem medians_sq (t : Tet ℝ) : medians t ^ 2 ≤ 16 / 9 * ((t.v1 - t.v0).normSq + (t.v2 - t.v1).normSq + (t.v0 - t.v2).normSq + (t.v3 - t.v0).normSq +
    (t.v3 - t.v1).normSq + (t.v3 - t.v2).normSq) := by
  have q : median t.v3 t.v0 t.v1 t.v2 ^ 2 + median t.v2 t.v0 t.v1 t.v3 ^ 2 + median t.v0 t.v1 t.v2 t.v3 ^ 2 + median t.v1 t.v2 t.v0 t.v3 ^ 2 =
      4 / 9 * ((t.v1 - t.v0).normSq + (t.v2 - t.v1).normSq + (t.v0 - t.v2).normSq + (t.v3 - t.v0).normSq + (t.v3 - t.v1).normSq + (t.v3 - t.v2).normSq) := by
    simp only [median, realNorm_sq, Vec3.normSq, Vec3.dot, Vec3.sub_x, Vec3.sub_y, Vec3.sub_z, Vec3.smul_x, Vec3.smul_y, Vec3.smul_z, Vec3.add_x, Vec3.add_y, Vec3.add_z]; ring
  have c : ∀ a b c d : ℝ, (a + b + c + d) ^ 2 ≤ 4 * (a ^ 2 + b ^ 2 + c ^ 2 + d ^ 2) := fun a b c d => by
    nlinarith [sq_nonneg (a - b), sq_nonneg (a - c), sq_nonneg (a - d), sq_nonneg (b - c), sq_nonneg (b - d), sq_nonneg (c - d)]
  refine (c _ _ _ _).trans ?_
  linarith

theorem longest_nonneg (t : Tet ℝ) : 0 ≤ longest t := (isNorm_real.nonneg _).trans (longest_le t).1

theorem edges_le (t : Tet ℝ) : (t.v1 - t.v0).normSq ≤ longest t ^ 2 ∧ (t.v2 - t.v1).normSq ≤ longest t ^ 2 ∧ (t.v0 - t.v2).normSq ≤ longest t ^ 2 ∧
    (t.v3 - t.v0).normSq ≤ longest t ^ 2 ∧ (t.v3 - t.v1).normSq ≤ longest t ^ 2 ∧ (t.v3 - t.v2).normSq ≤ longest t ^ 2 := by
  obtain ⟨h1, h2, h3, h4, h5, h6⟩ := longest_le t
  have k : ∀ v : Vec3 ℝ, realNorm v ≤ longest t → v.normSq ≤ longest t ^ 2 := fun v hv => by
    rw [← realNorm_sq]; exact pow_le_pow_left₀ (isNorm_real.nonneg v) hv 2
  exact ⟨k _ h1, k _ h2, k _ h3, k _ h4, k _ h5, k _ h6⟩

/-- The bound, and the case of equality. -/
theorem tet_bound (t : Tet ℝ) : 6 * Real.sqrt 6 * |t.volume| ≤ surfaceArea t * longest t ∧
    (6 * Real.sqrt 6 * |t.volume| = surfaceArea t * longest t → 0 < surfaceArea t * longest t → Regular t (longest t)) := by
  have hS := surface_nonneg t
  have hL := longest_nonneg t
  have hV := tet_surface t
  have hM := medians_sq t
  obtain ⟨h1, h2, h3, h4, h5, h6⟩ := edges_le t
  have s6 : Real.sqrt 6 ^ 2 = 6 := Real.sq_sqrt (by norm_num)
  have s0 : 0 < Real.sqrt 6 := Real.sqrt_pos.2 (by norm_num)
  have hM' : medians t ≤ 4 * Real.sqrt 6 / 3 * longest t := by
    refine (abs_le_of_sq_le_sq' ?_ (by positivity)).2
    rw [mul_pow, div_pow, mul_pow, s6]
    linarith
  have h7 := mul_le_mul_of_nonneg_left hM' hS
  refine ⟨?_, fun he hp => ?_⟩
  · have : 48 * |t.volume| ≤ 4 * Real.sqrt 6 / 3 * (surfaceArea t * longest t) := by linarith
    have h8 := mul_le_mul_of_nonneg_left this s0.le
    have h9 : Real.sqrt 6 * (4 * Real.sqrt 6 / 3 * (surfaceArea t * longest t)) = 8 * (surfaceArea t * longest t) := by
      linear_combination 4 / 3 * (surfaceArea t * longest t) * s6
    rw [h9] at h8
    linarith
  · have hS' : 0 < surfaceArea t := lt_of_le_of_ne hS fun h => by rw [← h] at hp; simp at hp
    have e : 48 * |t.volume| = surfaceArea t * (4 * Real.sqrt 6 / 3 * longest t) := by
      have : Real.sqrt 6 * (48 * |t.volume|) = Real.sqrt 6 * (surfaceArea t * (4 * Real.sqrt 6 / 3 * longest t)) := by
        linear_combination 8 * he - 4 / 3 * surfaceArea t * longest t * s6
      exact mul_left_cancel₀ s0.ne' this
    have hge : 4 * Real.sqrt 6 / 3 * longest t ≤ medians t := by
      rw [e] at hV; exact le_of_mul_le_mul_left hV hS'
    have := pow_le_pow_left₀ (by positivity) hge 2
    rw [mul_pow, div_pow, mul_pow, s6] at this
    exact ⟨by linarith, by linarith, by linarith, by linarith, by linarith, by linarith⟩

theorem regular_eq (t : Tet ℝ) {l : ℝ} (hl : 0 < l) (h : Regular t l) : longest t = l ∧ 0 < surfaceArea t ∧ 6 * Real.sqrt 6 * |t.volume| = surfaceArea t * l := by
  obtain ⟨h1, h2, h3, h4, h5, h6⟩ := h
  have n : ∀ v : Vec3 ℝ, v.normSq = l ^ 2 → realNorm v = l := fun v hv => by
    unfold realNorm; rw [hv, Real.sqrt_sq hl.le]
  have hlong : longest t = l := by
    unfold longest; rw [n _ h1, n _ h2, n _ h3, n _ h4, n _ h5, n _ h6]; simp
  have sym : ∀ a b : Vec3 ℝ, (a - b).normSq = (b - a).normSq := fun a b => by simp only [Vec3.normSq, Vec3.dot, Vec3.sub_x, Vec3.sub_y, Vec3.sub_z]; ring
  have area : ∀ a b c : Vec3 ℝ, (b - a).normSq = l ^ 2 → (c - b).normSq = l ^ 2 → (a - c).normSq = l ^ 2 → ((Tri.mk a b c).normalArea realNorm).2 = Real.sqrt 3 / 4 * l ^ 2 := by
    intro a b c k1 k2 k3
    have e := heron_area (Tri.mk a b c)
    simp only [len, n _ k1, n _ k2, n _ k3] at e
    have s3 : Real.sqrt 3 ^ 2 = 3 := Real.sq_sqrt (by norm_num)
    refine (pow_left_inj₀ (tri_area_nonneg _) (by positivity) two_ne_zero).1 ?_
    rw [mul_pow, div_pow, s3]
    linear_combination -e / 16
  have hS : surfaceArea t = Real.sqrt 3 * l ^ 2 := by
    unfold surfaceArea
    rw [area _ _ _ h1 h2 h3, area _ _ _ h1 h5 (by rw [sym]; exact h4), area _ _ _ h2 h6 (by rw [sym]; exact h5), area _ _ _ h3 h4 (by rw [sym]; exact h6)]
    ring
  have s3 : 0 < Real.sqrt 3 := Real.sqrt_pos.2 (by norm_num)
  refine ⟨hlong, by rw [hS]; positivity, ?_⟩
  have d1 : (t.v1 - t.v0).dot (t.v2 - t.v0) = l ^ 2 / 2 := by
    have : (t.v2 - t.v1).normSq = (t.v1 - t.v0).normSq + (t.v0 - t.v2).normSq - 2 * (t.v1 - t.v0).dot (t.v2 - t.v0) := by
      simp only [Vec3.normSq, Vec3.dot, Vec3.sub_x, Vec3.sub_y, Vec3.sub_z]; ring
    rw [h1, h2, h3] at this; linarith
  have d2 : (t.v1 - t.v0).dot (t.v3 - t.v0) = l ^ 2 / 2 := by
    have : (t.v3 - t.v1).normSq = (t.v1 - t.v0).normSq + (t.v3 - t.v0).normSq - 2 * (t.v1 - t.v0).dot (t.v3 - t.v0) := by
      simp only [Vec3.normSq, Vec3.dot, Vec3.sub_x, Vec3.sub_y, Vec3.sub_z]; ring
    rw [h1, h4, h5] at this; linarith
  have d3 : (t.v2 - t.v0).dot (t.v3 - t.v0) = l ^ 2 / 2 := by
    have : (t.v3 - t.v2).normSq = (t.v0 - t.v2).normSq + (t.v3 - t.v0).normSq - 2 * (t.v2 - t.v0).dot (t.v3 - t.v0) := by
      simp only [Vec3.normSq, Vec3.dot, Vec3.sub_x, Vec3.sub_y, Vec3.sub_z]; ring
    rw [h3, h4, h6] at this; linarith
  have gram : 36 * t.volume ^ 2 = (t.v1 - t.v0).normSq * (t.v0 - t.v2).normSq * (t.v3 - t.v0).normSq +
      2 * (t.v1 - t.v0).dot (t.v2 - t.v0) * (t.v2 - t.v0).dot (t.v3 - t.v0) * (t.v1 - t.v0).dot (t.v3 - t.v0) - (t.v1 - t.v0).normSq * (t.v2 - t.v0).dot (t.v3 - t.v0) ^ 2 -
      (t.v0 - t.v2).normSq * (t.v1 - t.v0).dot (t.v3 - t.v0) ^ 2 - (t.v3 - t.v0).normSq * (t.v1 - t.v0).dot (t.v2 - t.v0) ^ 2 := by
    simp only [Tet.volume, det4one, det4, det3, Vec3.normSq, Vec3.dot, Vec3.cross_x, Vec3.cross_y, Vec3.cross_z, Vec3.sub_x, Vec3.sub_y, Vec3.sub_z]; ring
  rw [d1, d2, d3, h1, h3, h4] at gram
  refine (pow_left_inj₀ (by positivity) (by rw [hS]; positivity) two_ne_zero).1 ?_
  have s6 : Real.sqrt 6 ^ 2 = 6 := Real.sq_sqrt (by norm_num)
  have s3' : Real.sqrt 3 ^ 2 = 3 := Real.sq_sqrt (by norm_num)
  rw [hS, mul_pow, mul_pow, s6, sq_abs, mul_pow, mul_pow, s3']
  linear_combination 6 * gram

end Quality

/-- **C82, tetrahedra.** The quality is between zero and one; it is one for regular tetrahedra only, and zero for flat ones only. -/
theorem C82_tetrahedron (t : Tet ℝ) : 0 ≤ tetrahedron t ∧ tetrahedron t ≤ 1 ∧ (tetrahedron t = 1 ↔ ∃ l, 0 < l ∧ Regular t l) ∧ (tetrahedron t = 0 ↔ t.volume = 0) := by
  obtain ⟨h1, h2⟩ := tet_bound t
  have hn : 0 ≤ surfaceArea t * longest t := mul_nonneg (surface_nonneg t) (longest_nonneg t)
  have s0 : 0 < Real.sqrt 6 := Real.sqrt_pos.2 (by norm_num)
  have hreg : ∀ l, 0 < l → Regular t l → 0 < surfaceArea t * longest t ∧ 6 * Real.sqrt 6 * |t.volume| = surfaceArea t * longest t := fun l hl hr => by
    obtain ⟨a1, a2, a3⟩ := regular_eq t hl hr
    rw [a1]; exact ⟨mul_pos a2 hl, a3⟩
  unfold tetrahedron
  simp only [abs_of_nonneg hn]
  by_cases hp : surfaceArea t * longest t > 0
  · rw [if_pos hp]
    refine ⟨by positivity, (div_le_one hp).2 h1, ?_, ?_⟩
    · rw [div_eq_one_iff_eq hp.ne']
      exact ⟨fun h => ⟨longest t, lt_of_le_of_ne (longest_nonneg t) fun h => by rw [← h] at hp; simp at hp, h2 h hp⟩, fun ⟨l, hl, hr⟩ => (hreg l hl hr).2⟩
    · rw [div_eq_zero_iff, or_iff_left hp.ne', mul_eq_zero, or_iff_right (by positivity), abs_eq_zero]
  · rw [if_neg hp]
    have hz : surfaceArea t * longest t = 0 := le_antisymm (not_lt.1 hp) hn
    refine ⟨le_rfl, zero_le_one, ⟨fun h => absurd h (by norm_num), fun ⟨l, hl, hr⟩ => absurd (hreg l hl hr).1 hp⟩, fun _ => ?_, fun _ => rfl⟩
    rw [hz] at h1
    have := nonpos_of_mul_nonpos_right h1 (by positivity)
    exact abs_nonpos_iff.1 this

/-- **C82, prisms.** With sides that are not too short, the quality is between zero and one: it is the mean of those of the two triangles. -/
theorem C82_prism {eps : ℝ} (h0 : 0 ≤ eps) (p : Prism ℝ) (h : Sized eps p.v0 p.v1 p.v2) (h' : Sized eps p.v3 p.v4 p.v5) :
    prism eps p = (triangle eps ⟨p.v0, p.v1, p.v2⟩ + triangle eps ⟨p.v3, p.v4, p.v5⟩) / 2 ∧ 0 ≤ prism eps p ∧ prism eps p ≤ 1 := by
  obtain ⟨a1, a2⟩ := corners_bounds h0 (f := 2) (by norm_num) h
  obtain ⟨b1, b2⟩ := corners_bounds h0 (f := 2) (by norm_num) h'
  refine ⟨?_, by unfold prism; linarith, by unfold prism; linarith⟩
  unfold prism triangle
  rw [corners_eq h0 2 h, corners_eq h0 2 h', corners_eq h0 4 h, corners_eq h0 4 h']
  split_ifs <;> ring

/-- **C82 fails for prisms**: the height does not count. A prism without volume, between a triangle and itself, has the quality one. -/
theorem C82_prism_flat {eps : ℝ} (h0 : 0 ≤ eps) (h2 : eps < 2) : let p : Prism ℝ := ⟨⟨1, 0, 0⟩, ⟨0, 1, 0⟩, ⟨0, 0, 1⟩, ⟨1, 0, 0⟩, ⟨0, 1, 0⟩, ⟨0, 0, 1⟩⟩
    p.volume = 0 ∧ prism eps p = 1 := by
  intro p
  have hs : Sized eps ⟨1, 0, 0⟩ ⟨0, 1, 0⟩ ⟨0, 0, 1⟩ := by
    refine ⟨?_, ?_, ?_⟩ <;> (simp only [Vec3.normSq, Vec3.dot, Vec3.sub_x, Vec3.sub_y, Vec3.sub_z]; norm_num; exact h2)
  constructor
  · simp [p, Prism.volume, Vec3.dot]
  · have ht := ((C82_triangle h0 h2 ⟨⟨1, 0, 0⟩, ⟨0, 1, 0⟩, ⟨0, 0, 1⟩⟩ hs).2.2.2).2 (by
      constructor <;> (simp only [len, realNorm]; congr 1; simp [Vec3.normSq, Vec3.dot]))
    rw [(C82_prism h0 p hs hs).1]
    change (triangle eps ⟨⟨1, 0, 0⟩, ⟨0, 1, 0⟩, ⟨0, 0, 1⟩⟩ + triangle eps ⟨⟨1, 0, 0⟩, ⟨0, 1, 0⟩, ⟨0, 0, 1⟩⟩) / 2 = 1
    rw [ht]; norm_num


namespace Quality

/-- The nodes of an element of a mesh, in its order. -/
noncomputable def corner (m : Mesh ℝ) (e : Elem) : Option (List (Vec3 ℝ)) := e.nodeIds.mapM m.nodes.get?

/-- An element whose quality is meaningful: its nodes exist and are as many as its type asks for, the sides of triangles (and those of the two ends of prisms) are
longer than the tolerance and a quadrilateral is not a single point. -/
def Measurable (eps : ℝ) (m : Mesh ℝ) (e : Elem) : Prop :=
  match e.elementType with
  | .triangle => ∃ a b c, corner m e = some [a, b, c] ∧ Sized eps a b c
  | .quadrilateral => ∃ a b c d, corner m e = some [a, b, c, d] ∧ ¬ (b = a ∧ c = a ∧ d = a)
  | .tetrahedron => ∃ a b c d, corner m e = some [a, b, c, d]
  | .triangularPrism => ∃ a b c d x y, corner m e = some [a, b, c, d, x, y] ∧ Sized eps a b c ∧ Sized eps d x y
  | _ => True

theorem fold_acc (eps : ℝ) (m : Mesh ℝ) : ∀ (ids : List Int) (a : Acc),
    ids.foldlM (Acc.step eps m) a = (ids.mapM (ofElement eps m)).map fun qs => ⟨qs.foldl (fun x q => min q x) a.min, qs.foldl (fun x q => max q x) a.max, a.sum + qs.sum, a.n + qs.length⟩
  | [], a => by simp
  | id :: ids, a => by
    rw [List.foldlM_cons, List.mapM_cons]
    cases hq : ofElement eps m id with
    | none => simp [Acc.step, hq]
    | some q =>
      simp only [Acc.step, hq, Option.bind_eq_bind, Option.bind_some, Option.pure_def]
      rw [fold_acc eps m ids]
      cases ids.mapM (ofElement eps m) with
      | none => rfl
      | some qs => simp [add_assoc, add_comm, add_left_comm]

theorem foldl_min : ∀ (qs : List ℝ) (x : ℝ), (∀ q ∈ qs, qs.foldl (fun x q => min q x) x ≤ q) ∧ qs.foldl (fun x q => min q x) x ≤ x ∧
    (qs.foldl (fun x q => min q x) x = x ∨ qs.foldl (fun x q => min q x) x ∈ qs)
  | [], x => by simp
  | q :: qs, x => by
    obtain ⟨h1, h2, h3⟩ := foldl_min qs (min q x)
    simp only [List.foldl_cons]
    refine ⟨fun y hy => ?_, h2.trans (min_le_right _ _), ?_⟩
    · rcases List.mem_cons.1 hy with rfl | hy
      · exact h2.trans (min_le_left _ _)
      · exact h1 y hy
    · rcases h3 with h3 | h3
      · rcases min_choice q x with h | h
        · right; rw [h3, h]; exact List.mem_cons_self
        · left; rw [h3, h]
      · exact Or.inr (List.mem_cons_of_mem _ h3)

theorem foldl_max : ∀ (qs : List ℝ) (x : ℝ), (∀ q ∈ qs, q ≤ qs.foldl (fun x q => max q x) x) ∧ x ≤ qs.foldl (fun x q => max q x) x ∧
    (qs.foldl (fun x q => max q x) x = x ∨ qs.foldl (fun x q => max q x) x ∈ qs)
  | [], x => by simp
  | q :: qs, x => by
    obtain ⟨h1, h2, h3⟩ := foldl_max qs (max q x)
    simp only [List.foldl_cons]
    refine ⟨fun y hy => ?_, (le_max_right _ _).trans h2, ?_⟩
    · rcases List.mem_cons.1 hy with rfl | hy
      · exact (le_max_left _ _).trans h2
      · exact h1 y hy
    · rcases h3 with h3 | h3
      · rcases max_choice q x with h | h
        · right; rw [h3, h]; exact List.mem_cons_self
        · left; rw [h3, h]
      · exact Or.inr (List.mem_cons_of_mem _ h3)

end Quality

/-- **C82, elements of a mesh.** Every element with a meaningful quality has one, between zero and one; elements that are not triangles, quadrilaterals, tetrahedra or prisms
have the quality one. -/
theorem C82_element {eps : ℝ} (h0 : 0 ≤ eps) (h2 : eps < 2) (m : Mesh ℝ) (id : Int) (e : Elem) (he : m.elements.get? id = some e) (hm : Measurable eps m e) :
    ∃ q, ofElement eps m id = some q ∧ 0 ≤ q ∧ q ≤ 1 ∧
      (e.elementType ≠ .triangle → e.elementType ≠ .quadrilateral → e.elementType ≠ .tetrahedron → e.elementType ≠ .triangularPrism → q = 1) := by
  unfold ofElement
  rw [he]
  simp only [Option.bind_eq_bind, Option.bind_some]
  unfold Measurable at hm
  unfold corner at hm
  cases ht : e.elementType <;> rw [ht] at hm <;> simp only at hm ⊢
  case triangle =>
    obtain ⟨a, b, c, hc, hs⟩ := hm
    rw [hc]
    obtain ⟨-, q1, q2, -⟩ := C82_triangle h0 h2 ⟨a, b, c⟩ hs
    exact ⟨_, rfl, q1, q2, fun h => absurd rfl h⟩
  case quadrilateral =>
    obtain ⟨a, b, c, d, hc, hs⟩ := hm
    rw [hc]
    obtain ⟨q1, q2⟩ := C82_quadrilateral ⟨a, b, c, d⟩
    cases hq : quadrilateral ⟨a, b, c, d⟩ with
    | none => exact absurd (q1.1 hq) hs
    | some x => exact ⟨x, hq, (q2 x hq).1, (q2 x hq).2.1, fun _ h => absurd rfl h⟩
  case tetrahedron =>
    obtain ⟨a, b, c, d, hc⟩ := hm
    rw [hc]
    obtain ⟨q1, q2, -⟩ := C82_tetrahedron ⟨a, b, c, d⟩
    exact ⟨_, rfl, q1, q2, fun _ _ h => absurd rfl h⟩
  case triangularPrism =>
    obtain ⟨a, b, c, d, x, y, hc, hs, hs'⟩ := hm
    rw [hc]
    obtain ⟨-, q1, q2⟩ := C82_prism h0 ⟨a, b, c, d, x, y⟩ hs hs'
    exact ⟨_, rfl, q1, q2, fun _ _ _ h => absurd rfl h⟩
  all_goals exact ⟨1, rfl, zero_le_one, le_rfl, fun _ _ _ _ => rfl⟩

/-- **C82, mesh.** In a mesh with elements, all of meaningful quality, `meshQuality` gives the least, the greatest and the mean quality. -/
theorem C82_mesh {eps : ℝ} (h0 : 0 ≤ eps) (h2 : eps < 2) (m : Mesh ℝ) (hne : m.elements.ids ≠ []) (hm : ∀ id ∈ m.elements.ids, ∃ e, m.elements.get? id = some e ∧ Measurable eps m e) :
    ∃ qs lo hi ave, m.elements.ids.mapM (ofElement eps m) = some qs ∧ meshQuality eps m = some (lo, hi, ave) ∧ lo ∈ qs ∧ hi ∈ qs ∧ (∀ q ∈ qs, lo ≤ q ∧ q ≤ hi) ∧
      ave * qs.length = qs.sum ∧ qs.length = m.elements.ids.length ∧ 0 ≤ lo ∧ hi ≤ 1 := by
  have hall : ∀ ids : List Int, (∀ id ∈ ids, ∃ e, m.elements.get? id = some e ∧ Measurable eps m e) →
      ∃ qs, ids.mapM (ofElement eps m) = some qs ∧ qs.length = ids.length ∧ ∀ q ∈ qs, 0 ≤ q ∧ q ≤ 1 := by
    intro ids
    induction ids with
    | nil => exact fun _ => ⟨[], by simp, rfl, by simp⟩
    | cons id ids ih =>
      intro h
      obtain ⟨e, he, hme⟩ := h id List.mem_cons_self
      obtain ⟨q, hq, q1, q2, -⟩ := C82_element h0 h2 m id e he hme
      obtain ⟨qs, hqs, hl, hb⟩ := ih fun i hi => h i (List.mem_cons_of_mem _ hi)
      refine ⟨q :: qs, by rw [List.mapM_cons, hq, hqs]; rfl, by simp [hl], fun x hx => ?_⟩
      rcases List.mem_cons.1 hx with rfl | hx
      · exact ⟨q1, q2⟩
      · exact hb x hx
  obtain ⟨qs, hqs, hl, hb⟩ := hall _ hm
  have hne' : qs ≠ [] := fun h => hne (List.length_eq_zero_iff.1 (by rw [← hl, h]; rfl))
  have hpos : 0 < qs.length := List.length_pos_iff.2 hne'
  obtain ⟨a1, -, a3⟩ := foldl_min qs 1
  obtain ⟨b1, -, b3⟩ := foldl_max qs 0
  obtain ⟨x, hx⟩ := List.exists_mem_of_ne_nil qs hne'
  have lo_mem : qs.foldl (fun x q => min q x) 1 ∈ qs := by
    rcases a3 with h | h
    · have := a1 x hx
      rw [h] at this ⊢
      rwa [le_antisymm this (hb x hx).2]
    · exact h
  have hi_mem : qs.foldl (fun x q => max q x) 0 ∈ qs := by
    rcases b3 with h | h
    · have := b1 x hx
      rw [h] at this ⊢
      rwa [← le_antisymm this (hb x hx).1]
    · exact h
  refine ⟨qs, qs.foldl (fun x q => min q x) 1, qs.foldl (fun x q => max q x) 0, qs.sum / qs.length, hqs, ?_, lo_mem, hi_mem, fun q hq => ⟨a1 q hq, b1 q hq⟩, ?_, hl,
    (hb _ lo_mem).1, (hb _ hi_mem).2⟩
  · unfold meshQuality
    rw [fold_acc, hqs]
    simp [hpos]
  · exact div_mul_cancel₀ _ (Nat.cast_ne_zero.2 hpos.ne')

/-- **C82, mesh without elements.** The least quality reported is one, the greatest zero. -/
theorem C82_mesh_empty (eps : ℝ) (m : Mesh ℝ) (h : m.elements.ids = []) : meshQuality eps m = some (1, 0, 0) := by
  unfold meshQuality; rw [h]; simp

namespace Quality

/-- Four alternate corners of a cube, a triangle and the regular tetrahedron on them, and a triangle whose corners are one point. -/
noncomputable def shapes : Mesh ℝ :=
  { (Mesh.empty : Mesh ℝ) with
    nodes := (((Cont.empty.add 1 ⟨1, 0, 0⟩).add 2 ⟨0, 1, 0⟩).add 3 ⟨0, 0, 1⟩).add 4 ⟨1, 1, 1⟩
    elements := (Cont.empty.add 0 { elementType := .triangle, nodeIds := [1, 2, 3] }).add 1 { elementType := .tetrahedron, nodeIds := [1, 2, 3, 4] } }

theorem shapes_sized : Sized (1 / 1000) (⟨1, 0, 0⟩ : Vec3 ℝ) ⟨0, 1, 0⟩ ⟨0, 0, 1⟩ := by
  refine ⟨?_, ?_, ?_⟩ <;> (simp only [Vec3.normSq, Vec3.dot, Vec3.sub_x, Vec3.sub_y, Vec3.sub_z]; norm_num)

/-- The hypotheses of `C82_mesh` are met. -/
example : shapes.elements.ids ≠ [] ∧ ∀ id ∈ shapes.elements.ids, ∃ e, shapes.elements.get? id = some e ∧ Measurable (1 / 1000) shapes e := by
  have e : shapes.elements.ids = [0, 1] := rfl
  rw [e]
  refine ⟨by simp, fun id hid => ?_⟩
  simp only [List.mem_cons, List.not_mem_nil, or_false] at hid
  rcases hid with rfl | rfl
  · exact ⟨_, rfl, _, _, _, rfl, shapes_sized⟩
  · exact ⟨_, rfl, _, _, _, _, rfl⟩

/-- The tetrahedron is regular, of side √2, and so of quality one. -/
example : tetrahedron ⟨⟨1, 0, 0⟩, ⟨0, 1, 0⟩, ⟨0, 0, 1⟩, ⟨1, 1, 1⟩⟩ = 1 := by
  refine (C82_tetrahedron _).2.2.1.2 ⟨Real.sqrt 2, Real.sqrt_pos.2 (by norm_num), ?_⟩
  have s : Real.sqrt 2 ^ 2 = 2 := Real.sq_sqrt (by norm_num)
  refine ⟨?_, ?_, ?_, ?_, ?_, ?_⟩ <;> (rw [s]; simp only [Vec3.normSq, Vec3.dot, Vec3.sub_x, Vec3.sub_y, Vec3.sub_z]; norm_num)

end Quality

/-- **C82 fails for tiny triangles.** A mesh with one triangle, whose three corners are one point: its quality is 4/3, the greatest quality and the mean are 4/3 and the least is
reported as one, which no element has. -/
theorem C82_mesh_tiny {eps : ℝ} (h0 : 0 ≤ eps) (h3 : eps < 3) :
    let m : Mesh ℝ := { (Mesh.empty : Mesh ℝ) with nodes := Cont.empty.add 0 ⟨0, 0, 0⟩, elements := Cont.empty.add 0 { elementType := .triangle, nodeIds := [0, 0, 0] } }
    ofElement eps m 0 = some (4 / 3) ∧ meshQuality eps m = some (1, 4 / 3, 4 / 3) := by
  intro m
  have hq : ofElement eps m 0 = some (4 / 3) := by
    have : ofElement eps m 0 = some (triangle eps ⟨⟨0, 0, 0⟩, ⟨0, 0, 0⟩, ⟨0, 0, 0⟩⟩) := rfl
    rw [this, C82_triangle_tiny h3] <;> simp [Vec3.normSq, Vec3.dot, h0]
  refine ⟨hq, ?_⟩
  have e : m.elements.ids = [0] := rfl
  unfold meshQuality
  rw [fold_acc, e, List.mapM_cons, hq]
  simp
  norm_num

end ENigMA
