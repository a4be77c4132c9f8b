import Verif.Bem.Triangle
import Verif.Bem.Spec
import Verif.Mesh.QualityProps
import Mathlib.Analysis.SpecialFunctions.Arsinh
import Mathlib.MeasureTheory.Integral.IntervalIntegral.FundThmCalculus

/-!
# C131: the coefficient of a triangle with itself is the exact integral
-/

set_option linter.unusedSectionVars false
set_option autoImplicit false

namespace ENigMA
namespace Bem
open Quality

theorem tan_half (x : ℝ) : Real.tan (x / 2) = Real.sin x / (1 + Real.cos x) := by
  have h1 : Real.sin x = 2 * Real.sin (x / 2) * Real.cos (x / 2) := by rw [← Real.sin_two_mul]; congr 1; ring
  have h2 : 1 + Real.cos x = 2 * Real.cos (x / 2) ^ 2 := by
    have := Real.cos_two_mul (x / 2)
    rw [show 2 * (x / 2) = x by ring] at this
    linarith
  rw [h1, h2, Real.tan_eq_sin_div_cos]
  by_cases h : Real.cos (x / 2) = 0
  · simp [h]
  · field_simp

theorem cos_angle {eps : ℝ} (h0 : 0 ≤ eps) {a b : Vec3 ℝ} (ha : eps < a.normSq) (hb : eps < b.normSq) :
    Real.cos (angle eps a b) = a.dot b / (realNorm a * realNorm b) := by
  have hA : 0 < a.normSq := by linarith
  have hB : 0 < b.normSq := by linarith
  have hAB := mul_pos hA hB
  have hsq : Real.sqrt (a.normSq * b.normSq) ^ 2 = a.normSq * b.normSq := Real.sq_sqrt hAB.le
  have hx : (a.dot b / Real.sqrt (a.normSq * b.normSq)) ^ 2 = a.dot b ^ 2 / (a.normSq * b.normSq) := by rw [div_pow, hsq]
  have hle : a.dot b ^ 2 ≤ a.normSq * b.normSq := by
    have := Vec3.normSq_nonneg (Vec3.cross a b); rw [lagrange] at this; linarith
  have hx1 : (a.dot b / Real.sqrt (a.normSq * b.normSq)) ^ 2 ≤ 1 := by rw [hx, div_le_one hAB]; exact hle
  obtain ⟨l1, l2⟩ := abs_le.1 ((sq_le_one_iff_abs_le_one _).1 hx1)
  unfold angle
  rw [if_pos ⟨ha, hb⟩]
  simp only [gt_iff_lt, not_lt.2 l1, if_false, not_lt.2 l2]
  rw [Real.cos_arccos l1 l2, Real.sqrt_mul hA.le]
  rfl

/-- The integral along a side. -/
theorem integral_side {a b L D : ℝ} (hL : 0 < L) (hD : 0 < D) (h : D ^ 2 = a * L ^ 2 - b ^ 2) :
    ∫ t in (0 : ℝ)..1, 1 / √(a + 2 * b * t + L ^ 2 * t ^ 2) = 1 / L * (Real.arsinh ((L ^ 2 + b) / D) - Real.arsinh (b / D)) := by
  have key : ∀ t : ℝ, L ^ 2 * (a + 2 * b * t + L ^ 2 * t ^ 2) = D ^ 2 + (L ^ 2 * t + b) ^ 2 := fun t => by rw [h]; ring
  have pos : ∀ t : ℝ, 0 < a + 2 * b * t + L ^ 2 * t ^ 2 := fun t => by
    have := key t
    have h1 : 0 < D ^ 2 + (L ^ 2 * t + b) ^ 2 := by positivity
    rw [← this] at h1
    exact (mul_pos_iff_of_pos_left (by positivity)).1 h1
  have hder : ∀ t ∈ Set.uIcc (0 : ℝ) 1, HasDerivAt (fun t => 1 / L * Real.arsinh ((L ^ 2 * t + b) / D)) (1 / √(a + 2 * b * t + L ^ 2 * t ^ 2)) t := fun t _ => by
    have h1 : HasDerivAt (fun t : ℝ => (L ^ 2 * t + b) / D) (L ^ 2 / D) t := by
      have := (((hasDerivAt_id t).const_mul (L ^ 2)).add_const b).div_const D
      simpa using this
    have h2 := ((Real.hasDerivAt_arsinh ((L ^ 2 * t + b) / D)).comp t h1).const_mul (1 / L)
    refine h2.congr_deriv ?_
    have h3 : √(1 + ((L ^ 2 * t + b) / D) ^ 2) = L / D * √(a + 2 * b * t + L ^ 2 * t ^ 2) := by
      have : 1 + ((L ^ 2 * t + b) / D) ^ 2 = (L / D) ^ 2 * (a + 2 * b * t + L ^ 2 * t ^ 2) := by
        rw [div_pow, div_pow, div_mul_eq_mul_div, key]; field_simp
      rw [this, Real.sqrt_mul (sq_nonneg _), Real.sqrt_sq (by positivity)]
    rw [h3]
    have := Real.sqrt_pos.2 (pos t)
    field_simp
  have hint : IntervalIntegrable (fun t => 1 / √(a + 2 * b * t + L ^ 2 * t ^ 2)) MeasureTheory.volume 0 1 := by
    refine Continuous.intervalIntegrable ?_ _ _
    refine continuous_const.div (by fun_prop) fun t => (Real.sqrt_pos.2 (pos t)).ne'
  rw [intervalIntegral.integral_eq_sub_of_hasDerivAt hder hint]
  simp only [mul_one, mul_zero, zero_add]; ring

/-- `log(tan(x / 2))` for an angle given by its sine and cosine. -/
theorem log_tan {k D M : ℝ} (hD : 0 < D) (hM : 0 < M) (hMk : M ^ 2 = D ^ 2 + k ^ 2) {x : ℝ} (hs : Real.sin x = D / M) (hc : Real.cos x = -k / M) :
    0 < Real.tan (x / 2) ∧ Real.log (Real.tan (x / 2)) = Real.arsinh (k / D) := by
  have hk : |k| < M := by
    rw [← sq_lt_sq₀ (abs_nonneg k) hM.le, sq_abs]; nlinarith [sq_pos_of_pos hD]
  obtain ⟨k1, k2⟩ := abs_lt.1 hk
  have ht : Real.tan (x / 2) = (k + M) / D := by
    rw [tan_half, hs, hc]
    have h1 : (0 : ℝ) < M - k := by linarith
    have h2 : 1 + -k / M = (M - k) / M := by field_simp; ring
    rw [h2, div_div_div_cancel_right₀ hM.ne', div_eq_div_iff h1.ne' hD.ne']
    nlinarith
  have hsq : √(1 + (k / D) ^ 2) = M / D := by
    have : 1 + (k / D) ^ 2 = (M / D) ^ 2 := by rw [div_pow, div_pow, hMk]; field_simp
    rw [this, Real.sqrt_sq (by positivity)]
  refine ⟨by rw [ht]; exact div_pos (by linarith) hD, ?_⟩
  rw [ht, Real.arsinh, hsq, ← add_div]

theorem realNorm_smul (k : ℝ) (v : Vec3 ℝ) : realNorm (k • v) = |k| * realNorm v := by
  unfold realNorm
  rw [show (k • v).normSq = k ^ 2 * v.normSq by simp [Vec3.normSq, Vec3.dot]; ring, Real.sqrt_mul (sq_nonneg k), Real.sqrt_sq_eq_abs]

theorem realNorm_pos {v : Vec3 ℝ} (h : 0 < v.normSq) : 0 < realNorm v := Real.sqrt_pos.2 h

/-- A summand of the code is the integral along the side. -/
theorem logTerm_eq {eps : ℝ} (h0 : 0 ≤ eps) {c p q : Vec3 ℝ} (h1 : eps < (c - p).normSq) (h2 : eps < (c - q).normSq) (h3 : eps < (q - p).normSq)
    (hD : 0 < realNorm (Vec3.cross (p - c) (q - p))) :
    logTerm (q - p) (angle eps (c - p) (c - q)) (angle eps (c - p) (q - p)) =
      ∫ t in (0 : ℝ)..1, 1 / √((p - c).normSq + 2 * (p - c).dot (q - p) * t + realNorm (q - p) ^ 2 * t ^ 2) := by
  have a0 : 0 < realNorm (c - p) := realNorm_pos (by linarith)
  have b0 : 0 < realNorm (c - q) := realNorm_pos (by linarith)
  have l0 : 0 < realNorm (q - p) := realNorm_pos (by linarith)
  have ea : realNorm (c - p) ^ 2 = (p - c).normSq := by rw [realNorm_sq]; simp [Vec3.normSq, Vec3.dot]; ring
  have eb : realNorm (c - q) ^ 2 = (p - c).normSq + 2 * (p - c).dot (q - p) + (q - p).normSq := by rw [realNorm_sq]; simp [Vec3.normSq, Vec3.dot]; ring
  have el : realNorm (q - p) ^ 2 = (q - p).normSq := realNorm_sq _
  have hD2 : realNorm (Vec3.cross (p - c) (q - p)) ^ 2 = (p - c).normSq * realNorm (q - p) ^ 2 - (p - c).dot (q - p) ^ 2 := by rw [realNorm_sq, lagrange, el]
  have sa : Real.sin (angle eps (c - p) (q - p)) = realNorm (Vec3.cross (p - c) (q - p)) / (realNorm (c - p) * realNorm (q - p)) := by
    rw [sin_angle h0 h1 h3]
    congr 1; unfold realNorm; congr 1; simp [Vec3.normSq, Vec3.dot]; ring
  have ca : Real.cos (angle eps (c - p) (q - p)) = -(p - c).dot (q - p) / (realNorm (c - p) * realNorm (q - p)) := by
    rw [cos_angle h0 h1 h3]; congr 1; simp [Vec3.dot]; ring
  have st : Real.sin (angle eps (c - p) (c - q)) = realNorm (Vec3.cross (p - c) (q - p)) / (realNorm (c - p) * realNorm (c - q)) := by
    rw [sin_angle h0 h1 h2]
    congr 1; unfold realNorm; congr 1; simp [Vec3.normSq, Vec3.dot]; ring
  have ct : Real.cos (angle eps (c - p) (c - q)) = ((p - c).normSq + (p - c).dot (q - p)) / (realNorm (c - p) * realNorm (c - q)) := by
    rw [cos_angle h0 h1 h2]; congr 1; simp [Vec3.normSq, Vec3.dot]; ring
  generalize realNorm (Vec3.cross (p - c) (q - p)) = D at *
  generalize realNorm (c - p) = a at *
  generalize realNorm (c - q) = B at *
  generalize (p - c).dot (q - p) = b at *
  unfold logTerm
  generalize realNorm (q - p) = L at *
  generalize angle eps (c - p) (q - p) = α at *
  generalize angle eps (c - p) (c - q) = θ at *
  rw [← ea] at eb hD2 ct ⊢
  rw [← el] at eb
  have s2 : Real.sin (θ + α) = D / (L * B) := by
    rw [Real.sin_add, sa, ca, st, ct]; field_simp; ring
  have c2 : Real.cos (θ + α) = -(L ^ 2 + b) / (L * B) := by
    rw [Real.cos_add, sa, ca, st, ct]; field_simp; linear_combination -hD2
  obtain ⟨p1, t1⟩ := log_tan hD (mul_pos a0 l0) (k := b) (by rw [hD2]; ring) sa ca
  obtain ⟨p2, t2⟩ := log_tan hD (mul_pos l0 b0) (k := L ^ 2 + b) (by rw [hD2, mul_pow, eb]; ring) s2 c2
  rw [Real.log_div p2.ne' p1.ne', t1, t2, integral_side l0 hD hD2]

/-- The potential of a triangle from a corner, as an integral along the opposite side. -/
theorem potential_eq (c p q : Vec3 ℝ) : potential c p q =
    realNorm (Vec3.cross (p - c) (q - p)) * ∫ t in (0 : ℝ)..1, 1 / √((p - c).normSq + 2 * (p - c).dot (q - p) * t + realNorm (q - p) ^ 2 * t ^ 2) := by
  have inner : ∀ r : ℝ, 0 < r → (∫ t in (0 : ℝ)..1, realNorm (Vec3.cross (alongR c p q t) (alongT p q r)) / realNorm (point c p q r t - c)) =
      realNorm (Vec3.cross (p - c) (q - p)) * ∫ t in (0 : ℝ)..1, 1 / √((p - c).normSq + 2 * (p - c).dot (q - p) * t + realNorm (q - p) ^ 2 * t ^ 2) := fun r hr => by
    rw [← intervalIntegral.integral_const_mul]
    congr 1
    funext t
    have e1 : Vec3.cross (alongR c p q t) (alongT p q r) = r • Vec3.cross (p - c) (q - p) := by
      ext <;> simp [alongR, alongT] <;> ring
    have e2 : point c p q r t - c = r • alongR c p q t := by ext <;> simp [alongR, point]
    have e3 : realNorm (alongR c p q t) = √((p - c).normSq + 2 * (p - c).dot (q - p) * t + realNorm (q - p) ^ 2 * t ^ 2) := by
      rw [realNorm_sq]; unfold realNorm; congr 1; simp [alongR, Vec3.normSq, Vec3.dot]; ring
    rw [e1, e2, realNorm_smul, realNorm_smul, e3, abs_of_pos hr, mul_div_mul_left _ _ hr.ne', mul_one_div]
  unfold potential
  rw [intervalIntegral.integral_congr_ae (g := fun _ => realNorm (Vec3.cross (p - c) (q - p)) *
    ∫ t in (0 : ℝ)..1, 1 / √((p - c).normSq + 2 * (p - c).dot (q - p) * t + realNorm (q - p) ^ 2 * t ^ 2))]
  · rw [intervalIntegral.integral_const]; simp
  · refine Filter.Eventually.of_forall fun r hr => inner r ?_
    rw [Set.uIoc_of_le zero_le_one] at hr
    exact hr.1

/-- The triangle is not degenerate, and none of the six vectors is too short to have an angle. -/
structure Good (eps : ℝ) (t : Tri ℝ) : Prop where
  proper : t.rawNormal ≠ 0
  corners : ∀ p ∈ [t.v0, t.v1, t.v2], eps < (t.centroid - p).normSq
  side0 : eps < (t.v1 - t.v0).normSq
  side1 : eps < (t.v2 - t.v1).normSq
  side2 : eps < (t.v0 - t.v2).normSq

end Bem

open Bem Quality

/-- **C131, a triangle with itself.** For a triangle that is not degenerate and not smaller than the square root of epsilon, the coefficient `g` of the triangle with itself is exactly the integral of `1 / (4 π |x - c|)` over the
triangle, `c` its centroid: the sum over the three triangles that the centroid makes with the sides. The coefficient `h` is zero, as the normal derivative of `1 / |x - c|` is on the plane of the triangle. -/
theorem C131_self (eps : ℝ) (h0 : 0 ≤ eps) (i : Int) (t : Tri ℝ) (ht : Good eps t) :
    (coeffs eps i i t t).1 = 0 ∧
      (coeffs eps i i t t).2 = 1 / (4 * Real.pi) * (potential t.centroid t.v0 t.v1 + potential t.centroid t.v1 t.v2 + potential t.centroid t.v2 t.v0) := by
  obtain ⟨hne, hs, h1, h2, h3⟩ := ht
  have hN : 0 < realNorm t.rawNormal := by
    refine lt_of_le_of_ne (Real.sqrt_nonneg _) fun h => hne ?_
    have := isNorm_real.sq t.rawNormal
    rw [← h, mul_zero] at this
    simp only [Vec3.normSq, Vec3.dot] at this
    have hx := mul_self_nonneg t.rawNormal.x; have hy := mul_self_nonneg t.rawNormal.y; have hz := mul_self_nonneg t.rawNormal.z
    ext
    · exact mul_self_eq_zero.1 (by linarith)
    · exact mul_self_eq_zero.1 (by linarith)
    · exact mul_self_eq_zero.1 (by linarith)
  have sub : ∀ p q r : Vec3 ℝ, ∀ c : Vec3 ℝ, c = (1 / 3 : ℝ) • (p + q + r) → Vec3.cross (p - c) (q - p) = (1 / 3 : ℝ) • Vec3.cross (q - p) (r - p) := fun p q r c hc => by
    subst hc; ext <;> simp <;> ring
  have nn : ∀ p q r : Vec3 ℝ, Vec3.cross (q - p) (r - p) = t.rawNormal → t.centroid = (1 / 3 : ℝ) • (p + q + r) →
      realNorm (Vec3.cross (p - t.centroid) (q - p)) = 1 / 3 * realNorm t.rawNormal := fun p q r e hc => by
    rw [sub p q r _ hc, e, realNorm_smul, abs_of_pos (by norm_num)]
  have n0 := nn t.v0 t.v1 t.v2 rfl rfl
  have n1 := nn t.v1 t.v2 t.v0 (by ext <;> simp [Tri.rawNormal] <;> ring) (by ext <;> simp [Tri.centroid] <;> ring)
  have n2 := nn t.v2 t.v0 t.v1 (by ext <;> simp [Tri.rawNormal] <;> ring) (by ext <;> simp [Tri.centroid] <;> ring)
  have c0 := hs t.v0 (by simp)
  have c1 := hs t.v1 (by simp)
  have c2 := hs t.v2 (by simp)
  refine ⟨by simp [coeffs, sums], ?_⟩
  have l0 := logTerm_eq h0 c0 c1 h1 (by rw [n0]; positivity)
  have l1 := logTerm_eq h0 c1 c2 h2 (by rw [n1]; positivity)
  have l2 := logTerm_eq h0 c2 c0 h3 (by rw [n2]; positivity)
  simp only [coeffs, sums, if_true, selfSum]
  rw [l0, l1, l2, potential_eq, potential_eq, potential_eq, n0, n1, n2]
  simp only [Tri.normalArea]
  ring

/-- A right triangle meets the hypotheses. -/
example : Good (1 / 100) ⟨⟨0, 0, 0⟩, ⟨1, 0, 0⟩, ⟨0, 1, 0⟩⟩ := by
  refine ⟨fun h => ?_, fun p hp => ?_, ?_, ?_, ?_⟩
  · have := congrArg Vec3.z h; simp [Tri.rawNormal] at this
  · simp only [List.mem_cons, List.not_mem_nil, or_false] at hp
    rcases hp with rfl | rfl | rfl <;> norm_num [Tri.centroid, Vec3.normSq, Vec3.dot]
  all_goals norm_num [Vec3.normSq, Vec3.dot]

/-- The coordinates of the specification run over the triangle: the corner `c` and the points of the side `p`, `q` are weighted with weights that are not negative and add up to one. -/
example (c p q : Vec3 ℝ) (r t : ℝ) : point c p q r t = (1 - r) • c + (r * (1 - t)) • p + (r * t) • q := by
  ext <;> simp [point] <;> ring

/-- The two derivatives are those of the coordinates. -/
example (c p q : Vec3 ℝ) (r t : ℝ) : HasDerivAt (fun r => (point c p q r t).x) (alongR c p q t).x r ∧ HasDerivAt (fun t => (point c p q r t).x) (alongT p q r).x t := by
  constructor
  · have := ((hasDerivAt_id r).mul_const ((p - c).x + t * (q - p).x)).const_add c.x
    have e : (fun r => (point c p q r t).x) = fun r => c.x + id r * ((p - c).x + t * (q - p).x) := by funext r; simp [point]; ring
    rw [e]; exact this.congr_deriv (by simp [alongR])
  · have := ((((hasDerivAt_id t).mul_const (q - p).x).const_add (p - c).x).const_mul r).const_add c.x
    have e : (fun t => (point c p q r t).x) = fun t => c.x + r * ((p - c).x + id t * (q - p).x) := by funext t; simp [point]; ring
    rw [e]; exact this.congr_deriv (by simp [alongT])

end ENigMA
