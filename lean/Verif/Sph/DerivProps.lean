import Verif.Sph.KernelProps
import Mathlib.Analysis.SpecialFunctions.ExpDeriv

/-!
# C64: the derivatives of the SPH kernels
-/

set_option linter.unusedSectionVars false

namespace ENigMA
open Sph

namespace Sph

/-- The derivative of the function of `q` in `W`, away from the break points. -/
theorem shape_deriv (κ : Kind) (hκ : κ = .quintic ∨ κ = .spiky ∨ κ = .gaussian) (tol q : ℝ) (hq : 0 < q) :
    HasDerivAt (shape κ) (-(gradShape tol κ q * q)) q ∧ lapDw κ q = -(gradShape tol κ q * q) ∧ lapW κ q = shape κ q := by
  have hq' := hq.ne'
  rcases hκ with rfl | rfl | rfl
  · refine ⟨?_, ?_, rfl⟩
    · have h1 : HasDerivAt (fun q : ℝ => 1 - 1 / 2 * q) (-(1 / 2)) q := by
        simpa using ((hasDerivAt_id q).const_mul (1 / 2 : ℝ)).const_sub 1
      have h2 : HasDerivAt (fun q : ℝ => 2 * q + 1) 2 q := by simpa using ((hasDerivAt_id q).const_mul (2 : ℝ)).add_const 1
      refine ((h1.pow 4).mul h2).congr_deriv ?_
      simp only [gradShape, Pi.pow_apply]; field_simp; ring
    · simp only [gradShape, lapDw]; field_simp
  · refine ⟨?_, ?_, rfl⟩
    · have h1 : HasDerivAt (fun q : ℝ => 1 - q) (-1) q := by simpa using (hasDerivAt_id q).const_sub 1
      refine (h1.pow 3).congr_deriv ?_
      simp only [gradShape]; field_simp; ring
    · simp only [gradShape, lapDw]; field_simp
  · refine ⟨?_, ?_, rfl⟩
    · have h1 : HasDerivAt (fun q : ℝ => -q * q) (-2 * q) q := by
        refine ((hasDerivAt_id q).neg.mul (hasDerivAt_id q)).congr_deriv ?_
        simp; ring
      refine h1.exp.congr_deriv ?_
      simp only [gradShape]; ring
    · simp only [gradShape, lapDw]; ring

theorem normSq_div (r : Vec3 ℝ) (h : ℝ) (hh : 0 < h) : r.dot r / h ^ 2 = (realNorm r / h) ^ 2 := by
  rw [div_pow, pow_two (realNorm r), isNorm_real.sq]; rfl

/-- The kernel along the ray through `r`. -/
theorem ray (κ : Kind) (d : Int) (old : ℝ) (r : Vec3 ℝ) (h : ℝ) (hh : 0 < h) (hin : realNorm r < support κ * h) {D : ℝ}
    (hD : HasDerivAt (shape κ) D (realNorm r / h)) :
    HasDerivAt (fun t : ℝ => W κ d old (t • r) h) (coef old h κ d * (D * (realNorm r / h))) 1 := by
  set q := realNorm r / h with hq
  have hqs : q < support κ := (div_lt_iff₀ hh).2 hin
  have hq0 : 0 ≤ q := div_nonneg (isNorm_real.nonneg r) hh.le
  have hlin : HasDerivAt (fun t : ℝ => t * q) q 1 := by simpa using (hasDerivAt_id (1 : ℝ)).mul_const q
  have hcomp : HasDerivAt (fun t : ℝ => coef old h κ d * shape κ (t * q)) (coef old h κ d * (D * q)) 1 := by
    have hD' : HasDerivAt (shape κ) D (1 * q) := by rw [one_mul]; exact hD
    exact (HasDerivAt.comp 1 hD' hlin).const_mul _
  refine hcomp.congr_of_eventuallyEq ?_
  have hev : ∀ᶠ t : ℝ in nhds 1, 0 < t ∧ t * q < support κ := by
    refine (lt_mem_nhds one_pos).and ?_
    have hc : Continuous fun t : ℝ => t * q := by fun_prop
    exact hc.continuousAt.eventually (gt_mem_nhds (by show 1 * q < _; rw [one_mul]; exact hqs))
  filter_upwards [hev] with t ht
  have : realNorm (t • r) / h = t * q := by rw [isNorm_real.smul, abs_of_pos ht.1, hq, mul_div_assoc]
  rw [W_eq, this, profile_of_le ht.2.le]

end Sph

/-- C64: `gradientW` is antisymmetric, parallel to `r`, and zero beyond the support; `laplacianW` is symmetric and zero beyond the support. So the force two
particles exert on each other through the gradient is equal and opposite. -/
theorem C64_symmetry (κ : Kind) (d : Int) (old h tol : ℝ) (hh : 0 < h) (r : Vec3 ℝ) :
    gradientW κ d old (-r) h tol = -gradientW κ d old r h tol ∧ (∃ c : ℝ, gradientW κ d old r h tol = c • r) ∧
    laplacianW κ d old (-r) h = laplacianW κ d old r h ∧
    (support κ * h < realNorm r → laplacianW κ d old r h = 0 ∧ gradientW κ d old r h tol = 0) := by
  refine ⟨?_, ?_, ?_, ?_⟩
  · simp only [gradientW, isNorm_real.neg]
    split_ifs <;> first | simp | (ext <;> simp)
  · simp only [gradientW]
    split_ifs
    · exact ⟨0, by ext <;> simp⟩
    · exact ⟨_, rfl⟩
    · exact ⟨0, by ext <;> simp⟩
    · exact ⟨_, rfl⟩
  · simp only [laplacianW, isNorm_real.neg]
  · intro h1
    have h2 : support κ < realNorm r / h := (lt_div_iff₀ hh).2 h1
    refine ⟨if_pos h2, ?_⟩
    simp only [gradientW]
    refine if_pos ?_
    split_ifs with h3
    · exact h2.trans h3
    · exact h2

/-- C64: the derivative of the quintic, spiky and Gaussian kernels along `r` is `-(gradientW · r) / h²`, at every `r` inside the support and outside the
tolerance. With `h = 1` this is minus the gradient, which is the gradient with respect to the particle `r` points away from. The full property has no factor
`h²`: see `C64_scale`. -/
theorem C64_gradient_partial (κ : Kind) (hκ : κ = .quintic ∨ κ = .spiky ∨ κ = .gaussian) (d : Int) (old h tol : ℝ) (hh : 0 < h) (r : Vec3 ℝ)
    (hr : r ≠ 0) (htol : tol ≤ realNorm r / h) (hin : realNorm r < support κ * h) :
    HasDerivAt (fun t : ℝ => W κ d old (t • r) h) (-((gradientW κ d old r h tol).dot r) / h ^ 2) 1 := by
  have hq : 0 < realNorm r / h := div_pos (isNorm_real.pos hr) hh
  have hs := (shape_deriv κ hκ tol _ hq).1
  refine (ray κ d old r h hh hin hs).congr_deriv ?_
  have hg : gradientW κ d old r h tol = (coef old h κ d * gradShape tol κ (realNorm r / h)) • r := by
    simp only [gradientW]
    rw [if_neg (not_lt.2 htol), if_neg (not_lt.2 ((div_lt_iff₀ hh).2 hin).le)]
  rw [hg]
  have hn := normSq_div r h hh
  have hdot : ∀ c : ℝ, (c • r).dot r = c * r.dot r := by
    intro c; simp only [Vec3.dot, Vec3.smul_x, Vec3.smul_y, Vec3.smul_z]; ring
  rw [hdot, neg_div, mul_div_assoc, hn]
  ring

/-- Non-vacuity. -/
example : (⟨1, 0, 0⟩ : Vec3 ℝ) ≠ 0 ∧ (0 : ℝ) ≤ realNorm ⟨1, 0, 0⟩ / 1 ∧ realNorm ⟨1, 0, 0⟩ < support .quintic * 1 := by
  refine ⟨fun h => one_ne_zero (congrArg Vec3.x h), ?_, ?_⟩
  · rw [realNorm_x]; positivity
  · rw [realNorm_x]; norm_num [support]

/-- C64: for the quintic, spiky and Gaussian kernels `laplacianW` is `h` times the dimension times `W` minus the derivative of `W` along `r`: the three functions
of a kernel are built on the same profile. -/
theorem C64_laplacian (κ : Kind) (hκ : κ = .quintic ∨ κ = .spiky ∨ κ = .gaussian) (d : Int) (old h : ℝ) (hh : 0 < h) (r : Vec3 ℝ)
    (hr : r ≠ 0) (hin : realNorm r < support κ * h) (D : ℝ) (hD : HasDerivAt (fun t : ℝ => W κ d old (t • r) h) D 1) :
    laplacianW κ d old r h = h * (d * W κ d old r h - D) := by
  have hq : 0 < realNorm r / h := div_pos (isNorm_real.pos hr) hh
  obtain ⟨hs, hl, hw⟩ := shape_deriv κ hκ 0 _ hq
  have hu := hD.unique (ray κ d old r h hh hin hs)
  have hle := ((div_lt_iff₀ hh).2 hin).le
  rw [hu, W_eq, profile_of_le hle]
  simp only [laplacianW]
  rw [if_neg (not_lt.2 hle), hl, hw]
  ring

/-- C64 fails for every `h ≠ 1`: the code returns `h²` times the gradient. Witness: the spiky kernel at `r = (1, 0, 0)` with `h = 2`. -/
theorem C64_scale : ∃ D : ℝ, HasDerivAt (fun t : ℝ => W .spiky 3 0 (t • (⟨1, 0, 0⟩ : Vec3 ℝ)) 2) D 1 ∧
    -((gradientW .spiky 3 0 ⟨1, 0, 0⟩ 2 0).dot ⟨1, 0, 0⟩) = 4 * D ∧ D ≠ 0 := by
  have hn : realNorm ⟨1, 0, 0⟩ = 1 := by rw [realNorm_x]; simp
  have hr : (⟨1, 0, 0⟩ : Vec3 ℝ) ≠ 0 := fun h => one_ne_zero (congrArg Vec3.x h)
  have h := C64_gradient_partial .spiky (Or.inr (Or.inl rfl)) 3 0 2 0 two_pos ⟨1, 0, 0⟩ hr (by rw [hn]; norm_num) (by rw [hn]; norm_num [support])
  refine ⟨_, h, by ring, ?_⟩
  have hg : gradientW .spiky 3 0 ⟨1, 0, 0⟩ 2 0 = (coef 0 2 .spiky 3 * gradShape 0 .spiky (1 / 2)) • (⟨1, 0, 0⟩ : Vec3 ℝ) := by
    simp only [gradientW, hn]
    rw [if_neg (show ¬(1 / 2 : ℝ) < 0 by norm_num)]
    exact if_neg (not_lt.2 (show (1 / 2 : ℝ) ≤ 1 by norm_num))
  rw [hg]
  have := Real.pi_ne_zero
  simp only [Vec3.dot, Vec3.smul_x, Vec3.smul_y, Vec3.smul_z, coef, gradShape]
  norm_num

/-- C64 fails for the cubic spline and the convex kernel even with `h = 1`: the derivative of the cubic spline is four times `gradientW`, because `W` lacks the
factor a quarter the other two functions have, and that of the convex kernel differs because `pow(2 - q, 1.5)` stands for half of `pow(2 - q, 3)`. Witnesses at distance 1/2 and 1
from the particle. -/
theorem C64_cubic_convex (d : Int) (old : ℝ) :
    HasDerivAt (shape .cubic) (4 * -(gradShape 0 .cubic (1 / 2) * (1 / 2))) (1 / 2) ∧ gradShape 0 .cubic (1 / 2) ≠ 0 ∧
    HasDerivAt (shape .convex) (-4) 1 ∧ -(gradShape 0 .convex 1 * 1) = -7 / 2 := by
  refine ⟨?_, ?_, ?_, ?_⟩
  · have h1 : HasDerivAt (fun q : ℝ => 2 - q) (-1) (1 / 2) := by simpa using (hasDerivAt_id (1 / 2 : ℝ)).const_sub 2
    have h2 : HasDerivAt (fun q : ℝ => 1 - q) (-1) (1 / 2) := by simpa using (hasDerivAt_id (1 / 2 : ℝ)).const_sub 1
    have h3 := ((h1.pow 3).sub ((h2.pow 3).const_mul 4))
    have h4 : HasDerivAt (fun q : ℝ => (2 - q) ^ 3 - 4 * (1 - q) ^ 3) (4 * -(gradShape 0 .cubic (1 / 2) * (1 / 2))) (1 / 2) := by
      refine h3.congr_deriv ?_
      simp only [gradShape]
      rw [if_pos (by norm_num)]
      norm_num
    refine h4.congr_of_eventuallyEq ?_
    have : ∀ᶠ q : ℝ in nhds (1 / 2), 0 < q ∧ q < 1 := (lt_mem_nhds (by norm_num)).and (gt_mem_nhds (by norm_num))
    filter_upwards [this] with q hq
    simp only [shape]
    rw [if_pos ⟨hq.1.le, hq.2⟩]; ring
  · simp only [gradShape]
    rw [if_pos (by norm_num)]; norm_num
  · have h1 : HasDerivAt (fun q : ℝ => 2 - q) (-1) 1 := by simpa using (hasDerivAt_id (1 : ℝ)).const_sub 2
    have h2 : HasDerivAt (fun q : ℝ => 1 / 2 * q + 1) (1 / 2) 1 := by simpa using ((hasDerivAt_id (1 : ℝ)).const_mul (1 / 2 : ℝ)).add_const 1
    refine ((h1.pow 3).mul h2).congr_deriv ?_
    norm_num
  · simp only [gradShape]; norm_num

end ENigMA
