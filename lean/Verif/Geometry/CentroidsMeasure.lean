import Mathlib.MeasureTheory.Measure.Lebesgue.VolumeOfBalls
import Verif.Geometry.Centroids
import Verif.Base.Norm

/-!
# C140: the volume of a sphere and the area of a circle

Against Lebesgue measure.
-/

set_option linter.unusedSectionVars false
set_option autoImplicit false

namespace ENigMA

open MeasureTheory

/-- A vector as a point of Euclidean space. -/
noncomputable def Vec3.euclid (v : Vec3 ℝ) : EuclideanSpace ℝ (Fin 3) := !₂[v.x, v.y, v.z]

/-- The first two coordinates of a vector as a point of the Euclidean plane. -/
noncomputable def Vec3.plane (v : Vec3 ℝ) : EuclideanSpace ℝ (Fin 2) := !₂[v.x, v.y]

/-- **C140, volume of a sphere and area of a circle.** The volume reported for a sphere is the Lebesgue volume of the set of points it contains; the area reported for
a circle is the Lebesgue area of the set of points of its plane that it contains. -/
theorem C140_ball_measure (b : Ball ℝ) (hr : 0 ≤ b.radius) :
    (volume (Vec3.euclid '' {p | b.contains realNorm p 0 = true})).toReal = b.sphereVolume Real.pi ∧
    (volume (Vec3.plane '' {p | p.z = b.center.z ∧ b.contains realNorm p 0 = true})).toReal = b.circleArea Real.pi := by
  have hc : ∀ p : Vec3 ℝ, b.contains realNorm p 0 = true ↔ (p - b.center).normSq ≤ b.radius ^ 2 := by
    intro p
    unfold Ball.contains
    rw [decide_eq_true_iff, add_zero, ← isNorm_real.sq, ← sq]
    constructor
    · intro h; exact pow_le_pow_left₀ (isNorm_real.nonneg _) h 2
    · intro h; exact le_of_sq_le_sq h hr
  have e3 : Vec3.euclid '' {p | b.contains realNorm p 0 = true} = Metric.closedBall b.center.euclid b.radius := by
    ext q
    rw [Metric.mem_closedBall, EuclideanSpace.dist_eq, Real.sqrt_le_left hr, Fin.sum_univ_three]
    constructor
    · rintro ⟨p, hp, rfl⟩
      have := (hc p).1 hp
      simp [Vec3.normSq, Vec3.dot] at this
      simp [Vec3.euclid, Real.dist_eq, sq_abs]
      nlinarith
    · intro h
      refine ⟨⟨q 0, q 1, q 2⟩, (hc _).2 ?_, ?_⟩
      · simp [Vec3.euclid, Real.dist_eq, sq_abs] at h
        simp [Vec3.normSq, Vec3.dot]
        nlinarith
      · ext i; fin_cases i <;> simp [Vec3.euclid]
  have e2 : Vec3.plane '' {p | p.z = b.center.z ∧ b.contains realNorm p 0 = true} = Metric.closedBall b.center.plane b.radius := by
    ext q
    rw [Metric.mem_closedBall, EuclideanSpace.dist_eq, Real.sqrt_le_left hr, Fin.sum_univ_two]
    constructor
    · rintro ⟨p, ⟨hz, hp⟩, rfl⟩
      have := (hc p).1 hp
      simp [Vec3.normSq, Vec3.dot, hz] at this
      simp [Vec3.plane, Real.dist_eq, sq_abs]
      nlinarith
    · intro h
      refine ⟨⟨q 0, q 1, b.center.z⟩, ⟨rfl, (hc _).2 ?_⟩, ?_⟩
      · simp [Vec3.plane, Real.dist_eq, sq_abs] at h
        simp [Vec3.normSq, Vec3.dot]
        nlinarith
      · ext i; fin_cases i <;> simp [Vec3.plane]
  rw [e3, e2, EuclideanSpace.volume_closedBall_fin_three, EuclideanSpace.volume_closedBall_fin_two]
  have hp := Real.pi_pos
  constructor
  · rw [ENNReal.toReal_mul, ENNReal.toReal_pow, ENNReal.toReal_ofReal hr, ENNReal.toReal_ofReal (by positivity)]
    unfold Ball.sphereVolume; ring
  · rw [ENNReal.toReal_mul, ENNReal.toReal_pow, ENNReal.toReal_ofReal hr, ENNReal.toReal_ofReal hp.le]
    unfold Ball.circleArea; ring

/-- The hypothesis of `C140_ball_measure` is met. -/
example : (0 : ℝ) ≤ (⟨⟨5, 0, 0⟩, 2⟩ : Ball ℝ).radius := by norm_num

end ENigMA
