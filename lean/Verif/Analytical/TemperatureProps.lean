import Verif.Analytical.Temperature
import Mathlib.Analysis.SpecialFunctions.Trigonometric.DerivHyp
import Mathlib.Algebra.BigOperators.Field

set_option linter.unusedSectionVars false
set_option autoImplicit false

open Real Finset

namespace ENigMA
namespace Ana

/-- The second derivative of a function of one variable. -/
noncomputable def second (f : ℝ → ℝ) (x : ℝ) : ℝ := deriv (deriv f) x

theorem second_of {f f' f'' : ℝ → ℝ} (h : ∀ x, HasDerivAt f (f' x) x) (h' : ∀ x, HasDerivAt f' (f'' x) x) (x : ℝ) : second f x = f'' x := by
  have e : deriv f = f' := funext fun x => (h x).deriv
  rw [second, e, (h' x).deriv]

theorem second_sum {ι : Type} (s : Finset ι) (f f' f'' : ι → ℝ → ℝ) (h : ∀ i x, HasDerivAt (f i) (f' i x) x) (h' : ∀ i x, HasDerivAt (f' i) (f'' i x) x)
    (x : ℝ) : second (fun x => ∑ i ∈ s, f i x) x = ∑ i ∈ s, f'' i x :=
  second_of (f' := fun x => ∑ i ∈ s, f' i x) (f'' := fun x => ∑ i ∈ s, f'' i x) (fun x => HasDerivAt.fun_sum fun i _ => h i x) (fun x => HasDerivAt.fun_sum fun i _ => h' i x) x

theorem hasDerivAt_lin (a x : ℝ) : HasDerivAt (fun x => a * x) a x := by simpa using (hasDerivAt_id x).const_mul a

theorem d_sin (a x : ℝ) : HasDerivAt (fun x => sin (a * x)) (a * cos (a * x)) x := by
  have := (Real.hasDerivAt_sin (a * x)).comp x (hasDerivAt_lin a x)
  simpa [Function.comp_def, mul_comm] using this

theorem d_cos (a x : ℝ) : HasDerivAt (fun x => cos (a * x)) (-(a * sin (a * x))) x := by
  have := (Real.hasDerivAt_cos (a * x)).comp x (hasDerivAt_lin a x)
  simpa [Function.comp_def, mul_comm] using this

theorem d_sinh (a x : ℝ) : HasDerivAt (fun x => sinh (a * x)) (a * cosh (a * x)) x := by
  have := (Real.hasDerivAt_sinh (a * x)).comp x (hasDerivAt_lin a x)
  simpa [Function.comp_def, mul_comm] using this

theorem d_cosh (a x : ℝ) : HasDerivAt (fun x => cosh (a * x)) (a * sinh (a * x)) x := by
  have := (Real.hasDerivAt_cosh (a * x)).comp x (hasDerivAt_lin a x)
  simpa [Function.comp_def, mul_comm] using this

theorem d_exp (a x : ℝ) : HasDerivAt (fun x => exp (a * x)) (a * exp (a * x)) x := by
  have := (Real.hasDerivAt_exp (a * x)).comp x (hasDerivAt_lin a x)
  simpa [Function.comp_def, mul_comm] using this

/-- A function that is its own second derivative up to a factor. -/
structure Eigen (f : ℝ → ℝ) (k : ℝ) : Prop where
  ex : ∃ f' : ℝ → ℝ, (∀ x, HasDerivAt f (f' x) x) ∧ ∀ x, HasDerivAt f' (k * f x) x

theorem eigen_sin (a : ℝ) : Eigen (fun x => sin (a * x)) (-(a * a)) :=
  ⟨fun x => a * cos (a * x), d_sin a, fun x => by
    have := (d_cos a x).const_mul a
    exact this.congr_deriv (by ring)⟩

theorem eigen_cos (a : ℝ) : Eigen (fun x => cos (a * x)) (-(a * a)) :=
  ⟨fun x => -(a * sin (a * x)), d_cos a, fun x => by
    have := ((d_sin a x).const_mul a).neg
    exact this.congr_deriv (by ring)⟩

theorem eigen_sinh (a : ℝ) : Eigen (fun x => sinh (a * x)) (a * a) :=
  ⟨fun x => a * cosh (a * x), d_sinh a, fun x => by
    have := (d_cosh a x).const_mul a
    exact this.congr_deriv (by ring)⟩

theorem eigen_exp (a : ℝ) : Eigen (fun x => exp (a * x)) (a * a) :=
  ⟨fun x => a * exp (a * x), d_exp a, fun x => by
    have := (d_exp a x).const_mul a
    exact this.congr_deriv (by ring)⟩

theorem eigen_sinh_rev (a : ℝ) : Eigen (fun x => sinh (a * (1 - x))) (a * a) := by
  have e : ∀ x : ℝ, HasDerivAt (fun x : ℝ => a * (1 - x)) (-a) x := fun x => by
    have := ((hasDerivAt_id x).const_sub 1).const_mul a
    simpa using this
  refine ⟨fun x => -a * cosh (a * (1 - x)), fun x => ?_, fun x => ?_⟩
  · have := (Real.hasDerivAt_sinh (a * (1 - x))).comp x (e x)
    simpa [Function.comp_def, mul_comm] using this
  · have := ((Real.hasDerivAt_cosh (a * (1 - x))).comp x (e x)).const_mul (-a)
    exact this.congr_deriv (by ring)

theorem Eigen.mul {f : ℝ → ℝ} {k : ℝ} (h : Eigen f k) (c : ℝ) : Eigen (fun x => c * f x) k := by
  obtain ⟨f', h1, h2⟩ := h
  exact ⟨fun x => c * f' x, fun x => (h1 x).const_mul c, fun x => by
    have := (h2 x).const_mul c
    exact this.congr_deriv (by ring)⟩

theorem Eigen.add {f g : ℝ → ℝ} {k : ℝ} (h : Eigen f k) (h' : Eigen g k) : Eigen (fun x => f x + g x) k := by
  obtain ⟨f', h1, h2⟩ := h
  obtain ⟨g', h3, h4⟩ := h'
  exact ⟨fun x => f' x + g' x, fun x => (h1 x).add (h3 x), fun x => by
    have := (h2 x).add (h4 x)
    exact this.congr_deriv (by ring)⟩

theorem Eigen.congr {f g : ℝ → ℝ} {k : ℝ} (h : Eigen f k) (e : ∀ x, g x = f x) : Eigen g k := by
  rw [funext e]; exact h

theorem eigen_sum {ι : Type} (s : Finset ι) (f : ι → ℝ → ℝ) (k : ι → ℝ) (h : ∀ i, Eigen (f i) (k i)) (x : ℝ) :
    second (fun x => ∑ i ∈ s, f i x) x = ∑ i ∈ s, k i * f i x := by
  choose f' h1 h2 using fun i => (h i).ex
  exact second_sum s f f' (fun i x => k i * f i x) h1 h2 x

end Ana

open Ana

/-- C102: `steadyStateHeatConduction1D` is a straight profile: no curvature, 0 at one end, 1 at the other. -/
theorem C102_steady1 : (∀ x, second steady1 x = 0) ∧ steady1 0 = 0 ∧ steady1 1 = 1 :=
  ⟨fun x => second_of (f' := fun _ => 1) (f'' := fun _ => 0) (fun x => hasDerivAt_id x) (fun x => hasDerivAt_const x 1) x, rfl, rfl⟩

theorem sin_nat (p : ℕ) : sin ((2 * p + 1) * π * 1) = 0 := by
  have := Real.sin_nat_mul_pi (2 * p + 1)
  push_cast at this
  rw [mul_one]; exact this

/-- C102: `steadyStateHeatConduction2D` is harmonic everywhere and zero on the sides x = 0, x = 1 and y = 0; on y = 1 it is the square wave's partial sum. -/
theorem C102_steady2 :
    (∀ x y, second (fun x => steady2 x y) x + second (fun y => steady2 x y) y = 0) ∧
    (∀ y, steady2 0 y = 0) ∧ (∀ y, steady2 1 y = 0) ∧ (∀ x, steady2 x 0 = 0) ∧
    ∀ x, steady2 x 1 = ∑ p ∈ range 25, 4 / π * (sin ((2 * p + 1) * π * x) / (2 * p + 1)) := by
  refine ⟨fun x y => ?_, fun y => ?_, fun y => ?_, fun x => ?_, fun x => ?_⟩
  · have h1 : second (fun x => steady2 x y) x = ∑ p ∈ range 25, -(((2 * p + 1) * π) * ((2 * p + 1) * π)) *
        (4 / π * sin ((2 * p + 1) * π * x) * sinh ((2 * p + 1) * π * y) / ((2 * p + 1) * sinh ((2 * p + 1) * π))) :=
      eigen_sum (range 25) (fun (p : ℕ) x => 4 / π * sin ((2 * p + 1) * π * x) * sinh ((2 * p + 1) * π * y) / ((2 * p + 1) * sinh ((2 * p + 1) * π))) _
        (fun p => ((eigen_sin ((2 * p + 1) * π)).mul (4 / π * sinh ((2 * p + 1) * π * y) / ((2 * p + 1) * sinh ((2 * p + 1) * π)))).congr fun x => by ring) x
    have h2 : second (fun y => steady2 x y) y = ∑ p ∈ range 25, (((2 * p + 1) * π) * ((2 * p + 1) * π)) *
        (4 / π * sin ((2 * p + 1) * π * x) * sinh ((2 * p + 1) * π * y) / ((2 * p + 1) * sinh ((2 * p + 1) * π))) :=
      eigen_sum (range 25) (fun (p : ℕ) y => 4 / π * sin ((2 * p + 1) * π * x) * sinh ((2 * p + 1) * π * y) / ((2 * p + 1) * sinh ((2 * p + 1) * π))) _
        (fun p => ((eigen_sinh ((2 * p + 1) * π)).mul (4 / π * sin ((2 * p + 1) * π * x) / ((2 * p + 1) * sinh ((2 * p + 1) * π)))).congr fun x => by ring) y
    rw [h1, h2, ← Finset.sum_add_distrib]
    exact Finset.sum_eq_zero fun p _ => by ring
  · exact Finset.sum_eq_zero fun p _ => by simp
  · exact Finset.sum_eq_zero fun p _ => by rw [sin_nat]; simp
  · exact Finset.sum_eq_zero fun p _ => by simp
  · refine Finset.sum_congr rfl fun p _ => ?_
    have hs : sinh ((2 * p + 1) * π) ≠ 0 := (Real.sinh_pos_iff.mpr (by positivity)).ne'
    have hp : (2 * p + 1 : ℝ) ≠ 0 := by positivity
    rw [mul_one]
    generalize sinh ((2 * p + 1) * π) = S at *
    field_simp

/-- C102: `steadyStateHeatConduction3D` is harmonic and zero on the four lateral sides; on the sides x = 1 and x = 0 it is the unit wave's partial sum and half of it. -/
theorem C102_steady3 :
    (∀ x y z, second (fun x => steady3 x y z) x + second (fun y => steady3 x y z) y + second (fun z => steady3 x y z) z = 0) ∧
    (∀ x z, steady3 x 0 z = 0 ∧ steady3 x 1 z = 0) ∧ (∀ x y, steady3 x y 0 = 0 ∧ steady3 x y 1 = 0) ∧
    ∀ y z, steady3 1 y z = (∑ p ∈ range 10, 4 / π * (sin ((2 * p + 1) * π * y) / (2 * p + 1))) * (∑ q ∈ range 10, 4 / π * (sin ((2 * q + 1) * π * z) / (2 * q + 1))) ∧
      steady3 0 y z = steady3 1 y z / 2 := by
  have flat : ∀ x y z, steady3 x y z = ∑ i ∈ range 10 ×ˢ range 10, 16 / (π * π) * ((0.5 * sinh (rate i.1 i.2 * (1 - x)) + sinh (rate i.1 i.2 * x)) * sin ((2 * i.1 + 1) * π * y) * sin ((2 * i.2 + 1) * π * z)) /
      ((2 * i.1 + 1) * (2 * i.2 + 1) * sinh (rate i.1 i.2)) := fun x y z => (Finset.sum_product' _ _ (fun (p q : ℕ) => 16 / (π * π) * ((0.5 * sinh (rate p q * (1 - x)) + sinh (rate p q * x)) * sin ((2 * p + 1) * π * y) * sin ((2 * q + 1) * π * z)) /
      ((2 * p + 1) * (2 * q + 1) * sinh (rate p q)))).symm
  have hr : ∀ p q : ℕ, rate p q * rate p q = (2 * p + 1) * π * ((2 * p + 1) * π) + (2 * q + 1) * π * ((2 * q + 1) * π) := by
    intro p q
    rw [rate, Real.mul_self_sqrt (by positivity)]
    ring
  have hpos : ∀ p q : ℕ, 0 < rate p q := fun p q => Real.sqrt_pos.mpr (by positivity)
  refine ⟨fun x y z => ?_, fun x z => ⟨?_, ?_⟩, fun x y => ⟨?_, ?_⟩, fun y z => ?_⟩
  · have h1 := eigen_sum (range 10 ×ˢ range 10) (fun (i : ℕ × ℕ) x => 16 / (π * π) * ((0.5 * sinh (rate i.1 i.2 * (1 - x)) + sinh (rate i.1 i.2 * x)) * sin ((2 * i.1 + 1) * π * y) * sin ((2 * i.2 + 1) * π * z)) /
      ((2 * i.1 + 1) * (2 * i.2 + 1) * sinh (rate i.1 i.2))) (fun i => rate i.1 i.2 * rate i.1 i.2)
      (fun i => ((((eigen_sinh_rev (rate i.1 i.2)).mul 0.5).add (eigen_sinh (rate i.1 i.2))).mul (16 / (π * π) * (sin ((2 * i.1 + 1) * π * y) * sin ((2 * i.2 + 1) * π * z)) /
      ((2 * i.1 + 1) * (2 * i.2 + 1) * sinh (rate i.1 i.2)))).congr fun x => by ring) x
    have h2 := eigen_sum (range 10 ×ˢ range 10) (fun (i : ℕ × ℕ) y => 16 / (π * π) * ((0.5 * sinh (rate i.1 i.2 * (1 - x)) + sinh (rate i.1 i.2 * x)) * sin ((2 * i.1 + 1) * π * y) * sin ((2 * i.2 + 1) * π * z)) /
      ((2 * i.1 + 1) * (2 * i.2 + 1) * sinh (rate i.1 i.2))) _
      (fun i => ((eigen_sin ((2 * i.1 + 1) * π)).mul (16 / (π * π) * ((0.5 * sinh (rate i.1 i.2 * (1 - x)) + sinh (rate i.1 i.2 * x)) * sin ((2 * i.2 + 1) * π * z)) /
      ((2 * i.1 + 1) * (2 * i.2 + 1) * sinh (rate i.1 i.2)))).congr fun x => by ring) y
    have h3 := eigen_sum (range 10 ×ˢ range 10) (fun (i : ℕ × ℕ) z => 16 / (π * π) * ((0.5 * sinh (rate i.1 i.2 * (1 - x)) + sinh (rate i.1 i.2 * x)) * sin ((2 * i.1 + 1) * π * y) * sin ((2 * i.2 + 1) * π * z)) /
      ((2 * i.1 + 1) * (2 * i.2 + 1) * sinh (rate i.1 i.2))) _
      (fun i => ((eigen_sin ((2 * i.2 + 1) * π)).mul (16 / (π * π) * ((0.5 * sinh (rate i.1 i.2 * (1 - x)) + sinh (rate i.1 i.2 * x)) * sin ((2 * i.1 + 1) * π * y)) /
      ((2 * i.1 + 1) * (2 * i.2 + 1) * sinh (rate i.1 i.2)))).congr fun x => by ring) z
    simp only [flat]
    rw [h1, h2, h3, ← Finset.sum_add_distrib, ← Finset.sum_add_distrib]
    refine Finset.sum_eq_zero fun i _ => ?_
    rw [hr]
    ring
  · exact Finset.sum_eq_zero fun p _ => Finset.sum_eq_zero fun q _ => by simp
  · exact Finset.sum_eq_zero fun p _ => Finset.sum_eq_zero fun q _ => by rw [sin_nat p]; simp
  · exact Finset.sum_eq_zero fun p _ => Finset.sum_eq_zero fun q _ => by simp
  · exact Finset.sum_eq_zero fun p _ => Finset.sum_eq_zero fun q _ => by rw [sin_nat q]; simp
  · constructor
    · rw [Finset.sum_mul_sum]
      refine Finset.sum_congr rfl fun p _ => Finset.sum_congr rfl fun q _ => ?_
      have hs := (Real.sinh_pos_iff.mpr (hpos p q)).ne'
      have h1 : (2 * p + 1 : ℝ) ≠ 0 := by positivity
      have h2 : (2 * q + 1 : ℝ) ≠ 0 := by positivity
      have : sinh (rate p q * (1 - 1)) = 0 := by simp
      rw [this, mul_one]
      field_simp
      ring
    · simp only [steady3, Finset.sum_div]
      refine Finset.sum_congr rfl fun p _ => Finset.sum_congr rfl fun q _ => ?_
      simp
      ring

/-- C102: the beam with convection satisfies the fin equation k A T'' = h P (T - Tinf), with the given temperatures at its two ends. -/
theorem C102_fin (Ta Tb h Tinf k perimeter area length : ℝ) (hh : 0 < h) (hk : 0 < k) (hp : 0 < perimeter) (ha : 0 < area) (hl : length ≠ 0) :
    (∀ x, k * area * second (fun x => fin x Ta Tb h Tinf k perimeter area length) x = h * perimeter * (fin x Ta Tb h Tinf k perimeter area length - Tinf)) ∧
    fin 0 Ta Tb h Tinf k perimeter area length = Ta ∧ fin length Ta Tb h Tinf k perimeter area length = Tb := by
  have hm : finRate h k perimeter area * finRate h k perimeter area = h * perimeter / (k * area) := Real.mul_self_sqrt (by positivity)
  have hm0 : 0 < finRate h k perimeter area := Real.sqrt_pos.mpr (by positivity)
  unfold Ana.fin
  generalize finRate h k perimeter area = m at hm hm0
  have hE : exp (2 * m * length) = exp (m * length) * exp (m * length) := by rw [← Real.exp_add]; congr 1; ring
  have hne : exp (2 * m * length) - 1 ≠ 0 := by
    intro h0
    have : exp (2 * m * length) = 1 := by linarith
    rw [Real.exp_eq_one_iff] at this
    have : m * length = 0 := by linarith
    rcases mul_eq_zero.mp this with h1 | h1
    · exact hm0.ne' h1
    · exact hl h1
  refine ⟨fun x => ?_, ?_, ?_⟩
  · unfold finWith
    generalize -(exp (m * length) * Tb - exp (2 * m * length) * Ta + Tinf * exp (2 * m * length) - Tinf * exp (m * length)) / (exp (2 * m * length) - 1) = c1
    simp only []
    generalize Ta - Tinf - c1 = c2
    have d1 : ∀ x, HasDerivAt (fun x => Tinf + c1 * exp (-m * x) + c2 * exp (m * x)) (c1 * (-m * exp (-m * x)) + c2 * (m * exp (m * x))) x := fun x => by
      have := (((d_exp (-m) x).const_mul c1).const_add Tinf).add ((d_exp m x).const_mul c2)
      exact this
    have d2 : ∀ x, HasDerivAt (fun x => c1 * (-m * exp (-m * x)) + c2 * (m * exp (m * x))) (c1 * (-m * (-m * exp (-m * x))) + c2 * (m * (m * exp (m * x)))) x := fun x =>
      (((d_exp (-m) x).const_mul (-m)).const_mul c1).add (((d_exp m x).const_mul m).const_mul c2)
    rw [second_of d1 d2]
    have : h * perimeter = k * area * (m * m) := by rw [hm]; field_simp
    rw [this]
    ring
  · simp [finWith]
  · simp only [finWith]
    have hneg : exp (-m * length) = (exp (m * length))⁻¹ := by rw [← Real.exp_neg]; congr 1; ring
    have hpos := Real.exp_pos (m * length)
    rw [hE] at hne ⊢
    rw [hneg]
    generalize exp (m * length) = e at *
    have he : e ≠ 0 := hpos.ne'
    generalize hD : e * e - 1 = D at *
    field_simp
    subst hD
    ring

example : fin 0 1 2 3 4 5 6 7 8 = 1 ∧ fin 8 1 2 3 4 5 6 7 8 = 2 :=
  let h := C102_fin 1 2 3 4 5 6 7 8 (by norm_num) (by norm_num) (by norm_num) (by norm_num) (by norm_num)
  ⟨h.2.1, h.2.2⟩

theorem cos_half (p : ℕ) : cos ((2 * p + 1) * π * (1 / 2)) = 0 := by
  rw [Real.cos_eq_zero_iff]
  exact ⟨p, by push_cast; ring⟩

/-- C102: `transientHeatConduction1D` satisfies the heat equation, is insulated at x = 0 and zero at x = 1. -/
theorem C102_transient1 (alpha : ℝ) :
    (∀ x t, HasDerivAt (fun t => transient1 x t alpha) (alpha * second (fun x => transient1 x t alpha) x) t) ∧
    (∀ t, HasDerivAt (fun x => transient1 x t alpha) 0 0) ∧ ∀ t, transient1 1 t alpha = 0 := by
  refine ⟨fun x t => ?_, fun t => ?_, fun t => ?_⟩
  · have h1 := eigen_sum (range 99) (fun (i : ℕ) x => 4 / π * (-1) ^ ((i + 1) + 1) / (2 * ((i + 1 : ℕ) : ℝ) - 1) * exp (-alpha * ((2 * ((i + 1 : ℕ) : ℝ) - 1) * π * 0.5) * ((2 * ((i + 1 : ℕ) : ℝ) - 1) * π * 0.5) * t) *
      cos ((2 * ((i + 1 : ℕ) : ℝ) - 1) * π * 0.5 * x)) _ (fun i => (eigen_cos ((2 * ((i + 1 : ℕ) : ℝ) - 1) * π * 0.5)).mul _) x
    show HasDerivAt (fun t => ∑ i ∈ range 99, _) _ t
    unfold transient1
    rw [h1, Finset.mul_sum]
    refine HasDerivAt.fun_sum fun i _ => ?_
    have := ((d_exp (-alpha * ((2 * ((i + 1 : ℕ) : ℝ) - 1) * π * 0.5) * ((2 * ((i + 1 : ℕ) : ℝ) - 1) * π * 0.5)) t).const_mul (4 / π * (-1) ^ ((i + 1) + 1) / (2 * ((i + 1 : ℕ) : ℝ) - 1))).mul_const
      (cos ((2 * ((i + 1 : ℕ) : ℝ) - 1) * π * 0.5 * x))
    exact this.congr_deriv (by ring)
  · have : HasDerivAt (fun x => transient1 x t alpha) (∑ i ∈ range 99, (4 / π * (-1) ^ ((i + 1) + 1) / (2 * ((i + 1 : ℕ) : ℝ) - 1) * exp (-alpha * ((2 * ((i + 1 : ℕ) : ℝ) - 1) * π * 0.5) * ((2 * ((i + 1 : ℕ) : ℝ) - 1) * π * 0.5) * t)) *
        (-((2 * ((i + 1 : ℕ) : ℝ) - 1) * π * 0.5 * sin ((2 * ((i + 1 : ℕ) : ℝ) - 1) * π * 0.5 * 0)))) 0 :=
      HasDerivAt.fun_sum fun i _ => (d_cos ((2 * ((i + 1 : ℕ) : ℝ) - 1) * π * 0.5) 0).const_mul _
    rwa [Finset.sum_eq_zero fun i _ => by simp] at this
  · refine Finset.sum_eq_zero fun i _ => ?_
    have : (2 * ((i + 1 : ℕ) : ℝ) - 1) * π * 0.5 * 1 = (2 * i + 1) * π * (1 / 2) := by push_cast; norm_num; ring
    rw [this, cos_half, mul_zero]

/-- C102: `transientHeatConduction2D` satisfies the heat equation and is zero on the four sides of the square. -/
theorem C102_transient2 (alpha : ℝ) :
    (∀ x y t, HasDerivAt (fun t => transient2 x y t alpha)
      (alpha * (second (fun x => transient2 x y t alpha) x + second (fun y => transient2 x y t alpha) y)) t) ∧
    ∀ s t, transient2 (1 / 2) s t alpha = 0 ∧ transient2 (-1 / 2) s t alpha = 0 ∧ transient2 s (1 / 2) t alpha = 0 ∧ transient2 s (-1 / 2) t alpha = 0 := by
  have cos_half' : ∀ p : ℕ, cos ((2 * p + 1) * π * (-1 / 2)) = 0 := fun p => by
    have : (2 * p + 1) * π * (-1 / 2) = -((2 * p + 1) * π * (1 / 2)) := by ring
    rw [this, Real.cos_neg, cos_half]
  have flat : ∀ x y t, transient2 x y t alpha = ∑ i ∈ range 50 ×ˢ range 50, 16 / (π * π) * (-1) ^ (i.1 + i.2) / ((2 * i.1 + 1) * (2 * i.2 + 1)) * (cos ((2 * i.1 + 1) * π * x) * cos ((2 * i.2 + 1) * π * y)) *
    exp (-(alpha * π * π * ((2 * i.1 + 1) * (2 * i.1 + 1) + (2 * i.2 + 1) * (2 * i.2 + 1))) * t) := fun x y t =>
    (Finset.sum_product' _ _ (fun (p q : ℕ) => 16 / (π * π) * (-1) ^ (p + q) / ((2 * p + 1) * (2 * q + 1)) * (cos ((2 * p + 1) * π * x) * cos ((2 * q + 1) * π * y)) *
    exp (-(alpha * π * π * ((2 * p + 1) * (2 * p + 1) + (2 * q + 1) * (2 * q + 1))) * t))).symm
  refine ⟨fun x y t => ?_, fun s t => ⟨?_, ?_, ?_, ?_⟩⟩
  · have h1 := eigen_sum (range 50 ×ˢ range 50) (fun (i : ℕ × ℕ) x => 16 / (π * π) * (-1) ^ (i.1 + i.2) / ((2 * i.1 + 1) * (2 * i.2 + 1)) * (cos ((2 * i.1 + 1) * π * x) * cos ((2 * i.2 + 1) * π * y)) *
      exp (-(alpha * π * π * ((2 * i.1 + 1) * (2 * i.1 + 1) + (2 * i.2 + 1) * (2 * i.2 + 1))) * t)) _
      (fun i => ((eigen_cos ((2 * i.1 + 1) * π)).mul (16 / (π * π) * (-1) ^ (i.1 + i.2) / ((2 * i.1 + 1) * (2 * i.2 + 1)) * cos ((2 * i.2 + 1) * π * y) *
      exp (-(alpha * π * π * ((2 * i.1 + 1) * (2 * i.1 + 1) + (2 * i.2 + 1) * (2 * i.2 + 1))) * t))).congr fun x => by ring) x
    have h2 := eigen_sum (range 50 ×ˢ range 50) (fun (i : ℕ × ℕ) y => 16 / (π * π) * (-1) ^ (i.1 + i.2) / ((2 * i.1 + 1) * (2 * i.2 + 1)) * (cos ((2 * i.1 + 1) * π * x) * cos ((2 * i.2 + 1) * π * y)) *
      exp (-(alpha * π * π * ((2 * i.1 + 1) * (2 * i.1 + 1) + (2 * i.2 + 1) * (2 * i.2 + 1))) * t)) _
      (fun i => ((eigen_cos ((2 * i.2 + 1) * π)).mul (16 / (π * π) * (-1) ^ (i.1 + i.2) / ((2 * i.1 + 1) * (2 * i.2 + 1)) * cos ((2 * i.1 + 1) * π * x) *
      exp (-(alpha * π * π * ((2 * i.1 + 1) * (2 * i.1 + 1) + (2 * i.2 + 1) * (2 * i.2 + 1))) * t))).congr fun x => by ring) y
    simp only [flat]
    rw [h1, h2, ← Finset.sum_add_distrib, Finset.mul_sum]
    refine HasDerivAt.fun_sum fun i _ => ?_
    have := (d_exp (-(alpha * π * π * ((2 * i.1 + 1) * (2 * i.1 + 1) + (2 * i.2 + 1) * (2 * i.2 + 1)))) t).const_mul
      (16 / (π * π) * (-1) ^ (i.1 + i.2) / ((2 * i.1 + 1) * (2 * i.2 + 1)) * (cos ((2 * i.1 + 1) * π * x) * cos ((2 * i.2 + 1) * π * y)))
    exact this.congr_deriv (by ring)
  · exact Finset.sum_eq_zero fun p _ => Finset.sum_eq_zero fun q _ => by rw [cos_half p]; simp
  · exact Finset.sum_eq_zero fun p _ => Finset.sum_eq_zero fun q _ => by rw [cos_half' p]; simp
  · exact Finset.sum_eq_zero fun p _ => Finset.sum_eq_zero fun q _ => by rw [cos_half q]; simp
  · exact Finset.sum_eq_zero fun p _ => Finset.sum_eq_zero fun q _ => by rw [cos_half' q]; simp

/-- C102: at the start `transientHeatConduction2D` is the product of the partial sums of the even square wave, with alternating signs in both directions. -/
theorem C102_start2 (x y alpha : ℝ) : transient2 x y 0 alpha =
    (∑ p ∈ range 50, 4 / π * ((-1) ^ p * cos ((2 * p + 1) * π * x) / (2 * p + 1))) * (∑ q ∈ range 50, 4 / π * ((-1) ^ q * cos ((2 * q + 1) * π * y) / (2 * q + 1))) := by
  rw [Finset.sum_mul_sum]
  refine Finset.sum_congr rfl fun p _ => Finset.sum_congr rfl fun q _ => ?_
  rw [mul_zero, Real.exp_zero, pow_add]
  have h1 : (2 * p + 1 : ℝ) ≠ 0 := by positivity
  have h2 : (2 * q + 1 : ℝ) ≠ 0 := by positivity
  field_simp
  norm_num
  ring

/-- C102: at the start and at the middle the one- and two-dimensional transients are close to the initial temperature 1. -/
theorem C102_centre (alpha : ℝ) : |transient1 0 0 alpha - 1| < 1 / 100 ∧ |transient2 0 0 0 alpha - 1| < 2 / 100 := by
  have hp1 := Real.pi_gt_d4
  have hp2 := Real.pi_lt_d4
  have h3 : (0 : ℝ) < π := Real.pi_pos
  constructor
  · have e : transient1 0 0 alpha = 4 / π * ∑ i ∈ range 99, (-1 : ℝ) ^ i / (2 * i + 1) := by
      rw [Finset.mul_sum]
      refine Finset.sum_congr rfl fun i _ => ?_
      push_cast
      have : (2 * ((i : ℝ) + 1) - 1) = 2 * i + 1 := by ring
      rw [this, mul_zero, mul_zero, Real.exp_zero, Real.cos_zero, pow_add, pow_add]
      ring
    have h1 : (∑ i ∈ range 99, (-1 : ℝ) ^ i / (2 * i + 1)) < 0.788 := by norm_num [Finset.sum_range_succ]
    have h2 : 0.7878 < (∑ i ∈ range 99, (-1 : ℝ) ^ i / (2 * i + 1)) := by norm_num [Finset.sum_range_succ]
    rw [e, abs_lt]
    generalize (∑ i ∈ range 99, (-1 : ℝ) ^ i / (2 * i + 1)) = S at *
    have : 4 / π * S = 4 * S / π := by ring
    rw [this]
    constructor
    · rw [lt_sub_iff_add_lt, lt_div_iff₀ h3]; linarith
    · rw [sub_lt_iff_lt_add, div_lt_iff₀ h3]; linarith
  · have e : transient2 0 0 0 alpha = (4 * (∑ i ∈ range 50, (-1 : ℝ) ^ i / (2 * i + 1)) / π) * (4 * (∑ i ∈ range 50, (-1 : ℝ) ^ i / (2 * i + 1)) / π) := by
      have : ∑ p ∈ range 50, 4 / π * ((-1) ^ p * cos ((2 * p + 1) * π * 0) / (2 * p + 1)) = 4 * (∑ i ∈ range 50, (-1 : ℝ) ^ i / (2 * i + 1)) / π := by
        rw [mul_div_right_comm, Finset.mul_sum]
        exact Finset.sum_congr rfl fun i _ => by simp
      rw [C102_start2, this]
    have h1 : (∑ i ∈ range 50, (-1 : ℝ) ^ i / (2 * i + 1)) < 0.7805 := by norm_num [Finset.sum_range_succ]
    have h2 : 0.7803 < (∑ i ∈ range 50, (-1 : ℝ) ^ i / (2 * i + 1)) := by norm_num [Finset.sum_range_succ]
    rw [e, abs_lt]
    generalize (∑ i ∈ range 50, (-1 : ℝ) ^ i / (2 * i + 1)) = S at *
    have a1 : 4 * S / π < 1 := by rw [div_lt_iff₀ h3]; linarith
    have a2 : 0.993 < 4 * S / π := by rw [lt_div_iff₀ h3]; linarith
    constructor <;> nlinarith

/-- C102, partial: `transientHeatConduction3D` satisfies the heat equation and is zero on the six sides of the cube. Missing: the initial temperature (`C102_start3_wrong`). -/
theorem C102_transient3_partial (alpha : ℝ) :
    (∀ x y z t, HasDerivAt (fun t => transient3 x y z t alpha)
      (alpha * (second (fun x => transient3 x y z t alpha) x + second (fun y => transient3 x y z t alpha) y + second (fun z => transient3 x y z t alpha) z)) t) ∧
    ∀ r s t, transient3 (1 / 2) r s t alpha = 0 ∧ transient3 (-1 / 2) r s t alpha = 0 ∧ transient3 r (1 / 2) s t alpha = 0 ∧ transient3 r (-1 / 2) s t alpha = 0 ∧
      transient3 r s (1 / 2) t alpha = 0 ∧ transient3 r s (-1 / 2) t alpha = 0 := by
  have cos_half' : ∀ p : ℕ, cos ((2 * p + 1) * π * (-1 / 2)) = 0 := fun p => by
    have : (2 * p + 1) * π * (-1 / 2) = -((2 * p + 1) * π * (1 / 2)) := by ring
    rw [this, Real.cos_neg, cos_half]
  let c : ℕ × ℕ × ℕ → ℝ := fun i => 64 / (π * π * π) * (-1) ^ (i.1 + i.2.1) / ((2 * i.1 + 1) * (2 * i.2.1 + 1) * (2 * i.2.2 + 1))
  let w : ℕ × ℕ × ℕ → ℝ := fun i => -(alpha * π * π * ((2 * i.1 + 1) * (2 * i.1 + 1) + (2 * i.2.1 + 1) * (2 * i.2.1 + 1) + (2 * i.2.2 + 1) * (2 * i.2.2 + 1)))
  have flat : ∀ x y z t, transient3 x y z t alpha = ∑ i ∈ range 50 ×ˢ range 50 ×ˢ range 50, c i *
      cos ((2 * i.1 + 1) * π * x) * cos ((2 * i.2.1 + 1) * π * y) * cos ((2 * i.2.2 + 1) * π * z) * exp (w i * t) := by
    intro x y z t
    rw [Finset.sum_product]
    refine Finset.sum_congr rfl fun p _ => ?_
    rw [Finset.sum_product]
  refine ⟨fun x y z t => ?_, fun r s t => ⟨?_, ?_, ?_, ?_, ?_, ?_⟩⟩
  · have h1 := eigen_sum (range 50 ×ˢ range 50 ×ˢ range 50) (fun i x => c i *
      cos ((2 * i.1 + 1) * π * x) * cos ((2 * i.2.1 + 1) * π * y) * cos ((2 * i.2.2 + 1) * π * z) * exp (w i * t)) _
      (fun i => ((eigen_cos ((2 * i.1 + 1) * π)).mul (c i * cos ((2 * i.2.1 + 1) * π * y) * cos ((2 * i.2.2 + 1) * π * z) * exp (w i * t))).congr fun x => by ring) x
    have h2 := eigen_sum (range 50 ×ˢ range 50 ×ˢ range 50) (fun i y => c i *
      cos ((2 * i.1 + 1) * π * x) * cos ((2 * i.2.1 + 1) * π * y) * cos ((2 * i.2.2 + 1) * π * z) * exp (w i * t)) _
      (fun i => ((eigen_cos ((2 * i.2.1 + 1) * π)).mul (c i * cos ((2 * i.1 + 1) * π * x) * cos ((2 * i.2.2 + 1) * π * z) * exp (w i * t))).congr fun x => by ring) y
    have h3 := eigen_sum (range 50 ×ˢ range 50 ×ˢ range 50) (fun i z => c i *
      cos ((2 * i.1 + 1) * π * x) * cos ((2 * i.2.1 + 1) * π * y) * cos ((2 * i.2.2 + 1) * π * z) * exp (w i * t)) _
      (fun i => ((eigen_cos ((2 * i.2.2 + 1) * π)).mul (c i * cos ((2 * i.1 + 1) * π * x) * cos ((2 * i.2.1 + 1) * π * y) * exp (w i * t))).congr fun x => by ring) z
    simp only [flat]
    rw [h1, h2, h3, ← Finset.sum_add_distrib, ← Finset.sum_add_distrib, Finset.mul_sum]
    refine HasDerivAt.fun_sum fun i _ => ?_
    have := (d_exp (w i) t).const_mul (c i * cos ((2 * i.1 + 1) * π * x) * cos ((2 * i.2.1 + 1) * π * y) * cos ((2 * i.2.2 + 1) * π * z))
    refine this.congr_deriv ?_
    simp only [w]
    ring
  · exact Finset.sum_eq_zero fun p _ => Finset.sum_eq_zero fun q _ => Finset.sum_eq_zero fun r _ => by rw [cos_half p]; simp
  · exact Finset.sum_eq_zero fun p _ => Finset.sum_eq_zero fun q _ => Finset.sum_eq_zero fun r _ => by rw [cos_half' p]; simp
  · exact Finset.sum_eq_zero fun p _ => Finset.sum_eq_zero fun q _ => Finset.sum_eq_zero fun r _ => by rw [cos_half q]; simp
  · exact Finset.sum_eq_zero fun p _ => Finset.sum_eq_zero fun q _ => Finset.sum_eq_zero fun r _ => by rw [cos_half' q]; simp
  · exact Finset.sum_eq_zero fun p _ => Finset.sum_eq_zero fun q _ => Finset.sum_eq_zero fun r _ => by rw [cos_half r]; simp
  · exact Finset.sum_eq_zero fun p _ => Finset.sum_eq_zero fun q _ => Finset.sum_eq_zero fun r _ => by rw [cos_half' r]; simp

/-- C102, negative: the sign of the third direction is missing in `transientHeatConduction3D`, so that the middle of the cube starts above 3, where the documented initial temperature is 1. -/
theorem C102_start3_wrong (alpha : ℝ) : 3 < transient3 0 0 0 0 alpha := by
  have hp1 := Real.pi_gt_d4
  have hp2 := Real.pi_lt_d4
  have h3 : (0 : ℝ) < π := Real.pi_pos
  have e : transient3 0 0 0 0 alpha = (4 * (∑ i ∈ range 50, (-1 : ℝ) ^ i / (2 * i + 1)) / π) * ((4 * (∑ i ∈ range 50, (-1 : ℝ) ^ i / (2 * i + 1)) / π) * (4 * (∑ i ∈ range 50, (1 : ℝ) / (2 * i + 1)) / π)) := by
    have : ∀ f : ℕ → ℝ, 4 * (∑ i ∈ range 50, f i) / π = ∑ i ∈ range 50, 4 / π * f i := fun f => by rw [mul_div_right_comm, Finset.mul_sum]
    rw [this, this, Finset.sum_mul_sum, Finset.sum_mul_sum]
    refine Finset.sum_congr rfl fun p _ => ?_
    refine Finset.sum_congr rfl fun q _ => ?_
    rw [Finset.mul_sum]
    refine Finset.sum_congr rfl fun r _ => ?_
    simp only [mul_zero, Real.cos_zero, Real.exp_zero, mul_one, pow_add]
    have h1 : (2 * p + 1 : ℝ) ≠ 0 := by positivity
    have h2 : (2 * q + 1 : ℝ) ≠ 0 := by positivity
    have h4 : (2 * r + 1 : ℝ) ≠ 0 := by positivity
    field_simp
    ring
  have h2 : 0.7803 < (∑ i ∈ range 50, (-1 : ℝ) ^ i / (2 * i + 1)) := by norm_num [Finset.sum_range_succ]
  have h4 : 2.9 < (∑ i ∈ range 50, (1 : ℝ) / (2 * i + 1)) := by norm_num [Finset.sum_range_succ]
  rw [e]
  generalize (∑ i ∈ range 50, (-1 : ℝ) ^ i / (2 * i + 1)) = S at *
  generalize (∑ i ∈ range 50, (1 : ℝ) / (2 * i + 1)) = H at *
  have a2 : 0.993 < 4 * S / π := by rw [lt_div_iff₀ h3]; linarith
  have a3 : 3.6 < 4 * H / π := by rw [lt_div_iff₀ h3]; linarith
  have a4 : 3.5 < 4 * S / π * (4 * H / π) := by nlinarith
  nlinarith

end ENigMA
