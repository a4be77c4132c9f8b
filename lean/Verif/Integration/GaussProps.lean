import Verif.Integration.Gauss
import Mathlib.Analysis.SpecialFunctions.Integrals.Basic
import Mathlib.Tactic.Linarith
import Mathlib.Tactic.FieldSimp

/-!
# C50: the Gauss rules integrate polynomials

The specification is the integral of Mathlib. The decimals of the source are not the exact nodes of the rules, so the statements bound the error by a
multiple of the sum of the absolute values of the coefficients of the polynomial.
-/

set_option linter.unusedSectionVars false

namespace ENigMA
open Gauss

namespace Gauss

/-- What a user computes with a rule: the sum over its points of weight times value. -/
def apply {P : Type} (r : List (P × ℝ)) (f : P → ℝ) : ℝ := (r.map fun p => p.2 * f p.1).sum

/-- The rules with real points and weights. -/
noncomputable def beamR (n : Nat) : List (ℝ × ℝ) := (beam n).map fun p => ((p.1 : ℝ), (p.2 : ℝ))

/-- The quadrilateral rules. -/
noncomputable def quadrilateralR (n : Nat) : List ((ℝ × ℝ) × ℝ) :=
  (quadrilateral n).map fun p => (((p.1 : ℝ), (p.2.1 : ℝ)), (p.2.2 : ℝ))

/-- The hexahedron rules. -/
noncomputable def hexahedronR (n : Nat) : List ((ℝ × ℝ × ℝ) × ℝ) :=
  (hexahedron n).map fun p => (((p.1 : ℝ), (p.2.1 : ℝ), (p.2.2.1 : ℝ)), (p.2.2.2 : ℝ))

/-- The triangle rules; the first two barycentric coordinates are the coordinates of the reference triangle. -/
noncomputable def triangleR (n : Nat) : List ((ℝ × ℝ) × ℝ) :=
  (triangle n).map fun p => (((p.1 : ℝ), (p.2.1 : ℝ)), (p.2.2.2 : ℝ))

theorem apply_cons {P : Type} (p : P × ℝ) (r : List (P × ℝ)) (f : P → ℝ) : apply (p :: r) f = p.2 * f p.1 + apply r f := by
  simp [apply]

theorem apply_sum {P ι : Type} (r : List (P × ℝ)) (s : Finset ι) (c : ι → ℝ) (g : ι → P → ℝ) :
    apply r (fun x => ∑ k ∈ s, c k * g k x) = ∑ k ∈ s, c k * apply r (g k) := by
  induction r with
  | nil => simp [apply]
  | cons p r ih =>
    rw [apply_cons, ih, Finset.mul_sum, ← Finset.sum_add_distrib]
    refine Finset.sum_congr rfl fun k _ => ?_
    rw [apply_cons]; ring

/-- Monomials integrated up to `ε` give polynomials integrated up to `ε` times the sum of the coefficients. -/
theorem apply_error {P ι : Type} (r : List (P × ℝ)) (s : Finset ι) (c : ι → ℝ) (g : ι → P → ℝ) (m : ι → ℝ) (ε : ℝ)
    (h : ∀ k ∈ s, |apply r (g k) - m k| ≤ ε) :
    |apply r (fun x => ∑ k ∈ s, c k * g k x) - ∑ k ∈ s, c k * m k| ≤ ε * ∑ k ∈ s, |c k| := by
  rw [apply_sum, ← Finset.sum_sub_distrib, Finset.mul_sum]
  refine (Finset.abs_sum_le_sum_abs _ _).trans (Finset.sum_le_sum fun k hk => ?_)
  rw [← mul_sub, abs_mul, mul_comm]
  exact mul_le_mul_of_nonneg_right (h k hk) (abs_nonneg _)

/-- The integral of `x ^ k` over `[-1, 1]`. -/
def mom (k : Nat) : ℚ := if k % 2 = 0 then 2 / (k + 1) else 0

/-- The integral of `x ^ i * y ^ j` over the reference triangle. -/
def tri (i j : Nat) : ℚ := i.factorial * j.factorial / (i + j + 2).factorial

theorem integral_mom (k : Nat) : ∫ x in (-1 : ℝ)..1, x ^ k = (mom k : ℝ) := by
  rw [integral_pow, mom]
  rcases Nat.even_or_odd k with h | h
  · rw [if_pos (Nat.even_iff.1 h), (Even.add_one h).neg_one_pow]
    push_cast; norm_num
  · rw [if_neg (by rw [Nat.odd_iff.1 h]; decide), (Odd.add_one h).neg_one_pow]
    simp

theorem integral_beta (i j : Nat) :
    ∫ x in (0 : ℝ)..1, x ^ i * (1 - x) ^ j = i.factorial * j.factorial / (i + j + 1).factorial := by
  induction j generalizing i with
  | zero =>
    simp only [pow_zero, mul_one, add_zero, Nat.factorial_zero, Nat.cast_one]
    rw [integral_pow, Nat.factorial_succ]
    have : (i.factorial : ℝ) ≠ 0 := Nat.cast_ne_zero.2 (Nat.factorial_ne_zero i)
    push_cast; field_simp; simp
  | succ j ih =>
    have hd : ∀ x ∈ Set.uIcc (0 : ℝ) 1, HasDerivAt (fun x : ℝ => x ^ (i + 1) * (1 - x) ^ (j + 1))
        ((i + 1) * (x ^ i * (1 - x) ^ (j + 1)) - (j + 1) * (x ^ (i + 1) * (1 - x) ^ j)) x := by
      intro x _
      have h1 := (hasDerivAt_id x).pow (i + 1)
      have h2 := ((hasDerivAt_id x).const_sub 1).pow (j + 1)
      refine (h1.mul h2).congr_deriv ?_
      simp; ring
    have hi := intervalIntegral.integral_eq_sub_of_hasDerivAt hd
      (by apply Continuous.intervalIntegrable; fun_prop)
    rw [intervalIntegral.integral_sub (by apply Continuous.intervalIntegrable; fun_prop) (by apply Continuous.intervalIntegrable; fun_prop),
      intervalIntegral.integral_const_mul, intervalIntegral.integral_const_mul, ih (i + 1)] at hi
    have hi' : (i + 1 : ℝ) * (∫ x in (0 : ℝ)..1, x ^ i * (1 - x) ^ (j + 1)) = (j + 1) * ((i + 1).factorial * j.factorial / (i + 1 + j + 1).factorial) := by
      have : (0 : ℝ) = 1 ^ (i + 1) * (1 - 1) ^ (j + 1) - 0 ^ (i + 1) * (1 - 0) ^ (j + 1) := by simp
      rw [← this] at hi
      exact sub_eq_zero.1 hi
    have hp : (i + 1 : ℝ) ≠ 0 := by positivity
    apply mul_left_cancel₀ hp
    rw [hi', show i + 1 + j + 1 = i + (j + 1) + 1 by ring, Nat.factorial_succ i, Nat.factorial_succ j]
    push_cast; ring

theorem integral_tri (i j : Nat) : ∫ x in (0 : ℝ)..1, ∫ y in (0 : ℝ)..(1 - x), x ^ i * y ^ j = (tri i j : ℝ) := by
  have : ∀ x : ℝ, ∫ y in (0 : ℝ)..(1 - x), x ^ i * y ^ j = (j + 1 : ℝ)⁻¹ * (x ^ i * (1 - x) ^ (j + 1)) := by
    intro x
    rw [intervalIntegral.integral_const_mul, integral_pow]
    simp; ring
  simp only [this]
  rw [intervalIntegral.integral_const_mul, integral_beta, tri, Nat.factorial_succ j]
  have : (j + 1 : ℝ) ≠ 0 := by positivity
  push_cast
  rw [show i + (j + 1) + 1 = i + j + 2 by ring]
  field_simp

/-- The error of a rule on a monomial, from rational arithmetic. -/
theorem beam_mono (n k : Nat) : apply (beamR n) (fun x => x ^ k) = (((beam n).map fun p => p.2 * p.1 ^ k).sum : ℚ) := by
  rw [beamR]
  induction beam n with
  | nil => simp [apply]
  | cons p r ih => rw [List.map_cons, apply_cons, ih]; simp

theorem quad_mono (n i j : Nat) :
    apply (quadrilateralR n) (fun x => x.1 ^ i * x.2 ^ j) = (((quadrilateral n).map fun p => p.2.2 * (p.1 ^ i * p.2.1 ^ j)).sum : ℚ) := by
  rw [quadrilateralR]
  induction quadrilateral n with
  | nil => simp [apply]
  | cons p r ih => rw [List.map_cons, apply_cons, ih]; simp

theorem hex_mono (n i j k : Nat) :
    apply (hexahedronR n) (fun x => x.1 ^ i * (x.2.1 ^ j * x.2.2 ^ k)) =
      (((hexahedron n).map fun p => p.2.2.2 * (p.1 ^ i * (p.2.1 ^ j * p.2.2.1 ^ k))).sum : ℚ) := by
  rw [hexahedronR]
  induction hexahedron n with
  | nil => simp [apply]
  | cons p r ih => rw [List.map_cons, apply_cons, ih]; simp

theorem tri_mono (n i j : Nat) :
    apply (triangleR n) (fun x => x.1 ^ i * x.2 ^ j) = (((triangle n).map fun p => p.2.2.2 * (p.1 ^ i * p.2.1 ^ j)).sum : ℚ) := by
  rw [triangleR]
  induction triangle n with
  | nil => simp [apply]
  | cons p r ih => rw [List.map_cons, apply_cons, ih]; simp

theorem cast_le {a b : ℚ} {e : Nat} (h : |a - b| ≤ 1 / 10 ^ e) : |(a : ℝ) - b| ≤ 1 / 10 ^ e := by
  have := (Rat.cast_le (K := ℝ)).2 h
  push_cast at this
  exact this

/-- The monomials of the beam rules. -/
theorem beam_check : ∀ p ∈ [(1, 1), (2, 3), (4, 7), (6, 11)], ∀ k ∈ List.range (p.2 + 1),
    |((beam p.1).map fun x => x.2 * x.1 ^ k).sum - mom k| ≤ (1 / 10 ^ 9 : ℚ) := by decide +kernel

theorem quad_check : ∀ p ∈ [(1, 1), (4, 3)], ∀ i ∈ List.range (p.2 + 1), ∀ j ∈ List.range (p.2 + 1),
    |((quadrilateral p.1).map fun x => x.2.2 * (x.1 ^ i * x.2.1 ^ j)).sum - mom i * mom j| ≤ (1 / 10 ^ 9 : ℚ) := by decide +kernel

theorem hex_check : ∀ p ∈ [(1, 1), (8, 3)], ∀ i ∈ List.range (p.2 + 1), ∀ j ∈ List.range (p.2 + 1), ∀ k ∈ List.range (p.2 + 1),
    |((hexahedron p.1).map fun x => x.2.2.2 * (x.1 ^ i * (x.2.1 ^ j * x.2.2.1 ^ k))).sum - mom i * (mom j * mom k)| ≤ (1 / 10 ^ 9 : ℚ) := by
  decide +kernel

theorem tri_check : ∀ p ∈ [(6, 4), (12, 6), (16, 8), (17, 8), (20, 9)], ∀ i ∈ List.range (p.2 + 1), ∀ j ∈ List.range (p.2 + 1 - i),
    |((triangle p.1).map fun x => x.2.2.2 * (x.1 ^ i * x.2.1 ^ j)).sum - tri i j| ≤ (1 / 10 ^ 12 : ℚ) := by decide +kernel

end Gauss

/-- C50, beams: a beam rule with 1, 2, 4 or 6 points integrates every polynomial of degree at most 1, 3, 7 or 11 over `[-1, 1]`. For a constant this is
the sum of the weights. The rule with 3 points does not (`C50_wrong_sums`). -/
theorem C50_beam_partial (n d : Nat) (hn : (n, d) ∈ [(1, 1), (2, 3), (4, 7), (6, 11)]) (c : Nat → ℝ) :
    |apply (beamR n) (fun x => ∑ k ∈ Finset.range (d + 1), c k * x ^ k) - ∫ x in (-1 : ℝ)..1, ∑ k ∈ Finset.range (d + 1), c k * x ^ k|
      ≤ 1 / 10 ^ 9 * ∑ k ∈ Finset.range (d + 1), |c k| := by
  have hm : ∫ x in (-1 : ℝ)..1, ∑ k ∈ Finset.range (d + 1), c k * x ^ k = ∑ k ∈ Finset.range (d + 1), c k * (mom k : ℝ) := by
    rw [intervalIntegral.integral_finset_sum fun k _ => by apply Continuous.intervalIntegrable; fun_prop]
    simp only [intervalIntegral.integral_const_mul, integral_mom]
  rw [hm]
  refine apply_error _ _ c (fun k x => x ^ k) _ _ fun k hk => ?_
  rw [beam_mono]
  have := cast_le (beam_check (n, d) hn k (List.mem_range.2 (Finset.mem_range.1 hk)))
  exact this

/-- Non-vacuity: the cubic `1 + x ^ 3` with the two-point rule. -/
example : (2, 3) ∈ [(1, 1), (2, 3), (4, 7), (6, 11)] := by decide

/-- C50, quadrilaterals: the rules with 1 and 4 points integrate every polynomial of degree at most 1 and 3 in each variable over the square. The rule
with 8 points does not (`C50_wrong_sums`). -/
theorem C50_quadrilateral_partial (n d : Nat) (hn : (n, d) ∈ [(1, 1), (4, 3)]) (c : Nat → Nat → ℝ) :
    |apply (quadrilateralR n) (fun x => ∑ i ∈ Finset.range (d + 1), ∑ j ∈ Finset.range (d + 1), c i j * (x.1 ^ i * x.2 ^ j))
      - ∫ x in (-1 : ℝ)..1, ∫ y in (-1 : ℝ)..1, ∑ i ∈ Finset.range (d + 1), ∑ j ∈ Finset.range (d + 1), c i j * (x ^ i * y ^ j)|
      ≤ 1 / 10 ^ 9 * ∑ i ∈ Finset.range (d + 1), ∑ j ∈ Finset.range (d + 1), |c i j| := by
  have hm : ∫ x in (-1 : ℝ)..1, ∫ y in (-1 : ℝ)..1, ∑ i ∈ Finset.range (d + 1), ∑ j ∈ Finset.range (d + 1), c i j * (x ^ i * y ^ j)
      = ∑ i ∈ Finset.range (d + 1), ∑ j ∈ Finset.range (d + 1), c i j * ((mom i * mom j : ℚ) : ℝ) := by
    simp only [Rat.cast_mul]
    have h1 : ∀ x : ℝ, ∫ y in (-1 : ℝ)..1, ∑ i ∈ Finset.range (d + 1), ∑ j ∈ Finset.range (d + 1), c i j * (x ^ i * y ^ j)
        = ∑ i ∈ Finset.range (d + 1), ∑ j ∈ Finset.range (d + 1), c i j * (x ^ i * (mom j : ℝ)) := by
      intro x
      rw [intervalIntegral.integral_finset_sum fun k _ => by apply Continuous.intervalIntegrable; fun_prop]
      refine Finset.sum_congr rfl fun i _ => ?_
      rw [intervalIntegral.integral_finset_sum fun k _ => by apply Continuous.intervalIntegrable; fun_prop]
      simp only [intervalIntegral.integral_const_mul, integral_mom]
    simp only [h1]
    rw [intervalIntegral.integral_finset_sum fun k _ => by apply Continuous.intervalIntegrable; fun_prop]
    refine Finset.sum_congr rfl fun i _ => ?_
    rw [intervalIntegral.integral_finset_sum fun k _ => by apply Continuous.intervalIntegrable; fun_prop]
    simp only [intervalIntegral.integral_const_mul, intervalIntegral.integral_mul_const, integral_mom]
  rw [hm]
  have key := apply_error (quadrilateralR n) (Finset.range (d + 1) ×ˢ Finset.range (d + 1)) (fun k : Nat × Nat => c k.1 k.2)
    (fun k x => x.1 ^ k.1 * x.2 ^ k.2) (fun k => ((mom k.1 * mom k.2 : ℚ) : ℝ)) (1 / 10 ^ 9) ?_
  · simpa only [Finset.sum_product] using key
  intro k hk
  rw [quad_mono]
  rw [Finset.mem_product, Finset.mem_range, Finset.mem_range] at hk
  have := cast_le (quad_check (n, d) hn k.1 (List.mem_range.2 hk.1) k.2 (List.mem_range.2 hk.2))
  exact this

example : (4, 3) ∈ [(1, 1), (4, 3)] := by decide

/-- C50, hexahedra: the weights of the rules with 1, 8 and 27 points sum to the volume 8 of the cube. -/
theorem C50_hexahedron (n : Nat) (hn : n ∈ [1, 8, 27]) : |apply (hexahedronR n) (fun _ => 1) - 8| ≤ 1 / 10 ^ 8 := by
  have hq : ∀ n ∈ [1, 8, 27], |((hexahedron n).map fun x => x.2.2.2 * (x.1 ^ 0 * (x.2.1 ^ 0 * x.2.2.1 ^ 0))).sum - 8| ≤ (1 / 10 ^ 8 : ℚ) := by
    decide +kernel
  have h := hex_mono n 0 0 0
  simp only [pow_zero, mul_one] at h
  rw [h]
  have := cast_le (b := 8) (hq n hn)
  simp only [pow_zero, mul_one] at this
  exact this

/-- C50, hexahedra: the rules with 1 and 8 points integrate every polynomial of degree at most 1 and 3 in each variable over the cube. The rule with 27
points does not (`C50_hexahedron_27`). -/
theorem C50_hexahedron_degree_partial (n d : Nat) (hn : (n, d) ∈ [(1, 1), (8, 3)]) (c : Nat → Nat → Nat → ℝ) :
    |apply (hexahedronR n) (fun x => ∑ i ∈ Finset.range (d + 1), ∑ j ∈ Finset.range (d + 1), ∑ k ∈ Finset.range (d + 1),
        c i j k * (x.1 ^ i * (x.2.1 ^ j * x.2.2 ^ k)))
      - ∫ x in (-1 : ℝ)..1, ∫ y in (-1 : ℝ)..1, ∫ z in (-1 : ℝ)..1, ∑ i ∈ Finset.range (d + 1), ∑ j ∈ Finset.range (d + 1),
          ∑ k ∈ Finset.range (d + 1), c i j k * (x ^ i * (y ^ j * z ^ k))|
      ≤ 1 / 10 ^ 9 * ∑ i ∈ Finset.range (d + 1), ∑ j ∈ Finset.range (d + 1), ∑ k ∈ Finset.range (d + 1), |c i j k| := by
  have hm : ∫ x in (-1 : ℝ)..1, ∫ y in (-1 : ℝ)..1, ∫ z in (-1 : ℝ)..1, ∑ i ∈ Finset.range (d + 1), ∑ j ∈ Finset.range (d + 1),
          ∑ k ∈ Finset.range (d + 1), c i j k * (x ^ i * (y ^ j * z ^ k))
      = ∑ i ∈ Finset.range (d + 1), ∑ j ∈ Finset.range (d + 1), ∑ k ∈ Finset.range (d + 1),
          c i j k * ((mom i * (mom j * mom k) : ℚ) : ℝ) := by
    simp only [Rat.cast_mul]
    have h1 : ∀ x y : ℝ, ∫ z in (-1 : ℝ)..1, ∑ i ∈ Finset.range (d + 1), ∑ j ∈ Finset.range (d + 1),
          ∑ k ∈ Finset.range (d + 1), c i j k * (x ^ i * (y ^ j * z ^ k))
        = ∑ i ∈ Finset.range (d + 1), ∑ j ∈ Finset.range (d + 1), ∑ k ∈ Finset.range (d + 1), c i j k * (x ^ i * (y ^ j * (mom k : ℝ))) := by
      intro x y
      rw [intervalIntegral.integral_finset_sum fun k _ => by apply Continuous.intervalIntegrable; fun_prop]
      refine Finset.sum_congr rfl fun i _ => ?_
      rw [intervalIntegral.integral_finset_sum fun k _ => by apply Continuous.intervalIntegrable; fun_prop]
      refine Finset.sum_congr rfl fun j _ => ?_
      rw [intervalIntegral.integral_finset_sum fun k _ => by apply Continuous.intervalIntegrable; fun_prop]
      simp only [intervalIntegral.integral_const_mul, integral_mom]
    have h2 : ∀ x : ℝ, ∫ y in (-1 : ℝ)..1, ∑ i ∈ Finset.range (d + 1), ∑ j ∈ Finset.range (d + 1),
          ∑ k ∈ Finset.range (d + 1), c i j k * (x ^ i * (y ^ j * (mom k : ℝ)))
        = ∑ i ∈ Finset.range (d + 1), ∑ j ∈ Finset.range (d + 1), ∑ k ∈ Finset.range (d + 1),
            c i j k * (x ^ i * ((mom j : ℝ) * (mom k : ℝ))) := by
      intro x
      rw [intervalIntegral.integral_finset_sum fun k _ => by apply Continuous.intervalIntegrable; fun_prop]
      refine Finset.sum_congr rfl fun i _ => ?_
      rw [intervalIntegral.integral_finset_sum fun k _ => by apply Continuous.intervalIntegrable; fun_prop]
      refine Finset.sum_congr rfl fun j _ => ?_
      rw [intervalIntegral.integral_finset_sum fun k _ => by apply Continuous.intervalIntegrable; fun_prop]
      simp only [intervalIntegral.integral_const_mul, intervalIntegral.integral_mul_const, integral_mom]
    simp only [h1, h2]
    rw [intervalIntegral.integral_finset_sum fun k _ => by apply Continuous.intervalIntegrable; fun_prop]
    refine Finset.sum_congr rfl fun i _ => ?_
    rw [intervalIntegral.integral_finset_sum fun k _ => by apply Continuous.intervalIntegrable; fun_prop]
    refine Finset.sum_congr rfl fun j _ => ?_
    rw [intervalIntegral.integral_finset_sum fun k _ => by apply Continuous.intervalIntegrable; fun_prop]
    simp only [intervalIntegral.integral_const_mul, intervalIntegral.integral_mul_const, integral_mom]
  rw [hm]
  have key := apply_error (hexahedronR n) (Finset.range (d + 1) ×ˢ Finset.range (d + 1) ×ˢ Finset.range (d + 1))
    (fun k : Nat × Nat × Nat => c k.1 k.2.1 k.2.2) (fun k x => x.1 ^ k.1 * (x.2.1 ^ k.2.1 * x.2.2 ^ k.2.2))
    (fun k => ((mom k.1 * (mom k.2.1 * mom k.2.2) : ℚ) : ℝ)) (1 / 10 ^ 9) ?_
  · simpa only [Finset.sum_product] using key
  intro k hk
  rw [hex_mono]
  rw [Finset.mem_product, Finset.mem_product, Finset.mem_range, Finset.mem_range, Finset.mem_range] at hk
  have := cast_le (hex_check (n, d) hn k.1 (List.mem_range.2 hk.1) k.2.1 (List.mem_range.2 hk.2.1) k.2.2 (List.mem_range.2 hk.2.2))
  exact this

example : (8, 3) ∈ [(1, 1), (8, 3)] := by decide

/-- C50, triangles: the rules with 6, 12, 16, 17 and 20 points integrate every polynomial of total degree at most 4, 6, 8, 8 and 9 over the reference
triangle, to `10⁻¹²`. The rules with 1, 3 and 7 points do not (`C50_wrong_sums`). -/
theorem C50_triangle_partial (n d : Nat) (hn : (n, d) ∈ [(6, 4), (12, 6), (16, 8), (17, 8), (20, 9)]) (c : Nat → Nat → ℝ) :
    |apply (triangleR n) (fun x => ∑ i ∈ Finset.range (d + 1), ∑ j ∈ Finset.range (d + 1 - i), c i j * (x.1 ^ i * x.2 ^ j))
      - ∫ x in (0 : ℝ)..1, ∫ y in (0 : ℝ)..(1 - x), ∑ i ∈ Finset.range (d + 1), ∑ j ∈ Finset.range (d + 1 - i), c i j * (x ^ i * y ^ j)|
      ≤ 1 / 10 ^ 12 * ∑ i ∈ Finset.range (d + 1), ∑ j ∈ Finset.range (d + 1 - i), |c i j| := by
  have hc : ∀ i j : Nat, Continuous fun x : ℝ => ∫ y in (0 : ℝ)..(1 - x), x ^ i * y ^ j := by
    intro i j
    simp only [intervalIntegral.integral_const_mul, integral_pow]
    fun_prop
  have hm : ∫ x in (0 : ℝ)..1, ∫ y in (0 : ℝ)..(1 - x), ∑ i ∈ Finset.range (d + 1), ∑ j ∈ Finset.range (d + 1 - i), c i j * (x ^ i * y ^ j)
      = ∑ i ∈ Finset.range (d + 1), ∑ j ∈ Finset.range (d + 1 - i), c i j * (tri i j : ℝ) := by
    have h1 : ∀ x : ℝ, ∫ y in (0 : ℝ)..(1 - x), ∑ i ∈ Finset.range (d + 1), ∑ j ∈ Finset.range (d + 1 - i), c i j * (x ^ i * y ^ j)
        = ∑ i ∈ Finset.range (d + 1), ∑ j ∈ Finset.range (d + 1 - i), c i j * ∫ y in (0 : ℝ)..(1 - x), x ^ i * y ^ j := by
      intro x
      rw [intervalIntegral.integral_finset_sum fun k _ => by apply Continuous.intervalIntegrable; fun_prop]
      refine Finset.sum_congr rfl fun i _ => ?_
      rw [intervalIntegral.integral_finset_sum fun k _ => by apply Continuous.intervalIntegrable; fun_prop]
      simp only [intervalIntegral.integral_const_mul]
    simp only [h1]
    rw [intervalIntegral.integral_finset_sum fun i _ => by
      apply Continuous.intervalIntegrable
      exact continuous_finset_sum _ fun j _ => (hc i j).const_mul (c i j)]
    refine Finset.sum_congr rfl fun i _ => ?_
    rw [intervalIntegral.integral_finset_sum fun j _ => by
      apply Continuous.intervalIntegrable
      exact (hc i j).const_mul (c i j)]
    refine Finset.sum_congr rfl fun j _ => ?_
    rw [intervalIntegral.integral_const_mul, integral_tri]
  rw [hm]
  have key := apply_error (triangleR n) ((Finset.range (d + 1)).sigma fun i => Finset.range (d + 1 - i)) (fun k : (_ : Nat) × Nat => c k.1 k.2)
    (fun k x => x.1 ^ k.1 * x.2 ^ k.2) (fun k => (tri k.1 k.2 : ℝ)) (1 / 10 ^ 12) ?_
  · simpa only [Finset.sum_sigma] using key
  intro k hk
  rw [tri_mono]
  rw [Finset.mem_sigma, Finset.mem_range, Finset.mem_range] at hk
  have := cast_le (tri_check (n, d) hn k.1 (List.mem_range.2 hk.1) k.2 (List.mem_range.2 hk.2))
  exact this

example : (20, 9) ∈ [(6, 4), (12, 6), (16, 8), (17, 8), (20, 9)] := by decide

/-- C50, triangles: the three barycentric coordinates of every point of every rule sum to one, up to the rounding of the decimals, and none is negative. -/
theorem C50_barycentric (n : Nat) (p : ℚ × ℚ × ℚ × ℚ) (hp : p ∈ triangle n) :
    |p.1 + p.2.1 + p.2.2.1 - 1| ≤ 1 / 10 ^ 14 ∧ 0 ≤ p.1 ∧ 0 ≤ p.2.1 ∧ 0 ≤ p.2.2.1 ∧ 0 < p.2.2.2 := by
  have h : ∀ l ∈ [triangle1, triangle3, triangle6, triangle7, triangle12, triangle16, triangle17, triangle20], ∀ p ∈ l,
      |p.1 + p.2.1 + p.2.2.1 - 1| ≤ 1 / 10 ^ 14 ∧ 0 ≤ p.1 ∧ 0 ≤ p.2.1 ∧ 0 ≤ p.2.2.1 ∧ 0 < p.2.2.2 := by decide +kernel
  unfold triangle at hp
  split at hp <;> first | (cases hp; done) | (exact h _ (by simp) p hp)

/-- C50 fails for the other rules: the weights of the beam rule with 3 points sum to less than 1.2 instead of 2, those of the quadrilateral rule with 8
points to less than 3.3 instead of 4, those of the triangle rules with 1, 3 and 7 points to 1, 3 and more than 0.500015 instead of a half, and those of the
prism rules with 1, 6 and 9 points to 8, 3/4 and less than 0.4 instead of 1. -/
theorem C50_wrong_sums (a b : ℝ) :
    apply (beamR 3) (fun _ => 1) < 1.2 ∧ apply (quadrilateralR 8) (fun _ => 1) < 3.3 ∧
    apply (triangleR 1) (fun _ => 1) = 1 ∧ apply (triangleR 3) (fun _ => 1) = 3 ∧ 0.500015 < apply (triangleR 7) (fun _ => 1) ∧
    ((prism a b 1).map fun p => p.2.2.2).sum = 8 ∧ ((prism a b 6).map fun p => p.2.2.2).sum = 3 / 4 ∧
    ((prism a b 9).map fun p => p.2.2.2).sum < 0.4 := by
  refine ⟨?_, ?_, ?_, ?_, ?_, ?_, ?_, ?_⟩
  · simp only [apply, beamR, beam, dec, List.map_cons, List.map_nil, List.sum_cons, List.sum_nil]; norm_num
  · simp only [apply, quadrilateralR, quadrilateral, dec, List.map_cons, List.map_nil, List.sum_cons, List.sum_nil]; norm_num
  · simp only [apply, triangleR, triangle, triangle1, dec, List.map_cons, List.map_nil, List.sum_cons, List.sum_nil]; norm_num
  · simp only [apply, triangleR, triangle, triangle3, dec, List.map_cons, List.map_nil, List.sum_cons, List.sum_nil]; norm_num
  · simp only [apply, triangleR, triangle, triangle7, dec, List.map_cons, List.map_nil, List.sum_cons, List.sum_nil]; norm_num
  · simp only [prism, List.map_cons, List.map_nil, List.sum_cons, List.sum_nil]; norm_num
  · simp only [prism, List.map_cons, List.map_nil, List.sum_cons, List.sum_nil]; norm_num
  · simp only [prism, List.map_cons, List.map_nil, List.sum_cons, List.sum_nil]; norm_num

/-- C50: two points of each layer of the hexahedron rule with 27 points coincide, so it does not integrate the coordinate `eta`: the integral over the
cube is zero and the rule gives less than `-3/2`. -/
theorem C50_hexahedron_27 :
    apply (hexahedronR 27) (fun x => x.2.1) < -3 / 2 ∧ ∫ _x in (-1 : ℝ)..1, ∫ y in (-1 : ℝ)..1, ∫ _z in (-1 : ℝ)..1, y = 0 := by
  refine ⟨?_, ?_⟩
  · have h := hex_mono 27 0 1 0
    simp only [pow_zero, mul_one, one_mul, pow_one] at h
    rw [h]
    have : ((hexahedron 27).map fun x => x.2.2.2 * x.2.1).sum < (-3 / 2 : ℚ) := by decide +kernel
    have := (Rat.cast_lt (K := ℝ)).2 this
    push_cast at this ⊢
    exact this
  · simp only [intervalIntegral.integral_const, smul_eq_mul]
    rw [show (fun y : ℝ => (1 - -1) * y) = fun y => (1 - -1) * y ^ 1 by simp, intervalIntegral.integral_const_mul, integral_mom]
    simp [mom]

/-- C50, boundary elements: for every triangle and every affine function `a + g · p`, twice the area times the sum over the twenty points of weight times
value is the area times the mean of the values at the vertices, which is the integral, up to the rounding of the decimals. -/
theorem C50_bem (n1 n2 n3 g : Vec3 ℝ) (a area : ℝ) (harea : 0 ≤ area) :
    |2 * area * apply (bemPoints 20 n1 n2 n3) (fun p => a + g.dot p) -
        area * (((a + g.dot n1) + (a + g.dot n2) + (a + g.dot n3)) / 3)| ≤
      2 / 10 ^ 14 * area * (|a| + |g.dot n1| + |g.dot n2| + |g.dot n3|) := by
  have hs : ∀ l : List (ℚ × ℚ × ℚ × ℚ), apply (l.map fun r : ℚ × ℚ × ℚ × ℚ =>
      ((⟨(r.1 : ℝ) * n1.x + (r.2.1 : ℝ) * n2.x + (r.2.2.1 : ℝ) * n3.x,
      (r.1 : ℝ) * n1.y + (r.2.1 : ℝ) * n2.y + (r.2.2.1 : ℝ) * n3.y,
      (r.1 : ℝ) * n1.z + (r.2.1 : ℝ) * n2.z + (r.2.2.1 : ℝ) * n3.z⟩ : Vec3 ℝ), (r.2.2.2 : ℝ))) (fun p => a + g.dot p) =
      a * ((l.map fun r => r.2.2.2).sum : ℚ) + g.dot n1 * ((l.map fun r => r.2.2.2 * r.1).sum : ℚ) +
        g.dot n2 * ((l.map fun r => r.2.2.2 * r.2.1).sum : ℚ) + g.dot n3 * ((l.map fun r => r.2.2.2 * r.2.2.1).sum : ℚ) := by
    intro l
    induction l with
    | nil => simp [apply]
    | cons r l ih =>
      rw [List.map_cons, apply_cons, ih]
      simp only [List.map_cons, List.sum_cons, Vec3.dot]
      push_cast
      ring
  have h0 : |((triangle20.map fun r => r.2.2.2).sum : ℚ) - 1 / 2| ≤ 1 / 10 ^ 14 := by decide +kernel
  have h1 : |((triangle20.map fun r => r.2.2.2 * r.1).sum : ℚ) - 1 / 6| ≤ 1 / 10 ^ 14 := by decide +kernel
  have h2 : |((triangle20.map fun r => r.2.2.2 * r.2.1).sum : ℚ) - 1 / 6| ≤ 1 / 10 ^ 14 := by decide +kernel
  have h3 : |((triangle20.map fun r => r.2.2.2 * r.2.2.1).sum : ℚ) - 1 / 6| ≤ 1 / 10 ^ 14 := by decide +kernel
  have e := hs triangle20
  have hb : apply (bemPoints 20 n1 n2 n3) (fun p => a + g.dot p) = _ := e
  rw [hb]
  have k0 := cast_le h0
  have k1 := cast_le h1
  have k2 := cast_le h2
  have k3 := cast_le h3
  generalize ((triangle20.map fun r => r.2.2.2).sum : ℚ) = s0 at *
  generalize ((triangle20.map fun r => r.2.2.2 * r.1).sum : ℚ) = s1 at *
  generalize ((triangle20.map fun r => r.2.2.2 * r.2.1).sum : ℚ) = s2 at *
  generalize ((triangle20.map fun r => r.2.2.2 * r.2.2.1).sum : ℚ) = s3 at *
  push_cast at k0 k1 k2 k3
  have key : ∀ (u : ℝ) {v e : ℝ}, |v| ≤ e → |u * v| ≤ |u| * e := by
    intro u v e h
    rw [abs_mul]
    exact mul_le_mul_of_nonneg_left h (abs_nonneg u)
  have r0 := abs_le.1 (key a k0)
  have r1 := abs_le.1 (key (g.dot n1) k1)
  have r2 := abs_le.1 (key (g.dot n2) k2)
  have r3 := abs_le.1 (key (g.dot n3) k3)
  have hd : 2 * area * (a * (s0 : ℝ) + g.dot n1 * s1 + g.dot n2 * s2 + g.dot n3 * s3) -
      area * (((a + g.dot n1) + (a + g.dot n2) + (a + g.dot n3)) / 3) =
      area * (2 * (a * ((s0 : ℝ) - 1 / 2) + g.dot n1 * (s1 - 1 / 6) + g.dot n2 * (s2 - 1 / 6) + g.dot n3 * (s3 - 1 / 6))) := by ring
  rw [hd, abs_mul, abs_of_nonneg harea, mul_comm (2 / 10 ^ 14) area, mul_assoc]
  refine mul_le_mul_of_nonneg_left ?_ harea
  rw [abs_le]
  constructor <;> linarith [r0.1, r0.2, r1.1, r1.2, r2.1, r2.2, r3.1, r3.2]

/-- Non-vacuity: the unit triangle in the plane `z = 2`. -/
example : ∃ n1 n2 n3 : Vec3 ℝ, (0 : ℝ) < ((n2 - n1).cross (n3 - n1)).normSq :=
  ⟨⟨0, 0, 2⟩, ⟨1, 0, 2⟩, ⟨0, 1, 2⟩, by simp [Vec3.cross, Vec3.normSq, Vec3.dot]⟩

end ENigMA
