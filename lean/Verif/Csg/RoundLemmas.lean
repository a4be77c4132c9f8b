import Verif.Csg.Round
import Verif.Csg.ConvexSolid
import Verif.Csg.RoundSpec
import Mathlib.Analysis.SpecialFunctions.Trigonometric.Basic
import Mathlib.Analysis.SpecialFunctions.Complex.Arg
import Mathlib.Algebra.BigOperators.Intervals

/-!
# Lemmas on the polygons of the sphere and the cylinder
-/

set_option linter.unusedSectionVars false
set_option autoImplicit false

namespace ENigMA
namespace Round
open Csg Csg.Bsp

/-- The polygon lies in the plane `N · x = d`, is not flat and its normal points along `N`. -/
structure FaceOf (p : Poly ℝ) (N : Vec3 ℝ) (d : ℝ) : Prop where
  ne : p.vs ≠ []
  nz : N ≠ 0
  normal : ∃ k : ℝ, 0 < k ∧ p.normal = k • N
  plane : ∀ v ∈ p.vs, N.dot v = d
  span : ∃ a ∈ p.vs, ∃ b ∈ p.vs, ∃ c ∈ p.vs, ∃ k : ℝ, N = k • Vec3.cross (b - a) (c - a)

theorem smul_dot (k : ℝ) (a b : Vec3 ℝ) : (k • a).dot b = k * a.dot b := by
  simp [Vec3.dot]; ring

theorem FaceOf.le_iff {p : Poly ℝ} {N : Vec3 ℝ} {d : ℝ} (h : FaceOf p N d) (x : Vec3 ℝ) {v : Vec3 ℝ} (hv : v ∈ p.vs) :
    p.normal.dot x ≤ p.normal.dot v ↔ N.dot x ≤ d := by
  obtain ⟨k, hk, hn⟩ := h.normal
  rw [hn, smul_dot, smul_dot, h.plane v hv]
  exact mul_le_mul_iff_of_pos_left hk

theorem FaceOf.lt_iff {p : Poly ℝ} {N : Vec3 ℝ} {d : ℝ} (h : FaceOf p N d) (x : Vec3 ℝ) {v : Vec3 ℝ} (hv : v ∈ p.vs) :
    p.normal.dot x < p.normal.dot v ↔ N.dot x < d := by
  obtain ⟨k, hk, hn⟩ := h.normal
  rw [hn, smul_dot, smul_dot, h.plane v hv]
  exact mul_lt_mul_iff_of_pos_left hk

theorem FaceOf.ge_iff {p : Poly ℝ} {N : Vec3 ℝ} {d : ℝ} (h : FaceOf p N d) (x : Vec3 ℝ) {v : Vec3 ℝ} (hv : v ∈ p.vs) :
    p.normal.dot v ≤ p.normal.dot x ↔ d ≤ N.dot x := by
  have := h.lt_iff x hv
  rw [← not_lt, this, not_lt]

theorem convexFaces {ps : List (Poly ℝ)} {o : Vec3 ℝ}
    (h : ∀ p ∈ ps, ∃ N d, FaceOf p N d ∧ N.dot o < d ∧ ∀ q ∈ ps, ∀ v ∈ q.vs, N.dot v ≤ d) : ConvexFaces ps o where
  proper p hp := by
    obtain ⟨N, d, hf, -⟩ := h p hp
    obtain ⟨k, hk, hn⟩ := hf.normal
    refine ⟨hf.ne, fun h0 => hf.nz ?_, fun v hv w hw => ?_⟩
    · rw [hn] at h0
      have := congrArg (fun z => k⁻¹ • z) h0
      simpa [smul_smul, inv_mul_cancel₀ hk.ne'] using this
    · rw [hn, smul_dot, smul_dot, hf.plane v hv, hf.plane w hw]
  span p hp := by
    obtain ⟨N, d, hf, -⟩ := h p hp
    obtain ⟨k, hk, hn⟩ := hf.normal
    obtain ⟨a, ha, b, hb, c, hc, k', hN⟩ := hf.span
    exact ⟨a, ha, b, hb, c, hc, k * k', by rw [hn, mul_smul, ← hN]⟩
  behind p hp q hq v hv w hw := by
    obtain ⟨N, d, hf, -, hb⟩ := h p hp
    exact (hf.le_iff v hw).2 (hb q hq v hv)
  inner p hp w hw := by
    obtain ⟨N, d, hf, ho, -⟩ := h p hp
    exact (hf.lt_iff o hw).2 ho

theorem nrm_pos {N : Vec3 ℝ} (hN : N ≠ 0) {k : ℝ} (hk : 0 < k) : 0 < realNorm (k • N) := by
  unfold realNorm
  refine Real.sqrt_pos.2 ?_
  refine lt_of_le_of_ne (Vec3.normSq_nonneg _) fun h0 => hN ?_
  have := Vec3.normSq_eq_zero.1 h0.symm
  have := congrArg (fun z => k⁻¹ • z) this
  simpa [smul_smul, inv_mul_cancel₀ hk.ne'] using this

theorem cross_self_ne {a b N : Vec3 ℝ} {k : ℝ} (hN : N ≠ 0) (hk : 0 < k) (h : Vec3.cross (b - a) (a - a) = k • N) : False := by
  apply hN
  have : k • N = 0 := by rw [← h]; ext <;> simp
  have := congrArg (fun z => k⁻¹ • z) this
  simpa [smul_smul, inv_mul_cancel₀ hk.ne'] using this

theorem tri_face (eps : ℝ) {a b c N : Vec3 ℝ} {d k1 k2 : ℝ} (hN : N ≠ 0) (h1 : 0 < k1) (h2 : 0 < k2)
    (e1 : Vec3.cross (b - a) (c - a) = k1 • N) (e2 : Vec3.cross (c - b) (a - b) = k2 • N)
    (pa : N.dot a = d) (pb : N.dot b = d) (pc : N.dot c = d) :
    (closedPoly eps [a, b, c]).vs = [a, b, c, a] ∧ FaceOf (closedPoly eps [a, b, c]) N d := by
  have hca : c ≠ a := by
    rintro rfl
    exact cross_self_ne hN h1 e1
  have hvs : closeExact [a, b, c] = [a, b, c, a] := by simp [closeExact, hca]
  refine ⟨hvs, ?_, hN, ?_, ?_, ?_⟩
  · simp [closedPoly, hvs]
  · simp only [closedPoly, hvs, Polygon.normal, Polygon.normalLoop]
    rw [e1, e2]
    by_cases he : eps < realNorm (k1 • N)
    · rw [if_pos he]
      exact ⟨(realNorm (k1 • N))⁻¹ * k1, mul_pos (inv_pos.2 (nrm_pos hN h1)) h1, by rw [mul_smul]⟩
    · rw [if_neg he]
      by_cases he : eps < realNorm (k2 • N)
      · rw [if_pos he]
        exact ⟨(realNorm (k2 • N))⁻¹ * k2, mul_pos (inv_pos.2 (nrm_pos hN h2)) h2, by rw [mul_smul]⟩
      · rw [if_neg he]
        exact ⟨k2, h2, rfl⟩
  · simp [closedPoly, hvs, pa, pb, pc]
  · refine ⟨a, by simp [closedPoly, hvs], b, by simp [closedPoly, hvs], c, by simp [closedPoly, hvs], k1⁻¹, ?_⟩
    rw [e1, smul_smul, inv_mul_cancel₀ h1.ne', one_smul]

theorem quad_face (eps : ℝ) {a b c e N : Vec3 ℝ} {d k1 k2 k3 : ℝ} (hN : N ≠ 0) (h1 : 0 < k1) (h2 : 0 < k2) (h3 : 0 < k3)
    (e1 : Vec3.cross (b - a) (c - a) = k1 • N) (e2 : Vec3.cross (c - b) (e - b) = k2 • N)
    (e3 : Vec3.cross (e - c) (a - c) = k3 • N)
    (pa : N.dot a = d) (pb : N.dot b = d) (pc : N.dot c = d) (pe : N.dot e = d) :
    (closedPoly eps [a, b, c, e]).vs = [a, b, c, e, a] ∧ FaceOf (closedPoly eps [a, b, c, e]) N d := by
  have hca : e ≠ a := by
    rintro rfl
    refine cross_self_ne (a := e) (b := 2 • e - c) hN h3 ?_
    rw [← e3]
    exfalso
    have h0 : Vec3.cross (e - c) (e - c) = 0 := by ext <;> simp <;> ring
    rw [h0] at e3
    apply hN
    have := congrArg (fun z => k3⁻¹ • z) e3
    simpa [smul_smul, inv_mul_cancel₀ h3.ne'] using this.symm
  have hvs : closeExact [a, b, c, e] = [a, b, c, e, a] := by simp [closeExact, hca]
  refine ⟨hvs, ?_, hN, ?_, ?_, ?_⟩
  · simp [closedPoly, hvs]
  · simp only [closedPoly, hvs, Polygon.normal, Polygon.normalLoop]
    rw [e1, e2, e3]
    by_cases he : eps < realNorm (k1 • N)
    · rw [if_pos he]
      exact ⟨(realNorm (k1 • N))⁻¹ * k1, mul_pos (inv_pos.2 (nrm_pos hN h1)) h1, by rw [mul_smul]⟩
    · rw [if_neg he]
      by_cases he : eps < realNorm (k2 • N)
      · rw [if_pos he]
        exact ⟨(realNorm (k2 • N))⁻¹ * k2, mul_pos (inv_pos.2 (nrm_pos hN h2)) h2, by rw [mul_smul]⟩
      · rw [if_neg he]
        by_cases he : eps < realNorm (k3 • N)
        · rw [if_pos he]
          exact ⟨(realNorm (k3 • N))⁻¹ * k3, mul_pos (inv_pos.2 (nrm_pos hN h3)) h3, by rw [mul_smul]⟩
        · rw [if_neg he]
          exact ⟨k3, h3, rfl⟩
  · simp [closedPoly, hvs, pa, pb, pc, pe]
  · refine ⟨a, by simp [closedPoly, hvs], b, by simp [closedPoly, hvs], c, by simp [closedPoly, hvs], k1⁻¹, ?_⟩
    rw [e1, smul_smul, inv_mul_cancel₀ h1.ne', one_smul]

/-! ### Angles -/

/-- The cosine of an angle between `a` and `2π - a`. -/
theorem cos_le_of_far {x a : ℝ} (ha : 0 ≤ a) (h1 : a ≤ |x|) (h2 : |x| ≤ 2 * Real.pi - a) : Real.cos x ≤ Real.cos a := by
  rw [← Real.cos_abs x]
  rcases le_total |x| Real.pi with h | h
  · exact Real.cos_le_cos_of_nonneg_of_le_pi ha h h1
  · rw [← Real.cos_two_pi_sub |x|]
    exact Real.cos_le_cos_of_nonneg_of_le_pi ha (by linarith) (by linarith)

/-- No corner of the regular polygon with `n` corners is nearer to the middle of a side than the ends of the side. -/
theorem cos_slice {n : Nat} (hn : 0 < n) {i k : Nat} (hi : i < n) (hk : k ≤ n) :
    Real.cos (2 * k * Real.pi / n - (2 * i + 1) * Real.pi / n) ≤ Real.cos (Real.pi / n) := by
  have hn' : (0 : ℝ) < n := by exact_mod_cast hn
  have hpn : 0 < Real.pi / n := div_pos Real.pi_pos hn'
  have e : 2 * k * Real.pi / n - (2 * i + 1) * Real.pi / n = (((2 * k - 2 * i - 1 : ℤ)) : ℝ) * (Real.pi / n) := by
    push_cast; ring
  have e2 : 2 * Real.pi - Real.pi / n = (2 * (n : ℝ) - 1) * (Real.pi / n) := by field_simp
  have hz : (1 : ℤ) ≤ |2 * (k : ℤ) - 2 * i - 1| := by rcases le_or_gt k i with h | h <;> [rw [abs_of_neg (by omega)]; rw [abs_of_pos (by omega)]] <;> omega
  have hz2 : |2 * (k : ℤ) - 2 * i - 1| ≤ 2 * n - 1 := by rw [abs_le]; constructor <;> omega
  have hz' : (1 : ℝ) ≤ |(((2 * k - 2 * i - 1 : ℤ)) : ℝ)| := by rw [← Int.cast_abs]; exact_mod_cast hz
  have hz2' : |(((2 * k - 2 * i - 1 : ℤ)) : ℝ)| ≤ 2 * (n : ℝ) - 1 := by
    rw [← Int.cast_abs]
    have : ((|2 * (k : ℤ) - 2 * i - 1| : ℤ) : ℝ) ≤ ((2 * n - 1 : ℤ) : ℝ) := by exact_mod_cast hz2
    simpa using this
  refine cos_le_of_far hpn.le ?_ ?_
  · rw [e, abs_mul, abs_of_pos hpn]; nlinarith
  · rw [e, e2, abs_mul, abs_of_pos hpn]; exact mul_le_mul_of_nonneg_right hz2' hpn.le

/-- The same for the stacks from pole to pole. -/
theorem cos_stack {m : Nat} (hm : 0 < m) {j l : Nat} (hj : j < m) (hl : l ≤ m) :
    Real.cos ((2 * j + 1) * Real.pi / (2 * m) - l * Real.pi / m) ≤ Real.cos (Real.pi / (2 * m)) := by
  have hn' : (0 : ℝ) < m := by exact_mod_cast hm
  have hpn : 0 < Real.pi / (2 * m) := div_pos Real.pi_pos (by positivity)
  have e : (2 * j + 1) * Real.pi / (2 * m) - l * Real.pi / m = (((2 * j + 1 - 2 * l : ℤ)) : ℝ) * (Real.pi / (2 * m)) := by
    push_cast; field_simp
  have e2 : 2 * Real.pi - Real.pi / (2 * m) = (4 * (m : ℝ) - 1) * (Real.pi / (2 * m)) := by field_simp; ring
  have hz : (1 : ℤ) ≤ |2 * (j : ℤ) + 1 - 2 * l| := by rcases le_or_gt l j with h | h <;> [rw [abs_of_pos (by omega)]; rw [abs_of_neg (by omega)]] <;> omega
  have hz2 : |2 * (j : ℤ) + 1 - 2 * l| ≤ 4 * m - 1 := by rw [abs_le]; constructor <;> omega
  have hz' : (1 : ℝ) ≤ |(((2 * j + 1 - 2 * l : ℤ)) : ℝ)| := by rw [← Int.cast_abs]; exact_mod_cast hz
  have hz2' : |(((2 * j + 1 - 2 * l : ℤ)) : ℝ)| ≤ 4 * (m : ℝ) - 1 := by
    rw [← Int.cast_abs]
    have : ((|2 * (j : ℤ) + 1 - 2 * l| : ℤ) : ℝ) ≤ ((4 * m - 1 : ℤ) : ℝ) := by exact_mod_cast hz2
    simpa using this
  refine cos_le_of_far hpn.le ?_ ?_
  · rw [e, abs_mul, abs_of_pos hpn]; nlinarith
  · rw [e, e2, abs_mul, abs_of_pos hpn]; exact mul_le_mul_of_nonneg_right hz2' hpn.le

/-- Plane polar coordinates with the angle from `0` to `2π`. -/
theorem polar (a b : ℝ) : ∃ s θ : ℝ, 0 ≤ s ∧ 0 ≤ θ ∧ θ < 2 * Real.pi ∧ a = s * Real.cos θ ∧ b = s * Real.sin θ ∧ s * s = a * a + b * b := by
  let z : ℂ := ⟨a, b⟩
  have h1 : ‖z‖ * Real.cos z.arg = a := Complex.norm_mul_cos_arg z
  have h2 : ‖z‖ * Real.sin z.arg = b := Complex.norm_mul_sin_arg z
  have h3 : ‖z‖ * ‖z‖ = a * a + b * b := by
    rw [← h1, ← h2]
    have := Real.sin_sq_add_cos_sq z.arg
    linear_combination (-(‖z‖ * ‖z‖)) * this
  have hlo := Complex.neg_pi_lt_arg z
  have hhi := Complex.arg_le_pi z
  rcases le_or_gt 0 z.arg with h | h
  · exact ⟨‖z‖, z.arg, norm_nonneg _, h, by linarith [Real.pi_pos], h1.symm, h2.symm, h3⟩
  · refine ⟨‖z‖, z.arg + 2 * Real.pi, norm_nonneg _, by linarith, by linarith, ?_, ?_, h3⟩
    · rw [Real.cos_add_two_pi]; exact h1.symm
    · rw [Real.sin_add_two_pi]; exact h2.symm

/-- An angle is within half a slice of the middle of some slice. -/
theorem find_slice {n : Nat} (hn : 0 < n) {θ : ℝ} (h0 : 0 ≤ θ) (h1 : θ < 2 * Real.pi) :
    ∃ i, i < n ∧ Real.cos (Real.pi / n) ≤ Real.cos (θ - (2 * i + 1) * Real.pi / n) := by
  have hn' : (0 : ℝ) < n := by exact_mod_cast hn
  have hp := Real.pi_pos
  let q := θ * n / (2 * Real.pi)
  have hq0 : 0 ≤ q := by positivity
  have hqn : q < n := by
    rw [div_lt_iff₀ (by positivity)]; nlinarith
  have hfl := Nat.floor_le hq0
  have hfu := Nat.lt_floor_add_one q
  have hi : ⌊q⌋₊ < n := (Nat.floor_lt hq0).2 hqn
  refine ⟨⌊q⌋₊, hi, ?_⟩
  have hθ : θ = q * (2 * Real.pi / n) := by simp only [q]; field_simp
  have hab : |θ - (2 * (⌊q⌋₊ : ℝ) + 1) * Real.pi / n| ≤ Real.pi / n := by
    have e : θ - (2 * (⌊q⌋₊ : ℝ) + 1) * Real.pi / n = (2 * (q - ⌊q⌋₊) - 1) * (Real.pi / n) := by rw [hθ]; ring
    rw [e, abs_mul, abs_of_pos (div_pos hp hn')]
    have : |2 * (q - ⌊q⌋₊) - 1| ≤ 1 := by rw [abs_le]; constructor <;> linarith
    nlinarith [div_pos hp hn']
  rw [← Real.cos_abs (θ - _)]
  refine Real.cos_le_cos_of_nonneg_of_le_pi (abs_nonneg _) ?_ hab
  rw [div_le_iff₀ hn']
  have : (1 : ℝ) ≤ n := by exact_mod_cast hn
  nlinarith

theorem find_stack {m : Nat} (hm : 0 < m) {φ : ℝ} (h0 : 0 ≤ φ) (h1 : φ ≤ Real.pi) :
    ∃ j, j < m ∧ Real.cos (Real.pi / (2 * m)) ≤ Real.cos ((2 * j + 1) * Real.pi / (2 * m) - φ) := by
  have hn' : (0 : ℝ) < m := by exact_mod_cast hm
  have hp := Real.pi_pos
  let q := φ * m / Real.pi
  have hq0 : 0 ≤ q := by positivity
  have hqn : q ≤ m := by
    rw [div_le_iff₀ (by positivity)]; nlinarith
  have hφ : φ = q * (Real.pi / m) := by simp only [q]; field_simp
  have key : ∀ j : Nat, (j : ℝ) ≤ q → q ≤ j + 1 → Real.cos (Real.pi / (2 * m)) ≤ Real.cos ((2 * j + 1) * Real.pi / (2 * m) - φ) := by
    intro j g1 g2
    have hd : 0 < Real.pi / (2 * m) := by positivity
    have hab : |(2 * (j : ℝ) + 1) * Real.pi / (2 * m) - φ| ≤ Real.pi / (2 * m) := by
      have e : (2 * (j : ℝ) + 1) * Real.pi / (2 * m) - φ = (1 - 2 * (q - j)) * (Real.pi / (2 * m)) := by rw [hφ]; field_simp; ring
      rw [e, abs_mul, abs_of_pos hd]
      have : |1 - 2 * (q - j)| ≤ 1 := by rw [abs_le]; constructor <;> linarith
      nlinarith
    rw [← Real.cos_abs (_ - φ)]
    refine Real.cos_le_cos_of_nonneg_of_le_pi (abs_nonneg _) ?_ hab
    rw [div_le_iff₀ (by positivity)]
    have : (1 : ℝ) ≤ m := by exact_mod_cast hm
    nlinarith
  rcases lt_or_eq_of_le hqn with h | h
  · exact ⟨⌊q⌋₊, (Nat.floor_lt hq0).2 h, key _ (Nat.floor_le hq0) (Nat.lt_floor_add_one q).le⟩
  · refine ⟨m - 1, by omega, key _ ?_ ?_⟩ <;> rw [h, Nat.cast_sub hm] <;> simp

/-! ### Closed surfaces -/

theorem sum_range (g : Nat → ℤ) (n : Nat) : ((List.range n).map g).sum = ∑ i ∈ Finset.range n, g i := by
  induction n with
  | zero => rfl
  | succ n ih => rw [List.range_succ, List.map_append, List.sum_append, ih, Finset.sum_range_succ]; simp

theorem closed_of_sum {ps : List (Poly ℝ)}
    (h : ∀ f : Vec3 ℝ → Vec3 ℝ → ℤ, (∀ a b, f b a = - f a b) → ((ps.flatMap fun p => sidesOf p.vs).map fun s => f s.1 s.2).sum = 0) :
    ClosedSurface ps := by
  classical
  unfold ClosedSurface
  intro s
  rw [List.perm_iff_count]
  rintro ⟨p, q⟩
  have key : ∀ l : List (Vec3 ℝ × Vec3 ℝ),
      (l.map fun s => (if s = (p, q) then (1 : ℤ) else 0) - (if s = (q, p) then (1 : ℤ) else 0)).sum =
        (l.count (p, q) : ℤ) - ((l.map Prod.swap).count (p, q) : ℤ) := by
    intro l
    induction l with
    | nil => simp
    | cons a l ih =>
      rw [List.map_cons, List.sum_cons, ih, List.map_cons, List.count_cons, List.count_cons]
      have e : (a = (q, p)) ↔ (a.swap = (p, q)) := by
        obtain ⟨x, y⟩ := a
        simp only [Prod.swap_prod_mk, Prod.mk.injEq]
        tauto
      simp only [beq_iff_eq, e]
      push_cast
      split_ifs <;> ring
  have h1 := h (fun a b => (if (a, b) = (p, q) then (1 : ℤ) else 0) - (if (a, b) = (q, p) then (1 : ℤ) else 0)) (by
    intro a b
    simp only [Prod.mk.injEq]
    have e1 : (b = p ∧ a = q) ↔ (a = q ∧ b = p) := and_comm
    have e2 : (b = q ∧ a = p) ↔ (a = p ∧ b = q) := and_comm
    simp only [e1, e2]
    ring)
  simp only [Prod.mk.eta] at h1
  rw [key] at h1
  have : ((s.count (p, q) : ℕ) : ℤ) = ((s.map Prod.swap).count (p, q) : ℕ) := by linarith
  exact_mod_cast this

end Round
end ENigMA
