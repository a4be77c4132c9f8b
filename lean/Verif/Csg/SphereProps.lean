import Verif.Csg.RoundLemmas

/-!
# C128: the CSG sphere
-/

set_option linter.unusedSectionVars false
set_option autoImplicit false

namespace ENigMA
namespace Sphere
open Csg Csg.Bsp Round

variable (c : Vec3 ℝ) (r : ℝ) (n m : Nat)

/-- The corner on meridian `k` and parallel `l`. -/
noncomputable def P (k l : Nat) : Vec3 ℝ := sphereVertex c r ((k : ℝ) / n) ((l : ℝ) / m)

theorem P_eq (k l : Nat) : P c r n m k l = c + r • ⟨Real.cos (2 * k * Real.pi / n) * Real.sin (l * Real.pi / m), Real.cos (l * Real.pi / m),
    Real.sin (2 * k * Real.pi / n) * Real.sin (l * Real.pi / m)⟩ := by
  unfold P sphereVertex
  have e1 : (k : ℝ) / n * (Real.pi * 2) = 2 * k * Real.pi / n := by ring
  have e2 : (l : ℝ) / m * Real.pi = l * Real.pi / m := by ring
  simp only [e1, e2]

theorem face_eq (i j : Nat) : sphereFace c r n m i j =
    [P c r n m i j] ++ (if 0 < j then [P c r n m (i + 1) j] else []) ++ (if j < m - 1 then [P c r n m (i + 1) (j + 1)] else []) ++ [P c r n m i (j + 1)] := by
  simp [sphereFace, P]

/-- The outward direction of a face. -/
noncomputable def N (i j : Nat) : Vec3 ℝ :=
  ⟨Real.sin ((2 * j + 1) * Real.pi / (2 * m)) * Real.cos ((2 * i + 1) * Real.pi / n),
   Real.cos (Real.pi / n) * Real.cos ((2 * j + 1) * Real.pi / (2 * m)),
   Real.sin ((2 * j + 1) * Real.pi / (2 * m)) * Real.sin ((2 * i + 1) * Real.pi / n)⟩

/-- The height of the plane of a face. -/
noncomputable def D (i j : Nat) : ℝ := (N n m i j).dot c + r * (Real.cos (Real.pi / n) * Real.cos (Real.pi / (2 * m)))

/-- How high a point of the sphere with given angles is over a face. -/
theorem N_dot (i j : Nat) (θ φ s : ℝ) :
    (N n m i j).dot (c + s • ⟨Real.cos θ * Real.sin φ, Real.cos φ, Real.sin θ * Real.sin φ⟩) = (N n m i j).dot c +
      s * (Real.sin ((2 * j + 1) * Real.pi / (2 * m)) * Real.sin φ * Real.cos (θ - (2 * i + 1) * Real.pi / n) +
        Real.cos (Real.pi / n) * (Real.cos ((2 * j + 1) * Real.pi / (2 * m)) * Real.cos φ)) := by
  rw [Real.cos_sub]
  simp only [N, Vec3.dot, Vec3.add_x, Vec3.add_y, Vec3.add_z, Vec3.smul_x, Vec3.smul_y, Vec3.smul_z]
  ring

section
variable {n m}
variable (hn : 3 ≤ n) (hm : 2 ≤ m)
include hn in
theorem n_pos : (0 : ℝ) < n := by exact_mod_cast (by omega : 0 < n)
include hm in
theorem m_pos : (0 : ℝ) < m := by exact_mod_cast (by omega : 0 < m)

include hn in
theorem ca_pos : 0 < Real.cos (Real.pi / n) := by
  refine Real.cos_pos_of_mem_Ioo ⟨?_, ?_⟩
  · have := div_pos Real.pi_pos (n_pos hn); linarith [Real.pi_pos]
  · have h3 : (3 : ℝ) ≤ n := by exact_mod_cast hn
    rw [div_lt_div_iff₀ (n_pos hn) two_pos]
    nlinarith [Real.pi_pos]

include hn in
theorem sa_pos : 0 < Real.sin (Real.pi / n) := by
  refine Real.sin_pos_of_pos_of_lt_pi (div_pos Real.pi_pos (n_pos hn)) ?_
  have h3 : (3 : ℝ) ≤ n := by exact_mod_cast hn
  rw [div_lt_iff₀ (n_pos hn)]
  nlinarith [Real.pi_pos]

include hm in
theorem cd_pos : 0 < Real.cos (Real.pi / (2 * m)) := by
  have hm0 := m_pos hm
  refine Real.cos_pos_of_mem_Ioo ⟨?_, ?_⟩
  · have : 0 < Real.pi / (2 * m) := by positivity
    linarith [Real.pi_pos]
  · have h3 : (2 : ℝ) ≤ m := by exact_mod_cast hm
    rw [div_lt_div_iff₀ (by positivity) two_pos]
    nlinarith [Real.pi_pos]

include hm in
theorem sd_pos : 0 < Real.sin (Real.pi / (2 * m)) := by
  have hm0 := m_pos hm
  refine Real.sin_pos_of_pos_of_lt_pi (by positivity) ?_
  have h3 : (2 : ℝ) ≤ m := by exact_mod_cast hm
  rw [div_lt_iff₀ (by positivity)]
  nlinarith [Real.pi_pos]

include hm in
theorem S_pos {l : Nat} (h0 : 0 < l) (h1 : l < m) : 0 < Real.sin (l * Real.pi / m) := by
  have hm0 := m_pos hm
  have h0' : (0 : ℝ) < l := by exact_mod_cast h0
  have h1' : (l : ℝ) < m := by exact_mod_cast h1
  refine Real.sin_pos_of_pos_of_lt_pi (by have := Real.pi_pos; positivity) ?_
  rw [div_lt_iff₀ hm0]
  nlinarith [Real.pi_pos]

include hm in
theorem S_nonneg {l : Nat} (h1 : l ≤ m) : 0 ≤ Real.sin (l * Real.pi / m) := by
  have hm0 := m_pos hm
  have h1' : (l : ℝ) ≤ m := by exact_mod_cast h1
  refine Real.sin_nonneg_of_nonneg_of_le_pi (by have := Real.pi_pos; positivity) ?_
  rw [div_le_iff₀ hm0]
  nlinarith [Real.pi_pos]

include hm in
theorem Sb_pos {j : Nat} (h1 : j < m) : 0 < Real.sin ((2 * j + 1) * Real.pi / (2 * m)) := by
  have hm0 := m_pos hm
  have h1' : (j : ℝ) + 1 ≤ m := by exact_mod_cast h1
  refine Real.sin_pos_of_pos_of_lt_pi (by have := Real.pi_pos; positivity) ?_
  rw [div_lt_iff₀ (by positivity)]
  nlinarith [Real.pi_pos]

/-! #### The corners of a face by the angles of its middle -/

include hn in
theorem slice_lo (i : Nat) : 2 * (i : ℝ) * Real.pi / n = (2 * i + 1) * Real.pi / n - Real.pi / n := by
  have := n_pos hn; field_simp; ring
include hn in
theorem slice_hi (i : Nat) : 2 * ((i + 1 : ℕ) : ℝ) * Real.pi / n = (2 * i + 1) * Real.pi / n + Real.pi / n := by
  have := n_pos hn; push_cast; field_simp; ring
include hm in
theorem stack_lo (j : Nat) : (j : ℝ) * Real.pi / m = (2 * j + 1) * Real.pi / (2 * m) - Real.pi / (2 * m) := by
  have := m_pos hm; field_simp; ring
include hm in
theorem stack_hi (j : Nat) : ((j + 1 : ℕ) : ℝ) * Real.pi / m = (2 * j + 1) * Real.pi / (2 * m) + Real.pi / (2 * m) := by
  have := m_pos hm; push_cast; field_simp; ring

/-- The cross products at the corners of a face, in numbers: `cm`, `sm` for the middle of the slice, `ca`, `sa` for half a slice, and so on. -/
theorem crosses (c : Vec3 ℝ) (r cm sm ca sa Sb Cb cd sd : ℝ) (h : cm * cm + sm * sm = 1) {A B C E M : Vec3 ℝ}
    (hA : A = c + r • ⟨(cm * ca + sm * sa) * (Sb * cd - Cb * sd), Cb * cd + Sb * sd, (sm * ca - cm * sa) * (Sb * cd - Cb * sd)⟩)
    (hB : B = c + r • ⟨(cm * ca - sm * sa) * (Sb * cd - Cb * sd), Cb * cd + Sb * sd, (sm * ca + cm * sa) * (Sb * cd - Cb * sd)⟩)
    (hC : C = c + r • ⟨(cm * ca - sm * sa) * (Sb * cd + Cb * sd), Cb * cd - Sb * sd, (sm * ca + cm * sa) * (Sb * cd + Cb * sd)⟩)
    (hE : E = c + r • ⟨(cm * ca + sm * sa) * (Sb * cd + Cb * sd), Cb * cd - Sb * sd, (sm * ca - cm * sa) * (Sb * cd + Cb * sd)⟩)
    (hM : M = ⟨Sb * cm, ca * Cb, Sb * sm⟩) :
    Vec3.cross (B - A) (C - A) = (4 * r * r * sa * sd * (Sb * cd - Cb * sd)) • M ∧
    Vec3.cross (C - B) (E - B) = (4 * r * r * sa * sd * (Sb * cd + Cb * sd)) • M ∧
    Vec3.cross (E - C) (A - C) = (4 * r * r * sa * sd * (Sb * cd + Cb * sd)) • M ∧
    Vec3.cross (E - B) (A - B) = (4 * r * r * sa * sd * (Sb * cd - Cb * sd)) • M := by
  subst hA hB hC hE hM
  refine ⟨?_, ?_, ?_, ?_⟩ <;> ext <;>
    simp only [Vec3.cross_x, Vec3.cross_y, Vec3.cross_z, Vec3.sub_x, Vec3.sub_y, Vec3.sub_z, Vec3.add_x, Vec3.add_y, Vec3.add_z, Vec3.smul_x, Vec3.smul_y, Vec3.smul_z]
  · ring
  · linear_combination (4 * r * r * sa * sd * (Sb * cd - Cb * sd) * ca * Cb) * h
  · ring
  · ring
  · linear_combination (4 * r * r * sa * sd * (Sb * cd + Cb * sd) * ca * Cb) * h
  · ring
  · ring
  · linear_combination (4 * r * r * sa * sd * (Sb * cd + Cb * sd) * ca * Cb) * h
  · ring
  · ring
  · linear_combination (4 * r * r * sa * sd * (Sb * cd - Cb * sd) * ca * Cb) * h
  · ring

include hn hm in
theorem crosses' (i j : Nat) :
    Vec3.cross (P c r n m (i + 1) j - P c r n m i j) (P c r n m (i + 1) (j + 1) - P c r n m i j) =
      (4 * r * r * Real.sin (Real.pi / n) * Real.sin (Real.pi / (2 * m)) * Real.sin (j * Real.pi / m)) • N n m i j ∧
    Vec3.cross (P c r n m (i + 1) (j + 1) - P c r n m (i + 1) j) (P c r n m i (j + 1) - P c r n m (i + 1) j) =
      (4 * r * r * Real.sin (Real.pi / n) * Real.sin (Real.pi / (2 * m)) * Real.sin ((j + 1 : ℕ) * Real.pi / m)) • N n m i j ∧
    Vec3.cross (P c r n m i (j + 1) - P c r n m (i + 1) (j + 1)) (P c r n m i j - P c r n m (i + 1) (j + 1)) =
      (4 * r * r * Real.sin (Real.pi / n) * Real.sin (Real.pi / (2 * m)) * Real.sin ((j + 1 : ℕ) * Real.pi / m)) • N n m i j ∧
    Vec3.cross (P c r n m i (j + 1) - P c r n m (i + 1) j) (P c r n m i j - P c r n m (i + 1) j) =
      (4 * r * r * Real.sin (Real.pi / n) * Real.sin (Real.pi / (2 * m)) * Real.sin (j * Real.pi / m)) • N n m i j := by
  have e := Real.sin_sq_add_cos_sq ((2 * i + 1) * Real.pi / n)
  have hS1 : Real.sin (j * Real.pi / m) = Real.sin ((2 * j + 1) * Real.pi / (2 * m)) * Real.cos (Real.pi / (2 * m)) -
      Real.cos ((2 * j + 1) * Real.pi / (2 * m)) * Real.sin (Real.pi / (2 * m)) := by rw [stack_lo hm, Real.sin_sub]
  have hS2 : Real.sin ((j + 1 : ℕ) * Real.pi / m) = Real.sin ((2 * j + 1) * Real.pi / (2 * m)) * Real.cos (Real.pi / (2 * m)) +
      Real.cos ((2 * j + 1) * Real.pi / (2 * m)) * Real.sin (Real.pi / (2 * m)) := by rw [stack_hi hm, Real.sin_add]
  rw [hS1, hS2]
  refine crosses c r (Real.cos ((2 * i + 1) * Real.pi / n)) (Real.sin ((2 * i + 1) * Real.pi / n)) _ _
    (Real.sin ((2 * j + 1) * Real.pi / (2 * m))) (Real.cos ((2 * j + 1) * Real.pi / (2 * m))) _ _ (by linarith) ?_ ?_ ?_ ?_ rfl
  · rw [P_eq, slice_lo hn, stack_lo hm, Real.cos_sub, Real.cos_sub, Real.sin_sub, Real.sin_sub]
  · rw [P_eq, slice_hi hn, stack_lo hm, Real.cos_add, Real.cos_sub, Real.sin_add, Real.sin_sub]
  · rw [P_eq, slice_hi hn, stack_hi hm, Real.cos_add, Real.cos_add, Real.sin_add, Real.sin_add]
  · rw [P_eq, slice_lo hn, stack_hi hm, Real.cos_sub, Real.cos_add, Real.sin_sub, Real.sin_add]

include hm in
theorem N_ne {i j : Nat} (hj : j < m) : N n m i j ≠ 0 := by
  intro h0
  have hs := Sb_pos hm hj
  have hx : Real.sin ((2 * j + 1) * Real.pi / (2 * m)) * Real.cos ((2 * i + 1) * Real.pi / n) = 0 := congrArg Vec3.x h0
  have hz : Real.sin ((2 * j + 1) * Real.pi / (2 * m)) * Real.sin ((2 * i + 1) * Real.pi / n) = 0 := congrArg Vec3.z h0
  have e := Real.sin_sq_add_cos_sq ((2 * i + 1) * Real.pi / n)
  rcases mul_eq_zero.1 hx with h | h
  · exact hs.ne' h
  rcases mul_eq_zero.1 hz with h' | h'
  · exact hs.ne' h'
  rw [h, h'] at e
  norm_num at e

/-- The corners of a face are on its plane, and no corner of the sphere is in front of it. -/
theorem P_le (hn : 3 ≤ n) (hm : 2 ≤ m) (hr : 0 < r) {i j k l : Nat} (hi : i < n) (hj : j < m) (hk : k ≤ n) (hl : l ≤ m) :
    (N n m i j).dot (P c r n m k l) ≤ D c r n m i j := by
  rw [P_eq, N_dot, D]
  have h1 := cos_slice (by omega) hi hk
  have h2 := cos_stack (by omega) hj hl
  have hs := S_nonneg hm hl
  have hb := Sb_pos hm hj
  have hca := ca_pos hn
  rw [Real.cos_sub ((2 * j + 1) * Real.pi / (2 * m))] at h2
  have g1 : Real.sin ((2 * j + 1) * Real.pi / (2 * m)) * Real.sin (l * Real.pi / m) * Real.cos (2 * k * Real.pi / n - (2 * i + 1) * Real.pi / n) ≤
      Real.sin ((2 * j + 1) * Real.pi / (2 * m)) * Real.sin (l * Real.pi / m) * Real.cos (Real.pi / n) :=
    mul_le_mul_of_nonneg_left h1 (mul_nonneg hb.le hs)
  have g2 := mul_le_mul_of_nonneg_left h2 hca.le
  have g3 : Real.sin ((2 * j + 1) * Real.pi / (2 * m)) * Real.sin (l * Real.pi / m) * Real.cos (2 * k * Real.pi / n - (2 * i + 1) * Real.pi / n) +
      Real.cos (Real.pi / n) * (Real.cos ((2 * j + 1) * Real.pi / (2 * m)) * Real.cos (l * Real.pi / m)) ≤ Real.cos (Real.pi / n) * Real.cos (Real.pi / (2 * m)) := by
    linarith
  have := mul_le_mul_of_nonneg_left g3 hr.le
  linarith

theorem P_on (hn : 3 ≤ n) (hm : 2 ≤ m) {i j k l : Nat} (hk : k = i ∨ k = i + 1) (hl : l = j ∨ l = j + 1) :
    (N n m i j).dot (P c r n m k l) = D c r n m i j := by
  rw [P_eq, N_dot, D]
  have h1 : Real.cos (2 * k * Real.pi / n - (2 * i + 1) * Real.pi / n) = Real.cos (Real.pi / n) := by
    rcases hk with rfl | rfl
    · rw [slice_lo hn, sub_sub_cancel_left, Real.cos_neg]
    · rw [slice_hi hn, add_sub_cancel_left]
  have h2 : Real.cos ((2 * j + 1) * Real.pi / (2 * m) - l * Real.pi / m) = Real.cos (Real.pi / (2 * m)) := by
    rcases hl with rfl | rfl
    · rw [stack_lo hm, sub_sub_cancel]
    · rw [stack_hi hm, sub_add_cancel_left, Real.cos_neg]
  rw [Real.cos_sub ((2 * j + 1) * Real.pi / (2 * m))] at h2
  rw [h1]
  linear_combination r * Real.cos (Real.pi / n) * h2

/-- At a pole all meridians meet; the last meridian is the first. -/
theorem P_top (k k' : Nat) : P c r n m k 0 = P c r n m k' 0 := by rw [P_eq, P_eq]; simp

include hm in
theorem P_bottom (k k' : Nat) : P c r n m k m = P c r n m k' m := by
  have hm0 := m_pos hm
  rw [P_eq, P_eq, show (m : ℝ) * Real.pi / m = Real.pi by field_simp]; simp

include hn in
theorem P_round (l : Nat) : P c r n m n l = P c r n m 0 l := by
  have hn0 := n_pos hn
  rw [P_eq, P_eq, show 2 * (n : ℝ) * Real.pi / n = 2 * Real.pi by field_simp]; simp

/-- The polygon of a face: its plane, its corners and its sides. -/
theorem face (eps : ℝ) (hn : 3 ≤ n) (hm : 2 ≤ m) (hr : 0 < r) {i j : Nat} (hj : j < m) :
    FaceOf (closedPoly eps (sphereFace c r n m i j)) (N n m i j) (D c r n m i j) ∧
    (∀ v ∈ (closedPoly eps (sphereFace c r n m i j)).vs, ∃ k l, (k = i ∨ k = i + 1) ∧ (l = j ∨ l = j + 1) ∧ v = P c r n m k l) ∧
    ∀ f : Vec3 ℝ → Vec3 ℝ → ℤ, (∀ a b, f b a = - f a b) → ((sidesOf (closedPoly eps (sphereFace c r n m i j)).vs).map fun s => f s.1 s.2).sum =
      f (P c r n m i j) (P c r n m (i + 1) j) + f (P c r n m (i + 1) j) (P c r n m (i + 1) (j + 1)) -
      f (P c r n m i (j + 1)) (P c r n m (i + 1) (j + 1)) - f (P c r n m i j) (P c r n m i (j + 1)) := by
  obtain ⟨e1, e2, e3, e4⟩ := crosses' c r hn hm i j
  have hN := N_ne (n := n) hm (i := i) hj
  have hk : 0 < 4 * r * r * Real.sin (Real.pi / n) * Real.sin (Real.pi / (2 * m)) := by
    have := sa_pos hn; have := sd_pos hm; positivity
  have p1 := P_on c r hn hm (i := i) (j := j) (Or.inl rfl) (Or.inl rfl)
  have p2 := P_on c r hn hm (i := i) (j := j) (Or.inr rfl) (Or.inl rfl)
  have p3 := P_on c r hn hm (i := i) (j := j) (Or.inr rfl) (Or.inr rfl)
  have p4 := P_on c r hn hm (i := i) (j := j) (Or.inl rfl) (Or.inr rfl)
  have zero : ∀ f : Vec3 ℝ → Vec3 ℝ → ℤ, (∀ a b, f b a = - f a b) → ∀ a, f a a = 0 := fun f hf a => by have := hf a a; omega
  rw [face_eq]
  by_cases h0 : 0 < j
  · by_cases hl : j < m - 1
    · have k1 := mul_pos hk (S_pos hm h0 hj)
      have k2 := mul_pos hk (S_pos hm (l := j + 1) (by omega) (by omega))
      obtain ⟨hv, hf⟩ := quad_face eps hN k1 k2 k2 e1 e2 e3 p1 p2 p3 p4
      rw [if_pos h0, if_pos hl]
      simp only [List.cons_append, List.nil_append] at hv ⊢
      refine ⟨hf, ?_, ?_⟩
      · rw [hv]
        simp only [List.mem_cons, List.not_mem_nil, or_false]
        rintro v (rfl | rfl | rfl | rfl | rfl)
        · exact ⟨i, j, by simp, by simp, rfl⟩
        · exact ⟨i + 1, j, by simp, by simp, rfl⟩
        · exact ⟨i + 1, j + 1, by simp, by simp, rfl⟩
        · exact ⟨i, j + 1, by simp, by simp, rfl⟩
        · exact ⟨i, j, by simp, by simp, rfl⟩
      · intro f hf
        rw [hv]
        simp only [sidesOf, List.tail_cons, List.zip_cons_cons, List.map_cons, List.sum_cons, List.zip_nil_right, List.map_nil, List.sum_nil]
        rw [hf (P c r n m i (j + 1)) (P c r n m (i + 1) (j + 1)), hf (P c r n m i j) (P c r n m i (j + 1))]
        ring
    · obtain rfl : j = m - 1 := by omega
      have k1 := mul_pos hk (S_pos hm h0 hj)
      have hpole : P c r n m (i + 1) (m - 1 + 1) = P c r n m i (m - 1 + 1) := by
        rw [show m - 1 + 1 = m by omega]; exact P_bottom c r hm _ _
      rw [hpole] at e1
      obtain ⟨hv, hf⟩ := tri_face eps hN k1 k1 e1 e4 p1 p2 p4
      rw [if_pos h0, if_neg hl]
      simp only [List.cons_append, List.nil_append] at hv ⊢
      refine ⟨hf, ?_, ?_⟩
      · rw [hv]
        simp only [List.mem_cons, List.not_mem_nil, or_false]
        rintro v (rfl | rfl | rfl | rfl)
        · exact ⟨i, m - 1, by simp, by simp, rfl⟩
        · exact ⟨i + 1, m - 1, by simp, by simp, rfl⟩
        · exact ⟨i, m - 1 + 1, by simp, by simp, rfl⟩
        · exact ⟨i, m - 1, by simp, by simp, rfl⟩
      · intro f hf
        rw [hv]
        simp only [sidesOf, List.tail_cons, List.zip_cons_cons, List.map_cons, List.sum_cons, List.zip_nil_right, List.map_nil, List.sum_nil]
        rw [hpole, hf (P c r n m i (m - 1)) (P c r n m i (m - 1 + 1)), zero f hf (P c r n m i (m - 1 + 1))]
        ring
  · obtain rfl : j = 0 := by omega
    have k2 := mul_pos hk (S_pos hm (l := 0 + 1) (by omega) (by omega))
    have hpole : P c r n m (i + 1) 0 = P c r n m i 0 := P_top c r _ _
    rw [hpole] at e2
    obtain ⟨hv, hf⟩ := tri_face eps hN k2 k2 e2 e3 p1 p3 p4
    rw [if_neg h0, if_pos (by omega)]
    simp only [List.cons_append, List.nil_append, List.append_nil] at hv ⊢
    refine ⟨hf, ?_, ?_⟩
    · rw [hv]
      simp only [List.mem_cons, List.not_mem_nil, or_false]
      rintro v (rfl | rfl | rfl | rfl)
      · exact ⟨i, 0, by simp, by simp, rfl⟩
      · exact ⟨i + 1, 0 + 1, by simp, by simp, rfl⟩
      · exact ⟨i, 0 + 1, by simp, by simp, rfl⟩
      · exact ⟨i, 0, by simp, by simp, rfl⟩
    · intro f hf
      rw [hv]
      simp only [sidesOf, List.tail_cons, List.zip_cons_cons, List.map_cons, List.sum_cons, List.zip_nil_right, List.map_nil, List.sum_nil]
      rw [hpole, hf (P c r n m i (0 + 1)) (P c r n m (i + 1) (0 + 1)), hf (P c r n m i 0) (P c r n m i (0 + 1)), zero f hf (P c r n m i 0)]
      ring

theorem mem_sphere {eps : ℝ} {p : Poly ℝ} : p ∈ sphere eps c r n m ↔ ∃ i j, i < n ∧ j < m ∧ p = closedPoly eps (sphereFace c r n m i j) := by
  simp only [sphere, List.mem_flatMap, List.mem_range, List.mem_map]
  constructor
  · rintro ⟨i, hi, j, hj, rfl⟩; exact ⟨i, j, hi, hj, rfl⟩
  · rintro ⟨i, j, hi, hj, rfl⟩; exact ⟨i, hi, j, hj, rfl⟩

theorem convex (eps : ℝ) (hn : 3 ≤ n) (hm : 2 ≤ m) (hr : 0 < r) : ConvexFaces (sphere eps c r n m) c := by
  refine convexFaces fun p hp => ?_
  obtain ⟨i, j, hi, hj, rfl⟩ := (mem_sphere c r).1 hp
  refine ⟨N n m i j, D c r n m i j, (face c r eps hn hm hr hj).1, ?_, ?_⟩
  · rw [D]
    have := mul_pos hr (mul_pos (ca_pos hn) (cd_pos hm))
    linarith
  · intro q hq v hv
    obtain ⟨i', j', hi', hj', rfl⟩ := (mem_sphere c r).1 hq
    obtain ⟨k, l, hk, hl, rfl⟩ := (face c r eps hn hm hr hj').2.1 v hv
    exact P_le c r hn hm hr hi hj (by omega) (by omega)

theorem closed (eps : ℝ) (hn : 3 ≤ n) (hm : 2 ≤ m) (hr : 0 < r) : ClosedSurface (sphere eps c r n m) := by
  refine closed_of_sum fun f hf => ?_
  have zero : ∀ a, f a a = 0 := fun a => by have := hf a a; omega
  let H : Nat → Nat → ℤ := fun i j => f (P c r n m i j) (P c r n m (i + 1) j)
  let V : Nat → Nat → ℤ := fun i j => f (P c r n m i j) (P c r n m i (j + 1))
  have e : (((sphere eps c r n m).flatMap fun p => sidesOf p.vs).map fun s => f s.1 s.2).sum =
      ∑ i ∈ Finset.range n, ∑ j ∈ Finset.range m, ((H i j - H i (j + 1)) + (V (i + 1) j - V i j)) := by
    rw [sphere, List.flatMap_assoc, List.map_flatMap, List.flatMap_def, List.sum_flatten, List.map_map, sum_range]
    refine Finset.sum_congr rfl fun i _ => ?_
    simp only [Function.comp_apply]
    rw [List.flatMap_map, List.map_flatMap, List.flatMap_def, List.sum_flatten, List.map_map, sum_range]
    refine Finset.sum_congr rfl fun j hj => ?_
    simp only [Function.comp_apply]
    rw [(face c r eps hn hm hr (Finset.mem_range.1 hj)).2.2 f hf]
    simp only [H, V]
    ring
  rw [e]
  have h1 : ∀ i, ∑ j ∈ Finset.range m, (H i j - H i (j + 1)) = 0 := by
    intro i
    rw [Finset.sum_range_sub']
    simp only [H]
    rw [P_top c r (i + 1) i, P_bottom c r hm (i + 1) i, zero, zero]; rfl
  have h2 : ∀ j, ∑ i ∈ Finset.range n, (V (i + 1) j - V i j) = 0 := by
    intro j
    rw [Finset.sum_range_sub fun i => V i j]
    simp only [V]
    rw [P_round c r hn, P_round c r hn, sub_self]
  simp only [Finset.sum_add_distrib, h1]
  rw [Finset.sum_comm]
  simp [h2]

/-- Spherical coordinates. -/
theorem spherical (x : Vec3 ℝ) : ∃ s θ φ : ℝ, 0 ≤ s ∧ s * s = x.normSq ∧ 0 ≤ θ ∧ θ < 2 * Real.pi ∧ 0 ≤ φ ∧ φ ≤ Real.pi ∧
    x = s • ⟨Real.cos θ * Real.sin φ, Real.cos φ, Real.sin θ * Real.sin φ⟩ := by
  obtain ⟨q, θ, hq, h0, h1, hx, hz, hqq⟩ := polar x.x x.z
  obtain ⟨s, φ, hs, g0, g1, hy, hq', hss⟩ := polar x.y q
  have hnorm : s * s = x.normSq := by rw [hss, hqq]; simp only [Vec3.normSq, Vec3.dot]; ring
  rcases hs.eq_or_lt with h | hpos
  · refine ⟨0, 0, 0, le_rfl, by rw [← hnorm, ← h], le_rfl, by have := Real.pi_pos; positivity, le_rfl, Real.pi_pos.le, ?_⟩
    rw [← h] at hnorm
    rw [zero_smul]
    exact Vec3.normSq_eq_zero.1 (by rw [← hnorm]; ring)
  · have hφ : φ ≤ Real.pi := by
      by_contra hcon
      push Not at hcon
      have h2 : Real.sin φ < 0 := by
        have : Real.sin φ = -Real.sin (φ - Real.pi) := by rw [Real.sin_sub_pi, neg_neg]
        rw [this]
        have := Real.sin_pos_of_pos_of_lt_pi (x := φ - Real.pi) (by linarith) (by linarith)
        linarith
      have := mul_neg_of_pos_of_neg hpos h2
      linarith
    refine ⟨s, θ, φ, hs, hnorm, h0, h1, g0, hφ, ?_⟩
    ext
    · rw [Vec3.smul_x, hx, hq']; ring
    · rw [Vec3.smul_y, hy]
    · rw [Vec3.smul_z, hz, hq']; ring

/-- A point is at least as high over some face as its distance from the centre tells. -/
theorem reach (hn : 3 ≤ n) (hm : 2 ≤ m) (x : Vec3 ℝ) :
    ∃ s i j, 0 ≤ s ∧ s * s = (x - c).normSq ∧ i < n ∧ j < m ∧
      (N n m i j).dot c + s * (Real.cos (Real.pi / n) * Real.cos (Real.pi / (2 * m))) ≤ (N n m i j).dot x := by
  obtain ⟨s, θ, φ, hs, hss, h0, h1, g0, g1, hx⟩ := spherical (x - c)
  obtain ⟨i, hi, h2⟩ := find_slice (n := n) (by omega) h0 h1
  obtain ⟨j, hj, h3⟩ := find_stack (m := m) (by omega) g0 g1
  refine ⟨s, i, j, hs, hss, hi, hj, ?_⟩
  have hx' : x = c + s • ⟨Real.cos θ * Real.sin φ, Real.cos φ, Real.sin θ * Real.sin φ⟩ := by rw [← hx]; ext <;> simp
  rw [hx', N_dot]
  have hb := Sb_pos hm hj
  have hsφ := Real.sin_nonneg_of_nonneg_of_le_pi g0 g1
  have hca := ca_pos hn
  rw [Real.cos_sub ((2 * j + 1) * Real.pi / (2 * m))] at h3
  have k1 := mul_le_mul_of_nonneg_left h2 (mul_nonneg hb.le hsφ)
  have k2 := mul_le_mul_of_nonneg_left h3 hca.le
  have k3 : Real.cos (Real.pi / n) * Real.cos (Real.pi / (2 * m)) ≤ Real.sin ((2 * j + 1) * Real.pi / (2 * m)) * Real.sin φ * Real.cos (θ - (2 * i + 1) * Real.pi / n) +
        Real.cos (Real.pi / n) * (Real.cos ((2 * j + 1) * Real.pi / (2 * m)) * Real.cos φ) := by linarith
  have k4 := mul_le_mul_of_nonneg_left k3 hs
  linarith

theorem N_le_one (i j : Nat) : (N n m i j).normSq ≤ 1 := by
  simp only [N, Vec3.normSq, Vec3.dot]
  have h1 := Real.sin_sq_add_cos_sq ((2 * i + 1) * Real.pi / n)
  have h2 := Real.sin_sq_add_cos_sq ((2 * j + 1) * Real.pi / (2 * m))
  have h3 := Real.sin_sq_add_cos_sq (Real.pi / n)
  set a := Real.sin ((2 * j + 1) * Real.pi / (2 * m))
  set b := Real.cos ((2 * j + 1) * Real.pi / (2 * m))
  set p := Real.cos ((2 * i + 1) * Real.pi / n)
  set q := Real.sin ((2 * i + 1) * Real.pi / n)
  set u := Real.cos (Real.pi / n)
  set w := Real.sin (Real.pi / n)
  have e : a * p * (a * p) + u * b * (u * b) + a * q * (a * q) = a ^ 2 + u ^ 2 * b ^ 2 := by linear_combination a ^ 2 * h1
  rw [e]
  nlinarith [mul_nonneg (sq_nonneg w) (sq_nonneg b)]

theorem inner_ball (hn : 3 ≤ n) (hm : 2 ≤ m) (hr : 0 < r) (x : Vec3 ℝ)
    (h : (x - c).normSq ≤ (r * Real.cos (Real.pi / n) * Real.cos (Real.pi / (2 * m))) ^ 2) (i j : Nat) :
    (N n m i j).dot x ≤ D c r n m i j := by
  rw [D]
  have e : (N n m i j).dot x = (N n m i j).dot c + (N n m i j).dot (x - c) := by simp only [Vec3.dot, Vec3.sub_x, Vec3.sub_y, Vec3.sub_z]; ring
  rw [e]
  have hpos : 0 ≤ r * Real.cos (Real.pi / n) * Real.cos (Real.pi / (2 * m)) := by
    have := ca_pos hn; have := cd_pos hm; positivity
  have cs : (N n m i j).dot (x - c) ^ 2 ≤ (N n m i j).normSq * (x - c).normSq := by
    set a := N n m i j
    set b := x - c
    simp only [Vec3.normSq, Vec3.dot]
    nlinarith [sq_nonneg (a.x * b.y - a.y * b.x), sq_nonneg (a.y * b.z - a.z * b.y), sq_nonneg (a.z * b.x - a.x * b.z)]
  have h1 : (N n m i j).normSq * (x - c).normSq ≤ 1 * (x - c).normSq := mul_le_mul_of_nonneg_right (N_le_one i j) (Vec3.normSq_nonneg _)
  have h2 := abs_le_of_sq_le_sq (le_trans cs (le_trans h1 (by rw [one_mul]; exact h))) hpos
  have := (abs_le.1 h2).2
  linarith

end
end Sphere

open Csg Csg.Bsp Sphere Round in
/-- **C128.** The sphere with centre `c`, radius `r`, at least three slices and two stacks, for any epsilon of `calculateNormal`: one polygon for
every slice and stack; every corner is at distance `r` from the centre; the surface is closed; and the tree built from the polygons stores them
uncut and has an inside that contains the ball of radius `r cos(π/n) cos(π/2m)` and is contained in the ball of radius `r`. -/
theorem C128_sphere (eps : ℝ) (c : Vec3 ℝ) (r : ℝ) (n m : Nat) (hr : 0 < r) (hn : 3 ≤ n) (hm : 2 ≤ m) :
    let ps := sphere eps c r n m
    ps.length = n * m ∧ (∀ p ∈ ps, Proper p ∧ ∀ v ∈ p.vs, (v - c).normSq = r ^ 2) ∧ ClosedSurface ps ∧
    ∃ t : Bsp ℝ, (∀ fuel, n * m < fuel → ofPolygons 0 fuel ps = some t) ∧ t.allPolygons.1.Perm ps ∧
      (∀ x, (x - c).normSq ≤ (r * Real.cos (Real.pi / n) * Real.cos (Real.pi / (2 * m))) ^ 2 → t.Inside x) ∧
      (∀ x, t.Inside x → (x - c).normSq ≤ r ^ 2) ∧ (∀ x, r ^ 2 ≤ (x - c).normSq → t.Outside x) := by
  intro ps
  have hlen : ps.length = n * m := by simp [ps, sphere]
  have hcv := convex c r eps hn hm hr
  refine ⟨hlen, fun p hp => ⟨hcv.proper p hp, fun v hv => ?_⟩, closed c r eps hn hm hr, ?_⟩
  · obtain ⟨i, j, hi, hj, rfl⟩ := (mem_sphere c r).1 hp
    obtain ⟨k, l, -, -, rfl⟩ := (face c r eps hn hm hr hj).2.1 v hv
    rw [P_eq]
    have h1 := Real.sin_sq_add_cos_sq (2 * k * Real.pi / n)
    have h2 := Real.sin_sq_add_cos_sq (l * Real.pi / m)
    simp only [Vec3.normSq, Vec3.dot, Vec3.sub_x, Vec3.sub_y, Vec3.sub_z, Vec3.add_x, Vec3.add_y, Vec3.add_z, Vec3.smul_x, Vec3.smul_y, Vec3.smul_z]
    linear_combination r ^ 2 * Real.sin (l * Real.pi / m) ^ 2 * h1 + r ^ 2 * h2
  · have hne : ps ≠ [] := by
      intro h0
      rw [h0] at hlen
      have := Nat.mul_pos (by omega : 0 < n) (by omega : 0 < m)
      simp only [List.length_nil] at hlen
      omega
    obtain ⟨t, h1, h2, h3, h4⟩ := C46_convex_faces ps c hne hcv
    have hin : ∀ x, t.Inside x ↔ ∀ i j, i < n → j < m → (N n m i j).dot x ≤ D c r n m i j := by
      intro x
      rw [h3]
      constructor
      · intro h i j hi hj
        have hf := (face c r eps hn hm hr (i := i) hj).1
        obtain ⟨v, hv⟩ := List.exists_mem_of_ne_nil _ hf.ne
        exact (hf.le_iff x hv).1 (h _ ((mem_sphere c r).2 ⟨i, j, hi, hj, rfl⟩) v hv)
      · intro h p hp v hv
        obtain ⟨i, j, hi, hj, rfl⟩ := (mem_sphere c r).1 hp
        exact ((face c r eps hn hm hr hj).1.le_iff x hv).2 (h i j hi hj)
    refine ⟨t, fun fuel hf => h1 fuel (by rw [hlen]; exact hf), h2, ?_, ?_, ?_⟩
    · intro x hx
      exact (hin x).2 fun i j _ _ => inner_ball c r hn hm hr x hx i j
    · intro x hx
      obtain ⟨s, i, j, hs, hss, hi, hj, h5⟩ := reach c hn hm x
      have h6 := (hin x).1 hx i j hi hj
      rw [D] at h6
      have hsr : s ≤ r := le_of_mul_le_mul_right (by linarith) (mul_pos (ca_pos hn) (cd_pos hm))
      rw [← hss]
      nlinarith
    · intro x hx
      obtain ⟨s, i, j, hs, hss, hi, hj, h5⟩ := reach c hn hm x
      rw [← hss] at hx
      have hsr : r ≤ s := abs_le_of_sq_le_sq' (by rw [sq s]; exact hx) hs |>.2
      have hf := (face c r eps hn hm hr (i := i) hj).1
      obtain ⟨v, hv⟩ := List.exists_mem_of_ne_nil _ hf.ne
      refine (h4 x).2 ⟨_, (mem_sphere c r).2 ⟨i, j, hi, hj, rfl⟩, v, hv, (hf.ge_iff x hv).2 ?_⟩
      rw [D]
      have := mul_le_mul_of_nonneg_right hsr (mul_pos (ca_pos hn) (cd_pos hm)).le
      linarith

/-- A ball of radius 2 with eight slices and four stacks. -/
example : (Csg.sphere 0 ⟨1, 2, 3⟩ 2 8 4).length = 32 ∧ ClosedSurface (Csg.sphere 0 ⟨1, 2, 3⟩ 2 8 4) :=
  have h := C128_sphere 0 ⟨1, 2, 3⟩ 2 8 4 (by norm_num) (by norm_num) (by norm_num)
  ⟨h.1, h.2.2.1⟩

/-- With a single stack every polygon is given two corners only. -/
theorem C128_one_stack (c : Vec3 ℝ) (r : ℝ) (n i : Nat) : (Csg.sphereFace c r n 1 i 0).length = 2 := by
  simp [Csg.sphereFace]

end ENigMA
