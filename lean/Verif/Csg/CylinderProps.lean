import Verif.Csg.SphereProps

/-!
# C128: the CSG cylinder
-/

set_option linter.unusedSectionVars false
set_option autoImplicit false

namespace ENigMA
namespace Cylinder
open Csg Csg.Bsp Round

/-! ### The axes -/

/-- What the proofs use of the three axes. -/
structure Frame (X Y Z : Vec3 ℝ) : Prop where
  zz : Z.dot Z = 1
  xx : X.dot X = 1
  yy : Y.dot Y = 1
  xy : X.dot Y = 0
  xz : X.dot Z = 0
  yz : Y.dot Z = 0
  cxy : Vec3.cross X Y = -Z
  cxz : Vec3.cross X Z = Y
  cyz : Vec3.cross Y Z = -X

theorem unit_spec {v : Vec3 ℝ} (h : 0 < v.normSq) : (unit v).dot (unit v) = 1 ∧ v = realNorm v • unit v ∧ 0 < realNorm v := by
  have hp : 0 < realNorm v := Real.sqrt_pos.2 h
  have hs : realNorm v * realNorm v = v.normSq := isNorm_real.sq v
  have hu : unit v = (realNorm v)⁻¹ • v := by simp [unit, h]
  refine ⟨?_, ?_, hp⟩
  · rw [hu]
    have : ((realNorm v)⁻¹ • v).dot ((realNorm v)⁻¹ • v) = (realNorm v)⁻¹ * (realNorm v)⁻¹ * v.normSq := by
      simp only [Vec3.normSq, Vec3.dot, Vec3.smul_x, Vec3.smul_y, Vec3.smul_z]; ring
    rw [this, ← hs]; field_simp
  · rw [hu, smul_smul, mul_inv_cancel₀ hp.ne', one_smul]

theorem unit_of_one {v : Vec3 ℝ} (h : v.normSq = 1) : unit v = v := by
  have : realNorm v = 1 := by rw [realNorm, h, Real.sqrt_one]
  rw [unit, if_pos (by rw [h]; exact one_pos), this, inv_one, one_smul]

theorem frame {start stop : Vec3 ℝ} (h : start ≠ stop) :
    Frame (cylinderX start stop) (cylinderY start stop) (cylinderZ start stop) ∧
      ∃ L : ℝ, 0 < L ∧ stop - start = L • cylinderZ start stop := by
  have h0 : 0 < (stop - start).normSq := by
    refine lt_of_le_of_ne (Vec3.normSq_nonneg _) fun h0 => h ?_
    have := Vec3.normSq_eq_zero.1 h0.symm
    have e : stop = start + (stop - start) := by ext <;> simp
    rw [e, this]; ext <;> simp
  obtain ⟨zz, hz, hL⟩ := unit_spec h0
  refine ⟨?_, _, hL, hz⟩
  rw [cylinderY, cylinderX]
  change (cylinderZ start stop).dot (cylinderZ start stop) = 1 at zz
  set Z := cylinderZ start stop
  -- the auxiliary direction is not along the axis
  have hv : ∃ v : Vec3 ℝ, (if 1 / 2 < |Z.y| then (⟨1, 0, 0⟩ : Vec3 ℝ) else ⟨0, 1, 0⟩) = v ∧ 0 < (Vec3.cross v Z).normSq := by
    simp only [Vec3.dot] at zz
    by_cases hy : 1 / 2 < |Z.y|
    · refine ⟨⟨1, 0, 0⟩, if_pos hy, ?_⟩
      have hy2 : 0 < Z.y * Z.y := by
        rw [← abs_mul_abs_self]; nlinarith
      simp only [Vec3.normSq, Vec3.dot, Vec3.cross_x, Vec3.cross_y, Vec3.cross_z]
      nlinarith [mul_self_nonneg Z.z]
    · refine ⟨⟨0, 1, 0⟩, if_neg hy, ?_⟩
      push Not at hy
      have hy2 : Z.y * Z.y ≤ 1 / 4 := by
        rw [← abs_mul_abs_self]; nlinarith [abs_nonneg Z.y]
      simp only [Vec3.normSq, Vec3.dot, Vec3.cross_x, Vec3.cross_y, Vec3.cross_z]
      nlinarith
  obtain ⟨v, hv, hpos⟩ := hv
  simp only [hv]
  obtain ⟨xx, hx, hM⟩ := unit_spec hpos
  set X := unit (Vec3.cross v Z)
  have xz : X.dot Z = 0 := by
    have e : (realNorm (Vec3.cross v Z) • X).dot Z = 0 := by
      rw [← hx]; simp only [Vec3.dot, Vec3.cross_x, Vec3.cross_y, Vec3.cross_z]; ring
    rw [smul_dot] at e
    exact (mul_eq_zero.1 e).resolve_left hM.ne'
  have hY : (Vec3.cross X Z).normSq = 1 := by
    have e : (Vec3.cross X Z).normSq = X.dot X * Z.dot Z - X.dot Z * X.dot Z := by
      simp only [Vec3.normSq, Vec3.dot, Vec3.cross_x, Vec3.cross_y, Vec3.cross_z]; ring
    rw [e, xx, zz, xz]; ring
  rw [unit_of_one hY]
  simp only [Vec3.dot] at xx zz xz
  refine ⟨zz, xx, ?_, ?_, xz, ?_, ?_, rfl, ?_⟩
  · rw [← hY]; rfl
  · simp only [Vec3.dot, Vec3.cross_x, Vec3.cross_y, Vec3.cross_z]; ring
  · simp only [Vec3.dot, Vec3.cross_x, Vec3.cross_y, Vec3.cross_z]; ring
  · ext <;> simp only [Vec3.cross_x, Vec3.cross_y, Vec3.cross_z, Vec3.neg_x, Vec3.neg_y, Vec3.neg_z]
    · linear_combination X.x * xz - Z.x * xx
    · linear_combination X.y * xz - Z.y * xx
    · linear_combination X.z * xz - Z.z * xx
  · ext <;> simp only [Vec3.cross_x, Vec3.cross_y, Vec3.cross_z, Vec3.neg_x, Vec3.neg_y, Vec3.neg_z]
    · linear_combination Z.x * xz - X.x * zz
    · linear_combination Z.y * xz - X.y * zz
    · linear_combination Z.z * xz - X.z * zz

/-! ### The polygons -/

variable (s X Y Z : Vec3 ℝ) (L r : ℝ) (n : Nat)

/-- The corner at slice `k`; `a` is 0 at the start and 1 at the end. -/
noncomputable def Q (a : ℝ) (k : Nat) : Vec3 ℝ := cylinderPoint s X Y (L • Z) r a ((k : ℝ) / n)

theorem Q_eq (a : ℝ) (k : Nat) : Q s X Y Z L r n a k =
    s + (a * L) • Z + r • (Real.cos (2 * k * Real.pi / n) • X + Real.sin (2 * k * Real.pi / n) • Y) := by
  unfold Q cylinderPoint
  have e1 : (k : ℝ) / n * Real.pi * 2 = 2 * k * Real.pi / n := by ring
  simp only [e1, smul_smul]

/-- The outward direction of a side. -/
noncomputable def U (i : Nat) : Vec3 ℝ := Real.cos ((2 * i + 1) * Real.pi / n) • X + Real.sin ((2 * i + 1) * Real.pi / n) • Y

variable {X Y Z}

theorem dot_frame (F : Frame X Y Z) (a b c a' b' c' : ℝ) :
    (a • X + b • Y + c • Z).dot (a' • X + b' • Y + c' • Z) = a * a' + b * b' + c * c' := by
  obtain ⟨zz, xx, yy, xy, xz, yz, -, -, -⟩ := F
  simp only [Vec3.dot] at zz xx yy xy xz yz
  simp only [Vec3.dot, Vec3.add_x, Vec3.add_y, Vec3.add_z, Vec3.smul_x, Vec3.smul_y, Vec3.smul_z]
  linear_combination a * a' * xx + b * b' * yy + c * c' * zz + (a * b' + b * a') * xy + (a * c' + c * a') * xz + (b * c' + c * b') * yz

theorem cross_frame (F : Frame X Y Z) (a b c a' b' c' : ℝ) :
    Vec3.cross (a • X + b • Y + c • Z) (a' • X + b' • Y + c' • Z) =
      (c * b' - b * c') • X + (a * c' - c * a') • Y + (b * a' - a * b') • Z := by
  obtain ⟨-, -, -, -, -, -, cxy, cxz, cyz⟩ := F
  have x1 := congrArg Vec3.x cxy; have x2 := congrArg Vec3.y cxy; have x3 := congrArg Vec3.z cxy
  have y1 := congrArg Vec3.x cxz; have y2 := congrArg Vec3.y cxz; have y3 := congrArg Vec3.z cxz
  have z1 := congrArg Vec3.x cyz; have z2 := congrArg Vec3.y cyz; have z3 := congrArg Vec3.z cyz
  simp only [Vec3.cross_x, Vec3.cross_y, Vec3.cross_z, Vec3.neg_x, Vec3.neg_y, Vec3.neg_z] at x1 x2 x3 y1 y2 y3 z1 z2 z3
  ext <;> simp only [Vec3.cross_x, Vec3.cross_y, Vec3.cross_z, Vec3.add_x, Vec3.add_y, Vec3.add_z, Vec3.smul_x, Vec3.smul_y, Vec3.smul_z]
  · linear_combination (a * b' - b * a') * x1 + (a * c' - c * a') * y1 + (b * c' - c * b') * z1
  · linear_combination (a * b' - b * a') * x2 + (a * c' - c * a') * y2 + (b * c' - c * b') * z2
  · linear_combination (a * b' - b * a') * x3 + (a * c' - c * a') * y3 + (b * c' - c * b') * z3

/-- Coordinates of a corner. -/
theorem Q_sub (a a' : ℝ) (k k' : Nat) : Q s X Y Z L r n a k - Q s X Y Z L r n a' k' =
    (r * (Real.cos (2 * k * Real.pi / n) - Real.cos (2 * k' * Real.pi / n))) • X +
    (r * (Real.sin (2 * k * Real.pi / n) - Real.sin (2 * k' * Real.pi / n))) • Y + ((a - a') * L) • Z := by
  rw [Q_eq, Q_eq]; ext <;> simp <;> ring

theorem Q_sub_s (a a' : ℝ) (k : Nat) : Q s X Y Z L r n a k - (s + (a' * L) • Z) =
    (r * Real.cos (2 * k * Real.pi / n)) • X + (r * Real.sin (2 * k * Real.pi / n)) • Y + ((a - a') * L) • Z := by
  rw [Q_eq]; ext <;> simp <;> ring

theorem s_sub_Q (a a' : ℝ) (k : Nat) : (s + (a' * L) • Z) - Q s X Y Z L r n a k =
    (-(r * Real.cos (2 * k * Real.pi / n))) • X + (-(r * Real.sin (2 * k * Real.pi / n))) • Y + ((a' - a) * L) • Z := by
  rw [Q_eq]; ext <;> simp <;> ring

theorem dot_add (a b c : Vec3 ℝ) : a.dot (b + c) = a.dot b + a.dot c := by simp only [Vec3.dot, Vec3.add_x, Vec3.add_y, Vec3.add_z]; ring

theorem dot_split (a b c : Vec3 ℝ) : a.dot b = a.dot c + a.dot (b - c) := by simp only [Vec3.dot, Vec3.sub_x, Vec3.sub_y, Vec3.sub_z]; ring

theorem U_dot_Q (F : Frame X Y Z) (i k : Nat) (a : ℝ) :
    (U X Y n i).dot (Q s X Y Z L r n a k) = (U X Y n i).dot s + r * Real.cos (2 * k * Real.pi / n - (2 * i + 1) * Real.pi / n) := by
  have hs : s = s + ((0 : ℝ) * L) • Z := by ext <;> simp
  have e : U X Y n i = Real.cos ((2 * i + 1) * Real.pi / n) • X + Real.sin ((2 * i + 1) * Real.pi / n) • Y + (0 : ℝ) • Z := by
    unfold U; ext <;> simp
  rw [dot_split _ _ s]
  congr 1
  rw [show Q s X Y Z L r n a k - s = Q s X Y Z L r n a k - (s + ((0 : ℝ) * L) • Z) by rw [← hs], Q_sub_s, e, dot_frame F, Real.cos_sub]
  ring

theorem Z_dot_Q (F : Frame X Y Z) (k : Nat) (a : ℝ) : Z.dot (Q s X Y Z L r n a k) = Z.dot s + a * L := by
  have hs : s = s + ((0 : ℝ) * L) • Z := by ext <;> simp
  have e : Z = (0 : ℝ) • X + (0 : ℝ) • Y + (1 : ℝ) • Z := by ext <;> simp
  rw [dot_split _ _ s]
  congr 1
  rw [show Q s X Y Z L r n a k - s = Q s X Y Z L r n a k - (s + ((0 : ℝ) * L) • Z) by rw [← hs], Q_sub_s]
  have := dot_frame F 0 0 1 (r * Real.cos (2 * k * Real.pi / n)) (r * Real.sin (2 * k * Real.pi / n)) ((a - 0) * L)
  rw [← e] at this
  rw [this]; ring

section
variable {n} (hn : 3 ≤ n)

theorem trig (hn : 3 ≤ n) (i : Nat) :
    Real.cos (2 * (i : ℝ) * Real.pi / n) = Real.cos ((2 * i + 1) * Real.pi / n) * Real.cos (Real.pi / n) + Real.sin ((2 * i + 1) * Real.pi / n) * Real.sin (Real.pi / n) ∧
    Real.sin (2 * (i : ℝ) * Real.pi / n) = Real.sin ((2 * i + 1) * Real.pi / n) * Real.cos (Real.pi / n) - Real.cos ((2 * i + 1) * Real.pi / n) * Real.sin (Real.pi / n) ∧
    Real.cos (2 * ((i + 1 : ℕ) : ℝ) * Real.pi / n) = Real.cos ((2 * i + 1) * Real.pi / n) * Real.cos (Real.pi / n) - Real.sin ((2 * i + 1) * Real.pi / n) * Real.sin (Real.pi / n) ∧
    Real.sin (2 * ((i + 1 : ℕ) : ℝ) * Real.pi / n) = Real.sin ((2 * i + 1) * Real.pi / n) * Real.cos (Real.pi / n) + Real.cos ((2 * i + 1) * Real.pi / n) * Real.sin (Real.pi / n) := by
  rw [Sphere.slice_lo hn, Sphere.slice_hi hn, Real.cos_sub, Real.sin_sub, Real.cos_add, Real.sin_add]
  exact ⟨rfl, rfl, rfl, rfl⟩

/-- The three cross products of a side, and those of the caps. -/
theorem side_cross (F : Frame X Y Z) (hn : 3 ≤ n) (i : Nat) :
    (Vec3.cross (Q s X Y Z L r n 0 i - Q s X Y Z L r n 0 (i + 1)) (Q s X Y Z L r n 1 i - Q s X Y Z L r n 0 (i + 1)) =
      (2 * r * L * Real.sin (Real.pi / n)) • U X Y n i) ∧
    (Vec3.cross (Q s X Y Z L r n 1 i - Q s X Y Z L r n 0 i) (Q s X Y Z L r n 1 (i + 1) - Q s X Y Z L r n 0 i) =
      (2 * r * L * Real.sin (Real.pi / n)) • U X Y n i) ∧
    (Vec3.cross (Q s X Y Z L r n 1 (i + 1) - Q s X Y Z L r n 1 i) (Q s X Y Z L r n 0 (i + 1) - Q s X Y Z L r n 1 i) =
      (2 * r * L * Real.sin (Real.pi / n)) • U X Y n i) := by
  have e : U X Y n i = Real.cos ((2 * i + 1) * Real.pi / n) • X + Real.sin ((2 * i + 1) * Real.pi / n) • Y := rfl
  obtain ⟨t1, t2, t3, t4⟩ := trig hn i
  simp only [Q_sub, cross_frame F, e, t1, t2, t3, t4]
  refine ⟨?_, ?_, ?_⟩ <;> ext <;> simp <;> ring

theorem cap_cross (F : Frame X Y Z) (hn : 3 ≤ n) (i : Nat) (a : ℝ) :
    (Vec3.cross (Q s X Y Z L r n a i - (s + (a * L) • Z)) (Q s X Y Z L r n a (i + 1) - (s + (a * L) • Z)) =
      (2 * r * r * Real.sin (Real.pi / n) * Real.cos (Real.pi / n)) • -Z) ∧
    (Vec3.cross (Q s X Y Z L r n a (i + 1) - Q s X Y Z L r n a i) ((s + (a * L) • Z) - Q s X Y Z L r n a i) =
      (2 * r * r * Real.sin (Real.pi / n) * Real.cos (Real.pi / n)) • -Z) ∧
    (Vec3.cross (Q s X Y Z L r n a (i + 1) - (s + (a * L) • Z)) (Q s X Y Z L r n a i - (s + (a * L) • Z)) =
      (2 * r * r * Real.sin (Real.pi / n) * Real.cos (Real.pi / n)) • Z) ∧
    (Vec3.cross (Q s X Y Z L r n a i - Q s X Y Z L r n a (i + 1)) ((s + (a * L) • Z) - Q s X Y Z L r n a (i + 1)) =
      (2 * r * r * Real.sin (Real.pi / n) * Real.cos (Real.pi / n)) • Z) := by
  have h := Real.sin_sq_add_cos_sq ((2 * i + 1) * Real.pi / n)
  obtain ⟨t1, t2, t3, t4⟩ := trig hn i
  simp only [Q_sub, Q_sub_s, s_sub_Q, cross_frame F, t1, t2, t3, t4]
  set cm := Real.cos ((2 * i + 1) * Real.pi / n)
  set sm := Real.sin ((2 * i + 1) * Real.pi / n)
  set ca := Real.cos (Real.pi / n)
  set sa := Real.sin (Real.pi / n)
  refine ⟨?_, ?_, ?_, ?_⟩ <;> ext <;>
    simp only [Vec3.add_x, Vec3.add_y, Vec3.add_z, Vec3.smul_x, Vec3.smul_y, Vec3.smul_z, Vec3.neg_x, Vec3.neg_y, Vec3.neg_z]
  · linear_combination (-2 * r * r * sa * ca * Z.x) * h
  · linear_combination (-2 * r * r * sa * ca * Z.y) * h
  · linear_combination (-2 * r * r * sa * ca * Z.z) * h
  · linear_combination (-2 * r * r * sa * ca * Z.x) * h
  · linear_combination (-2 * r * r * sa * ca * Z.y) * h
  · linear_combination (-2 * r * r * sa * ca * Z.z) * h
  · linear_combination (2 * r * r * sa * ca * Z.x) * h
  · linear_combination (2 * r * r * sa * ca * Z.y) * h
  · linear_combination (2 * r * r * sa * ca * Z.z) * h
  · linear_combination (2 * r * r * sa * ca * Z.x) * h
  · linear_combination (2 * r * r * sa * ca * Z.y) * h
  · linear_combination (2 * r * r * sa * ca * Z.z) * h

theorem U_ne (F : Frame X Y Z) (i : Nat) : U X Y n i ≠ 0 := by
  intro h0
  have h := Real.sin_sq_add_cos_sq ((2 * i + 1) * Real.pi / n)
  have e : (U X Y n i).dot (U X Y n i) = 1 := by
    have e : U X Y n i = Real.cos ((2 * i + 1) * Real.pi / n) • X + Real.sin ((2 * i + 1) * Real.pi / n) • Y + (0 : ℝ) • Z := by
      unfold U; ext <;> simp
    rw [e, dot_frame F]
    linarith
  rw [h0] at e
  simp at e

theorem Z_ne (F : Frame X Y Z) : Z ≠ 0 := by
  intro h0
  have := F.zz
  rw [h0] at this
  simp at this

theorem U_on (F : Frame X Y Z) (hn : 3 ≤ n) {i k : Nat} (a : ℝ) (hk : k = i ∨ k = i + 1) :
    (U X Y n i).dot (Q s X Y Z L r n a k) = (U X Y n i).dot s + r * Real.cos (Real.pi / n) := by
  rw [U_dot_Q s L r n F]
  congr 2
  rcases hk with rfl | rfl
  · rw [Sphere.slice_lo hn, sub_sub_cancel_left, Real.cos_neg]
  · rw [Sphere.slice_hi hn, add_sub_cancel_left]

theorem U_dot_axis (F : Frame X Y Z) (i : Nat) (a : ℝ) : (U X Y n i).dot (s + a • Z) = (U X Y n i).dot s := by
  have e : U X Y n i = Real.cos ((2 * i + 1) * Real.pi / n) • X + Real.sin ((2 * i + 1) * Real.pi / n) • Y + (0 : ℝ) • Z := by
    unfold U; ext <;> simp
  have ez : a • Z = (0 : ℝ) • X + (0 : ℝ) • Y + a • Z := by ext <;> simp
  rw [dot_add, ez, e, dot_frame F]
  ring

theorem Z_dot_axis (F : Frame X Y Z) (a : ℝ) : Z.dot (s + a • Z) = Z.dot s + a := by
  rw [dot_add]
  congr 1
  have := F.zz
  simp only [Vec3.dot, Vec3.smul_x, Vec3.smul_y, Vec3.smul_z] at this ⊢
  linear_combination a * this

/-- The polygons of a slice: planes, corners and sides. -/
theorem slice (eps : ℝ) (F : Frame X Y Z) (hn : 3 ≤ n) (hr : 0 < r) (hL : 0 < L) (i : Nat) :
    let p0 := closedPoly eps [s, Q s X Y Z L r n 0 i, Q s X Y Z L r n 0 (i + 1)]
    let p1 := closedPoly eps [Q s X Y Z L r n 0 (i + 1), Q s X Y Z L r n 0 i, Q s X Y Z L r n 1 i, Q s X Y Z L r n 1 (i + 1)]
    let p2 := closedPoly eps [s + L • Z, Q s X Y Z L r n 1 (i + 1), Q s X Y Z L r n 1 i]
    (p0.vs = [s, Q s X Y Z L r n 0 i, Q s X Y Z L r n 0 (i + 1), s] ∧ FaceOf p0 (-Z) (-Z.dot s)) ∧
    (p1.vs = [Q s X Y Z L r n 0 (i + 1), Q s X Y Z L r n 0 i, Q s X Y Z L r n 1 i, Q s X Y Z L r n 1 (i + 1), Q s X Y Z L r n 0 (i + 1)] ∧
      FaceOf p1 (U X Y n i) ((U X Y n i).dot s + r * Real.cos (Real.pi / n))) ∧
    (p2.vs = [s + L • Z, Q s X Y Z L r n 1 (i + 1), Q s X Y Z L r n 1 i, s + L • Z] ∧ FaceOf p2 Z (Z.dot s + L)) := by
  intro p0 p1 p2
  have hs : s = s + ((0 : ℝ) * L) • Z := by ext <;> simp
  have hsa := Sphere.sa_pos hn
  have hca := Sphere.ca_pos hn
  have k1 : 0 < 2 * r * r * Real.sin (Real.pi / n) * Real.cos (Real.pi / n) := by positivity
  have k2 : 0 < 2 * r * L * Real.sin (Real.pi / n) := by positivity
  obtain ⟨s1, s2, s3⟩ := side_cross s L r F hn i
  obtain ⟨a1, a2, -, -⟩ := cap_cross s L r F hn i 0
  obtain ⟨-, -, b1, b2⟩ := cap_cross s L r F hn i 1
  rw [← hs] at a1 a2
  rw [one_mul] at b1 b2
  refine ⟨tri_face eps (neg_ne_zero.2 (Z_ne F)) k1 k1 a1 a2 ?_ ?_ ?_, quad_face eps (U_ne F i) k2 k2 k2 s1 s2 s3 (U_on s L r F hn 0 (Or.inr rfl))
    (U_on s L r F hn 0 (Or.inl rfl)) (U_on s L r F hn 1 (Or.inl rfl)) (U_on s L r F hn 1 (Or.inr rfl)),
    tri_face eps (Z_ne F) k1 k1 b1 b2 ?_ ?_ ?_⟩
  · rw [Vec3.neg_dot]
  · rw [Vec3.neg_dot, Z_dot_Q s L r n F]; ring
  · rw [Vec3.neg_dot, Z_dot_Q s L r n F]; ring
  · rw [Z_dot_axis s F]
  · rw [Z_dot_Q s L r n F]; ring
  · rw [Z_dot_Q s L r n F]; ring

include hn in
theorem Q_round (a : ℝ) : Q s X Y Z L r n a n = Q s X Y Z L r n a 0 := by
  have hn0 := Sphere.n_pos hn
  rw [Q_eq, Q_eq, show 2 * (n : ℝ) * Real.pi / n = 2 * Real.pi by field_simp]; simp

end
end Cylinder

open Csg Csg.Bsp Cylinder Round in
/-- **C128.** The cylinder from `start` to `stop` with radius `r` and at least three slices, for any epsilon of `calculateNormal`: three polygons
for every slice; the surface is closed; and the tree built from the polygons stores them uncut and has an inside that contains the points that are
between the ends and at most `r cos(π/n)` from the axis, and only points that are between the ends and at most `r` from the axis. -/
theorem C128_cylinder (eps : ℝ) (start stop : Vec3 ℝ) (r : ℝ) (n : Nat) (h : start ≠ stop) (hr : 0 < r) (hn : 3 ≤ n) :
    let ps := cylinder eps start stop r n
    let ray := stop - start
    -- the part of the way along the axis, and the square of the distance from the axis, both times the square of the length
    let along := fun x : Vec3 ℝ => ray.dot (x - start)
    let away := fun x : Vec3 ℝ => (Vec3.cross ray (x - start)).normSq
    ps.length = 3 * n ∧ (∀ p ∈ ps, Proper p ∧ ∀ v ∈ p.vs, 0 ≤ along v ∧ along v ≤ ray.normSq ∧ away v ≤ r ^ 2 * ray.normSq) ∧ ClosedSurface ps ∧
    ∃ t : Bsp ℝ, (∀ fuel, 3 * n < fuel → ofPolygons 0 fuel ps = some t) ∧ t.allPolygons.1.Perm ps ∧
      (∀ x, 0 ≤ along x → along x ≤ ray.normSq → away x ≤ (r * Real.cos (Real.pi / n)) ^ 2 * ray.normSq → t.Inside x) ∧
      (∀ x, t.Inside x → 0 ≤ along x ∧ along x ≤ ray.normSq ∧ away x ≤ r ^ 2 * ray.normSq) ∧
      (∀ x, along x ≤ 0 ∨ ray.normSq ≤ along x ∨ r ^ 2 * ray.normSq ≤ away x → t.Outside x) := by
  intro ps ray along away
  obtain ⟨F, L, hL, hray⟩ := frame h
  set X := cylinderX start stop with hX
  set Y := cylinderY start stop with hY
  set Z := cylinderZ start stop with hZ
  have hstop : stop = start + L • Z := by rw [← hray]; ext <;> simp
  have hps : ps = (List.range n).flatMap fun i =>
      [closedPoly eps [start, Q start X Y Z L r n 0 i, Q start X Y Z L r n 0 (i + 1)],
       closedPoly eps [Q start X Y Z L r n 0 (i + 1), Q start X Y Z L r n 0 i, Q start X Y Z L r n 1 i, Q start X Y Z L r n 1 (i + 1)],
       closedPoly eps [start + L • Z, Q start X Y Z L r n 1 (i + 1), Q start X Y Z L r n 1 i]] := by
    simp only [ps, cylinder]
    refine List.flatMap_congr fun i _ => ?_
    simp only [cylinderSlice, Q, hray, ← hstop, ← hX, ← hY]
    push_cast
    rfl
  clear_value ps
  have hlen : ps.length = 3 * n := by
    rw [hps]
    simp [List.length_flatMap]
    ring
  have hca := Sphere.ca_pos hn
  -- the corners
  have hvert : ∀ q ∈ ps, ∀ v ∈ q.vs, (∃ a, (a = 0 ∨ a = 1) ∧ v = start + (a * L) • Z) ∨ ∃ a k, (a = 0 ∨ a = 1) ∧ k ≤ n ∧ v = Q start X Y Z L r n a k := by
    intro q hq v hv
    rw [hps] at hq
    simp only [List.mem_flatMap, List.mem_range, List.mem_cons, List.not_mem_nil, or_false] at hq
    obtain ⟨i, hi, hq⟩ := hq
    obtain ⟨⟨v0, -⟩, ⟨v1, -⟩, v2, -⟩ := slice start L r eps F hn hr hL i
    have hs0 : start = start + ((0 : ℝ) * L) • Z := by ext <;> simp
    have hs1 : start + L • Z = start + ((1 : ℝ) * L) • Z := by rw [one_mul]
    rcases hq with rfl | rfl | rfl
    · rw [v0] at hv
      simp only [List.mem_cons, List.not_mem_nil, or_false] at hv
      rcases hv with rfl | rfl | rfl | rfl
      · exact Or.inl ⟨0, by simp, hs0⟩
      · exact Or.inr ⟨0, i, by simp, by omega, rfl⟩
      · exact Or.inr ⟨0, i + 1, by simp, by omega, rfl⟩
      · exact Or.inl ⟨0, by simp, hs0⟩
    · rw [v1] at hv
      simp only [List.mem_cons, List.not_mem_nil, or_false] at hv
      rcases hv with rfl | rfl | rfl | rfl | rfl
      · exact Or.inr ⟨0, i + 1, by simp, by omega, rfl⟩
      · exact Or.inr ⟨0, i, by simp, by omega, rfl⟩
      · exact Or.inr ⟨1, i, by simp, by omega, rfl⟩
      · exact Or.inr ⟨1, i + 1, by simp, by omega, rfl⟩
      · exact Or.inr ⟨0, i + 1, by simp, by omega, rfl⟩
    · rw [v2] at hv
      simp only [List.mem_cons, List.not_mem_nil, or_false] at hv
      rcases hv with rfl | rfl | rfl | rfl
      · exact Or.inl ⟨1, by simp, hs1⟩
      · exact Or.inr ⟨1, i + 1, by simp, by omega, rfl⟩
      · exact Or.inr ⟨1, i, by simp, by omega, rfl⟩
      · exact Or.inl ⟨1, by simp, hs1⟩
  have hZv : ∀ q ∈ ps, ∀ v ∈ q.vs, Z.dot start ≤ Z.dot v ∧ Z.dot v ≤ Z.dot start + L := by
    intro q hq v hv
    rcases hvert q hq v hv with ⟨a, ha, rfl⟩ | ⟨a, k, ha, -, rfl⟩
    · rw [Z_dot_axis start F]; rcases ha with rfl | rfl <;> constructor <;> linarith
    · rw [Z_dot_Q start L r n F]; rcases ha with rfl | rfl <;> constructor <;> linarith
  have hUv : ∀ q ∈ ps, ∀ v ∈ q.vs, ∀ i, i < n → (U X Y n i).dot v ≤ (U X Y n i).dot start + r * Real.cos (Real.pi / n) := by
    intro q hq v hv i hi
    rcases hvert q hq v hv with ⟨a, ha, rfl⟩ | ⟨a, k, ha, hk, rfl⟩
    · rw [U_dot_axis start F]; have := mul_pos hr hca; linarith
    · rw [U_dot_Q start L r n F]
      have := mul_le_mul_of_nonneg_left (cos_slice (by omega) hi hk) hr.le
      linarith
  -- the planes
  have hface : ∀ q ∈ ps, FaceOf q (-Z) (-Z.dot start) ∨ FaceOf q Z (Z.dot start + L) ∨
      ∃ i, i < n ∧ FaceOf q (U X Y n i) ((U X Y n i).dot start + r * Real.cos (Real.pi / n)) := by
    intro q hq
    rw [hps] at hq
    simp only [List.mem_flatMap, List.mem_range, List.mem_cons, List.not_mem_nil, or_false] at hq
    obtain ⟨i, hi, hq⟩ := hq
    obtain ⟨⟨-, f0⟩, ⟨-, f1⟩, -, f2⟩ := slice start L r eps F hn hr hL i
    rcases hq with rfl | rfl | rfl
    · exact Or.inl f0
    · exact Or.inr (Or.inr ⟨i, hi, f1⟩)
    · exact Or.inr (Or.inl f2)
  have hcv : ConvexFaces ps (start + (L / 2) • Z) := by
    refine convexFaces fun q hq => ?_
    rcases hface q hq with hf | hf | ⟨i, hi, hf⟩
    · refine ⟨_, _, hf, ?_, fun q' hq' v hv => ?_⟩
      · rw [Vec3.neg_dot, Z_dot_axis start F]; linarith
      · rw [Vec3.neg_dot]; linarith [(hZv q' hq' v hv).1]
    · refine ⟨_, _, hf, ?_, fun q' hq' v hv => (hZv q' hq' v hv).2⟩
      rw [Z_dot_axis start F]; linarith
    · refine ⟨_, _, hf, ?_, fun q' hq' v hv => hUv q' hq' v hv i hi⟩
      rw [U_dot_axis start F]; have := mul_pos hr hca; linarith
  -- along and away in the frame
  have hLL : ray.normSq = L * L := by
    simp only [ray, hray]
    have := F.zz
    simp only [Vec3.normSq, Vec3.dot, Vec3.smul_x, Vec3.smul_y, Vec3.smul_z] at this ⊢
    linear_combination L * L * this
  have halong : ∀ x, along x = L * (Z.dot x - Z.dot start) := by
    intro x
    simp only [along, ray, hray]
    simp only [Vec3.dot, Vec3.smul_x, Vec3.smul_y, Vec3.smul_z, Vec3.sub_x, Vec3.sub_y, Vec3.sub_z]
    ring
  have haway : ∀ x, away x = L * L * ((X.dot (x - start)) * (X.dot (x - start)) + (Y.dot (x - start)) * (Y.dot (x - start))) := by
    intro x
    simp only [away, ray, hray]
    have hzc : Vec3.cross (L • Z) (x - start) = (L * Y.dot (x - start)) • X + (-(L * X.dot (x - start))) • Y + (0 : ℝ) • Z := by
      have c1 : Z = -Vec3.cross X Y := by rw [F.cxy, neg_neg]
      rw [c1]
      ext <;> simp [Vec3.dot] <;> ring
    have hd : ∀ v : Vec3 ℝ, v.normSq = v.dot v := fun v => rfl
    rw [hzc, hd, dot_frame F]
    ring
  have hLL0 : 0 < L * L := mul_pos hL hL
  have hUx : ∀ x i, (U X Y n i).dot x = (U X Y n i).dot start + (Real.cos ((2 * i + 1) * Real.pi / n) * X.dot (x - start) +
      Real.sin ((2 * i + 1) * Real.pi / n) * Y.dot (x - start)) := by
    intro x i
    simp only [U, Vec3.dot, Vec3.add_x, Vec3.add_y, Vec3.add_z, Vec3.smul_x, Vec3.smul_y, Vec3.smul_z, Vec3.sub_x, Vec3.sub_y, Vec3.sub_z]
    ring
  -- some side is faced by every point
  have hreach : ∀ x, ∃ σ i, 0 ≤ σ ∧ L * L * (σ * σ) = away x ∧ i < n ∧ (U X Y n i).dot start + σ * Real.cos (Real.pi / n) ≤ (U X Y n i).dot x := by
    intro x
    obtain ⟨σ, θ, hσ, h0, h1, ha, hb, hss⟩ := polar (X.dot (x - start)) (Y.dot (x - start))
    obtain ⟨i, hi, h2⟩ := find_slice (n := n) (by omega) h0 h1
    refine ⟨σ, i, hσ, by rw [haway, hss], hi, ?_⟩
    rw [hUx x, ha, hb]
    rw [Real.cos_sub] at h2
    have := mul_le_mul_of_nonneg_left h2 hσ
    linarith
  have hbound : ∀ x ρ, 0 ≤ ρ → away x ≤ ρ ^ 2 * ray.normSq → ∀ i, (U X Y n i).dot x ≤ (U X Y n i).dot start + ρ := by
    intro x ρ hρ hx i
    rw [haway, hLL] at hx
    have hx' : X.dot (x - start) * X.dot (x - start) + Y.dot (x - start) * Y.dot (x - start) ≤ ρ ^ 2 := by
      by_contra hcon
      push Not at hcon
      nlinarith
    rw [hUx x]
    have hc := Real.sin_sq_add_cos_sq ((2 * i + 1) * Real.pi / n)
    set a := X.dot (x - start)
    set b := Y.dot (x - start)
    set p := Real.cos ((2 * i + 1) * Real.pi / n)
    set q := Real.sin ((2 * i + 1) * Real.pi / n)
    have : (p * a + q * b) ^ 2 ≤ ρ ^ 2 := by nlinarith [sq_nonneg (p * b - q * a)]
    have := abs_le_of_sq_le_sq' this hρ
    linarith [this.2]
  have hne : ps ≠ [] := by
    intro h0
    rw [h0] at hlen
    simp only [List.length_nil] at hlen
    omega
  refine ⟨hlen, fun q hq => ⟨hcv.proper q hq, fun v hv => ?_⟩, ?_, ?_⟩
  · rw [halong, hLL]
    obtain ⟨z1, z2⟩ := hZv q hq v hv
    refine ⟨mul_nonneg hL.le (by linarith), mul_le_mul_of_nonneg_left (by linarith) hL.le, ?_⟩
    obtain ⟨σ, i, hσ, hss, hi, hge⟩ := hreach v
    have := hUv q hq v hv i hi
    have hle : σ ≤ r := le_of_mul_le_mul_right (by linarith) hca
    rw [← hss]
    linarith [mul_le_mul_of_nonneg_left (mul_self_le_mul_self hσ hle) hLL0.le]
  · -- closed
    refine closed_of_sum fun f hf => ?_
    have e : ((ps.flatMap fun p => sidesOf p.vs).map fun s => f s.1 s.2).sum =
        ∑ i ∈ Finset.range n, ((f start (Q start X Y Z L r n 0 i) - f start (Q start X Y Z L r n 0 (i + 1))) +
          (f (Q start X Y Z L r n 0 i) (Q start X Y Z L r n 1 i) - f (Q start X Y Z L r n 0 (i + 1)) (Q start X Y Z L r n 1 (i + 1))) +
          (f (Q start X Y Z L r n 1 i) (start + L • Z) - f (Q start X Y Z L r n 1 (i + 1)) (start + L • Z))) := by
      rw [hps, List.flatMap_assoc, List.map_flatMap, List.flatMap_def, List.sum_flatten, List.map_map, sum_range]
      refine Finset.sum_congr rfl fun i _ => ?_
      obtain ⟨⟨v0, -⟩, ⟨v1, -⟩, v2, -⟩ := slice start L r eps F hn hr hL i
      simp only [Function.comp_apply, List.flatMap_cons, List.flatMap_nil, v0, v1, v2, sidesOf, List.tail_cons, List.zip_cons_cons, List.zip_nil_right,
        List.append_nil, List.map_append, List.sum_append, List.map_cons, List.map_nil, List.sum_cons, List.sum_nil]
      rw [hf start (Q start X Y Z L r n 0 (i + 1)), hf (Q start X Y Z L r n 0 i) (Q start X Y Z L r n 0 (i + 1)),
        hf (Q start X Y Z L r n 0 (i + 1)) (Q start X Y Z L r n 1 (i + 1)), hf (Q start X Y Z L r n 1 i) (Q start X Y Z L r n 1 (i + 1)),
        hf (Q start X Y Z L r n 1 (i + 1)) (start + L • Z)]
      ring
    rw [e, Finset.sum_add_distrib, Finset.sum_add_distrib, Finset.sum_range_sub' (fun i => f start (Q start X Y Z L r n 0 i)),
      Finset.sum_range_sub' (fun i => f (Q start X Y Z L r n 0 i) (Q start X Y Z L r n 1 i)),
      Finset.sum_range_sub' (fun i => f (Q start X Y Z L r n 1 i) (start + L • Z)), Q_round start L r hn, Q_round start L r hn]
    ring
  · obtain ⟨t, h1, h2, h3, h4⟩ := C46_convex_faces ps _ hne hcv
    have hin : ∀ x, t.Inside x ↔ Z.dot start ≤ Z.dot x ∧ Z.dot x ≤ Z.dot start + L ∧
        ∀ i, i < n → (U X Y n i).dot x ≤ (U X Y n i).dot start + r * Real.cos (Real.pi / n) := by
      intro x
      rw [h3]
      constructor
      · intro hx
        have hmem : ∀ i, i < n → ∀ p, p ∈ ([closedPoly eps [start, Q start X Y Z L r n 0 i, Q start X Y Z L r n 0 (i + 1)],
            closedPoly eps [Q start X Y Z L r n 0 (i + 1), Q start X Y Z L r n 0 i, Q start X Y Z L r n 1 i, Q start X Y Z L r n 1 (i + 1)],
            closedPoly eps [start + L • Z, Q start X Y Z L r n 1 (i + 1), Q start X Y Z L r n 1 i]] : List (Poly ℝ)) → p ∈ ps := by
          intro i hi p hp
          rw [hps]
          exact List.mem_flatMap.2 ⟨i, List.mem_range.2 hi, hp⟩
        have use : ∀ p ∈ ps, ∀ N d, FaceOf p N d → N.dot x ≤ d := by
          intro p hp N d hf
          obtain ⟨v, hv⟩ := List.exists_mem_of_ne_nil _ hf.ne
          exact (hf.le_iff x hv).1 (hx p hp v hv)
        obtain ⟨⟨-, f0⟩, -, -, f2⟩ := slice start L r eps F hn hr hL 0
        refine ⟨?_, use _ (hmem 0 (by omega) _ (by simp)) _ _ f2, fun i hi => ?_⟩
        · have := use _ (hmem 0 (by omega) _ (by simp)) _ _ f0
          rw [Vec3.neg_dot] at this
          linarith
        · obtain ⟨-, ⟨-, f1⟩, -⟩ := slice start L r eps F hn hr hL i
          exact use _ (hmem i hi _ (by simp)) _ _ f1
      · rintro ⟨x1, x2, x3⟩ q hq v hv
        rcases hface q hq with hf | hf | ⟨i, hi, hf⟩
        · exact (hf.le_iff x hv).2 (by rw [Vec3.neg_dot]; linarith)
        · exact (hf.le_iff x hv).2 x2
        · exact (hf.le_iff x hv).2 (x3 i hi)
    refine ⟨t, fun fuel hf => h1 fuel (by rw [hlen]; exact hf), h2, ?_, ?_, ?_⟩
    · intro x x1 x2 x3
      rw [halong] at x1
      rw [halong, hLL] at x2
      refine (hin x).2 ⟨?_, ?_, fun i _ => hbound x _ (mul_pos hr hca).le x3 i⟩
      · have := nonneg_of_mul_nonneg_right x1 hL; linarith
      · have := le_of_mul_le_mul_left x2 hL; linarith
    · intro x hx
      obtain ⟨x1, x2, x3⟩ := (hin x).1 hx
      rw [halong, hLL]
      refine ⟨mul_nonneg hL.le (by linarith), mul_le_mul_of_nonneg_left (by linarith) hL.le, ?_⟩
      obtain ⟨σ, i, hσ, hss, hi, hge⟩ := hreach x
      have := x3 i hi
      have hle : σ ≤ r := le_of_mul_le_mul_right (by linarith) hca
      rw [← hss]
      linarith [mul_le_mul_of_nonneg_left (mul_self_le_mul_self hσ hle) hLL0.le]
    · intro x hx
      have hmem : ∀ i, i < n → ∀ p, p ∈ ([closedPoly eps [start, Q start X Y Z L r n 0 i, Q start X Y Z L r n 0 (i + 1)],
          closedPoly eps [Q start X Y Z L r n 0 (i + 1), Q start X Y Z L r n 0 i, Q start X Y Z L r n 1 i, Q start X Y Z L r n 1 (i + 1)],
          closedPoly eps [start + L • Z, Q start X Y Z L r n 1 (i + 1), Q start X Y Z L r n 1 i]] : List (Poly ℝ)) → p ∈ ps := by
        intro i hi p hp
        rw [hps]
        exact List.mem_flatMap.2 ⟨i, List.mem_range.2 hi, hp⟩
      have use : ∀ p ∈ ps, ∀ N d, FaceOf p N d → d ≤ N.dot x → t.Outside x := by
        intro p hp N d hf hd
        obtain ⟨v, hv⟩ := List.exists_mem_of_ne_nil _ hf.ne
        exact (h4 x).2 ⟨p, hp, v, hv, (hf.ge_iff x hv).2 hd⟩
      obtain ⟨⟨-, f0⟩, -, -, f2⟩ := slice start L r eps F hn hr hL 0
      rcases hx with hx | hx | hx
      · rw [halong] at hx
        refine use _ (hmem 0 (by omega) _ (by simp)) _ _ f0 ?_
        rw [Vec3.neg_dot]
        by_contra hcon
        push Not at hcon
        have := mul_pos hL (by linarith : 0 < Z.dot x - Z.dot start)
        linarith
      · rw [halong, hLL] at hx
        refine use _ (hmem 0 (by omega) _ (by simp)) _ _ f2 ?_
        have := le_of_mul_le_mul_left hx hL
        linarith
      · obtain ⟨σ, i, hσ, hss, hi, hge⟩ := hreach x
        obtain ⟨-, ⟨-, f1⟩, -⟩ := slice start L r eps F hn hr hL i
        refine use _ (hmem i hi _ (by simp)) _ _ f1 ?_
        rw [← hss, hLL] at hx
        have hsr : r ≤ σ := by
          by_contra hcon
          push Not at hcon
          nlinarith [mul_pos hLL0 (by nlinarith : 0 < r ^ 2 - σ * σ)]
        have := mul_le_mul_of_nonneg_right hsr hca.le
        linarith

/-- A slanted cylinder with six slices. -/
example : (Csg.cylinder 0 ⟨0, 0, 0⟩ ⟨1, 2, 3⟩ 1 6).length = 18 ∧ ClosedSurface (Csg.cylinder 0 ⟨0, 0, 0⟩ ⟨1, 2, 3⟩ 1 6) :=
  have h := C128_cylinder 0 ⟨0, 0, 0⟩ ⟨1, 2, 3⟩ 1 6 (by intro h; have := congrArg Vec3.x h; norm_num at this) (by norm_num) (by norm_num)
  ⟨h.1, h.2.2.1⟩

end ENigMA
