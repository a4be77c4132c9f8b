import Mathlib.Algebra.Order.Field.Basic
import Mathlib.Algebra.Module.Defs
import Mathlib.Tactic.Ring
import Mathlib.Tactic.Linarith
import Mathlib.Tactic.Positivity
import Mathlib.Tactic.FieldSimp
import Mathlib.Tactic.LinearCombination
import Mathlib.Tactic.NormNum

/-!
# Three-dimensional vectors

`CGeoVector<Real>`/`CGeoCoordinate<Real>` (trunk/src/geometry/GeoVector.hpp, GeoCoordinate.hpp) are thin
wrappers of `Eigen::Matrix<Real, 3, 1>`; `CMshNode` derives from the latter. `Vec3 K` is a triple over a field.
Componentwise operations, `dot`, `cross` as in Eigen; `normSq` is `squaredNorm()`.
-/

namespace ENigMA

/-- `Eigen::Matrix<Real, 3, 1>`. -/
@[ext] structure Vec3 (K : Type*) where
  x : K
  y : K
  z : K
  deriving DecidableEq, Repr

namespace Vec3
variable {K : Type*}

section Ring
variable [CommRing K]

instance : Zero (Vec3 K) := ⟨⟨0, 0, 0⟩⟩
instance : Add (Vec3 K) := ⟨fun a b => ⟨a.x + b.x, a.y + b.y, a.z + b.z⟩⟩
instance : Sub (Vec3 K) := ⟨fun a b => ⟨a.x - b.x, a.y - b.y, a.z - b.z⟩⟩
instance : Neg (Vec3 K) := ⟨fun a => ⟨-a.x, -a.y, -a.z⟩⟩
instance : SMul K (Vec3 K) := ⟨fun c a => ⟨c * a.x, c * a.y, c * a.z⟩⟩

@[simp] theorem zero_x : (0 : Vec3 K).x = 0 := rfl
@[simp] theorem zero_y : (0 : Vec3 K).y = 0 := rfl
@[simp] theorem zero_z : (0 : Vec3 K).z = 0 := rfl
@[simp] theorem add_x (a b : Vec3 K) : (a + b).x = a.x + b.x := rfl
@[simp] theorem add_y (a b : Vec3 K) : (a + b).y = a.y + b.y := rfl
@[simp] theorem add_z (a b : Vec3 K) : (a + b).z = a.z + b.z := rfl
@[simp] theorem sub_x (a b : Vec3 K) : (a - b).x = a.x - b.x := rfl
@[simp] theorem sub_y (a b : Vec3 K) : (a - b).y = a.y - b.y := rfl
@[simp] theorem sub_z (a b : Vec3 K) : (a - b).z = a.z - b.z := rfl
@[simp] theorem neg_x (a : Vec3 K) : (-a).x = -a.x := rfl
@[simp] theorem neg_y (a : Vec3 K) : (-a).y = -a.y := rfl
@[simp] theorem neg_z (a : Vec3 K) : (-a).z = -a.z := rfl
@[simp] theorem smul_x (c : K) (a : Vec3 K) : (c • a).x = c * a.x := rfl
@[simp] theorem smul_y (c : K) (a : Vec3 K) : (c • a).y = c * a.y := rfl
@[simp] theorem smul_z (c : K) (a : Vec3 K) : (c • a).z = c * a.z := rfl

instance : AddCommGroup (Vec3 K) where
  add_assoc a b c := by ext <;> simp [add_assoc]
  zero_add a := by ext <;> simp
  add_zero a := by ext <;> simp
  add_comm a b := by ext <;> simp [add_comm]
  neg_add_cancel a := by ext <;> simp
  sub_eq_add_neg a b := by ext <;> simp [sub_eq_add_neg]
  nsmul := nsmulRec
  zsmul := zsmulRec

instance : Module K (Vec3 K) where
  one_smul a := by ext <;> simp
  mul_smul c d a := by ext <;> simp [mul_assoc]
  smul_zero c := by ext <;> simp
  smul_add c a b := by ext <;> simp [mul_add]
  add_smul c d a := by ext <;> simp [add_mul]
  zero_smul a := by ext <;> simp

/-- `a.dot(b)`. -/
def dot (a b : Vec3 K) : K := a.x * b.x + a.y * b.y + a.z * b.z

/-- `a.cross(b)`. -/
def cross (a b : Vec3 K) : Vec3 K :=
  ⟨a.y * b.z - a.z * b.y, a.z * b.x - a.x * b.z, a.x * b.y - a.y * b.x⟩

/-- `a.squaredNorm()`. -/
def normSq (a : Vec3 K) : K := dot a a

@[simp] theorem cross_x (a b : Vec3 K) : (cross a b).x = a.y * b.z - a.z * b.y := rfl
@[simp] theorem cross_y (a b : Vec3 K) : (cross a b).y = a.z * b.x - a.x * b.z := rfl
@[simp] theorem cross_z (a b : Vec3 K) : (cross a b).z = a.x * b.y - a.y * b.x := rfl

theorem dot_comm (a b : Vec3 K) : dot a b = dot b a := by simp only [dot]; ring
theorem dot_add (a b c : Vec3 K) : dot a (b + c) = dot a b + dot a c := by simp [dot]; ring
theorem add_dot (a b c : Vec3 K) : dot (a + b) c = dot a c + dot b c := by simp [dot]; ring
theorem dot_sub (a b c : Vec3 K) : dot a (b - c) = dot a b - dot a c := by simp [dot]; ring
theorem sub_dot (a b c : Vec3 K) : dot (a - b) c = dot a c - dot b c := by simp [dot]; ring
theorem dot_smul (k : K) (a b : Vec3 K) : dot a (k • b) = k * dot a b := by simp [dot]; ring
theorem smul_dot (k : K) (a b : Vec3 K) : dot (k • a) b = k * dot a b := by simp [dot]; ring
@[simp] theorem dot_zero (a : Vec3 K) : dot a 0 = 0 := by simp [dot]
@[simp] theorem zero_dot (a : Vec3 K) : dot 0 a = 0 := by simp [dot]
theorem dot_neg (a b : Vec3 K) : dot a (-b) = -dot a b := by simp [dot]; ring
theorem neg_dot (a b : Vec3 K) : dot (-a) b = -dot a b := by simp [dot]; ring

end Ring

section Ordered
variable [Field K] [LinearOrder K] [IsStrictOrderedRing K]

theorem normSq_nonneg (a : Vec3 K) : 0 ≤ normSq a := by
  unfold normSq dot; nlinarith [mul_self_nonneg a.x, mul_self_nonneg a.y, mul_self_nonneg a.z]

theorem normSq_eq_zero {a : Vec3 K} : normSq a = 0 ↔ a = 0 := by
  constructor
  · intro h
    unfold normSq dot at h
    have hx := mul_self_nonneg a.x
    have hy := mul_self_nonneg a.y
    have hz := mul_self_nonneg a.z
    have h1 : a.x * a.x = 0 := by linarith
    have h2 : a.y * a.y = 0 := by linarith
    have h3 : a.z * a.z = 0 := by linarith
    ext
    · simpa using h1
    · simpa using h2
    · simpa using h3
  · rintro rfl; simp [normSq]

/-- `(p - q).norm() <= tol`, without the square root. -/
def Within (p q : Vec3 K) (tol : K) : Prop := 0 ≤ tol ∧ normSq (p - q) ≤ tol * tol

instance (p q : Vec3 K) (tol : K) : Decidable (Within p q tol) := by unfold Within; infer_instance

omit [IsStrictOrderedRing K] in
theorem Within.symm {p q : Vec3 K} {tol : K} (h : Within p q tol) : Within q p tol := by
  refine ⟨h.1, ?_⟩
  have : normSq (q - p) = normSq (p - q) := by simp [normSq, dot]; ring
  rw [this]; exact h.2

theorem within_self (p : Vec3 K) {tol : K} (h : 0 ≤ tol) : Within p p tol :=
  ⟨h, by simp [normSq]; exact mul_self_nonneg tol⟩

theorem sq_le_imp {a t : K} (ht : 0 ≤ t) (h : a * a ≤ t * t) : -t ≤ a ∧ a ≤ t :=
  abs_le.1 (abs_le_of_sq_le_sq (by nlinarith) ht)

/-- A point within `tol` lies in the cube of half-width `tol`. -/
theorem Within.cube {p q : Vec3 K} {tol : K} (h : Within p q tol) :
    (-tol ≤ p.x - q.x ∧ p.x - q.x ≤ tol) ∧ (-tol ≤ p.y - q.y ∧ p.y - q.y ≤ tol) ∧
      (-tol ≤ p.z - q.z ∧ p.z - q.z ≤ tol) := by
  obtain ⟨h0, h1⟩ := h
  simp only [normSq, dot, sub_x, sub_y, sub_z] at h1
  have hx := mul_self_nonneg (p.x - q.x)
  have hy := mul_self_nonneg (p.y - q.y)
  have hz := mul_self_nonneg (p.z - q.z)
  exact ⟨sq_le_imp h0 (by linarith), sq_le_imp h0 (by linarith), sq_le_imp h0 (by linarith)⟩

end Ordered
end Vec3
end ENigMA
