import Verif.Mesh.TriangleMesherProps

/-!
# Winding numbers

The signed count of the sides that a ray crosses. For a triangle traversed counter-clockwise it is 1 inside and 0 outside.
-/

set_option linter.unusedSectionVars false
set_option autoImplicit false

namespace ENigMA
namespace TriMesher
variable {K : Type} [Field K] [LinearOrder K] [IsStrictOrderedRing K]

/-- The side crosses the ray from `p` upwards. -/
def UpCross (p a b : Vec3 K) : Prop := a.y ≤ p.y ∧ p.y < b.y ∧ 0 < orient a b p

instance (p a b : Vec3 K) : Decidable (UpCross p a b) := by unfold UpCross; infer_instance

/-- One for a side that crosses the ray from `p` upwards, minus one downwards. -/
def wind (p a b : Vec3 K) : ℤ := (if UpCross p a b then 1 else 0) - (if UpCross p b a then 1 else 0)

theorem wind_swap (p a b : Vec3 K) : wind p b a = - wind p a b := by unfold wind; ring

theorem wind_cast (p a b : Vec3 K) : ((wind p a b : ℤ) : ZMod 2) = ind (CrossesRay p (a, b)) := by
  have hc : CrossesRay p (a, b) ↔ UpCross p a b ∨ UpCross p b a := Iff.rfl
  rw [ind_congr hc]
  unfold wind ind
  by_cases h1 : UpCross p a b <;> by_cases h2 : UpCross p b a
  · exact absurd h2.1 (not_le.2 h1.2.1)
  · simp [h1, h2]
  · simp only [h1, h2, if_true, if_false, false_or]; rfl
  · simp [h1, h2]

/-- The winding number of a triangle traversed counter-clockwise. -/
theorem tri_wind {a b c p : Vec3 K} (hd : 0 < orient a b c) (nab : ¬ Covers (a, b) p) (nbc : ¬ Covers (b, c) p) (nca : ¬ Covers (c, a) p) :
    wind p a b + wind p b c + wind p c a = if Tri.Inside ⟨a, b, c⟩ p then 1 else 0 := by
  have hp := tri_parity hd nab nbc nca
  rw [← wind_cast, ← wind_cast, ← wind_cast, ← Int.cast_add, ← Int.cast_add] at hp
  have hodd : ∀ z : ℤ, ((z : ℤ) : ZMod 2) = 0 → z % 2 = 0 := fun z hz => by
    have := (ZMod.intCast_zmod_eq_zero_iff_dvd z 2).1 hz
    omega
  by_cases hin : Tri.Inside ⟨a, b, c⟩ p
  · rw [if_pos hin]
    rw [ind_pos hin] at hp
    have hz : (wind p a b + wind p b c + wind p c a - 1) % 2 = 0 := hodd _ (by push_cast at hp ⊢; rw [hp]; simp)
    obtain ⟨h1, h2, h3⟩ := hin
    simp only at h1 h2 h3
    have n1 : ¬ UpCross p b a := fun h => by have := h.2.2; rw [orient_swap] at this; linarith
    have n2 : ¬ UpCross p c b := fun h => by have := h.2.2; rw [orient_swap] at this; linarith
    have n3 : ¬ UpCross p a c := fun h => by have := h.2.2; rw [orient_swap] at this; linarith
    unfold wind at hz ⊢
    simp only [n1, n2, n3, if_false] at hz ⊢
    by_cases u1 : UpCross p a b <;> by_cases u2 : UpCross p b c <;> by_cases u3 : UpCross p c a <;> simp only [u1, u2, u3, if_true, if_false] at hz ⊢ <;>
      first
      | rfl
      | omega
      | exact absurd u2.1 (not_le.2 u1.2.1)
      | exact absurd u1.1 (not_le.2 u3.2.1)
      | exact absurd u3.1 (not_le.2 u2.2.1)
  · rw [if_neg hin]
    rw [ind_neg hin] at hp
    have hz := hodd _ hp
    unfold wind at hz ⊢
    rcases le_or_gt a.y p.y with ha | ha <;> rcases le_or_gt b.y p.y with hb | hb <;> rcases le_or_gt c.y p.y with hc | hc <;>
      unfold UpCross at hz ⊢ <;>
      simp only [ha, hb, hc, not_le.2, not_lt.2, true_and, false_and, if_false] at hz ⊢ <;>
      first
      | rfl
      | (split_ifs at hz ⊢ <;> omega)

end TriMesher
end ENigMA
