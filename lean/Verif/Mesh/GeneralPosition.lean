import Verif.Mesh.TriangleMesherSpec
import Mathlib.Algebra.Order.Field.Basic
import Mathlib.Order.Interval.Set.Infinite
import Mathlib.Data.Finset.Image
import Mathlib.Tactic.Linarith
import Mathlib.Tactic.FieldSimp
import Mathlib.Tactic.Ring
import Mathlib.Tactic.LinearCombination

/-!
# Points in general position

A point can be moved a little so that it stays to the left of finitely many lines and lies on none of finitely many segments.
-/

set_option linter.unusedSectionVars false
set_option autoImplicit false

namespace ENigMA
namespace General
variable {K : Type} [Field K] [LinearOrder K] [IsStrictOrderedRing K]

theorem avoid (S : Finset K) {a b : K} (h : a < b) : ∃ s, a < s ∧ s < b ∧ s ∉ S := by
  obtain ⟨s, h1, h2⟩ := (Set.Ioo_infinite h).exists_notMem_finset S
  exact ⟨s, h1.1, h1.2, h2⟩

/-- The point moved in the direction `(1, k)`. -/
def shift (k s : K) (p : Vec3 K) : Vec3 K := ⟨p.x + s, p.y + s * k, p.z⟩

theorem orient_shift (a b p : Vec3 K) (k s : K) : orient a b (shift k s p) = orient a b p + s * ((b.x - a.x) * k - (b.y - a.y)) := by
  simp only [orient, shift]; ring

theorem small (C : List (Vec3 K × Vec3 K)) (p : Vec3 K) (k : K) (hC : ∀ c ∈ C, 0 < orient c.1 c.2 p) :
    ∃ δ, 0 < δ ∧ ∀ s, 0 < s → s < δ → ∀ c ∈ C, 0 < orient c.1 c.2 (shift k s p) := by
  induction C with
  | nil => exact ⟨1, one_pos, by simp⟩
  | cons c t ih =>
    obtain ⟨δ, h1, h2⟩ := ih (fun c hc => hC c (List.mem_cons_of_mem _ hc))
    have h0 := hC c (by simp)
    set w := (c.2.x - c.1.x) * k - (c.2.y - c.1.y) with hw
    have hden : 0 < |w| + 1 := by positivity
    refine ⟨min δ (orient c.1 c.2 p / (|w| + 1)), lt_min h1 (div_pos h0 hden), ?_⟩
    intro s hs hs2 d hd
    rcases List.mem_cons.1 hd with rfl | hd
    · rw [orient_shift, ← hw]
      have h3 : s * (|w| + 1) < orient d.1 d.2 p := (lt_div_iff₀ hden).1 (lt_of_lt_of_le hs2 (min_le_right _ _))
      have h4 : -(s * |w|) ≤ s * w := by
        have := mul_le_mul_of_nonneg_left (neg_abs_le w) hs.le
        linarith
      nlinarith
    · exact h2 s hs (lt_of_lt_of_le hs2 (min_le_left _ _)) d hd

theorem covers_orient {s : Vec3 K × Vec3 K} {p : Vec3 K} (h : Covers s p) : orient s.1 s.2 p = 0 := by
  obtain ⟨t, -, -, hx, hy⟩ := h
  simp only [orient, hx, hy]; ring

/-- **General position.** -/
theorem general (C L : List (Vec3 K × Vec3 K)) (p : Vec3 K) (hC : ∀ c ∈ C, 0 < orient c.1 c.2 p) (hL : ∀ s ∈ L, s.1.x ≠ s.2.x ∨ s.1.y ≠ s.2.y) :
    ∃ p', (∀ c ∈ C, 0 < orient c.1 c.2 p') ∧ ∀ s ∈ L, ¬ Covers s p' := by
  obtain ⟨k, -, -, hk⟩ := avoid (L.map fun s => (s.2.y - s.1.y) / (s.2.x - s.1.x)).toFinset (zero_lt_one (α := K))
  have hk' : ∀ s ∈ L, (s.2.x - s.1.x) * k - (s.2.y - s.1.y) ≠ 0 := by
    intro s hs h
    by_cases hx : s.2.x - s.1.x = 0
    · rw [hx, zero_mul, zero_sub, neg_eq_zero] at h
      rcases hL s hs with h1 | h1
      · exact h1 (sub_eq_zero.1 hx).symm
      · exact h1 (sub_eq_zero.1 h).symm
    · apply hk
      rw [List.mem_toFinset]
      refine List.mem_map.2 ⟨s, hs, ?_⟩
      rw [div_eq_iff hx]
      linear_combination -h
  obtain ⟨δ, h1, h2⟩ := small C p k hC
  obtain ⟨s, hs1, hs2, hs3⟩ := avoid (L.map fun s => - orient s.1 s.2 p / ((s.2.x - s.1.x) * k - (s.2.y - s.1.y))).toFinset h1
  refine ⟨shift k s p, h2 s hs1 hs2, ?_⟩
  intro t ht hc
  have h3 := covers_orient hc
  rw [orient_shift] at h3
  apply hs3
  rw [List.mem_toFinset]
  refine List.mem_map.2 ⟨t, ht, ?_⟩
  rw [div_eq_iff (hk' t ht)]
  linear_combination -h3

/-- The sides of a triangle that faces up have length. -/
theorem sides_length {t : Tri K} (h : 0 < orient t.v0 t.v1 t.v2) : ∀ s ∈ t.sides, s.1.x ≠ s.2.x ∨ s.1.y ≠ s.2.y := by
  intro s hs
  simp only [Tri.sides, List.mem_cons, List.not_mem_nil, or_false] at hs
  by_contra hc
  push Not at hc
  obtain ⟨h1, h2⟩ := hc
  rcases hs with rfl | rfl | rfl
  · simp only at h1 h2; simp [orient, h1, h2] at h
  · simp only at h1 h2; simp only [orient, h1, h2] at h; nlinarith
  · simp only at h1 h2; simp [orient, h1, h2] at h

/-- Two triangles that face up and have a directed side in common overlap. -/
theorem overlap {t u : Tri K} (ht : 0 < orient t.v0 t.v1 t.v2) (hu : 0 < orient u.v0 u.v1 u.v2) {s : Vec3 K × Vec3 K}
    (hs : s ∈ t.sides) (hs' : s ∈ u.sides) : ∃ p, t.Inside p ∧ u.Inside p := by
  obtain ⟨a, b⟩ := s
  -- the triangle written from the side
  have key : ∀ t : Tri K, 0 < orient t.v0 t.v1 t.v2 → (a, b) ∈ t.sides → ∃ c, 0 < orient a b c ∧ (∀ p, 0 < orient a b p → 0 < orient b c p → 0 < orient c a p → t.Inside p) := by
    intro t ht hs
    simp only [Tri.sides, List.mem_cons, List.not_mem_nil, or_false, Prod.mk.injEq] at hs
    rcases hs with ⟨rfl, rfl⟩ | ⟨rfl, rfl⟩ | ⟨rfl, rfl⟩
    · exact ⟨t.v2, ht, fun p h1 h2 h3 => ⟨h1, h2, h3⟩⟩
    · refine ⟨t.v0, ?_, fun p h1 h2 h3 => ⟨h3, h1, h2⟩⟩
      have : orient t.v1 t.v2 t.v0 = orient t.v0 t.v1 t.v2 := by simp only [orient]; ring
      rw [this]; exact ht
    · refine ⟨t.v1, ?_, fun p h1 h2 h3 => ⟨h2, h3, h1⟩⟩
      have : orient t.v2 t.v0 t.v1 = orient t.v0 t.v1 t.v2 := by simp only [orient]; ring
      rw [this]; exact ht
  obtain ⟨c, hc, hc2⟩ := key t ht hs
  obtain ⟨d, hd, hd2⟩ := key u hu hs'
  -- a point above the middle of the side
  let q : K → Vec3 K := fun r => ⟨(a.x + b.x) / 2 - r * (b.y - a.y), (a.y + b.y) / 2 + r * (b.x - a.x), 0⟩
  have h0 : ∀ r, orient a b (q r) = r * ((b.x - a.x) ^ 2 + (b.y - a.y) ^ 2) := by
    intro r; simp only [orient, q]; ring
  have hlen : 0 < (b.x - a.x) ^ 2 + (b.y - a.y) ^ 2 := by
    rcases lt_or_eq_of_le (add_nonneg (sq_nonneg (b.x - a.x)) (sq_nonneg (b.y - a.y))) with h | h
    · exact h
    · have h1 : (b.x - a.x) ^ 2 = 0 := by nlinarith [sq_nonneg (b.x - a.x), sq_nonneg (b.y - a.y)]
      have h2 : (b.y - a.y) ^ 2 = 0 := by nlinarith [sq_nonneg (b.x - a.x), sq_nonneg (b.y - a.y)]
      rw [pow_eq_zero_iff two_ne_zero] at h1 h2
      rw [orient, h1, h2] at hc
      simp at hc
  have hlin : ∀ c, 0 < orient a b c → ∃ δ, 0 < δ ∧ ∀ r, 0 < r → r < δ → 0 < orient b c (q r) ∧ 0 < orient c a (q r) := by
    intro c hc
    have e1 : ∃ w, ∀ r, orient b c (q r) = orient a b c / 2 + r * w := ⟨(c.x - b.x) * (b.x - a.x) + (c.y - b.y) * (b.y - a.y), fun r => by simp only [orient, q]; ring⟩
    have e2 : ∃ w, ∀ r, orient c a (q r) = orient a b c / 2 + r * w := ⟨(a.x - c.x) * (b.x - a.x) + (a.y - c.y) * (b.y - a.y), fun r => by simp only [orient, q]; ring⟩
    obtain ⟨w1, e1⟩ := e1
    obtain ⟨w2, e2⟩ := e2
    have hp : ∀ w r : K, 0 < r → r < orient a b c / 2 / (|w1| + |w2| + 1) → |w| ≤ |w1| + |w2| → 0 < orient a b c / 2 + r * w := by
      intro w r hr hr2 hw
      have hden : 0 < |w1| + |w2| + 1 := by positivity
      have h3 := (lt_div_iff₀ hden).1 hr2
      have h4 : -(r * (|w1| + |w2|)) ≤ r * w := by
        have := mul_le_mul_of_nonneg_left ((neg_le_neg hw).trans (neg_abs_le w)) hr.le
        linarith
      nlinarith
    refine ⟨orient a b c / 2 / (|w1| + |w2| + 1), div_pos (by linarith) (by positivity), fun r hr hr2 => ⟨?_, ?_⟩⟩
    · rw [e1]; exact hp w1 r hr hr2 (le_add_of_nonneg_right (abs_nonneg _))
    · rw [e2]; exact hp w2 r hr hr2 (le_add_of_nonneg_left (abs_nonneg _))
  obtain ⟨δ, h1, h2⟩ := hlin c hc
  obtain ⟨δ', h1', h2'⟩ := hlin d hd
  obtain ⟨r, hr1, hr2⟩ := exists_between (lt_min h1 h1')
  have hab : 0 < orient a b (q r) := by rw [h0]; exact mul_pos hr1 hlen
  obtain ⟨x1, x2⟩ := h2 r hr1 (lt_of_lt_of_le hr2 (min_le_left _ _))
  obtain ⟨y1, y2⟩ := h2' r hr1 (lt_of_lt_of_le hr2 (min_le_right _ _))
  exact ⟨q r, hc2 _ hab x1 x2, hd2 _ hab y1 y2⟩

end General
end ENigMA
