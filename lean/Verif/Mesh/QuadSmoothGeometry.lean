import Verif.Mesh.QuadSmoothSpec
import Verif.Mesh.SmoothProps

/-!
# Winding numbers of convex quadrilaterals
-/

set_option linter.unusedSectionVars false
set_option autoImplicit false

namespace ENigMA
namespace QuadSmooth
open TriMesher (wind UpCross wind_swap)
variable {K : Type} [Field K] [LinearOrder K] [IsStrictOrderedRing K]

theorem sides3 (a b c : Vec3 K) : outlineSides [a, b, c] = [(a, b), (b, c), (c, a)] := rfl

theorem sides4 (a b c d : Vec3 K) : outlineSides [a, b, c, d] = [(a, b), (b, c), (c, d), (d, a)] := rfl

theorem inside3 (a b c p : Vec3 K) : InsideOutline [a, b, c] p ↔ Tri.Inside ⟨a, b, c⟩ p := by
  simp [InsideOutline, sides3, Tri.Inside]

theorem inside4 (a b c d p : Vec3 K) :
    InsideOutline [a, b, c, d] p ↔ 0 < orient a b p ∧ 0 < orient b c p ∧ 0 < orient c d p ∧ 0 < orient d a p := by
  simp [InsideOutline, sides4]

/-- The point of a diagonal is on a side or inside. -/
theorem covers_diagonal {a b c d p : Vec3 K} (h : ConvexQuad a b c d) (nab : ¬ Covers (a, b) p) (nbc : ¬ Covers (b, c) p) (hp : Covers (a, c) p) :
    InsideOutline [a, b, c, d] p := by
  obtain ⟨h1, h2, h3, h4⟩ := h
  obtain ⟨t, t0, t1, hx, hy⟩ := hp
  simp only at hx hy
  have t0' : 0 < t := by
    rcases t0.lt_or_eq with h | h
    · exact h
    · exact absurd ⟨0, le_rfl, zero_le_one, by simp [hx, ← h], by simp [hy, ← h]⟩ nab
  have t1' : 0 < 1 - t := by
    rcases t1.lt_or_eq with h | h
    · linarith
    · exact absurd ⟨1, zero_le_one, le_rfl, by simp only [hx, h]; ring, by simp only [hy, h]; ring⟩ nbc
  rw [inside4]
  have e1 : orient a b p = t * orient a b c := by simp only [orient, hx, hy]; ring
  have e2 : orient b c p = (1 - t) * orient a b c := by simp only [orient, hx, hy]; ring
  have e3 : orient c d p = (1 - t) * orient c d a := by simp only [orient, hx, hy]; ring
  have e4 : orient d a p = t * orient c d a := by simp only [orient, hx, hy]; ring
  rw [e1, e2, e3, e4]
  exact ⟨mul_pos t0' h1, mul_pos t1' h1, mul_pos t1' h3, mul_pos t0' h3⟩

/-- The winding number of a convex quadrilateral around a point inside. -/
theorem quad_wind_inside {a b c d p : Vec3 K} (h : ConvexQuad a b c d) (hp : InsideOutline [a, b, c, d] p) :
    wind p a b + wind p b c + wind p c d + wind p d a = 1 := by
  obtain ⟨h1, h2, h3, h4⟩ := h
  rw [inside4] at hp
  obtain ⟨p1, p2, p3, p4⟩ := hp
  have n1 : ¬ UpCross p b a := fun h => by have := h.2.2; rw [TriMesher.orient_swap] at this; linarith
  have n2 : ¬ UpCross p c b := fun h => by have := h.2.2; rw [TriMesher.orient_swap] at this; linarith
  have n3 : ¬ UpCross p d c := fun h => by have := h.2.2; rw [TriMesher.orient_swap] at this; linarith
  have n4 : ¬ UpCross p a d := fun h => by have := h.2.2; rw [TriMesher.orient_swap] at this; linarith
  have e1 : UpCross p a b ↔ a.y ≤ p.y ∧ p.y < b.y := ⟨fun h => ⟨h.1, h.2.1⟩, fun h => ⟨h.1, h.2, p1⟩⟩
  have e2 : UpCross p b c ↔ b.y ≤ p.y ∧ p.y < c.y := ⟨fun h => ⟨h.1, h.2.1⟩, fun h => ⟨h.1, h.2, p2⟩⟩
  have e3 : UpCross p c d ↔ c.y ≤ p.y ∧ p.y < d.y := ⟨fun h => ⟨h.1, h.2.1⟩, fun h => ⟨h.1, h.2, p3⟩⟩
  have e4 : UpCross p d a ↔ d.y ≤ p.y ∧ p.y < a.y := ⟨fun h => ⟨h.1, h.2.1⟩, fun h => ⟨h.1, h.2, p4⟩⟩
  unfold wind
  rw [if_neg n1, if_neg n2, if_neg n3, if_neg n4]
  simp only [e1, e2, e3, e4]
  -- the affine relations between the corners and the point
  have q1 : orient b c p * (a.y - p.y) + orient c a p * (b.y - p.y) + orient a b p * (c.y - p.y) = 0 := by simp only [orient]; ring
  have q2 : orient c d p * (a.y - p.y) + orient d a p * (c.y - p.y) + orient a c p * (d.y - p.y) = 0 := by simp only [orient]; ring
  have q3 : orient b c d * (a.y - p.y) + orient d a b * (c.y - p.y) = orient c d a * (b.y - p.y) + orient a b c * (d.y - p.y) := by
    simp only [orient]; ring
  have q4 : orient c a p = - orient a c p := by simp only [orient]; ring
  have q5 : orient a b p + orient b c p + orient c a p = orient a b c := by simp only [orient]; ring
  have q6 : orient c d p + orient d a p + orient a c p = orient c d a := by simp only [orient]; ring
  have z1 : a.y ≤ p.y → b.y ≤ p.y → c.y ≤ p.y → d.y ≤ p.y → False := by
    intro ha hb hc hd
    have hac : a.y = p.y ∧ c.y = p.y := by
      rcases le_total 0 (orient c a p) with hs | hs
      · have k1 := mul_nonneg p2.le (sub_nonneg.2 ha)
        have k2 := mul_nonneg hs (sub_nonneg.2 hb)
        have k3 := mul_nonneg p1.le (sub_nonneg.2 hc)
        have k4 : orient b c p * (p.y - a.y) = 0 := by linarith
        have k5 : orient a b p * (p.y - c.y) = 0 := by linarith
        rcases mul_eq_zero.1 k4 with k | k
        · exact absurd k p2.ne'
        · rcases mul_eq_zero.1 k5 with k' | k'
          · exact absurd k' p1.ne'
          · exact ⟨by linarith, by linarith⟩
      · have hs' : 0 ≤ orient a c p := by linarith
        have k1 := mul_nonneg p3.le (sub_nonneg.2 ha)
        have k2 := mul_nonneg p4.le (sub_nonneg.2 hc)
        have k3 := mul_nonneg hs' (sub_nonneg.2 hd)
        have k4 : orient c d p * (p.y - a.y) = 0 := by linarith
        have k5 : orient d a p * (p.y - c.y) = 0 := by linarith
        rcases mul_eq_zero.1 k4 with k | k
        · exact absurd k p3.ne'
        · rcases mul_eq_zero.1 k5 with k' | k'
          · exact absurd k' p4.ne'
          · exact ⟨by linarith, by linarith⟩
    obtain ⟨ha', hc'⟩ := hac
    rw [ha', hc', sub_self, mul_zero, mul_zero, add_zero] at q3
    have k1 := mul_nonneg h3.le (sub_nonneg.2 hb)
    have k2 := mul_nonneg h1.le (sub_nonneg.2 hd)
    have k3 : orient c d a * (p.y - b.y) = 0 := by linarith
    rcases mul_eq_zero.1 k3 with k | k
    · exact absurd k h3.ne'
    · have hb' : b.y = p.y := by linarith
      simp only [orient, ha', hc', hb'] at h1
      simp at h1
  have z2 : p.y < a.y → p.y < b.y → p.y < c.y → p.y < d.y → False := by
    intro ha hb hc hd
    rcases le_total 0 (orient c a p) with hs | hs
    · have k1 := mul_pos p2 (sub_pos.2 ha)
      have k2 := mul_nonneg hs (sub_pos.2 hb).le
      have k3 := mul_pos p1 (sub_pos.2 hc)
      linarith
    · have hs' : 0 ≤ orient a c p := by linarith
      have k1 := mul_pos p3 (sub_pos.2 ha)
      have k2 := mul_pos p4 (sub_pos.2 hc)
      have k3 := mul_nonneg hs' (sub_pos.2 hd).le
      linarith
  have z3 : a.y ≤ p.y → p.y < b.y → c.y ≤ p.y → p.y < d.y → False := by
    intro ha hb hc hd
    have k1 := mul_nonneg h2.le (sub_nonneg.2 ha)
    have k2 := mul_nonneg h4.le (sub_nonneg.2 hc)
    have k3 := mul_pos h3 (sub_pos.2 hb)
    have k4 := mul_pos h1 (sub_pos.2 hd)
    linarith
  have z4 : p.y < a.y → b.y ≤ p.y → p.y < c.y → d.y ≤ p.y → False := by
    intro ha hb hc hd
    have k1 := mul_pos h2 (sub_pos.2 ha)
    have k2 := mul_pos h4 (sub_pos.2 hc)
    have k3 := mul_nonneg h3.le (sub_nonneg.2 hb)
    have k4 := mul_nonneg h1.le (sub_nonneg.2 hd)
    linarith
  rcases le_or_gt a.y p.y with ha | ha <;> rcases le_or_gt b.y p.y with hb | hb <;> rcases le_or_gt c.y p.y with hc | hc <;>
    rcases le_or_gt d.y p.y with hd | hd <;>
    first
    | exact (z1 ha hb hc hd).elim
    | exact (z2 ha hb hc hd).elim
    | exact (z3 ha hb hc hd).elim
    | exact (z4 ha hb hc hd).elim
    | simp [ha, hb, hc, hd, not_le.2, not_lt.2]

/-- The winding number of a convex quadrilateral. -/
theorem quad_wind {a b c d p : Vec3 K} (h : ConvexQuad a b c d) (nab : ¬ Covers (a, b) p) (nbc : ¬ Covers (b, c) p) (ncd : ¬ Covers (c, d) p) (nda : ¬ Covers (d, a) p) :
    wind p a b + wind p b c + wind p c d + wind p d a = if InsideOutline [a, b, c, d] p then 1 else 0 := by
  by_cases hin : InsideOutline [a, b, c, d] p
  · rw [if_pos hin]; exact quad_wind_inside h hin
  · rw [if_neg hin]
    have nac : ¬ Covers (a, c) p := fun hc => hin (covers_diagonal h nab nbc hc)
    have nca : ¬ Covers (c, a) p := by
      rintro ⟨t, t0, t1, hx, hy⟩
      exact nac ⟨1 - t, by linarith, by linarith, by simp only at hx hy ⊢; rw [hx]; ring, by simp only at hx hy ⊢; rw [hy]; ring⟩
    obtain ⟨h1, h2, h3, h4⟩ := h
    have t1 := TriMesher.tri_wind h1 nab nbc nca
    have h3' : 0 < orient a c d := by have : orient a c d = orient c d a := by simp only [orient]; ring
                                      rw [this]; exact h3
    have t2 := TriMesher.tri_wind h3' nac ncd nda
    have hsw := wind_swap p a c
    rw [inside4] at hin
    have i1 : ¬ Tri.Inside ⟨a, b, c⟩ p := by
      rintro ⟨x1, x2, x3⟩
      simp only at x1 x2 x3
      apply hin
      -- a combination of the corners with positive weights
      have e3 : orient c d p * orient a b c = orient b c p * orient c d a + orient c a p * orient b c d := by simp only [orient]; ring
      have e4 : orient d a p * orient a b c = orient a b p * orient c d a + orient c a p * orient d a b := by simp only [orient]; ring
      refine ⟨x1, x2, ?_, ?_⟩
      · exact pos_of_mul_pos_left (by rw [e3]; exact add_pos (mul_pos x2 h3) (mul_pos x3 h2)) h1.le
      · exact pos_of_mul_pos_left (by rw [e4]; exact add_pos (mul_pos x1 h3) (mul_pos x3 h4)) h1.le
    have i2 : ¬ Tri.Inside ⟨a, c, d⟩ p := by
      rintro ⟨x1, x2, x3⟩
      simp only at x1 x2 x3
      apply hin
      have e1 : orient a b p * orient c d a = orient d a p * orient a b c + orient a c p * orient d a b := by simp only [orient]; ring
      have e2 : orient b c p * orient c d a = orient c d p * orient a b c + orient a c p * orient b c d := by simp only [orient]; ring
      refine ⟨?_, ?_, x2, x3⟩
      · exact pos_of_mul_pos_left (by rw [e1]; exact add_pos (mul_pos x3 h1) (mul_pos x1 h4)) h3.le
      · exact pos_of_mul_pos_left (by rw [e2]; exact add_pos (mul_pos x2 h1) (mul_pos x1 h2)) h3.le
    rw [if_neg i1] at t1
    rw [if_neg i2] at t2
    omega

/-- The sum of a function over the sides of an outline. -/
def around {A : Type} [AddCommGroup A] (f : Vec3 K → Vec3 K → A) (o : List (Vec3 K)) : A := ((outlineSides o).map fun s => f s.1 s.2).sum

theorem around3 {A : Type} [AddCommGroup A] (f : Vec3 K → Vec3 K → A) (a b c : Vec3 K) : around f [a, b, c] = f a b + f b c + f c a := by
  simp [around, sides3, add_assoc]

theorem around4 {A : Type} [AddCommGroup A] (f : Vec3 K → Vec3 K → A) (a b c d : Vec3 K) : around f [a, b, c, d] = f a b + f b c + f c d + f d a := by
  simp [around, sides4, add_assoc]

theorem outline_cases {o : List (Vec3 K)} (h : ConvexOutline o) :
    (∃ a b c, o = [a, b, c] ∧ 0 < orient a b c) ∨ ∃ a b c d, o = [a, b, c, d] ∧ ConvexQuad a b c d := by
  match o, h with
  | [a, b, c], h => exact Or.inl ⟨a, b, c, rfl, h⟩
  | [a, b, c, d], h => exact Or.inr ⟨a, b, c, d, rfl, h⟩

theorem outline_wind {o : List (Vec3 K)} (h : ConvexOutline o) {p : Vec3 K} (hp : ∀ s ∈ outlineSides o, ¬ Covers s p) :
    around (wind p) o = if InsideOutline o p then 1 else 0 := by
  rcases outline_cases h with ⟨a, b, c, rfl, h⟩ | ⟨a, b, c, d, rfl, h⟩
  · rw [around3, TriMesher.tri_wind h (hp _ (by simp [sides3])) (hp _ (by simp [sides3])) (hp _ (by simp [sides3]))]
    simp only [inside3]
  · rw [around4, quad_wind h (hp _ (by simp [sides4])) (hp _ (by simp [sides4])) (hp _ (by simp [sides4])) (hp _ (by simp [sides4]))]

/-- How many elements a point is inside of, from winding numbers. -/
theorem count_inside {l : List (List (Vec3 K))} (hup : ∀ o ∈ l, ConvexOutline o) (p : Vec3 K) (hp : ∀ s ∈ l.flatMap outlineSides, ¬ Covers s p) :
    ((l.countP fun o => decide (InsideOutline o p) : Nat) : ℤ) = (l.map (around (wind p))).sum := by
  rw [Smooth.countP_sum]
  congr 1
  apply List.map_congr_left
  intro o ho
  rw [outline_wind (hup o ho) (fun s hs => hp s (List.mem_flatMap.2 ⟨o, ho, hs⟩))]
  simp only [decide_eq_true_eq]

theorem quad_ne {a b c d : Vec3 K} (h : ConvexQuad a b c d) : a ≠ b ∧ b ≠ c ∧ c ≠ d ∧ d ≠ a ∧ a ≠ c ∧ b ≠ d := by
  obtain ⟨h1, h2, h3, h4⟩ := h
  obtain ⟨x1, x2, x3⟩ := Smooth.corners_ne h1
  obtain ⟨y1, y2, y3⟩ := Smooth.corners_ne h2
  obtain ⟨z1, z2, z3⟩ := Smooth.corners_ne h3
  exact ⟨x1, x2, y2, z2, x3.symm, y3.symm⟩

/-- Each side of a convex outline is a side of a triangle within it. -/
theorem side_triangle {o : List (Vec3 K)} (h : ConvexOutline o) {s : Vec3 K × Vec3 K} (hs : s ∈ outlineSides o) :
    ∃ t : Tri K, 0 < orient t.v0 t.v1 t.v2 ∧ s ∈ t.sides ∧ ∀ p, t.Inside p → InsideOutline o p := by
  rcases outline_cases h with ⟨a, b, c, rfl, h⟩ | ⟨a, b, c, d, rfl, h⟩
  · exact ⟨⟨a, b, c⟩, h, hs, fun p hp => (inside3 a b c p).2 hp⟩
  · have key : ∀ a b c d : Vec3 K, ConvexQuad a b c d → ∀ p, Tri.Inside ⟨a, b, c⟩ p → 0 < orient a b p ∧ 0 < orient b c p ∧ 0 < orient c d p ∧ 0 < orient d a p := by
      rintro a b c d ⟨h1, h2, h3, h4⟩ p ⟨x1, x2, x3⟩
      simp only at x1 x2 x3
      have e3 : orient c d p * orient a b c = orient b c p * orient c d a + orient c a p * orient b c d := by simp only [orient]; ring
      have e4 : orient d a p * orient a b c = orient a b p * orient c d a + orient c a p * orient d a b := by simp only [orient]; ring
      refine ⟨x1, x2, ?_, ?_⟩
      · exact pos_of_mul_pos_left (by rw [e3]; exact add_pos (mul_pos x2 h3) (mul_pos x3 h2)) h1.le
      · exact pos_of_mul_pos_left (by rw [e4]; exact add_pos (mul_pos x1 h3) (mul_pos x3 h4)) h1.le
    have h' := h
    obtain ⟨h1, h2, h3, h4⟩ := h'
    simp only [sides4, List.mem_cons, List.not_mem_nil, or_false] at hs
    rcases hs with rfl | rfl | rfl | rfl
    · exact ⟨⟨a, b, c⟩, h1, by simp [Tri.sides], fun p hp => (inside4 a b c d p).2 (key a b c d h p hp)⟩
    · exact ⟨⟨a, b, c⟩, h1, by simp [Tri.sides], fun p hp => (inside4 a b c d p).2 (key a b c d h p hp)⟩
    · refine ⟨⟨c, d, a⟩, h3, by simp [Tri.sides], fun p hp => (inside4 a b c d p).2 ?_⟩
      obtain ⟨y1, y2, y3, y4⟩ := key c d a b ⟨h3, h4, h1, h2⟩ p hp
      exact ⟨y3, y4, y1, y2⟩
    · refine ⟨⟨c, d, a⟩, h3, by simp [Tri.sides], fun p hp => (inside4 a b c d p).2 ?_⟩
      obtain ⟨y1, y2, y3, y4⟩ := key c d a b ⟨h3, h4, h1, h2⟩ p hp
      exact ⟨y3, y4, y1, y2⟩

/-- Two convex outlines with a directed side in common overlap. -/
theorem outline_overlap {o o' : List (Vec3 K)} (h : ConvexOutline o) (h' : ConvexOutline o') {s : Vec3 K × Vec3 K} (hs : s ∈ outlineSides o) (hs' : s ∈ outlineSides o') :
    ∃ p, InsideOutline o p ∧ InsideOutline o' p := by
  obtain ⟨t, t1, t2, t3⟩ := side_triangle h hs
  obtain ⟨u, u1, u2, u3⟩ := side_triangle h' hs'
  obtain ⟨p, p1, p2⟩ := General.overlap t1 u1 t2 u2
  exact ⟨p, t3 p p1, u3 p p2⟩

theorem side_length {o : List (Vec3 K)} (h : ConvexOutline o) : ∀ s ∈ outlineSides o, s.1.x ≠ s.2.x ∨ s.1.y ≠ s.2.y := by
  intro s hs
  obtain ⟨t, t1, t2, -⟩ := side_triangle h hs
  exact General.sides_length t1 s t2

theorem outline_nodup {o : List (Vec3 K)} (h : ConvexOutline o) : (outlineSides o).Nodup := by
  rcases outline_cases h with ⟨a, b, c, rfl, h⟩ | ⟨a, b, c, d, rfl, h⟩
  · obtain ⟨h1, h2, h3⟩ := Smooth.corners_ne h
    simp [sides3, h1, h2, h3.symm]
  · obtain ⟨h1, h2, h3, h4, h5, h6⟩ := quad_ne h
    simp [sides4, h1, h2, h3, h4.symm, h5, h6]

/-- Equal sums around the elements give equal numbers of elements around a point in general position, hence no overlap. -/
theorem apart_of {l l' : List (List (Vec3 K))} (hup : ∀ o ∈ l, ConvexOutline o) (hup' : ∀ o ∈ l', ConvexOutline o)
    (hsum : ∀ f : Vec3 K → Vec3 K → ℤ, (∀ a b, f b a = - f a b) → (l'.map (around f)).sum = (l.map (around f)).sum)
    (hl : ∀ p, (l.countP fun o => decide (InsideOutline o p)) ≤ 1) : ∀ p, (l'.countP fun o => decide (InsideOutline o p)) ≤ 1 := by
  intro p
  obtain ⟨p', h1, h2⟩ := General.general ((l'.filter fun o => decide (InsideOutline o p)).flatMap outlineSides) (l.flatMap outlineSides ++ l'.flatMap outlineSides) p
    (by
      intro c hc
      obtain ⟨t, ht, hc⟩ := List.mem_flatMap.1 hc
      have hin : InsideOutline t p := by simpa using (List.mem_filter.1 ht).2
      exact hin c hc)
    (by
      intro s hs
      rcases List.mem_append.1 hs with hs | hs
      · obtain ⟨t, ht, hs⟩ := List.mem_flatMap.1 hs
        exact side_length (hup t ht) s hs
      · obtain ⟨t, ht, hs⟩ := List.mem_flatMap.1 hs
        exact side_length (hup' t ht) s hs)
  have hle : (l'.countP fun o => decide (InsideOutline o p)) ≤ l'.countP fun o => decide (InsideOutline o p') := by
    apply List.countP_mono_left
    intro t ht hin
    simp only [decide_eq_true_eq]
    exact fun c hc => h1 c (List.mem_flatMap.2 ⟨t, List.mem_filter.2 ⟨ht, hin⟩, hc⟩)
  have e1 := count_inside hup p' (fun s hs => h2 s (List.mem_append_left _ hs))
  have e2 := count_inside hup' p' (fun s hs => h2 s (List.mem_append_right _ hs))
  have e3 := hsum (wind p') (fun a b => wind_swap p' a b)
  have := hl p'
  omega

theorem in_iff {l l' : List (List (Vec3 K))} (hup : ∀ o ∈ l, ConvexOutline o) (hup' : ∀ o ∈ l', ConvexOutline o)
    (hsum : ∀ f : Vec3 K → Vec3 K → ℤ, (∀ a b, f b a = - f a b) → (l'.map (around f)).sum = (l.map (around f)).sum) {p : Vec3 K}
    (h1 : ∀ s ∈ l.flatMap outlineSides, ¬ Covers s p) (h2 : ∀ s ∈ l'.flatMap outlineSides, ¬ Covers s p) :
    (∃ o ∈ l', InsideOutline o p) ↔ ∃ o ∈ l, InsideOutline o p := by
  have e1 := count_inside hup p h1
  have e2 := count_inside hup' p h2
  have e3 := hsum (wind p) (fun a b => wind_swap p a b)
  have e : (l'.countP fun o => decide (InsideOutline o p)) = l.countP fun o => decide (InsideOutline o p) := by omega
  have hpos : ∀ l : List (List (Vec3 K)), (∃ o ∈ l, InsideOutline o p) ↔ 0 < l.countP fun o => decide (InsideOutline o p) := fun l => by
    rw [List.countP_pos_iff]; simp
  rw [hpos, hpos, e]

theorem passing_sum (p q : Vec3 K) (l : List (List (Vec3 K))) :
    ((l.flatMap outlineSides).countP (fun s => decide (s = (p, q))) : ℤ) - ((l.flatMap outlineSides).countP fun s => decide (s = (q, p))) = (l.map (around (Smooth.passing p q))).sum := by
  have key : ∀ S : List (Vec3 K × Vec3 K), (S.countP (fun s => decide (s = (p, q))) : ℤ) - (S.countP fun s => decide (s = (q, p))) = (S.map fun s => Smooth.passing p q s.1 s.2).sum := by
    intro S
    rw [Smooth.countP_sum, Smooth.countP_sum]
    induction S with
    | nil => simp
    | cons s S ih =>
      rw [List.map_cons, List.sum_cons, List.map_cons, List.sum_cons, List.map_cons, List.sum_cons, ← ih]
      obtain ⟨a, b⟩ := s
      simp only [Smooth.passing, decide_eq_true_eq, Prod.mk.injEq]
      ring
  rw [key]
  induction l with
  | nil => simp
  | cons o l ih => rw [List.flatMap_cons, List.map_append, List.sum_append, List.map_cons, List.sum_cons, ih]; rfl

/-- A directed side without its reverse. -/
theorem open_iff {l l' : List (List (Vec3 K))} (hn : (l.flatMap outlineSides).Nodup) (hn' : (l'.flatMap outlineSides).Nodup)
    (hsum : ∀ f : Vec3 K → Vec3 K → ℤ, (∀ a b, f b a = - f a b) → (l'.map (around f)).sum = (l.map (around f)).sum) (p q : Vec3 K) :
    ((p, q) ∈ l'.flatMap outlineSides ∧ (q, p) ∉ l'.flatMap outlineSides) ↔ ((p, q) ∈ l.flatMap outlineSides ∧ (q, p) ∉ l.flatMap outlineSides) := by
  have key : ∀ {S : List (Vec3 K × Vec3 K)}, S.Nodup → ∀ s, (S.countP fun x => decide (x = s)) = if s ∈ S then 1 else 0 := by
    intro S hS s
    have : (S.countP fun x => decide (x = s)) = S.count s := by
      rw [List.count]
      apply List.countP_congr
      intro x _
      simp
    rw [this]
    split_ifs with h
    · exact List.count_eq_one_of_mem hS h
    · exact List.count_eq_zero_of_not_mem h
  have e1 := passing_sum p q l
  have e2 := passing_sum p q l'
  have e3 := hsum (Smooth.passing p q) (fun a b => Smooth.passing_swap p q a b)
  rw [key hn, key hn] at e1
  rw [key hn', key hn'] at e2
  by_cases a1 : (p, q) ∈ l.flatMap outlineSides <;> by_cases a2 : (q, p) ∈ l.flatMap outlineSides <;>
    by_cases a3 : (p, q) ∈ l'.flatMap outlineSides <;> by_cases a4 : (q, p) ∈ l'.flatMap outlineSides <;>
    simp only [a1, a2, a3, a4, if_true, if_false, not_true_eq_false, not_false_eq_true, and_true, and_false, true_and] at e1 e2 ⊢ <;> omega

/-- No point inside two elements: a directed side belongs to one. -/
theorem sides_nodup {l : List (List (Vec3 K))} (hup : ∀ o ∈ l, ConvexOutline o) (hl : ∀ p, (l.countP fun o => decide (InsideOutline o p)) ≤ 1) :
    (l.flatMap outlineSides).Nodup := by
  rw [List.nodup_flatMap]
  refine ⟨fun o ho => outline_nodup (hup o ho), ?_⟩
  induction l with
  | nil => exact List.Pairwise.nil
  | cons o l ih =>
    rw [List.pairwise_cons]
    refine ⟨?_, ih (fun o ho => hup o (List.mem_cons_of_mem _ ho)) (fun p => le_trans (by rw [List.countP_cons]; omega) (hl p))⟩
    intro o' ho'
    rw [Function.onFun, List.disjoint_left]
    intro s hs hs'
    obtain ⟨p, h1, h2⟩ := outline_overlap (hup o (by simp)) (hup o' (List.mem_cons_of_mem _ ho')) hs hs'
    have h3 := hl p
    have h4 : 0 < l.countP fun o => decide (InsideOutline o p) := List.countP_pos_iff.2 ⟨o', ho', by simpa using h2⟩
    rw [List.countP_cons] at h3
    simp only [h1, decide_true, if_true] at h3
    omega

end QuadSmooth
end ENigMA
