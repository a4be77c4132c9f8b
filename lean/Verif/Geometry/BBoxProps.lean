import Verif.Geometry.BBox
import Mathlib.Data.Rat.Lemmas
import Mathlib.Algebra.Order.Ring.Rat

/-! # C17: bounding boxes -/

namespace ENigMA
variable {K : Type*} [Field K] [LinearOrder K] [IsStrictOrderedRing K]

namespace BBox

omit [IsStrictOrderedRing K] in
theorem foldl_min_le (ps : List (Vec3 K)) (b : BBox K) (lo hi : Vec3 K) :
    ((lo.x ≤ (ps.foldl addCoordinate b).min.x ↔ lo.x ≤ b.min.x ∧ ∀ p ∈ ps, lo.x ≤ p.x) ∧
     (lo.y ≤ (ps.foldl addCoordinate b).min.y ↔ lo.y ≤ b.min.y ∧ ∀ p ∈ ps, lo.y ≤ p.y) ∧
     (lo.z ≤ (ps.foldl addCoordinate b).min.z ↔ lo.z ≤ b.min.z ∧ ∀ p ∈ ps, lo.z ≤ p.z)) ∧
    (((ps.foldl addCoordinate b).max.x ≤ hi.x ↔ b.max.x ≤ hi.x ∧ ∀ p ∈ ps, p.x ≤ hi.x) ∧
     ((ps.foldl addCoordinate b).max.y ≤ hi.y ↔ b.max.y ≤ hi.y ∧ ∀ p ∈ ps, p.y ≤ hi.y) ∧
     ((ps.foldl addCoordinate b).max.z ≤ hi.z ↔ b.max.z ≤ hi.z ∧ ∀ p ∈ ps, p.z ≤ hi.z)) := by
  induction ps generalizing b with
  | nil => simp
  | cons q t ih =>
    have := ih (b.addCoordinate q)
    simp only [List.foldl_cons, List.forall_mem_cons]
    simp only [addCoordinate, le_min_iff, max_le_iff, and_assoc] at this ⊢
    exact this

omit [IsStrictOrderedRing K] in
theorem containsPt_iff (b : BBox K) (p : Vec3 K) (tol : K) :
    b.containsPt p tol = true ↔ InBox ⟨b.min.x - tol, b.min.y - tol, b.min.z - tol⟩
      ⟨b.max.x + tol, b.max.y + tol, b.max.z + tol⟩ p := by
  simp only [containsPt, InBox, Bool.and_eq_true, decide_eq_true_eq, ge_iff_le]
  tauto

omit [IsStrictOrderedRing K] in
theorem containsBox_iff (b c : BBox K) (tol : K) :
    b.containsBox c tol = true ↔
      (b.min.x - tol ≤ c.min.x ∧ c.max.x ≤ b.max.x + tol) ∧
      (b.min.y - tol ≤ c.min.y ∧ c.max.y ≤ b.max.y + tol) ∧
      (b.min.z - tol ≤ c.min.z ∧ c.max.z ≤ b.max.z + tol) := by
  simp only [containsBox, Bool.and_eq_true, decide_eq_true_eq, ge_iff_le]
  tauto

omit [IsStrictOrderedRing K] in
theorem intersects_iff (b c : BBox K) (tol : K) :
    b.intersects c tol = true ↔
      (b.min.x - tol ≤ c.max.x ∧ c.min.x ≤ b.max.x + tol) ∧
      (b.min.y - tol ≤ c.max.y ∧ c.min.y ≤ b.max.y + tol) ∧
      (b.min.z - tol ≤ c.max.z ∧ c.min.z ≤ b.max.z + tol) := by
  simp only [intersects, Bool.and_eq_true, decide_eq_true_eq, ge_iff_le]
  tauto

end BBox

open BBox

/-- **C17 (least box).** The box obtained by `reset()` and `addCoordinate` on any list of finite points contains each of
them, and a non-empty list's box is contained in every box that contains all the points. -/
theorem C17_least_box (big : K) (ps : List (Vec3 K)) (hb : ∀ p ∈ ps, p.Bounded big) :
    (∀ p ∈ ps, (ofPoints big ps).containsPt p 0 = true) ∧
    (ps ≠ [] → ∀ lo hi, (∀ p ∈ ps, InBox lo hi p) → ∀ q, (ofPoints big ps).containsPt q 0 = true → InBox lo hi q) := by
  have H := foldl_min_le ps (reset big)
  constructor
  · intro p hp
    rw [containsPt_iff]
    have h := H (ofPoints big ps).min (ofPoints big ps).max
    simp only [ofPoints, le_refl, true_iff] at h
    obtain ⟨⟨hx, hy, hz⟩, hx', hy', hz'⟩ := h
    simp only [InBox, sub_zero, add_zero]
    exact ⟨⟨hx.2 p hp, hx'.2 p hp⟩, ⟨hy.2 p hp, hy'.2 p hp⟩, ⟨hz.2 p hp, hz'.2 p hp⟩⟩
  · intro hne lo hi hin q hq
    rw [containsPt_iff] at hq
    simp only [InBox, sub_zero, add_zero] at hq
    obtain ⟨p0, hp0⟩ := List.exists_mem_of_ne_nil ps hne
    have hb0 := hb p0 hp0
    have hi0 := hin p0 hp0
    simp only [Vec3.Bounded, InBox] at hb0 hi0
    obtain ⟨⟨hx, hy, hz⟩, hx', hy', hz'⟩ := H lo hi
    simp only [reset] at hx hy hz hx' hy' hz'
    have ex := hx.2 ⟨by linarith, fun p hp => (hin p hp).1.1⟩
    have ey := hy.2 ⟨by linarith, fun p hp => (hin p hp).2.1.1⟩
    have ez := hz.2 ⟨by linarith, fun p hp => (hin p hp).2.2.1⟩
    have ex' := hx'.2 ⟨by linarith, fun p hp => (hin p hp).1.2⟩
    have ey' := hy'.2 ⟨by linarith, fun p hp => (hin p hp).2.1.2⟩
    have ez' := hz'.2 ⟨by linarith, fun p hp => (hin p hp).2.2.2⟩
    simp only [ofPoints, reset] at hq
    exact ⟨⟨ex.trans hq.1.1, hq.1.2.trans ex'⟩, ⟨ey.trans hq.2.1.1, hq.2.1.2.trans ey'⟩,
      ⟨ez.trans hq.2.2.1, hq.2.2.2.trans ez'⟩⟩

/-- **C17 (order).** The box does not depend on the order in which the points are added. -/
theorem C17_order_independent (big : K) (ps qs : List (Vec3 K)) (h : ps.Perm qs) :
    ofPoints big ps = ofPoints big qs := by
  unfold ofPoints
  have hc : ∀ (b : BBox K) (p q : Vec3 K), (b.addCoordinate p).addCoordinate q = (b.addCoordinate q).addCoordinate p := by
    intro b p q
    simp only [addCoordinate, min_assoc, max_assoc, min_comm p.x, min_comm p.y, min_comm p.z, max_comm p.x,
      max_comm p.y, max_comm p.z]
  exact h.foldl_eq' (fun x _ y _ z => hc z x y) _

/-- **C17 (intersection test).** For boxes with at least one point and a tolerance `≥ 0`, `intersects` holds
exactly when the box enlarged by the tolerance shares a point with the other one. -/
theorem C17_intersects_iff (b c : BBox K) (tol : K) (ht : 0 ≤ tol) (hb : b.NonEmpty) (hc : c.NonEmpty) :
    b.intersects c tol = true ↔
      ∃ p, InBox ⟨b.min.x - tol, b.min.y - tol, b.min.z - tol⟩ ⟨b.max.x + tol, b.max.y + tol, b.max.z + tol⟩ p ∧
        InBox c.min c.max p := by
  rw [intersects_iff]
  simp only [InBox, NonEmpty] at *
  constructor
  · rintro ⟨⟨h1, h2⟩, ⟨h3, h4⟩, ⟨h5, h6⟩⟩
    refine ⟨⟨Max.max (b.min.x - tol) c.min.x, Max.max (b.min.y - tol) c.min.y, Max.max (b.min.z - tol) c.min.z⟩, ?_, ?_⟩ <;>
      refine ⟨⟨?_, ?_⟩, ⟨?_, ?_⟩, ⟨?_, ?_⟩⟩ <;>
      first | exact le_max_left _ _ | exact le_max_right _ _ |
        (refine max_le ?_ ?_ <;> linarith)
  · rintro ⟨p, ⟨⟨h1, h2⟩, ⟨h3, h4⟩, ⟨h5, h6⟩⟩, ⟨⟨k1, k2⟩, ⟨k3, k4⟩, ⟨k5, k6⟩⟩⟩
    exact ⟨⟨h1.trans k2, k1.trans h2⟩, ⟨h3.trans k4, k3.trans h4⟩, ⟨h5.trans k6, k5.trans h6⟩⟩

/-- **C17 (symmetry).** `intersects` is symmetric for every tolerance. -/
theorem C17_intersects_symm (b c : BBox K) (tol : K) : b.intersects c tol = c.intersects b tol := by
  rw [Bool.eq_iff_iff, intersects_iff, intersects_iff]
  constructor <;> rintro ⟨⟨h1, h2⟩, ⟨h3, h4⟩, ⟨h5, h6⟩⟩ <;>
    refine ⟨⟨?_, ?_⟩, ⟨?_, ?_⟩, ⟨?_, ?_⟩⟩ <;> linarith

/-- **C17 (containment).** For a box `c` with at least one point, `b.contains(c, tol)` holds exactly when
`b.contains(p, tol)` holds for every point `p` of `c`. -/
theorem C17_contains_box_iff (b c : BBox K) (tol : K) (hc : c.NonEmpty) :
    b.containsBox c tol = true ↔ ∀ p, InBox c.min c.max p → b.containsPt p tol = true := by
  simp only [containsBox_iff, containsPt_iff, InBox]
  constructor
  · rintro ⟨⟨h1, h2⟩, ⟨h3, h4⟩, ⟨h5, h6⟩⟩ p ⟨⟨k1, k2⟩, ⟨k3, k4⟩, ⟨k5, k6⟩⟩
    exact ⟨⟨h1.trans k1, k2.trans h2⟩, ⟨h3.trans k3, k4.trans h4⟩, ⟨h5.trans k5, k6.trans h6⟩⟩
  · intro h
    obtain ⟨c1, c2, c3⟩ := hc
    have hl := h c.min ⟨⟨le_refl _, c1⟩, ⟨le_refl _, c2⟩, ⟨le_refl _, c3⟩⟩
    have hh := h c.max ⟨⟨c1, le_refl _⟩, ⟨c2, le_refl _⟩, ⟨c3, le_refl _⟩⟩
    exact ⟨⟨hl.1.1, hh.1.2⟩, ⟨hl.2.1.1, hh.2.1.2⟩, ⟨hl.2.2.1, hh.2.2.2⟩⟩

/-- **C17 (grow and shrink).** Growing by `a` makes exactly the points within tolerance `a` contained; `shrink` undoes
`grow`, and the three-argument `grow` with equal amounts is the one-argument one. -/
theorem C17_grow (b : BBox K) (p : Vec3 K) (a : K) :
    (b.grow a).containsPt p 0 = b.containsPt p a ∧ (b.grow a).shrink a = b ∧ (b.shrink a).grow a = b ∧
      b.grow3 a a a = b.grow a := by
  refine ⟨?_, ?_, ?_, rfl⟩
  · rw [Bool.eq_iff_iff, containsPt_iff, containsPt_iff]; simp [InBox, grow]
  · ext <;> simp [grow, shrink]
  · ext <;> simp [grow, shrink]

/-- Three finite points, their box, and two boxes that intersect, over `ℚ`. -/
example : let ps : List (Vec3 ℚ) := [⟨1, 2, 3⟩, ⟨-1, 5, 0⟩, ⟨0, 0, 4⟩]
    (∀ p ∈ ps, p.Bounded 1000) ∧ ofPoints 1000 ps = ⟨⟨-1, 0, 0⟩, ⟨1, 5, 4⟩⟩ ∧ (ofPoints 1000 ps).NonEmpty ∧
    (ofPoints 1000 ps).intersects ⟨⟨1, 1, 1⟩, ⟨2, 2, 2⟩⟩ 0 = true ∧
    (ofPoints 1000 ps).intersects ⟨⟨2, 1, 1⟩, ⟨3, 2, 2⟩⟩ 0 = false ∧
    (ofPoints 1000 ps).containsBox ⟨⟨0, 1, 1⟩, ⟨1, 2, 2⟩⟩ 0 = true := by
  have e : ofPoints 1000 ([⟨1, 2, 3⟩, ⟨-1, 5, 0⟩, ⟨0, 0, 4⟩] : List (Vec3 ℚ)) = ⟨⟨-1, 0, 0⟩, ⟨1, 5, 4⟩⟩ := by
    simp only [ofPoints, List.foldl, addCoordinate, reset]; norm_num
  refine ⟨?_, e, ?_, ?_, ?_, ?_⟩
  · simp [Vec3.Bounded]; norm_num
  · rw [e]; norm_num [NonEmpty]
  · rw [e]; norm_num [intersects]
  · rw [e]; norm_num [intersects]
  · rw [e]; norm_num [containsBox]

end ENigMA
