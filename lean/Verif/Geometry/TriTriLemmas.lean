import Verif.Geometry.TriTri
import Verif.Geometry.TriangleProps
import Verif.Geometry.LineLineProps

/-! # Lemmas on the test of two triangles -/

set_option linter.unusedSectionVars false
set_option autoImplicit false

namespace ENigMA

variable {K : Type} [Field K] [LinearOrder K] [IsStrictOrderedRing K]

namespace Tri

variable {nrm : Vec3 K → K} (hN : IsNorm nrm) (t u : Tri K)

/-- The point is in the closed triangle. -/
def Has (t : Tri K) (x : Vec3 K) : Prop := InHull3 t.v0 t.v1 t.v2 x

theorem has_v (k : Nat) : t.Has (t.v k) := by
  unfold Has v
  split_ifs
  · exact ⟨1, 0, 0, by norm_num, le_rfl, le_rfl, by norm_num, by ext <;> simp⟩
  · exact ⟨0, 1, 0, le_rfl, by norm_num, le_rfl, by norm_num, by ext <;> simp⟩
  · exact ⟨0, 0, 1, le_rfl, le_rfl, by norm_num, by norm_num, by ext <;> simp⟩

theorem has_comb {x y : Vec3 K} (hx : t.Has x) (hy : t.Has y) {s : K} (h0 : 0 ≤ s) (h1 : s ≤ 1) : t.Has (x + s • (y - x)) := by
  obtain ⟨a, b, c, ha, hb, hc, hs, rfl⟩ := hx
  obtain ⟨a', b', c', ha', hb', hc', hs', rfl⟩ := hy
  have h1' : 0 ≤ 1 - s := by linarith
  refine ⟨(1 - s) * a + s * a', (1 - s) * b + s * b', (1 - s) * c + s * c', by positivity, by positivity, by positivity, ?_, ?_⟩
  · linear_combination (1 - s) * hs + s * hs'
  · ext <;> simp <;> ring

theorem has_edge {k : Nat} {x : Vec3 K} (h : OnSeg (t.v k) (t.v (k + 1)) x) : t.Has x := by
  obtain ⟨s, h0, h1, rfl⟩ := h
  exact t.has_comb (t.has_v k) (t.has_v (k + 1)) h0 h1

/-- The normal is orthogonal to the edges. -/
theorem normal_dot_v (k : Nat) : (t.normal nrm).dot (t.v k) = (t.normal nrm).dot t.v0 := by
  have hraw : ∀ k, t.rawNormal.dot (t.v k) = t.rawNormal.dot t.v0 := by
    intro k
    simp only [v, rawNormal]
    split_ifs <;> simp [Vec3.dot, Vec3.cross] <;> ring
  have := hraw k
  unfold normal normalArea
  simp only
  split_ifs
  · have e : ∀ w : Vec3 K, ((nrm t.rawNormal)⁻¹ • t.rawNormal).dot w = (nrm t.rawNormal)⁻¹ * t.rawNormal.dot w := by
      intro w; simp [Vec3.dot]; ring
    rw [e, e, this]
  · exact this

theorem dot_comb (n : Vec3 K) {x : Vec3 K} (h : t.Has x) :
    ∃ l0 l1 l2 : K, 0 ≤ l0 ∧ 0 ≤ l1 ∧ 0 ≤ l2 ∧ l0 + l1 + l2 = 1 ∧ n.dot x = l0 * n.dot t.v0 + l1 * n.dot t.v1 + l2 * n.dot t.v2 := by
  obtain ⟨a, b, c, ha, hb, hc, hs, rfl⟩ := h
  exact ⟨a, b, c, ha, hb, hc, hs, by simp [Vec3.dot]; ring⟩

theorem normal_dot_has {x : Vec3 K} (h : t.Has x) : (t.normal nrm).dot x = (t.normal nrm).dot t.v0 := by
  obtain ⟨a, b, c, -, -, -, hs, e⟩ := t.dot_comb (t.normal nrm) h
  have h1 := t.normal_dot_v (nrm := nrm) 1
  have h2 := t.normal_dot_v (nrm := nrm) 2
  simp only [v] at h1 h2
  norm_num at h1 h2
  rw [e, h1, h2]
  linear_combination (t.normal nrm).dot t.v0 * hs

include hN in
/-- A point of the plane is the combination of the corners given by the side values. -/
theorem bary (hd : t.rawNormal ≠ 0) {p : Vec3 K} (hp : (t.normal nrm).dot p = (t.normal nrm).dot t.v0) :
    p = (t.side nrm p 1 / nrm t.rawNormal) • t.v0 + (t.side nrm p 2 / nrm t.rawNormal) • t.v1 + (t.side nrm p 0 / nrm t.rawNormal) • t.v2 := by
  have hD := hN.pos hd
  have hDD := hN.sq t.rawNormal
  have hsum := t.side_sum (nrm := nrm) p
  rw [t.raw_dot_normal hN hd] at hsum
  have hn := t.normal_eq hN hd
  have e : ∀ w : Vec3 K, w.dot (t.normal nrm) = (nrm t.rawNormal)⁻¹ * w.dot t.rawNormal := by
    intro w; rw [hn]; simp [Vec3.dot]; ring
  have hpl : t.rawNormal.dot p = t.rawNormal.dot t.v0 := by
    have h1 : ∀ w : Vec3 K, (t.normal nrm).dot w = (nrm t.rawNormal)⁻¹ * t.rawNormal.dot w := by
      intro w; rw [hn]; simp [Vec3.dot]; ring
    rw [h1, h1] at hp
    exact mul_left_cancel₀ (inv_ne_zero hD.ne') hp
  have s0 : t.side nrm p 0 = (nrm t.rawNormal)⁻¹ * (Vec3.cross (t.v1 - t.v0) (p - t.v0)).dot t.rawNormal := by
    simp only [side, v]; rw [e]; norm_num
  have s2 : t.side nrm p 2 = (nrm t.rawNormal)⁻¹ * (Vec3.cross (p - t.v0) (t.v2 - t.v0)).dot t.rawNormal := by
    simp only [side, v]; rw [e]; norm_num
    left
    simp [Vec3.dot, Vec3.cross]; ring
  set D := nrm t.rawNormal with hDdef
  have l1 : t.side nrm p 1 / D = 1 - t.side nrm p 2 / D - t.side nrm p 0 / D := by
    field_simp; linarith
  rw [l1]
  have q0 : t.side nrm p 0 / D = (Vec3.cross (t.v1 - t.v0) (p - t.v0)).dot t.rawNormal / t.rawNormal.normSq := by
    rw [s0, ← hDD]; field_simp
  have q2 : t.side nrm p 2 / D = (Vec3.cross (p - t.v0) (t.v2 - t.v0)).dot t.rawNormal / t.rawNormal.normSq := by
    rw [s2, ← hDD]; field_simp
  rw [q0, q2]
  have hne : t.rawNormal.normSq ≠ 0 := by rw [← hDD]; exact mul_ne_zero hD.ne' hD.ne'
  have key : t.rawNormal.normSq • (p - t.v0) = (Vec3.cross (p - t.v0) (t.v2 - t.v0)).dot t.rawNormal • (t.v1 - t.v0) +
      (Vec3.cross (t.v1 - t.v0) (p - t.v0)).dot t.rawNormal • (t.v2 - t.v0) := by
    have h0 : t.rawNormal.dot (p - t.v0) = 0 := by
      have : t.rawNormal.dot (p - t.v0) = t.rawNormal.dot p - t.rawNormal.dot t.v0 := by simp [Vec3.dot]; ring
      rw [this, hpl, sub_self]
    have full : t.rawNormal.normSq • (p - t.v0) = (Vec3.cross (p - t.v0) (t.v2 - t.v0)).dot t.rawNormal • (t.v1 - t.v0) +
        (Vec3.cross (t.v1 - t.v0) (p - t.v0)).dot t.rawNormal • (t.v2 - t.v0) + t.rawNormal.dot (p - t.v0) • t.rawNormal := by
      simp only [rawNormal]
      generalize t.v1 - t.v0 = a
      generalize t.v2 - t.v0 = b
      generalize p - t.v0 = q
      ext <;> simp [Vec3.normSq, Vec3.dot, Vec3.cross] <;> ring
    rw [full, h0]
    ext <;> simp
  generalize (Vec3.cross (p - t.v0) (t.v2 - t.v0)).dot t.rawNormal = A at *
  generalize (Vec3.cross (t.v1 - t.v0) (p - t.v0)).dot t.rawNormal = B at *
  generalize t.rawNormal.normSq = N at *
  have kx := congrArg Vec3.x key
  have ky := congrArg Vec3.y key
  have kz := congrArg Vec3.z key
  simp only [Vec3.smul_x, Vec3.smul_y, Vec3.smul_z, Vec3.add_x, Vec3.add_y, Vec3.add_z, Vec3.sub_x, Vec3.sub_y, Vec3.sub_z] at kx ky kz
  ext
  · simp only [Vec3.smul_x, Vec3.add_x]; field_simp; linear_combination kx
  · simp only [Vec3.smul_y, Vec3.add_y]; field_simp; linear_combination ky
  · simp only [Vec3.smul_z, Vec3.add_z]; field_simp; linear_combination kz

include hN in
/-- A point of the plane on the inner side of every edge is in the triangle. -/
theorem has_of_sides (hd : t.rawNormal ≠ 0) {p : Vec3 K} (hp : (t.normal nrm).dot p = (t.normal nrm).dot t.v0)
    (h0 : 0 ≤ t.side nrm p 0) (h1 : 0 ≤ t.side nrm p 1) (h2 : 0 ≤ t.side nrm p 2) : t.Has p := by
  have hD := hN.pos hd
  have hsum := t.side_sum (nrm := nrm) p
  rw [t.raw_dot_normal hN hd] at hsum
  refine ⟨_, _, _, div_nonneg h1 hD.le, div_nonneg h2 hD.le, div_nonneg h0 hD.le, ?_, t.bary hN hd hp⟩
  field_simp
  linarith

include hN in
theorem sides_of_has (hd : t.rawNormal ≠ 0) {p : Vec3 K} (h : t.Has p) :
    0 ≤ t.side nrm p 0 ∧ 0 ≤ t.side nrm p 1 ∧ 0 ≤ t.side nrm p 2 := by
  have hD := hN.pos hd
  obtain ⟨a, b, c, ha, hb, hc, hs, rfl⟩ := h
  obtain ⟨e0, e1, e2⟩ := t.side_comb (nrm := nrm) a b c hs
  rw [t.raw_dot_normal hN hd] at e0 e1 e2
  rw [e0, e1, e2]
  exact ⟨by positivity, by positivity, by positivity⟩

include hN in
/-- What `contains` accepts with tolerance 0 is on the inner side of every edge. -/
theorem sides_of_contains (hd : t.rawNormal ≠ 0) (big : K) {p : Vec3 K} (h : t.contains nrm big p 0 ≠ .outside) :
    0 ≤ t.side nrm p 0 ∧ 0 ≤ t.side nrm p 1 ∧ 0 ≤ t.side nrm p 2 := by
  have z : ∀ v : Vec3 K, nrm (p - v) ≤ 0 → p = v := fun v h => hN.sub_le_zero.1 h
  have g : ∀ k, p = t.v k → 0 ≤ t.side nrm p 0 ∧ 0 ≤ t.side nrm p 1 ∧ 0 ≤ t.side nrm p 2 := by
    rintro k rfl
    exact t.sides_of_has hN hd (t.has_v k)
  rw [Tri.contains_cases] at h
  obtain ⟨-, h | ⟨h0, h | ⟨h1, h | h2⟩⟩⟩ := h
  · exact g 0 (z _ h)
  · exact g 1 (z _ h)
  · exact g 2 (z _ h)
  · rw [neg_zero] at h0 h1 h2
    exact ⟨h0.le, h1.le, h2.le⟩

theorem contains_vertex {big : K} {p : Vec3 K} {tol : K} (h : t.contains nrm big p tol = .vertex) :
    nrm (p - t.v0) ≤ tol ∨ nrm (p - t.v1) ≤ tol ∨ nrm (p - t.v2) ≤ tol := by
  by_contra hno
  rw [not_or, not_or] at hno
  obtain ⟨h0, h1, h2⟩ := hno
  revert h
  unfold contains
  cases hb : (t.bbox big).containsPt p tol
  · simp
  · simp only [Bool.not_true, Bool.false_eq_true, if_false, if_neg h0, if_neg h1, if_neg h2]
    by_cases s0 : t.side nrm p 0 ≤ -tol
    · simp [s0]
    rw [if_neg s0]
    by_cases s1 : t.side nrm p 1 ≤ -tol
    · simp [s1]
    rw [if_neg s1]
    by_cases s2 : t.side nrm p 2 ≤ -tol
    · simp [s2]
    rw [if_neg s2]
    have e : ∀ (c : Prop) [Decidable c], (if c then Loc.edge else Loc.internal) ≠ Loc.vertex := by
      intro c _; by_cases hc : c <;> simp [hc]
    exact e _

/-- Side values are affine. -/
theorem side_affine (a b c : K) (hs : a + b + c = 1) (x y z : Vec3 K) (k : Nat) :
    t.side nrm (a • x + b • y + c • z) k = a * t.side nrm x k + b * t.side nrm y k + c * t.side nrm z k := by
  have h0 : a = 1 - b - c := by linarith
  subst h0
  simp only [side]
  generalize t.normal nrm = n
  generalize t.v (k + 1) = w
  generalize t.v k = w'
  simp [Vec3.dot, Vec3.cross]
  ring

/-- A segment and the plane of the triangle: the reported point. -/
theorem planeHit (hu : (t.normal nrm).normSq = 1) {l : GLine K} {tol : K} {x : Vec3 K} {ty : ITy}
    (h : l.intersectsPlane (t.plane nrm) tol = some (x, ty)) :
    (t.normal nrm).dot x = (t.normal nrm).dot t.v0 ∧ ∃ s, -tol ≤ s ∧ s ≤ 1 + tol ∧ x = l.startP + s • l.vec := by
  unfold GLine.intersectsPlane plane at h
  simp only at h
  split_ifs at h with h1 h2 h3
  all_goals
    obtain ⟨rfl, -⟩ := Prod.mk.inj (Option.some.inj h)
    refine ⟨?_, _, h2.1, h2.2, rfl⟩
    have hne : (t.normal nrm).dot l.vec ≠ 0 := by
      intro h0
      rw [h0, abs_zero] at h1
      exact h1 (mul_self_nonneg tol)
    have e : ∀ s : K, (t.normal nrm).dot (l.startP + s • l.vec) = (t.normal nrm).dot l.startP + s * (t.normal nrm).dot l.vec := by
      intro s; simp [Vec3.dot]; ring
    rw [e, div_mul_cancel₀ _ hne]
    have e2 : ∀ d : K, (t.normal nrm).dot (d • t.normal nrm - l.startP) = d * (t.normal nrm).normSq - (t.normal nrm).dot l.startP := by
      intro d; simp [Vec3.dot, Vec3.normSq]; ring
    rw [e2, hu]
    ring

/-- A segment that is steep enough meets the plane where it meets it. -/
theorem planeHit_of (hu : (t.normal nrm).normSq = 1) {l : GLine K} {tol : K} (ht : 0 ≤ tol)
    (hs : tol * tol < |(t.normal nrm).dot l.vec|) {s : K} (h0 : 0 ≤ s) (h1 : s ≤ 1)
    (hx : (t.normal nrm).dot (l.startP + s • l.vec) = (t.normal nrm).dot t.v0) :
    ∃ ty, l.intersectsPlane (t.plane nrm) tol = some (l.startP + s • l.vec, ty) := by
  have hne : (t.normal nrm).dot l.vec ≠ 0 := by
    intro h0
    rw [h0, abs_zero] at hs
    exact absurd hs (not_lt.2 (mul_self_nonneg tol))
  have e : (t.normal nrm).dot ((t.normal nrm).dot t.v0 • t.normal nrm - l.startP) / (t.normal nrm).dot l.vec = s := by
    rw [div_eq_iff hne, ← hx]
    have e2 : ∀ d : K, (t.normal nrm).dot (d • t.normal nrm - l.startP) = d * (t.normal nrm).normSq - (t.normal nrm).dot l.startP := by
      intro d; simp [Vec3.dot, Vec3.normSq]; ring
    rw [e2, hu]
    simp [Vec3.dot]; ring
  unfold GLine.intersectsPlane plane
  simp only
  rw [if_neg (not_le.2 hs), e, if_pos ⟨by linarith, by linarith⟩]
  exact ⟨_, rfl⟩

theorem boxes_meet (big : K) {x : Vec3 K} (ht : t.Has x) (hu : u.Has x) {tol : K} (h : 0 ≤ tol) :
    (t.bbox big).intersects (u.bbox big) tol = true := by
  have h1 := bbox_hull3 big _ _ _ x 0 le_rfl ht
  have h2 := bbox_hull3 big _ _ _ x 0 le_rfl hu
  rw [BBox.containsPt_iff] at h1 h2
  rw [BBox.intersects_iff]
  simp only [InBox, sub_zero, add_zero] at h1 h2
  unfold bbox
  obtain ⟨⟨a1, a2⟩, ⟨a3, a4⟩, ⟨a5, a6⟩⟩ := h1
  obtain ⟨⟨b1, b2⟩, ⟨b3, b4⟩, ⟨b5, b6⟩⟩ := h2
  refine ⟨⟨?_, ?_⟩, ⟨?_, ?_⟩, ⟨?_, ?_⟩⟩ <;> linarith

theorem not_oneSide_of_has (n : Vec3 K) (d : K) {x : Vec3 K} (hu : u.Has x) (hx : n.dot x = d) {tol : K} (h : 0 ≤ tol) :
    oneSide tol (n.dot u.v0 - d) (n.dot u.v1 - d) (n.dot u.v2 - d) = false := by
  obtain ⟨a, b, c, ha, hb, hc, hs, e⟩ := u.dot_comb n hu
  rw [hx] at e
  by_contra hcon
  rw [Bool.not_eq_false] at hcon
  unfold oneSide at hcon
  simp only [Bool.or_eq_true, Bool.and_eq_true, decide_eq_true_eq] at hcon
  have e' : a * (n.dot u.v0 - d) + b * (n.dot u.v1 - d) + c * (n.dot u.v2 - d) = 0 := by linear_combination -e - d * hs
  have hpos : 0 < a ∨ 0 < b ∨ 0 < c := by
    by_contra hno
    push Not at hno
    linarith [hno.1, hno.2.1, hno.2.2]
  rcases hcon with ⟨⟨h0, h1⟩, h2⟩ | ⟨⟨h0, h1⟩, h2⟩
  · have p0 : 0 < n.dot u.v0 - d := by linarith
    have p1 : 0 < n.dot u.v1 - d := by linarith
    have p2 : 0 < n.dot u.v2 - d := by linarith
    have m0 := mul_nonneg ha p0.le
    have m1 := mul_nonneg hb p1.le
    have m2 := mul_nonneg hc p2.le
    rcases hpos with h | h | h
    · linarith [mul_pos h p0]
    · linarith [mul_pos h p1]
    · linarith [mul_pos h p2]
  · have p0 : 0 < -(n.dot u.v0 - d) := by linarith
    have p1 : 0 < -(n.dot u.v1 - d) := by linarith
    have p2 : 0 < -(n.dot u.v2 - d) := by linarith
    have m0 := mul_nonneg ha p0.le
    have m1 := mul_nonneg hb p1.le
    have m2 := mul_nonneg hc p2.le
    rcases hpos with h | h | h
    · linarith [mul_pos h p0]
    · linarith [mul_pos h p1]
    · linarith [mul_pos h p2]

theorem oneSide_self {tol : K} (h : 0 ≤ tol) :
    oneSide tol ((u.normal nrm).dot u.v0 - (u.normal nrm).dot u.v0) ((u.normal nrm).dot u.v1 - (u.normal nrm).dot u.v0)
      ((u.normal nrm).dot u.v2 - (u.normal nrm).dot u.v0) = false :=
  u.not_oneSide_of_has (u.normal nrm) _ (u.has_v 0) (u.normal_dot_v 0) h

/-- If the vertices are not all on one side (strictly) of a plane, the triangle has a point of the plane. -/
theorem has_plane_point (n : Vec3 K) (d : K)
    (h : oneSide 0 (n.dot u.v0 - d) (n.dot u.v1 - d) (n.dot u.v2 - d) = false) :
    ∃ x, u.Has x ∧ n.dot x = d := by
  -- two vertices on different sides
  have two : ∀ i j, n.dot (u.v i) - d ≤ 0 → 0 ≤ n.dot (u.v j) - d → ∃ x, u.Has x ∧ n.dot x = d := by
    intro i j hi hj
    by_cases he : n.dot (u.v j) - n.dot (u.v i) = 0
    · exact ⟨u.v i, u.has_v i, by linarith⟩
    · have hpos : 0 < n.dot (u.v j) - n.dot (u.v i) := lt_of_le_of_ne (by linarith) (Ne.symm he)
      refine ⟨u.v i + ((d - n.dot (u.v i)) / (n.dot (u.v j) - n.dot (u.v i))) • (u.v j - u.v i),
        u.has_comb (u.has_v i) (u.has_v j) (div_nonneg (by linarith) hpos.le) ((div_le_one hpos).2 (by linarith)), ?_⟩
      have e : ∀ s : K, n.dot (u.v i + s • (u.v j - u.v i)) = n.dot (u.v i) + s * (n.dot (u.v j) - n.dot (u.v i)) := by
        intro s; simp [Vec3.dot]; ring
      rw [e, div_mul_cancel₀ _ he]
      ring
  have v0 : u.v 0 = u.v0 := rfl
  have v1 : u.v 1 = u.v1 := rfl
  have v2 : u.v 2 = u.v2 := rfl
  unfold oneSide at h
  simp only [Bool.or_eq_false_iff, Bool.and_eq_false_iff, decide_eq_false_iff_not, not_lt, neg_zero] at h
  obtain ⟨h1, h2⟩ := h
  have a : ∃ i, n.dot (u.v i) - d ≤ 0 := by
    rcases h1 with (h1 | h1) | h1
    · exact ⟨0, h1⟩
    · exact ⟨1, h1⟩
    · exact ⟨2, h1⟩
  have b : ∃ i, 0 ≤ n.dot (u.v i) - d := by
    rcases h2 with (h2 | h2) | h2
    · exact ⟨0, h2⟩
    · exact ⟨1, h2⟩
    · exact ⟨2, h2⟩
  obtain ⟨i, hi⟩ := a
  obtain ⟨j, hj⟩ := b
  exact two i j hi hj

end Tri
end ENigMA
