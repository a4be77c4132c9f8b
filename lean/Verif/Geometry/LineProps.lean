import Verif.Geometry.Line

/-!
# C36: clipping a segment, C41: closest point of a segment, C56: segment and plane, C57: two lines
-/

set_option linter.unusedSectionVars false

namespace ENigMA

variable {K : Type} [Field K] [LinearOrder K] [IsStrictOrderedRing K]

/-- The points of the segment from `a` to `b`. -/
def Seg (a b : Vec3 K) (x : Vec3 K) : Prop := ∃ t : K, 0 ≤ t ∧ t ≤ 1 ∧ x = a + t • (b - a)

/-- The members of a line are consistent: its direction is the difference of its end points. Every line made by the
constructor or by `setStartPoint` followed by `setEndPoint` is (`mk2_ok`, `setStart_setEnd_ok`). -/
def GLine.Ok (l : GLine K) : Prop := l.vec = l.endP - l.startP

theorem mk2_ok (a b : Vec3 K) : (GLine.mk2 a b).Ok := rfl
theorem setStart_setEnd_ok (l : GLine K) (a b : Vec3 K) : ((l.setStart a).setEnd b).Ok := rfl

theorem GLine.Ok.seg {l : GLine K} (h : l.Ok) (x : Vec3 K) :
    Seg l.startP l.endP x ↔ ∃ t : K, 0 ≤ t ∧ t ≤ 1 ∧ x = l.startP + t • l.vec := by
  unfold GLine.Ok at h; rw [h]; exact Iff.rfl

theorem dot_param (n a v : Vec3 K) (t : K) : n.dot (a + t • v) = n.dot a + t * n.dot v := by
  rw [Vec3.dot_add, Vec3.dot_smul]

theorem seg_self (a x : Vec3 K) : Seg a a x ↔ x = a := by
  constructor
  · rintro ⟨t, _, _, rfl⟩; ext <;> simp
  · rintro rfl; exact ⟨0, le_rfl, zero_le_one, by ext <;> simp⟩

/-- **C36.** `clip(plane, tol)` is exact whenever the segment is not nearly parallel to the plane (in particular, for
tolerance zero, always): if the segment has a point strictly behind the plane or crosses it, the points of the result
are exactly the points `x` of the segment with `n . x ≤ d`. -/
theorem C36_clip (l : GLine K) (hl : l.Ok) (p : GPlane K) (tol : K)
    (htol : tol < |p.normal.dot l.vec| ∨ p.normal.dot l.vec = 0) (h0 : 0 ≤ tol)
    (h : (∃ x, Seg l.startP l.endP x ∧ p.normal.dot x < p.d) ∨
      (p.normal.dot l.vec ≠ 0 ∧ ∃ x, Seg l.startP l.endP x ∧ p.normal.dot x = p.d)) (x : Vec3 K) :
    Seg (l.clip p tol).startP (l.clip p tol).endP x ↔ Seg l.startP l.endP x ∧ p.normal.dot x ≤ p.d := by
  have hL : ∀ x, Seg l.startP l.endP x ↔ ∃ t : K, 0 ≤ t ∧ t ≤ 1 ∧ x = l.startP + t • l.vec := hl.seg
  have hsum : l.startP + l.vec = l.endP := by rw [hl]; abel
  set den := p.normal.dot l.vec with hden
  set num := p.normal.dot l.startP with hnum
  have hdot : ∀ t : K, p.normal.dot (l.startP + t • l.vec) = num + t * den := fun t => dot_param _ _ _ t
  -- existence of a point at most `d`
  obtain ⟨t0, ht0, ht1, hle, hlt⟩ : ∃ t : K, 0 ≤ t ∧ t ≤ 1 ∧ num + t * den ≤ p.d ∧ (den = 0 → num < p.d) := by
    rcases h with ⟨x, hx, hd⟩ | ⟨hne, x, hx, hd⟩
    · obtain ⟨t, a, b, rfl⟩ := (hL x).1 hx
      rw [hdot] at hd
      exact ⟨t, a, b, hd.le, fun h0 => by rw [h0, mul_zero, add_zero] at hd; exact hd⟩
    · obtain ⟨t, a, b, rfl⟩ := (hL x).1 hx
      rw [hdot] at hd
      exact ⟨t, a, b, hd.le, fun h0 => absurd h0 hne⟩
  have whole : (∀ t : K, 0 ≤ t → t ≤ 1 → num + t * den ≤ p.d) →
      (Seg l.startP (l.startP + l.vec) x ↔ Seg l.startP l.endP x ∧ p.normal.dot x ≤ p.d) := by
    intro hall
    rw [hsum]
    constructor
    · intro hx
      refine ⟨hx, ?_⟩
      obtain ⟨t, a, b, rfl⟩ := (hL x).1 hx
      rw [hdot]; exact hall t a b
    · exact fun hx => hx.1
  unfold GLine.clip
  simp only [GLine.mk2, ← hden, ← hnum]
  by_cases hd0 : den = 0
  · have hnt : ¬ tol < |den| := by rw [hd0, abs_zero]; exact not_lt.2 h0
    rw [if_neg hnt, if_pos (hlt hd0)]
    exact whole fun t _ _ => by rw [hd0, mul_zero, add_zero]; exact (hlt hd0).le
  · have ht : tol < |den| := htol.resolve_right hd0
    rw [if_pos ht]
    have hα : num + (p.d - num) / den * den = p.d := by field_simp; ring
    set α := (p.d - num) / den with hαdef
    by_cases hr : 0 ≤ α ∧ α ≤ 1
    · rw [if_pos hr]
      rcases lt_or_gt_of_ne hd0 with hneg | hpos
      · rw [if_neg (not_lt.2 hneg.le)]
        simp only
        rw [hL]
        constructor
        · rintro ⟨s, hs0, hs1, rfl⟩
          have e : l.startP + α • l.vec + s • (l.startP + l.vec - (l.startP + α • l.vec)) =
              l.startP + (α + s * (1 - α)) • l.vec := by
            ext <;> simp <;> ring
          rw [e, hdot]
          refine ⟨⟨_, ?_, ?_, rfl⟩, ?_⟩
          · nlinarith [hr.1, hr.2]
          · nlinarith [hr.1, hr.2]
          · nlinarith [hr.1, hr.2, mul_nonneg hs0 (sub_nonneg.2 hr.2)]
        · rintro ⟨⟨t, a, b, rfl⟩, hxd⟩
          rw [hdot] at hxd
          have hta : α ≤ t := by
            by_contra hc
            rw [not_le] at hc
            nlinarith
          by_cases h1 : α = 1
          · have : t = 1 := le_antisymm b (h1 ▸ hta)
            refine ⟨0, le_rfl, zero_le_one, ?_⟩
            rw [h1, this]; ext <;> simp
          · have hpos1 : 0 < 1 - α := sub_pos.2 (lt_of_le_of_ne hr.2 h1)
            refine ⟨(t - α) / (1 - α), div_nonneg (sub_nonneg.2 hta) hpos1.le, ?_, ?_⟩
            · rw [div_le_one hpos1]; linarith
            · have e : (t - α) / (1 - α) * (1 - α) = t - α := by field_simp
              have e' : α + (t - α) / (1 - α) * (1 - α) = t := by rw [e]; ring
              ext
              · simp only [Vec3.add_x, Vec3.smul_x, Vec3.sub_x]; linear_combination (-l.vec.x) * e'
              · simp only [Vec3.add_y, Vec3.smul_y, Vec3.sub_y]; linear_combination (-l.vec.y) * e'
              · simp only [Vec3.add_z, Vec3.smul_z, Vec3.sub_z]; linear_combination (-l.vec.z) * e'
      · rw [if_pos hpos]
        simp only
        rw [hL]
        constructor
        · rintro ⟨s, hs0, hs1, rfl⟩
          have e : l.startP + s • (l.startP + α • l.vec - l.startP) = l.startP + (s * α) • l.vec := by
            ext <;> simp <;> ring
          rw [e, hdot]
          refine ⟨⟨_, mul_nonneg hs0 hr.1, ?_, rfl⟩, ?_⟩
          · nlinarith [hr.1, hr.2]
          · nlinarith [hr.1, hr.2, mul_nonneg (sub_nonneg.2 hs1) hr.1]
        · rintro ⟨⟨t, a, b, rfl⟩, hxd⟩
          rw [hdot] at hxd
          have hta : t ≤ α := by
            by_contra hc
            rw [not_le] at hc
            nlinarith
          by_cases h1 : α = 0
          · have : t = 0 := le_antisymm (h1 ▸ hta) a
            refine ⟨0, le_rfl, zero_le_one, ?_⟩
            rw [h1, this]; ext <;> simp
          · have hpos1 : 0 < α := lt_of_le_of_ne hr.1 (Ne.symm h1)
            refine ⟨t / α, div_nonneg a hpos1.le, ?_, ?_⟩
            · rw [div_le_one hpos1]; exact hta
            · have e' : t / α * α = t := by field_simp
              ext
              · simp only [Vec3.add_x, Vec3.smul_x, Vec3.sub_x]; linear_combination (-l.vec.x) * e'
              · simp only [Vec3.add_y, Vec3.smul_y, Vec3.sub_y]; linear_combination (-l.vec.y) * e'
              · simp only [Vec3.add_z, Vec3.smul_z, Vec3.sub_z]; linear_combination (-l.vec.z) * e'
    · rw [if_neg hr]
      -- no crossing: everything is on one side
      have hside : num < p.d ∧ ∀ t : K, 0 ≤ t → t ≤ 1 → num + t * den ≤ p.d := by
        rcases lt_or_gt_of_ne hd0 with hneg | hpos
        · -- α ≤ t0, so α < 0
          have hα0 : α ≤ t0 := by
            by_contra hc; rw [not_le] at hc; nlinarith
          have hαn : α < 0 := by
            by_contra hc; rw [not_lt] at hc; exact hr ⟨hc, le_trans hα0 ht1⟩
          refine ⟨by nlinarith, fun t ha _ => by nlinarith⟩
        · have hα0 : t0 ≤ α := by
            by_contra hc; rw [not_le] at hc; nlinarith
          have hαn : 1 < α := by
            by_contra hc; rw [not_lt] at hc; exact hr ⟨le_trans ht0 hα0, hc⟩
          refine ⟨by nlinarith, fun t _ hb => by nlinarith⟩
      rw [if_pos hside.1]
      exact whole hside.2

/-- **C36.** Otherwise (no point strictly behind the plane and no crossing) the result has zero length, at the start
point. -/
theorem C36_clip_empty (l : GLine K) (hl : l.Ok) (p : GPlane K) (tol : K)
    (htol : tol < |p.normal.dot l.vec| ∨ p.normal.dot l.vec = 0) (h0 : 0 ≤ tol)
    (h1 : ¬∃ x, Seg l.startP l.endP x ∧ p.normal.dot x < p.d)
    (h2 : ¬(p.normal.dot l.vec ≠ 0 ∧ ∃ x, Seg l.startP l.endP x ∧ p.normal.dot x = p.d)) :
    (l.clip p tol).startP = l.startP ∧ (l.clip p tol).endP = l.startP := by
  have hL : ∀ x, Seg l.startP l.endP x ↔ ∃ t : K, 0 ≤ t ∧ t ≤ 1 ∧ x = l.startP + t • l.vec := hl.seg
  have hnd : ¬ p.normal.dot l.startP < p.d := fun hlt =>
    h1 ⟨l.startP, (hL _).2 ⟨0, le_rfl, zero_le_one, by ext <;> simp⟩, hlt⟩
  have hr : p.normal.dot l.vec ≠ 0 → ¬ (0 ≤ (p.d - p.normal.dot l.startP) / p.normal.dot l.vec ∧
      (p.d - p.normal.dot l.startP) / p.normal.dot l.vec ≤ 1) := by
    intro hne hr
    refine h2 ⟨hne, _, (hL _).2 ⟨_, hr.1, hr.2, rfl⟩, ?_⟩
    rw [dot_param]; field_simp; ring
  unfold GLine.clip
  simp only [GLine.mk2]
  by_cases hd0 : p.normal.dot l.vec = 0
  · rw [if_neg (by rw [hd0, abs_zero]; exact not_lt.2 h0), if_neg hnd]
    exact ⟨rfl, rfl⟩
  · rw [if_pos (htol.resolve_right hd0), if_neg (hr hd0), if_neg hnd]
    exact ⟨rfl, rfl⟩

/-- A segment across the plane `x = 1`. -/
example : (GLine.mk2 (⟨0, 0, 0⟩ : Vec3 ℚ) ⟨4, 0, 2⟩).clip ⟨⟨1, 0, 0⟩, 1⟩ 0 =
    GLine.mk2 ⟨0, 0, 0⟩ ⟨1, 0, 1 / 2⟩ := by decide +kernel

example : ∃ x, Seg (⟨0, 0, 0⟩ : Vec3 ℚ) ⟨4, 0, 2⟩ x ∧ (⟨1, 0, 0⟩ : Vec3 ℚ).dot x < 1 :=
  ⟨⟨0, 0, 0⟩, ⟨0, le_rfl, zero_le_one, by decide +kernel⟩, by decide +kernel⟩

/-- With a positive tolerance a segment nearly parallel to the plane is judged by its start point alone, so the part
of it in front of the plane is kept: the exactness of C36 needs `tol < |n . v|`. -/
theorem C36_tolerance_deviation : ∃ (l : GLine ℚ) (p : GPlane ℚ) (tol : ℚ) (x : Vec3 ℚ), 0 < tol ∧ l.Ok ∧
    (∃ y, Seg l.startP l.endP y ∧ p.normal.dot y < p.d) ∧
    Seg (l.clip p tol).startP (l.clip p tol).endP x ∧ ¬ p.normal.dot x ≤ p.d := by
  refine ⟨GLine.mk2 ⟨0, 0, 0⟩ ⟨0, 0, 1⟩, ⟨⟨0, 0, 1⟩, 1 / 2⟩, 2, ⟨0, 0, 1⟩, by norm_num, rfl,
    ⟨⟨0, 0, 0⟩, ⟨0, le_rfl, zero_le_one, by decide +kernel⟩, by decide +kernel⟩,
    ⟨1, zero_le_one, le_rfl, by decide +kernel⟩, by decide +kernel⟩

/-- **C41.** `distance(p, q, d, 0)` fails exactly for a zero-length line; otherwise `q` is a point of the segment, `d`
is the distance from `p` to `q`, and no point of the segment is closer to `p`. -/
theorem C41_distance (nrm : Vec3 K → K) (hN : IsNorm nrm) (l : GLine K) (hl : l.Ok) (x : Vec3 K) :
    (l.distancePoint nrm x 0 = none ↔ l.startP = l.endP) ∧
    ∀ q d, l.distancePoint nrm x 0 = some (q, d) →
      Seg l.startP l.endP q ∧ d = nrm (x - q) ∧ ∀ y, Seg l.startP l.endP y → d ≤ nrm (x - y) := by
  have hz : (0 : K) * 0 < |l.vec.dot l.vec| ↔ l.vec ≠ 0 := by
    rw [mul_zero, abs_pos]
    exact not_congr Vec3.normSq_eq_zero
  have hvz : l.vec = 0 ↔ l.startP = l.endP := by
    rw [hl, sub_eq_zero]; exact eq_comm
  constructor
  · unfold GLine.distancePoint
    simp only
    split_ifs with h
    · simp only [reduceCtorEq, false_iff]
      exact fun he => (hz.1 h) (hvz.2 he)
    · simp only [true_iff]
      by_contra hne
      exact h (hz.2 fun h0 => hne (hvz.1 h0))
  · intro q d hq
    unfold GLine.distancePoint at hq
    simp only at hq
    by_cases h : (0 : K) * 0 < |l.vec.dot l.vec|
    swap
    · rw [if_neg h] at hq; simp at hq
    rw [if_pos h, neg_zero, add_zero] at hq
    simp only [Option.some.injEq, Prod.mk.injEq] at hq
    obtain ⟨hq, hd⟩ := hq
    have hv := hz.1 h
    have hvv : 0 < l.vec.dot l.vec := lt_of_le_of_ne (Vec3.normSq_nonneg l.vec)
      (fun h0 => hv (Vec3.normSq_eq_zero.1 h0.symm))
    set D := l.vec.dot l.vec with hD
    set w := x - l.startP with hw
    set s := w.dot l.vec / D with hs
    have hsD : s * D = w.dot l.vec := by rw [hs]; field_simp
    -- squared distance to the point with parameter `t`
    have hsq : ∀ t : K, (x - (l.startP + t • l.vec)).normSq = w.normSq - 2 * t * (s * D) + t * t * D := by
      intro t
      rw [hsD, hD, hw]
      simp only [Vec3.normSq, Vec3.dot, Vec3.sub_x, Vec3.sub_y, Vec3.sub_z, Vec3.add_x, Vec3.add_y, Vec3.add_z,
        Vec3.smul_x, Vec3.smul_y, Vec3.smul_z]
      ring
    have hL := hl.seg
    have hend : l.endP = l.startP + (1 : K) • l.vec := by rw [hl]; ext <;> simp
    obtain ⟨τ, hτ0, hτ1, hqτ, hmin⟩ : ∃ τ : K, 0 ≤ τ ∧ τ ≤ 1 ∧ q = l.startP + τ • l.vec ∧
        ∀ t : K, 0 ≤ t → t ≤ 1 → τ * τ - 2 * τ * s ≤ t * t - 2 * t * s := by
      rw [← hq]
      split_ifs with h1 h2
      · exact ⟨s, h1.1, h1.2, rfl, fun t _ _ => by nlinarith [mul_self_nonneg (t - s)]⟩
      · exact ⟨0, le_rfl, zero_le_one, by ext <;> simp, fun t ht _ => by nlinarith⟩
      · have h3 : 1 < s := by
          by_contra hc
          exact h1 ⟨not_lt.1 h2, not_lt.1 hc⟩
        exact ⟨1, zero_le_one, le_rfl, hend, fun t _ ht => by nlinarith⟩
    rw [hq] at hd
    refine ⟨(hL q).2 ⟨τ, hτ0, hτ1, hqτ⟩, hd.symm, fun y hy => ?_⟩
    obtain ⟨t, ht0, ht1, rfl⟩ := (hL y).1 hy
    rw [← hd, hN.le_iff, hqτ, hsq, hsq]
    have := hmin t ht0 ht1
    nlinarith

example : (GLine.mk2 (⟨0, 0, 0⟩ : Vec3 ℚ) ⟨4, 0, 0⟩).distancePoint (fun v => |v.y|) ⟨1, 3, 0⟩ 0 =
    some (⟨1, 0, 0⟩, 3) := by decide +kernel

/-- **C41.** The distance to a plane with unit normal is attained at the returned point, which lies in the plane, and
no point of the plane is closer. -/
theorem C41_plane (nrm : Vec3 K → K) (hN : IsNorm nrm) (p : GPlane K) (hn : p.normal.normSq = 1) (x : Vec3 K) :
    p.normal.dot (p.project x).2 = p.d ∧ (p.project x).1 = nrm (x - (p.project x).2) ∧
      ∀ y, p.normal.dot y = p.d → (p.project x).1 ≤ nrm (x - y) := by
  have hn' : p.normal.dot p.normal = 1 := hn
  have hdist : (p.project x).1 = nrm (x - (p.project x).2) := by
    simp only [GPlane.project, sub_sub_cancel]
    rw [hN.smul, hN.eq_of_sq zero_le_one (by rw [hn]; ring), mul_one]
  refine ⟨?_, hdist, fun y hy => ?_⟩
  · simp only [GPlane.project]
    rw [Vec3.dot_sub, Vec3.dot_smul, hn']; ring
  · have h1 := hN.nonneg (x - y)
    have h2 := hN.sq (x - y)
    have e : p.normal.dot x - p.d = p.normal.dot (x - y) := by rw [Vec3.dot_sub, hy]
    simp only [GPlane.project, e]
    refine abs_le_of_sq_le_sq ?_ h1
    rw [pow_two, pow_two, h2]
    -- Cauchy-Schwarz with a unit vector
    have key : (p.normal.dot (x - y)) * (p.normal.dot (x - y)) + (Vec3.cross p.normal (x - y)).normSq =
        p.normal.normSq * (x - y).normSq := by
      simp only [Vec3.normSq, Vec3.dot, Vec3.cross_x, Vec3.cross_y, Vec3.cross_z]; ring
    rw [hn, one_mul] at key
    linarith [Vec3.normSq_nonneg (Vec3.cross p.normal (x - y))]

example : (⟨⟨0, 0, 1⟩, 2⟩ : GPlane ℚ).project ⟨5, 6, 7⟩ = (5, ⟨5, 6, 2⟩) := by decide +kernel

/-- **C56.** Segment against plane, tolerance zero, unit normal: `intersects` succeeds exactly when the direction is
not parallel to the plane and some point of the segment lies in the plane; the returned point is that (only) point,
and it is reported as a vertex exactly when it is an end of the segment. -/
theorem C56_intersects (l : GLine K) (hl : l.Ok) (p : GPlane K) (hn : p.normal.normSq = 1) :
    (∀ q ty, l.intersectsPlane p 0 = some (q, ty) →
      Seg l.startP l.endP q ∧ p.normal.dot q = p.d ∧
      (∀ y, Seg l.startP l.endP y → p.normal.dot y = p.d → y = q) ∧
      (ty = ITy.itVertex ↔ q = l.startP ∨ q = l.endP)) ∧
    (l.intersectsPlane p 0 = none ↔
      p.normal.dot l.vec = 0 ∨ ∀ y, Seg l.startP l.endP y → p.normal.dot y ≠ p.d) := by
  have hn' : p.normal.dot p.normal = 1 := hn
  have hu : p.normal.dot (p.d • p.normal - l.startP) = p.d - p.normal.dot l.startP := by
    rw [Vec3.dot_sub, Vec3.dot_smul, hn', mul_one]
  have hL := hl.seg
  have habs : |p.normal.dot l.vec| ≤ (0 : K) * 0 ↔ p.normal.dot l.vec = 0 := by
    rw [mul_zero]; exact abs_nonpos_iff
  unfold GLine.intersectsPlane
  simp only [hu, neg_zero, add_zero, sub_zero, habs]
  set den := p.normal.dot l.vec with hden
  set num := p.normal.dot l.startP with hnum
  by_cases hd0 : den = 0
  · simp [hd0]
  · rw [if_neg hd0]
    have hs : num + (p.d - num) / den * den = p.d := by field_simp; ring
    set s := (p.d - num) / den with hsdef
    have huniq : ∀ t : K, num + t * den = p.d → t = s := by
      intro t ht
      have : (t - s) * den = 0 := by linear_combination ht - hs
      rcases mul_eq_zero.1 this with h | h
      · exact sub_eq_zero.1 h
      · exact absurd h hd0
    have hv0 : l.vec ≠ 0 := fun h0 => hd0 (by rw [hden, h0, Vec3.dot_zero])
    have hend : l.endP = l.startP + (1 : K) • l.vec := by rw [hl]; ext <;> simp
    have hstart : l.startP = l.startP + (0 : K) • l.vec := by ext <;> simp
    have hinj : ∀ a b : K, l.startP + a • l.vec = l.startP + b • l.vec → a = b := by
      intro a b hab
      have h1 := congrArg p.normal.dot hab
      rw [dot_param, dot_param] at h1
      have : (a - b) * den = 0 := by rw [hden]; linear_combination h1
      rcases mul_eq_zero.1 this with h | h
      · exact sub_eq_zero.1 h
      · exact absurd h hd0
    by_cases hr : 0 ≤ s ∧ s ≤ 1
    · rw [if_pos hr]
      refine ⟨?_, ?_⟩
      · intro q ty hq
        simp only [Option.some.injEq, Prod.mk.injEq] at hq
        obtain ⟨rfl, rfl⟩ := hq
        refine ⟨(hL _).2 ⟨s, hr.1, hr.2, rfl⟩, by rw [dot_param]; exact hs, ?_, ?_⟩
        · intro y hy hyd
          obtain ⟨t, _, _, rfl⟩ := (hL y).1 hy
          rw [dot_param] at hyd
          rw [huniq t hyd]
        · constructor
          · intro h
            split_ifs at h with hc
            rcases hc with hc | hc
            · left; rw [le_antisymm hc hr.1]; exact hstart.symm
            · right; rw [le_antisymm hr.2 hc]; exact hend.symm
          · rintro (h | h)
            · have : s = 0 := hinj s 0 (h.trans hstart)
              rw [if_pos (Or.inl this.le)]
            · have : s = 1 := hinj s 1 (h.trans hend)
              rw [if_pos (Or.inr this.ge)]
      · simp only [reduceCtorEq, false_iff, not_or, hd0, not_false_eq_true, true_and]
        intro h
        exact h _ ((hL _).2 ⟨s, hr.1, hr.2, rfl⟩) (by rw [dot_param]; exact hs)
    · rw [if_neg hr]
      refine ⟨fun q ty hq => by simp at hq, ?_⟩
      simp only [true_iff]
      right
      intro y hy hyd
      obtain ⟨t, h0, h1, rfl⟩ := (hL y).1 hy
      rw [dot_param] at hyd
      have := huniq t hyd
      exact hr ⟨this ▸ h0, this ▸ h1⟩

example : (GLine.mk2 (⟨0, 0, 0⟩ : Vec3 ℚ) ⟨4, 0, 2⟩).intersectsPlane ⟨⟨1, 0, 0⟩, 1⟩ 0 =
    some (⟨1, 0, 1 / 2⟩, ITy.itInternal) := by decide +kernel

/-- The unit-normal hypothesis of C56 is needed: the routine uses `d * n` as a point of the plane, which it is only
for a unit normal. For `2x = 2` and a segment crossing `x = 1` the reported point is off the plane. -/
theorem C56_needs_unit_normal : ∃ (l : GLine ℚ) (p : GPlane ℚ) (q : Vec3 ℚ) (ty : ITy), l.Ok ∧
    l.intersectsPlane p 0 = some (q, ty) ∧ p.normal.dot q ≠ p.d := by
  exact ⟨GLine.mk2 ⟨0, 0, 0⟩ ⟨8, 0, 0⟩, ⟨⟨2, 0, 0⟩, 2⟩, ⟨4, 0, 0⟩, ITy.itInternal, rfl, by decide +kernel,
    by decide +kernel⟩

/-- **C56.** `invert()` swaps the two ends, keeps the same set of points and is an involution. -/
theorem C56_invert (l : GLine K) (hl : l.Ok) :
    l.invert.startP = l.endP ∧ l.invert.endP = l.startP ∧ l.invert.Ok ∧ l.invert.invert = l ∧
      ∀ x, Seg l.invert.startP l.invert.endP x ↔ Seg l.startP l.endP x := by
  have h1 : l.invert.startP = l.endP := by simp only [GLine.invert]; rw [hl]; abel
  have h2 : l.invert.endP = l.startP := by simp only [GLine.invert]; rw [hl]; abel
  refine ⟨h1, h2, ?_, ?_, fun x => ?_⟩
  · unfold GLine.Ok
    rw [h1, h2]
    show -l.vec = _
    rw [hl]; abel
  · obtain ⟨a, b, v⟩ := l
    simp [GLine.invert]
  · rw [h1, h2]
    have swap : ∀ a b x : Vec3 K, Seg a b x → Seg b a x := by
      rintro a b x ⟨t, h0, h1, rfl⟩
      exact ⟨1 - t, by linarith, by linarith, by ext <;> simp <;> ring⟩
    exact ⟨swap _ _ _, swap _ _ _⟩

/-- A line whose end is set before its start keeps the old direction: its members disagree and `midPoint(1)` is not
the end point. -/
theorem C56_setStart_stale : ∃ (l : GLine ℚ) (a : Vec3 ℚ), l.Ok ∧ ¬ (l.setStart a).Ok ∧
    (l.setStart a).midPoint 1 ≠ (l.setStart a).endP := by
  refine ⟨GLine.mk2 ⟨0, 0, 0⟩ ⟨1, 0, 0⟩, ⟨5, 0, 0⟩, rfl, ?_, by decide +kernel⟩
  show ¬ (_ = _)
  decide +kernel

/-- **C57.** Two lines, tolerance zero: the routine fails exactly when the directions are parallel. When the
unclamped parameter on the first line lies in `[0, 1]`, the two returned points lie on the (infinite) lines and their
connection is orthogonal to both, so no pair of points of the two infinite lines is closer. -/
theorem C57_distanceLine (nrm : Vec3 K → K) (hN : IsNorm nrm) (l m : GLine K) :
    (l.distanceLine nrm m 0 = none ↔ Vec3.cross l.vec m.vec = 0) ∧
    ∀ p1 p2 d, l.distanceLine nrm m 0 = some (p1, p2, d) →
      d = nrm (p2 - p1) ∧ (∃ s : K, 0 ≤ s ∧ s ≤ 1 ∧ p1 = l.startP + s • l.vec) ∧
      (∃ t : K, p2 = m.startP + t • m.vec) ∧ (p2 - p1).dot m.vec = 0 ∧
      (∀ t : K, d ≤ nrm (m.startP + t • m.vec - p1)) ∧
      ((p2 - p1).dot l.vec = 0 → ∀ s t : K, d ≤ nrm ((m.startP + t • m.vec) - (l.startP + s • l.vec))) ∧
      ((∃ s : K, 0 < s ∧ s < 1 ∧ p1 = l.startP + s • l.vec) → (p2 - p1).dot l.vec = 0) := by
  have hlag : l.vec.dot l.vec * m.vec.dot m.vec - m.vec.dot l.vec * m.vec.dot l.vec =
      (Vec3.cross l.vec m.vec).normSq := by
    simp only [Vec3.normSq, Vec3.dot, Vec3.cross_x, Vec3.cross_y, Vec3.cross_z]; ring
  have habs : |(Vec3.cross l.vec m.vec).normSq| ≤ 0 ↔ Vec3.cross l.vec m.vec = 0 := by
    rw [abs_nonpos_iff]; exact Vec3.normSq_eq_zero
  unfold GLine.distanceLine
  simp only [hlag, habs, neg_zero, add_zero]
  by_cases hc : Vec3.cross l.vec m.vec = 0
  · simp [hc]
  · rw [if_neg hc]
    refine ⟨by simp [hc], fun p1 p2 d h => ?_⟩
    have hne : (Vec3.cross l.vec m.vec).normSq ≠ 0 := fun h0 => hc (Vec3.normSq_eq_zero.1 h0)
    have hm : m.vec ≠ 0 := by
      intro h0
      apply hc
      rw [h0]; ext <;> simp
    have hl0 : l.vec ≠ 0 := by
      intro h0
      apply hc
      rw [h0]; ext <;> simp
    have hmm : m.vec.dot m.vec ≠ 0 := fun h0 => hm (Vec3.normSq_eq_zero.1 h0)
    set mu0 := ((l.startP - m.startP).dot m.vec * m.vec.dot l.vec -
      (l.startP - m.startP).dot l.vec * m.vec.dot m.vec) / (Vec3.cross l.vec m.vec).normSq with hmu0
    have hmu0' : mu0 * (Vec3.cross l.vec m.vec).normSq = (l.startP - m.startP).dot m.vec * m.vec.dot l.vec -
      (l.startP - m.startP).dot l.vec * m.vec.dot m.vec := by rw [hmu0]; field_simp
    obtain ⟨mu, hmu, hmuin, hmueq⟩ : ∃ mu : K, (if 1 < (if mu0 < 0 then 0 else mu0) then 1 else
        (if mu0 < 0 then 0 else mu0)) = mu ∧ (0 ≤ mu ∧ mu ≤ 1) ∧ (0 < mu → mu < 1 → mu = mu0) := by
      refine ⟨_, rfl, ?_, ?_⟩
      · split_ifs with h1 h2 h3
        all_goals first
          | exact ⟨zero_le_one, le_rfl⟩
          | exact ⟨le_rfl, zero_le_one⟩
          | exact ⟨not_lt.1 h1, not_lt.1 h2⟩
          | exact ⟨not_lt.1 h2, not_lt.1 h1⟩
          | skip
        all_goals exact ⟨not_lt.1 (by assumption), not_lt.1 (by assumption)⟩
      · intro h1 h2
        split_ifs at h1 h2 ⊢ with h3 h4
        all_goals first
          | rfl
          | exact absurd h1 (lt_irrefl _)
          | exact absurd h2 (lt_irrefl _)
    simp only [hmu, Option.some.injEq, Prod.mk.injEq] at h
    obtain ⟨rfl, rfl, rfl⟩ := h
    set t0 := ((l.startP - m.startP).dot m.vec + m.vec.dot l.vec * mu) / m.vec.dot m.vec with ht0
    have ht0' : t0 * m.vec.dot m.vec = (l.startP - m.startP).dot m.vec + m.vec.dot l.vec * mu := by
      rw [ht0]; field_simp
    have horth : (m.startP + t0 • m.vec - (l.startP + mu • l.vec)).dot m.vec = 0 := by
      simp only [Vec3.sub_dot, Vec3.add_dot, Vec3.smul_dot] at ht0' ⊢
      rw [Vec3.dot_comm l.vec m.vec]
      linear_combination ht0'
    refine ⟨rfl, ⟨mu, hmuin.1, hmuin.2, rfl⟩, ⟨t0, rfl⟩, horth, fun t => ?_, fun ho s t => ?_, ?_⟩
    · rw [hN.le_iff]
      have e : (m.startP + t • m.vec - (l.startP + mu • l.vec)).normSq =
          (m.startP + t0 • m.vec - (l.startP + mu • l.vec)).normSq +
            2 * (t - t0) * (m.startP + t0 • m.vec - (l.startP + mu • l.vec)).dot m.vec +
            (t - t0) * (t - t0) * m.vec.normSq := by
        simp only [Vec3.normSq, Vec3.dot, Vec3.sub_x, Vec3.sub_y, Vec3.sub_z, Vec3.add_x, Vec3.add_y, Vec3.add_z,
          Vec3.smul_x, Vec3.smul_y, Vec3.smul_z]
        ring
      rw [e, horth]
      nlinarith [mul_nonneg (mul_self_nonneg (t - t0)) (Vec3.normSq_nonneg m.vec)]
    · rw [hN.le_iff]
      have e : (m.startP + t • m.vec - (l.startP + s • l.vec)).normSq =
          (m.startP + t0 • m.vec - (l.startP + mu • l.vec)).normSq +
            2 * (t - t0) * (m.startP + t0 • m.vec - (l.startP + mu • l.vec)).dot m.vec -
            2 * (s - mu) * (m.startP + t0 • m.vec - (l.startP + mu • l.vec)).dot l.vec +
            ((t - t0) • m.vec - (s - mu) • l.vec).normSq := by
        simp only [Vec3.normSq, Vec3.dot, Vec3.sub_x, Vec3.sub_y, Vec3.sub_z, Vec3.add_x, Vec3.add_y, Vec3.add_z,
          Vec3.smul_x, Vec3.smul_y, Vec3.smul_z]
        ring
      rw [e, horth, ho]
      have := Vec3.normSq_nonneg ((t - t0) • m.vec - (s - mu) • l.vec)
      linarith
    · rintro ⟨s, h0, h1, hs⟩
      have hmus : mu = s := by
        have h2 : (mu - s) • l.vec = 0 := by
          have := sub_eq_zero.2 hs
          rw [sub_smul]; rw [← this]; abel
        by_contra hne2
        apply hl0
        have h3 : mu - s ≠ 0 := sub_ne_zero.2 hne2
        have := congrArg (fun v => (mu - s)⁻¹ • v) h2
        simpa [smul_smul, h3] using this
      have hmm0 : mu = mu0 := hmueq (hmus ▸ h0) (hmus ▸ h1)
      have key : (m.startP + t0 • m.vec - (l.startP + mu • l.vec)).dot l.vec * m.vec.dot m.vec = 0 := by
        rw [← hmm0, ← hlag] at hmu0'
        simp only [Vec3.sub_dot, Vec3.add_dot, Vec3.smul_dot] at ht0' hmu0' ⊢
        linear_combination m.vec.dot l.vec * ht0' - hmu0'
      exact (mul_eq_zero.1 key).resolve_right hmm

example : (GLine.mk2 (⟨0, 0, 0⟩ : Vec3 ℚ) ⟨4, 0, 0⟩).distanceLine (fun v => |v.z|) (GLine.mk2 ⟨1, -1, 3⟩ ⟨1, 1, 3⟩) 0 =
    some (⟨1, 0, 0⟩, ⟨1, 0, 3⟩, 3) := by decide +kernel

/-- The routine is not a distance between segments: the parameter on the second line is never clamped, so the second
point can lie outside the second segment. -/
theorem C57_second_point_unclamped : ∃ (l m : GLine ℚ) (p1 p2 : Vec3 ℚ) (d : ℚ), l.Ok ∧ m.Ok ∧
    l.distanceLine (fun v => |v.z|) m 0 = some (p1, p2, d) ∧ ¬ Seg m.startP m.endP p2 := by
  refine ⟨GLine.mk2 ⟨0, 0, 0⟩ ⟨4, 0, 0⟩, GLine.mk2 ⟨1, 1, 3⟩ ⟨1, 2, 3⟩, ⟨1, 0, 0⟩, ⟨1, 0, 3⟩, 3, rfl, rfl,
    by decide +kernel, ?_⟩
  rintro ⟨t, h0, h1, h⟩
  have := congrArg Vec3.y h
  simp [GLine.mk2] at this
  linarith

end ENigMA
