import Verif.Geometry.LineLine
import Verif.Geometry.LineProps
import Verif.Mesh.Quality
import Mathlib.Analysis.SpecialFunctions.Trigonometric.Bounds

/-! # C84: the common point of two segments -/

set_option linter.unusedSectionVars false
set_option autoImplicit false

namespace ENigMA

variable {K : Type} [Field K] [LinearOrder K] [IsStrictOrderedRing K]

/-- `x` is a point of the segment from `a` to `b`. -/
def OnSeg (a b x : Vec3 K) : Prop := ∃ t : K, 0 ≤ t ∧ t ≤ 1 ∧ x = a + t • (b - a)

/-- The test by cosines is the comparison of the angle with 3.14/180 radian. -/
theorem withinDegree_iff (eps : ℝ) (heps : 0 ≤ eps) (a b : Vec3 ℝ) :
    withinDegree eps (Real.cos (3.14 / 180)) a b = true ↔ Quality.angle eps a b ≤ 3.14 / 180 := by
  have hpi := Real.two_le_pi
  have hc : 0 < Real.cos (3.14 / 180) := Real.cos_pos_of_mem_Ioo ⟨by linarith, by linarith⟩
  have hc1 : Real.cos (3.14 / 180) ≤ 1 := Real.cos_le_one _
  have key : ∀ r : ℝ, -1 ≤ r → r ≤ 1 → (Real.arccos r ≤ 3.14 / 180 ↔ Real.cos (3.14 / 180) ≤ r) := by
    intro r h1 h2
    rw [← Real.strictAntiOn_cos.le_iff_ge (show (3.14 / 180 : ℝ) ∈ Set.Icc 0 Real.pi from ⟨by norm_num, by linarith⟩)
      ⟨Real.arccos_nonneg r, Real.arccos_le_pi r⟩, Real.cos_arccos h1 h2]
  unfold withinDegree Quality.angle
  simp only [Bool.and_eq_true, decide_eq_true_iff, gt_iff_lt]
  by_cases h : eps < a.normSq ∧ eps < b.normSq
  · rw [if_pos h]
    have hp : 0 < a.normSq * b.normSq := mul_pos (lt_of_le_of_lt heps h.1) (lt_of_le_of_lt heps h.2)
    have hs := Real.sqrt_pos.2 hp
    have hss := Real.mul_self_sqrt hp.le
    set r := a.dot b / Real.sqrt (a.normSq * b.normSq) with hr
    have e : (if 1 < (if r < -1 then -1 else r) then 1 else if r < -1 then -1 else r) = max (-1) (min r 1) := by
      rcases lt_or_ge r (-1) with k | k
      · rw [if_pos k, if_neg (by norm_num), min_eq_left (by linarith), max_eq_left k.le]
      · rw [if_neg (not_lt.2 k)]
        rcases lt_or_ge 1 r with k' | k'
        · rw [if_pos k', min_eq_right k'.le, max_eq_right (by norm_num)]
        · rw [if_neg (not_lt.2 k'), min_eq_left k', max_eq_right k]
    rw [e, key _ (le_max_left _ _) (max_le (by norm_num) (min_le_right _ _))]
    have e2 : Real.cos (3.14 / 180) ≤ max (-1) (min r 1) ↔ Real.cos (3.14 / 180) ≤ r := by
      constructor
      · intro k
        rcases le_max_iff.1 k with k | k
        · linarith
        · exact (le_min_iff.1 k).1
      · exact fun k => le_max_of_le_right (le_min k hc1)
    rw [e2, hr, le_div_iff₀ hs]
    constructor
    · rintro ⟨⟨-, h0⟩, h1⟩
      have h2 : (Real.cos (3.14 / 180) * Real.sqrt (a.normSq * b.normSq)) ^ 2 ≤ (a.dot b) ^ 2 := by
        rw [mul_pow, pow_two (Real.sqrt _), hss]; nlinarith
      exact (sq_le_sq₀ (by positivity) h0).1 h2
    · intro h1
      have h0 : 0 ≤ a.dot b := le_trans (by positivity) h1
      refine ⟨⟨h, h0⟩, ?_⟩
      have h2 := (sq_le_sq₀ (by positivity) h0).2 h1
      rw [mul_pow, pow_two (Real.sqrt _), hss] at h2
      nlinarith
  · rw [if_neg h]
    constructor
    · rintro ⟨⟨h', -⟩, -⟩; exact absurd h' h
    · intro h'
      exfalso
      norm_num at h'
      linarith

namespace GLine

theorem cross_of_coplanar {da db dc : Vec3 K} (h : dc.dot (Vec3.cross da db) = 0) (hd : (Vec3.cross da db).normSq ≠ 0) :
    Vec3.cross dc db = ((Vec3.cross dc db).dot (Vec3.cross da db) / (Vec3.cross da db).normSq) • Vec3.cross da db := by
  have e : (Vec3.cross da db).normSq • Vec3.cross dc db = (Vec3.cross dc db).dot (Vec3.cross da db) • Vec3.cross da db := by
    obtain ⟨ax, ay, az⟩ := da
    obtain ⟨bx, b_y, bz⟩ := db
    obtain ⟨cx, cy, cz⟩ := dc
    ext
    · simp [Vec3.normSq, Vec3.dot] at h ⊢
      linear_combination ((az * bx - ax * bz) * bz - (ax * b_y - ay * bx) * b_y) * h
    · simp [Vec3.normSq, Vec3.dot] at h ⊢
      linear_combination ((ax * b_y - ay * bx) * bx - (ay * bz - az * b_y) * bz) * h
    · simp [Vec3.normSq, Vec3.dot] at h ⊢
      linear_combination ((ay * bz - az * b_y) * b_y - (az * bx - ax * bz) * bx) * h
  rw [div_eq_inv_mul, mul_smul, ← e, smul_smul, inv_mul_cancel₀ hd, one_smul]

/-- A vector without a component across `b` is a multiple of it. -/
theorem parallel_eq {v b : Vec3 K} (h : Vec3.cross v b = 0) (hb : b.normSq ≠ 0) : v = (b.dot v / b.normSq) • b := by
  have e : b.normSq • v = b.dot v • b := by
    obtain ⟨bx, b_y, bz⟩ := b
    obtain ⟨x, y, z⟩ := v
    have h1 : y * bz - z * b_y = 0 := congrArg Vec3.x h
    have h2 : z * bx - x * bz = 0 := congrArg Vec3.y h
    have h3 : x * b_y - y * bx = 0 := congrArg Vec3.z h
    ext
    · simp [Vec3.normSq, Vec3.dot]; linear_combination b_y * h3 - bz * h2
    · simp [Vec3.normSq, Vec3.dot]; linear_combination bz * h1 - bx * h3
    · simp [Vec3.normSq, Vec3.dot]; linear_combination bx * h2 - b_y * h1
  rw [div_eq_inv_mul, mul_smul, ← e, smul_smul, inv_mul_cancel₀ hb, one_smul]

/-- The point at the parameter `s` of the line. -/
theorem param_inj {a da c db : Vec3 K} (hd : Vec3.cross da db ≠ 0) {t u t' u' : K} (h : a + t • da = c + u • db)
    (h' : a + t' • da = c + u' • db) : t = t' ∧ u = u' := by
  have hx := congrArg Vec3.x h
  have hy := congrArg Vec3.y h
  have hz := congrArg Vec3.z h
  have hx' := congrArg Vec3.x h'
  have hy' := congrArg Vec3.y h'
  have hz' := congrArg Vec3.z h'
  simp only [Vec3.add_x, Vec3.add_y, Vec3.add_z, Vec3.smul_x, Vec3.smul_y, Vec3.smul_z] at hx hy hz hx' hy' hz'
  constructor
  · by_contra hne
    apply hd
    have hne : t - t' ≠ 0 := sub_ne_zero.2 hne
    ext
    · apply mul_left_cancel₀ hne; simp only [Vec3.cross_x, Vec3.cross_y, Vec3.cross_z, Vec3.zero_x, Vec3.zero_y, Vec3.zero_z]; linear_combination db.z * (hy - hy') - db.y * (hz - hz')
    · apply mul_left_cancel₀ hne; simp only [Vec3.cross_x, Vec3.cross_y, Vec3.cross_z, Vec3.zero_x, Vec3.zero_y, Vec3.zero_z]; linear_combination db.x * (hz - hz') - db.z * (hx - hx')
    · apply mul_left_cancel₀ hne; simp only [Vec3.cross_x, Vec3.cross_y, Vec3.cross_z, Vec3.zero_x, Vec3.zero_y, Vec3.zero_z]; linear_combination db.y * (hx - hx') - db.x * (hy - hy')
  · by_contra hne
    apply hd
    have hne : u - u' ≠ 0 := sub_ne_zero.2 hne
    ext
    · apply mul_left_cancel₀ hne; simp only [Vec3.cross_x, Vec3.cross_y, Vec3.cross_z, Vec3.zero_x, Vec3.zero_y, Vec3.zero_z]; linear_combination da.z * (hy - hy') - da.y * (hz - hz')
    · apply mul_left_cancel₀ hne; simp only [Vec3.cross_x, Vec3.cross_y, Vec3.cross_z, Vec3.zero_x, Vec3.zero_y, Vec3.zero_z]; linear_combination da.x * (hz - hz') - da.z * (hx - hx')
    · apply mul_left_cancel₀ hne; simp only [Vec3.cross_x, Vec3.cross_y, Vec3.cross_z, Vec3.zero_x, Vec3.zero_y, Vec3.zero_z]; linear_combination da.y * (hx - hx') - da.x * (hy - hy')

theorem boxes_meet (big : K) (l m : GLine K) (hl : l.Ok) (hm : m.Ok) (x : Vec3 K) (h1 : OnSeg l.startP l.endP x) (h2 : OnSeg m.startP m.endP x) :
    (l.bbox big).intersects (m.bbox big) 0 = true := by
  have key : ∀ (a b : Vec3 K), OnSeg a b x → InBox (BBox.ofPoints big [a, b]).min (BBox.ofPoints big [a, b]).max x := by
    rintro a b ⟨t, t0, t1, rfl⟩
    have lo : ∀ m x0 x1 : K, m ≤ x0 → m ≤ x1 → m ≤ x0 + t * (x1 - x0) := by
      intro m x0 x1 a0 a1
      nlinarith [mul_le_mul_of_nonneg_left a1 t0, mul_le_mul_of_nonneg_left a0 (sub_nonneg.2 t1)]
    have hi : ∀ m x0 x1 : K, x0 ≤ m → x1 ≤ m → x0 + t * (x1 - x0) ≤ m := by
      intro m x0 x1 a0 a1
      nlinarith [mul_le_mul_of_nonneg_left a1 t0, mul_le_mul_of_nonneg_left a0 (sub_nonneg.2 t1)]
    simp only [InBox, BBox.ofPoints, List.foldl, BBox.addCoordinate, BBox.reset, Vec3.add_x, Vec3.add_y, Vec3.add_z,
      Vec3.smul_x, Vec3.smul_y, Vec3.smul_z, Vec3.sub_x, Vec3.sub_y, Vec3.sub_z]
    refine ⟨⟨lo _ _ _ ?_ ?_, hi _ _ _ ?_ ?_⟩, ⟨lo _ _ _ ?_ ?_, hi _ _ _ ?_ ?_⟩, ⟨lo _ _ _ ?_ ?_, hi _ _ _ ?_ ?_⟩⟩ <;>
      simp only [min_le_iff, le_max_iff, le_refl, true_or, or_true]
  obtain ⟨⟨a1, a2⟩, ⟨a3, a4⟩, a5, a6⟩ := key _ _ h1
  obtain ⟨⟨b1, b2⟩, ⟨b3, b4⟩, b5, b6⟩ := key _ _ h2
  unfold BBox.intersects bbox
  simp only [Bool.and_eq_true, decide_eq_true_iff, sub_zero, add_zero, ge_iff_le]
  exact ⟨⟨⟨⟨⟨a1.trans b2, b1.trans a2⟩, a3.trans b4⟩, b3.trans a4⟩, a5.trans b6⟩, b5.trans a6⟩

/-- A point is an end of the segment. -/
def IsEnd (l : GLine K) (x : Vec3 K) : Prop := x = l.startP ∨ x = l.endP

end GLine

section
variable {nrm : Vec3 K → K} (hN : IsNorm nrm)
include hN

theorem IsNorm.sub_le_zero {a b : Vec3 K} : nrm (a - b) ≤ 0 ↔ a = b := by
  constructor
  · intro h
    have := hN.eq_zero.1 (le_antisymm h (hN.nonneg _))
    ext
    · have := congrArg Vec3.x this; simp at this; linarith
    · have := congrArg Vec3.y this; simp at this; linarith
    · have := congrArg Vec3.z this; simp at this; linarith
  · rintro rfl
    have : a - a = 0 := by ext <;> simp
    rw [this, hN.zero]

/-- `contains` of a point of the line, tolerance 0. -/
theorem GLine.contains_param {eps cos1 : K} (heps : 0 ≤ eps) (m : GLine K) {x : Vec3 K} {u : K}
    (hx : x = m.startP + u • m.vec) (hc : |cos1| ≤ 1) (hv : eps < m.vec.normSq) (hf : eps < (x - m.startP).normSq) :
    m.contains nrm eps cos1 x 0 = if 0 ≤ u ∧ u ≤ 1 then some (if u ≤ 0 ∨ 1 ≤ u then .itVertex else .itInternal) else none := by
  have hv0 : 0 < m.vec.normSq := lt_of_le_of_lt heps hv
  have hsub : x - m.startP = u • m.vec := by rw [hx]; ext <;> simp
  have hn : nrm m.vec ≠ 0 := by
    intro h; have := hN.sq m.vec; rw [h] at this; simp at this; exact hv0.ne this
  have hdot : m.vec.dot (x - m.startP) = u * m.vec.normSq := by rw [hsub, Vec3.dot_smul]; rfl
  have hs : ((nrm m.vec)⁻¹ • m.vec).dot (x - m.startP) / nrm m.vec = u := by
    rw [Vec3.smul_dot, hdot, ← hN.sq]; field_simp
  have hnsq : (x - m.startP).normSq = u * u * m.vec.normSq := by
    rw [hsub]; simp only [Vec3.normSq, Vec3.dot, Vec3.smul_x, Vec3.smul_y, Vec3.smul_z]; ring
  have hc2 : cos1 * cos1 ≤ 1 := by
    have := abs_le.1 hc; nlinarith
  have hw : withinDegree eps cos1 m.vec (x - m.startP) = decide (0 ≤ u) := by
    unfold withinDegree
    rw [decide_eq_true hv, decide_eq_true hf, hdot, hnsq]
    by_cases h0 : 0 ≤ u
    · rw [decide_eq_true (mul_nonneg h0 hv0.le), decide_eq_true h0, decide_eq_true]; · rfl
      have : 0 ≤ u * m.vec.normSq * (u * m.vec.normSq) := mul_self_nonneg _
      nlinarith [mul_le_mul_of_nonneg_right hc2 this]
    · have : ¬ 0 ≤ u * m.vec.normSq := not_le.2 (mul_neg_of_neg_of_pos (not_le.1 h0) hv0)
      rw [decide_eq_false this, decide_eq_false h0]; simp
  unfold GLine.contains
  simp only [hw, hs, neg_zero, add_zero, sub_zero]
  by_cases h0 : 0 ≤ u
  · simp [h0]
  · simp [h0]

open Classical in
/-- **C84** for segments that are not parallel, tolerance 0. `intersects` reports no point that the segments do not have in common. A common point is reported, except when it
is (or lies within the square root of the machine epsilon of) the start point of the argument and is not an end of both. It is a vertex exactly if it is an end of both. -/
theorem C84_segments (eps big cos1 : K) (heps : 0 ≤ eps) (hc : |cos1| ≤ 1) (l m : GLine K) (hl : l.Ok) (hm : m.Ok)
    (hd : Vec3.cross l.vec m.vec ≠ 0) (hlen : eps < m.vec.normSq) :
    (∀ x ty, l.intersects nrm eps big cos1 m 0 = some (x, ty) → OnSeg l.startP l.endP x ∧ OnSeg m.startP m.endP x) ∧
    (∀ x, OnSeg l.startP l.endP x → OnSeg m.startP m.endP x →
      l.intersects nrm eps big cos1 m 0 =
        if l.IsEnd x ∧ m.IsEnd x then some (x, .itVertex)
        else if eps < (x - m.startP).normSq then some (x, .itInternal) else none) := by
  have hdn : (Vec3.cross l.vec m.vec).normSq ≠ 0 := fun h => hd (Vec3.normSq_eq_zero.1 h)
  have hdp : ¬ (Vec3.cross l.vec m.vec).normSq ≤ 0 := fun h => hdn (le_antisymm h (Vec3.normSq_nonneg _))
  have hdb : m.vec.normSq ≠ 0 := (lt_of_le_of_lt heps hlen).ne'
  have segl : ∀ t : K, 0 ≤ t → t ≤ 1 → OnSeg l.startP l.endP (l.startP + t • l.vec) := fun t h0 h1 => ⟨t, h0, h1, by rw [hl]⟩
  have segm : ∀ t : K, 0 ≤ t → t ≤ 1 → OnSeg m.startP m.endP (m.startP + t • m.vec) := fun t h0 h1 => ⟨t, h0, h1, by rw [hm]⟩
  have s0 : ∀ a v : Vec3 K, a + (0 : K) • v = a := fun a v => by ext <;> simp
  have l1 : l.startP + (1 : K) • l.vec = l.endP := by rw [hl]; ext <;> simp
  have m1 : m.startP + (1 : K) • m.vec = m.endP := by rw [hm]; ext <;> simp
  have la : OnSeg l.startP l.endP l.startP := by have := segl 0 le_rfl zero_le_one; rwa [s0] at this
  have lb : OnSeg l.startP l.endP l.endP := by have := segl 1 zero_le_one le_rfl; rwa [l1] at this
  have ma : OnSeg m.startP m.endP m.startP := by have := segm 0 le_rfl zero_le_one; rwa [s0] at this
  have mb : OnSeg m.startP m.endP m.endP := by have := segm 1 zero_le_one le_rfl; rwa [m1] at this
  constructor
  · intro x ty h
    unfold GLine.intersects at h
    simp only [hN.sub_le_zero, mul_zero, if_neg hdp, neg_zero, add_zero, sub_zero] at h
    split_ifs at h with g1 g2 g3 g4 g5 g6 g7 g8 g9 <;> try simp only [Option.some.injEq, Prod.mk.injEq, reduceCtorEq] at h
    · obtain ⟨rfl, -⟩ := h; exact ⟨la, by rw [g3.1]; exact ma⟩
    · obtain ⟨rfl, -⟩ := h; exact ⟨la, by rw [g4.1]; exact mb⟩
    · obtain ⟨rfl, -⟩ := h; exact ⟨lb, by rw [g6]; exact mb⟩
    · obtain ⟨rfl, -⟩ := h
      rcases g5 with g5 | g5
      · exact ⟨la, by rw [g5]; exact ma⟩
      · exact absurd g5 g6
    · obtain ⟨rfl, -⟩ := h; exact ⟨lb, by rw [g8]; exact ma⟩
    · obtain ⟨rfl, -⟩ := h
      rcases g7 with g7 | g7
      · exact ⟨la, by rw [g7]; exact mb⟩
      · exact absurd g7 g8
    all_goals
      set s := (Vec3.cross (m.startP - l.startP) m.vec).dot (Vec3.cross l.vec m.vec) / (Vec3.cross l.vec m.vec).normSq with hs
      have hcop : (m.startP - l.startP).dot (Vec3.cross l.vec m.vec) = 0 := by
        have := not_lt.1 g2; exact abs_eq_zero.1 (le_antisymm this (abs_nonneg _))
      have hw := GLine.cross_of_coplanar hcop hdn
      rw [← hs] at hw
      have hx0 : Vec3.cross (l.startP + s • l.vec - m.startP) m.vec = 0 := by
        have e : Vec3.cross (l.startP + s • l.vec - m.startP) m.vec = s • Vec3.cross l.vec m.vec - Vec3.cross (m.startP - l.startP) m.vec := by
          ext <;> simp <;> ring
        rw [e, hw]; ext <;> simp
      have hpar := GLine.parallel_eq hx0 hdb
      set u := m.vec.dot (l.startP + s • l.vec - m.startP) / m.vec.normSq with hu
      have hxu : l.startP + s • l.vec = m.startP + u • m.vec := by
        rw [← hpar]; ext <;> simp
      split at h
      · rename_i ty' hct
        simp only [Option.some.injEq, Prod.mk.injEq] at h
        obtain ⟨rfl, -⟩ := h
        refine ⟨segl s g9.1 g9.2, ?_⟩
        have hfar : eps < (l.startP + s • l.vec - m.startP).normSq := by
          by_contra hn
          unfold GLine.contains withinDegree at hct
          simp only [decide_eq_false hn] at hct
          simp at hct
        rw [GLine.contains_param hN heps m hxu hc hlen hfar] at hct
        split_ifs at hct with k
        · rw [hxu]; exact segm u k.1 k.2
        · rw [hxu]; exact segm u k.1 k.2
      · simp at h
  · rintro x ⟨t, t0, t1, rfl⟩ hx2
    rw [← hl] at hx2 ⊢
    have hx1 := segl t t0 t1
    have hbox := GLine.boxes_meet big l m hl hm _ hx1 hx2
    obtain ⟨u, u0, u1, hu⟩ := hx2
    rw [← hm] at hu
    have hinj := fun (t' u' : K) (h : l.startP + t' • l.vec = m.startP + u' • m.vec) => GLine.param_inj hd hu h
    have conv : ∀ t' u' : K, t = t' → u = u' → l.startP + t' • l.vec = m.startP + u' • m.vec := by
      rintro _ _ rfl rfl; exact hu
    have e1 : l.startP = m.startP ↔ t = 0 ∧ u = 0 :=
      ⟨fun h => hinj 0 0 (by rw [s0, s0]; exact h), fun h => by have := conv 0 0 h.1 h.2; rwa [s0, s0] at this⟩
    have e2 : l.endP = m.endP ↔ t = 1 ∧ u = 1 :=
      ⟨fun h => hinj 1 1 (by rw [l1, m1]; exact h), fun h => by have := conv 1 1 h.1 h.2; rwa [l1, m1] at this⟩
    have e3 : l.startP = m.endP ↔ t = 0 ∧ u = 1 :=
      ⟨fun h => hinj 0 1 (by rw [s0, m1]; exact h), fun h => by have := conv 0 1 h.1 h.2; rwa [s0, m1] at this⟩
    have e4 : l.endP = m.startP ↔ t = 1 ∧ u = 0 :=
      ⟨fun h => hinj 1 0 (by rw [l1, s0]; exact h), fun h => by have := conv 1 0 h.1 h.2; rwa [l1, s0] at this⟩
    have el : l.IsEnd (l.startP + t • l.vec) ↔ t = 0 ∨ t = 1 := by
      have k : ∀ t', l.startP + t • l.vec = l.startP + t' • l.vec → t = t' := fun t' h => (hinj t' u (h.symm.trans hu)).1
      constructor
      · rintro (h | h)
        · exact Or.inl (k 0 (by rw [s0]; exact h))
        · exact Or.inr (k 1 (by rw [l1]; exact h))
      · rintro (rfl | rfl)
        · exact Or.inl (s0 _ _)
        · exact Or.inr l1
    have em : m.IsEnd (l.startP + t • l.vec) ↔ u = 0 ∨ u = 1 := by
      have k : ∀ u', l.startP + t • l.vec = m.startP + u' • m.vec → u = u' := fun u' h => (hinj t u' h).2
      constructor
      · rintro (h | h)
        · exact Or.inl (k 0 (by rw [s0]; exact h))
        · exact Or.inr (k 1 (by rw [m1]; exact h))
      · rintro (rfl | rfl)
        · exact Or.inl (by rw [hu, s0])
        · exact Or.inr (by rw [hu, m1])
    have hcop : (m.startP - l.startP).dot (Vec3.cross l.vec m.vec) = 0 := by
      have hx := congrArg Vec3.x hu
      have hy := congrArg Vec3.y hu
      have hz := congrArg Vec3.z hu
      simp at hx hy hz
      simp [Vec3.dot]
      linear_combination (l.vec.z * m.vec.y - l.vec.y * m.vec.z) * hx + (l.vec.x * m.vec.z - l.vec.z * m.vec.x) * hy +
        (l.vec.y * m.vec.x - l.vec.x * m.vec.y) * hz
    have hcr : Vec3.cross (m.startP - l.startP) m.vec = t • Vec3.cross l.vec m.vec := by
      have hx := congrArg Vec3.x hu
      have hy := congrArg Vec3.y hu
      have hz := congrArg Vec3.z hu
      simp at hx hy hz
      ext <;> simp
      · linear_combination m.vec.y * hz - m.vec.z * hy
      · linear_combination m.vec.z * hx - m.vec.x * hz
      · linear_combination m.vec.x * hy - m.vec.y * hx
    have hst : (Vec3.cross (m.startP - l.startP) m.vec).dot (Vec3.cross l.vec m.vec) / (Vec3.cross l.vec m.vec).normSq = t := by
      rw [hcr, Vec3.smul_dot]; exact mul_div_cancel_right₀ _ hdn
    unfold GLine.intersects
    simp only [hbox, hcop, hN.sub_le_zero, mul_zero, if_neg hdp, neg_zero, add_zero, sub_zero, hst, e1, e2, e3, e4, el, em, abs_zero,
      lt_self_iff_false, if_false, Bool.not_true, Bool.false_eq_true]
    have z1 : ¬ (0 : K) = 1 := zero_ne_one
    by_cases hend : (t = 0 ∨ t = 1) ∧ (u = 0 ∨ u = 1)
    · rw [if_pos hend]
      rcases hend with ⟨rfl | rfl, rfl | rfl⟩ <;> simp [s0, one_smul, ← l1]
    · have n1 : ¬ (t = 0 ∧ u = 0) := fun h => hend ⟨.inl h.1, .inl h.2⟩
      have n2 : ¬ (t = 1 ∧ u = 1) := fun h => hend ⟨.inr h.1, .inr h.2⟩
      have n3 : ¬ (t = 0 ∧ u = 1) := fun h => hend ⟨.inl h.1, .inr h.2⟩
      have n4 : ¬ (t = 1 ∧ u = 0) := fun h => hend ⟨.inr h.1, .inl h.2⟩
      rw [if_neg hend]
      simp only [n1, n2, n3, n4, t0, t1, false_and, or_self, if_false, and_self, if_true]
      by_cases hfar : eps < (l.startP + t • l.vec - m.startP).normSq
      · rw [if_pos hfar, GLine.contains_param hN heps m hu hc hlen hfar, if_pos ⟨u0, u1⟩]
        simp only [Option.some.injEq, Prod.mk.injEq, true_and]
        by_cases hint : 0 < t ∧ t < 1
        · rw [if_pos hint]
        · rw [if_neg hint, if_neg]
          intro hcl
          apply hend
          refine ⟨?_, ?_⟩
          · by_contra hne
            push Not at hne
            exact hint ⟨lt_of_le_of_ne t0 (Ne.symm hne.1), lt_of_le_of_ne t1 hne.2⟩
          · exact hcl.imp (fun h => le_antisymm h u0) (fun h => le_antisymm u1 h)
      · rw [if_neg hfar]
        have : m.contains nrm eps cos1 (l.startP + t • l.vec) 0 = none := by
          unfold GLine.contains withinDegree
          simp only [decide_eq_false hfar]
          simp
        rw [this]
end

/-- A crossing at the middle of both, a common corner and a T: the hypotheses are met, and the three cases of the result occur. -/
example : let l : GLine ℝ := GLine.mk2 ⟨0, 0, 0⟩ ⟨2, 0, 0⟩
    let m : GLine ℝ := GLine.mk2 ⟨1, -1, 0⟩ ⟨1, 1, 0⟩
    let t : GLine ℝ := GLine.mk2 ⟨1, 0, 0⟩ ⟨1, 1, 0⟩
    let c : GLine ℝ := GLine.mk2 ⟨2, 0, 0⟩ ⟨2, 1, 0⟩
    l.intersects realNorm 0 100 1 m 0 = some (⟨1, 0, 0⟩, .itInternal) ∧
    l.intersects realNorm 0 100 1 t 0 = none ∧ l.intersects realNorm 0 100 1 c 0 = some (⟨2, 0, 0⟩, .itVertex) := by
  intro l m t c
  have on : ∀ (a b x : Vec3 ℝ) (s : ℝ), 0 ≤ s → s ≤ 1 → x = a + s • (b - a) → OnSeg a b x := fun a b x s h0 h1 h => ⟨s, h0, h1, h⟩
  refine ⟨?_, ?_, ?_⟩
  · rw [(C84_segments isNorm_real 0 100 1 le_rfl (by simp) l m rfl rfl (by intro h; have := congrArg Vec3.z h; simp [l, m, GLine.mk2] at this)
      (by norm_num [m, GLine.mk2, Vec3.normSq, Vec3.dot])).2 ⟨1, 0, 0⟩ (on _ _ _ (1 / 2) (by norm_num) (by norm_num) (by ext <;> norm_num [l, GLine.mk2]))
      (on _ _ _ (1 / 2) (by norm_num) (by norm_num) (by ext <;> norm_num [m, GLine.mk2])), if_neg, if_pos]
    · norm_num [m, GLine.mk2, Vec3.normSq, Vec3.dot]
    · rintro ⟨h | h, -⟩ <;> have := congrArg Vec3.x h <;> norm_num [l, GLine.mk2] at this
  · rw [(C84_segments isNorm_real 0 100 1 le_rfl (by simp) l t rfl rfl (by intro h; have := congrArg Vec3.z h; simp [l, t, GLine.mk2] at this)
      (by norm_num [t, GLine.mk2, Vec3.normSq, Vec3.dot])).2 ⟨1, 0, 0⟩ (on _ _ _ (1 / 2) (by norm_num) (by norm_num) (by ext <;> norm_num [l, GLine.mk2]))
      (on _ _ _ 0 (by norm_num) (by norm_num) (by ext <;> norm_num [t, GLine.mk2])), if_neg, if_neg]
    · norm_num [t, GLine.mk2, Vec3.normSq, Vec3.dot]
    · rintro ⟨h | h, -⟩ <;> have := congrArg Vec3.x h <;> norm_num [l, GLine.mk2] at this
  · rw [(C84_segments isNorm_real 0 100 1 le_rfl (by simp) l c rfl rfl (by intro h; have := congrArg Vec3.z h; simp [l, c, GLine.mk2] at this)
      (by norm_num [c, GLine.mk2, Vec3.normSq, Vec3.dot])).2 ⟨2, 0, 0⟩ (on _ _ _ 1 (by norm_num) (by norm_num) (by ext <;> norm_num [l, GLine.mk2]))
      (on _ _ _ 0 (by norm_num) (by norm_num) (by ext <;> norm_num [c, GLine.mk2])), if_pos]
    exact ⟨Or.inr rfl, Or.inl rfl⟩

/-- **C84** fails for a T whose foot is the start point of the argument: the segments have a point in common, and it is found after turning the argument around or with the
segments exchanged, but not as given. -/
theorem C84_start_missed {nrm : Vec3 K → K} (hN : IsNorm nrm) (eps big cos1 : K) (heps : 0 ≤ eps) (hc : |cos1| ≤ 1) (l m : GLine K) (hl : l.Ok) (hm : m.Ok)
    (hd : Vec3.cross l.vec m.vec ≠ 0) (hlen : eps < m.vec.normSq) (hlen' : eps < l.vec.normSq) (hx : OnSeg l.startP l.endP m.startP) (hne : ¬ l.IsEnd m.startP)
    (hfar : eps < (m.startP - l.startP).normSq) :
    l.intersects nrm eps big cos1 m 0 = none ∧
    l.intersects nrm eps big cos1 (GLine.mk2 m.endP m.startP) 0 = some (m.startP, .itInternal) ∧
    m.intersects nrm eps big cos1 l 0 = some (m.startP, .itInternal) := by
  have z : ∀ a b : Vec3 K, a = a + (0 : K) • (b - a) := fun a b => by ext <;> simp
  have o : ∀ a b : Vec3 K, b = a + (1 : K) • (b - a) := fun a b => by ext <;> simp
  refine ⟨?_, ?_, ?_⟩
  · rw [(C84_segments hN eps big cos1 heps hc l m hl hm hd hlen).2 _ hx ⟨0, le_rfl, zero_le_one, z _ _⟩, if_neg (fun h => hne h.1), if_neg]
    have : m.startP - m.startP = 0 := by ext <;> simp
    rw [this]
    simpa [Vec3.normSq] using heps
  · have e : (GLine.mk2 m.endP m.startP).vec = -m.vec := by
      rw [hm]; ext <;> simp [GLine.mk2]
    have e2 : (-m.vec).normSq = m.vec.normSq := by simp [Vec3.normSq, Vec3.dot]
    rw [(C84_segments hN eps big cos1 heps hc l (GLine.mk2 m.endP m.startP) hl rfl ?_ (by rw [e, e2]; exact hlen)).2 _ hx ⟨1, zero_le_one, le_rfl, o _ _⟩,
      if_neg (fun h => hne h.1), if_pos]
    · show eps < (m.startP - m.endP).normSq
      have : m.startP - m.endP = (GLine.mk2 m.endP m.startP).vec := rfl
      rw [this, e, e2]; exact hlen
    · rw [e]
      intro h
      apply hd
      ext
      · have := congrArg Vec3.x h; simp at this ⊢; linarith
      · have := congrArg Vec3.y h; simp at this ⊢; linarith
      · have := congrArg Vec3.z h; simp at this ⊢; linarith
  · rw [(C84_segments hN eps big cos1 heps hc m l hm hl ?_ hlen').2 _ ⟨0, le_rfl, zero_le_one, z _ _⟩ hx, if_neg (fun h => hne h.2), if_pos hfar]
    intro h
    apply hd
    ext
    · have := congrArg Vec3.x h; simp at this ⊢; linarith
    · have := congrArg Vec3.y h; simp at this ⊢; linarith
    · have := congrArg Vec3.z h; simp at this ⊢; linarith

/-- A T meets the hypotheses. -/
example : let l : GLine ℝ := GLine.mk2 ⟨0, 0, 0⟩ ⟨2, 0, 0⟩
    let t : GLine ℝ := GLine.mk2 ⟨1, 0, 0⟩ ⟨1, 1, 0⟩
    l.Ok ∧ t.Ok ∧ Vec3.cross l.vec t.vec ≠ 0 ∧ 0 < t.vec.normSq ∧ 0 < l.vec.normSq ∧ OnSeg l.startP l.endP t.startP ∧ ¬ l.IsEnd t.startP ∧
      0 < (t.startP - l.startP).normSq := by
  intro l t
  refine ⟨rfl, rfl, ?_, ?_, ?_, ⟨1 / 2, by norm_num, by norm_num, ?_⟩, ?_, ?_⟩
  · intro h; have := congrArg Vec3.z h; simp [l, t, GLine.mk2] at this
  · norm_num [t, GLine.mk2, Vec3.normSq, Vec3.dot]
  · norm_num [l, GLine.mk2, Vec3.normSq, Vec3.dot]
  · ext <;> norm_num [l, t, GLine.mk2]
  · rintro (h | h) <;> have := congrArg Vec3.x h <;> norm_num [l, t, GLine.mk2] at this
  · norm_num [l, t, GLine.mk2, Vec3.normSq, Vec3.dot]

/-- The constant of the code is small enough for `C84_parallel_wrong`. -/
theorem cos_one_degree : Real.cos (3.14 / 180) * Real.cos (3.14 / 180) ≤ 19999 / 20000 := by
  have h4 := Real.pi_le_four
  have h2 := Real.two_le_pi
  have h := Real.mul_le_sin (x := 3.14 / 180) (by norm_num) (by norm_num; linarith)
  have hp : (1 / 2 : ℝ) ≤ 2 / Real.pi := by
    rw [div_le_div_iff₀ (by norm_num) Real.pi_pos]; linarith
  have hs : (3.14 / 360 : ℝ) ≤ Real.sin (3.14 / 180) := by
    refine le_trans ?_ h
    have := mul_le_mul_of_nonneg_right hp (show (0 : ℝ) ≤ 3.14 / 180 by norm_num)
    linarith
  have := Real.sin_sq_add_cos_sq (3.14 / 180)
  nlinarith

/-- **C84** fails for parallel segments: two segments side by side, without a common point, are reported to have an internal intersection when the second one starts inside the
1 degree cone around the first (and their bounding boxes meet). The reported point is not on the first segment. -/
theorem C84_parallel_wrong {nrm : Vec3 K → K} (hN : IsNorm nrm) (cos1 : K) (hc : cos1 * cos1 ≤ 19999 / 20000) (big : K) (hb : 1000 ≤ big) :
    let l : GLine K := GLine.mk2 ⟨0, 0, 0⟩ ⟨100, 100, 0⟩
    let m : GLine K := GLine.mk2 ⟨50, 101 / 2, 0⟩ ⟨150, 301 / 2, 0⟩
    (¬ ∃ x, OnSeg l.startP l.endP x ∧ OnSeg m.startP m.endP x) ∧
    l.intersects nrm 0 big cos1 m 0 = some (m.startP, .itInternal) := by
  intro l m
  constructor
  · rintro ⟨x, ⟨t, -, -, rfl⟩, u, -, -, h⟩
    have hx := congrArg Vec3.x h
    have hy := congrArg Vec3.y h
    simp [l, m, GLine.mk2] at hx hy
    linarith
  · have hbox : (l.bbox big).intersects (m.bbox big) 0 = true := by
      have b1 : (50 : K) ≤ big := by linarith
      unfold BBox.intersects GLine.bbox BBox.ofPoints
      simp only [List.foldl, BBox.addCoordinate, BBox.reset, Bool.and_eq_true, decide_eq_true_iff, l, m, GLine.mk2, ge_iff_le, sub_zero, add_zero,
        min_le_iff, le_max_iff]
      norm_num
    have hz : Vec3.cross l.vec m.vec = 0 := by ext <;> norm_num [l, m, GLine.mk2]
    have hcont : (l.contains nrm 0 cos1 m.startP 0).isSome = true := by
      have hv : l.vec.normSq = 20000 := by norm_num [l, GLine.mk2, Vec3.normSq, Vec3.dot]
      have hn := hN.sq l.vec
      rw [hv] at hn
      have hn0 : nrm l.vec ≠ 0 := by intro h; rw [h] at hn; norm_num at hn
      have hdot : l.vec.dot (m.startP - l.startP) = 10050 := by norm_num [l, m, GLine.mk2, Vec3.dot]
      have hs : ((nrm l.vec)⁻¹ • l.vec).dot (m.startP - l.startP) / nrm l.vec = 10050 / 20000 := by
        rw [Vec3.smul_dot, hdot, ← hn]; field_simp
      have hw : withinDegree 0 cos1 l.vec (m.startP - l.startP) = true := by
        unfold withinDegree
        have hv2 : (m.startP - l.startP).normSq = 20201 / 4 := by norm_num [l, m, GLine.mk2, Vec3.normSq, Vec3.dot]
        rw [hv, hv2, hdot]
        simp only [Bool.and_eq_true, decide_eq_true_iff]
        refine ⟨⟨⟨by norm_num, by norm_num⟩, by norm_num⟩, ?_⟩
        nlinarith
      unfold GLine.contains
      simp only [hw, hs, Bool.not_true, Bool.false_eq_true, if_false]
      norm_num
    have n1 : ¬ l.startP = m.startP := by intro h; have := congrArg Vec3.x h; norm_num [l, m, GLine.mk2] at this
    have n2 : ¬ l.endP = m.endP := by intro h; have := congrArg Vec3.x h; norm_num [l, m, GLine.mk2] at this
    have n3 : ¬ l.startP = m.endP := by intro h; have := congrArg Vec3.x h; norm_num [l, m, GLine.mk2] at this
    have n4 : ¬ l.endP = m.startP := by intro h; have := congrArg Vec3.x h; norm_num [l, m, GLine.mk2] at this
    unfold GLine.intersects
    simp only [hbox, hz, hN.sub_le_zero, n1, n2, n3, n4, hcont]
    simp [Vec3.normSq]

end ENigMA
