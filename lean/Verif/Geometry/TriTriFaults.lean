import Verif.Geometry.TriTriProps

/-! # C134: where the test for two triangles is wrong -/

set_option linter.unusedSectionVars false
set_option autoImplicit false

namespace ENigMA

variable {K : Type} [Field K] [LinearOrder K] [IsStrictOrderedRing K]

namespace Tri

variable {nrm : Vec3 K → K} (hN : IsNorm nrm) (t u : Tri K)

include hN in
theorem side_raw (ht : t.rawNormal ≠ 0) (p : Vec3 K) (k : Nat) :
    t.side nrm p k = (nrm t.rawNormal)⁻¹ * (Vec3.cross (t.v (k + 1) - t.v k) (p - t.v k)).dot t.rawNormal := by
  unfold side
  rw [t.normal_eq hN ht]
  generalize t.v (k + 1) = a
  generalize t.v k = b
  simp [Vec3.dot]; ring

include hN in
theorem contains_of_sides (ht : t.rawNormal ≠ 0) (big : K) (p : Vec3 K) (hb : (t.bbox big).containsPt p 0 = true)
    (h : ∀ k < 3, 0 < (Vec3.cross (t.v (k + 1) - t.v k) (p - t.v k)).dot t.rawNormal) : t.contains nrm big p 0 ≠ .outside := by
  have hi := inv_pos.2 (hN.pos ht)
  have g : ∀ k < 3, -(0 : K) < t.side nrm p k := by
    intro k hk
    rw [t.side_raw hN ht, neg_zero]
    exact mul_pos hi (h k hk)
  rw [Tri.contains_cases]
  exact ⟨hb, Or.inr ⟨g 0 (by norm_num), Or.inr ⟨g 1 (by norm_num), Or.inr (g 2 (by norm_num))⟩⟩⟩

/-- The edges of a triangle parallel to the plane pierce nothing. -/
theorem pierced_parallel (big : K) (h : ∀ k < 3, (t.normal nrm).dot (u.v (k + 1) - u.v k) = 0) : pierced nrm big t u 0 = false := by
  have : ∀ k < 3, (u.edgeLine k).intersectsPlane (t.plane nrm) 0 = none := by
    intro k hk
    unfold GLine.intersectsPlane
    have e : (t.plane nrm).normal.dot (u.edgeLine k).vec = 0 := h k hk
    simp only [e]
    simp
  unfold pierced
  simp [this 0 (by norm_num), this 1 (by norm_num), this 2 (by norm_num)]

include hN in
theorem containsAll_has (ht : t.rawNormal ≠ 0) (big : K) (h : containsAll nrm big t u 0 = true)
    (hp : ∀ i < 3, (t.normal nrm).dot (u.v i) = (t.normal nrm).dot t.v0) : ∀ i < 3, t.Has (u.v i) := by
  unfold containsAll at h
  simp only [Bool.and_eq_true, decide_eq_true_eq] at h
  obtain ⟨⟨h0, h1⟩, h2⟩ := h
  have main : ∀ p, t.contains nrm big p 0 ≠ .outside → (t.normal nrm).dot p = (t.normal nrm).dot t.v0 → t.Has p := by
    intro p hc hpl
    obtain ⟨a, b, c⟩ := t.sides_of_contains hN ht big hc
    exact t.has_of_sides hN ht hpl a b c
  intro i hi
  interval_cases i
  · exact main _ h0 (hp 0 (by norm_num))
  · exact main _ h1 (hp 1 (by norm_num))
  · exact main _ h2 (hp 2 (by norm_num))

end Tri

open Tri

/-- **C134 (a false alarm, and the order matters).** Two triangles without a common point: the first is entirely on one side of the plane
of the second. `intersects` reports "internal" when called on the first, and `false` when called on the second. -/
theorem C134_false_alarm {nrm : Vec3 K → K} (hN : IsNorm nrm) (eps big cos1 : K) (hbig : 10 ≤ big) :
    let t : Tri K := ⟨⟨1, 1, 3⟩, ⟨6 / 5, 1, 3⟩, ⟨1, 1, 16 / 5⟩⟩
    let u : Tri K := ⟨⟨0, 0, 0⟩, ⟨4, 0, 4⟩, ⟨0, 4, 0⟩⟩
    (¬ ∃ x, t.Has x ∧ u.Has x) ∧ t.intersects nrm eps big cos1 u 0 = some .internal ∧ u.intersects nrm eps big cos1 t 0 = none := by
  intro t u
  have ht : t.rawNormal ≠ 0 := by intro h; have := congrArg Vec3.y h; norm_num [t, rawNormal, Vec3.cross] at this
  have hu : u.rawNormal ≠ 0 := by intro h; have := congrArg Vec3.x h; norm_num [u, rawNormal, Vec3.cross] at this
  have hit := inv_pos.2 (hN.pos ht)
  have hiu := inv_pos.2 (hN.pos hu)
  have et : ∀ p : Vec3 K, (t.normal nrm).dot p - (t.normal nrm).dot t.v0 = (nrm t.rawNormal)⁻¹ * ((1 - p.y) / 25) := by
    intro p; rw [t.normal_eq hN ht]; norm_num [t, rawNormal, Vec3.cross, Vec3.dot]; ring
  have eu : ∀ p : Vec3 K, (u.normal nrm).dot p - (u.normal nrm).dot u.v0 = (nrm u.rawNormal)⁻¹ * (16 * (p.z - p.x)) := by
    intro p; rw [u.normal_eq hN hu]; norm_num [u, rawNormal, Vec3.cross, Vec3.dot]; ring
  refine ⟨?_, ?_, ?_⟩
  · rintro ⟨x, ⟨a, b, c, ha, hb, hc, hs, hx⟩, ⟨a', b', c', -, -, -, -, hx'⟩⟩
    have h1 := congrArg Vec3.z hx
    have h2 := congrArg Vec3.x hx
    have h3 := congrArg Vec3.z hx'
    have h4 := congrArg Vec3.x hx'
    simp [t, u] at h1 h2 h3 h4
    linarith
  · have hbx : (t.bbox big).intersects (u.bbox big) 0 = true := by
      unfold BBox.intersects Tri.bbox BBox.ofPoints
      simp only [List.foldl, BBox.addCoordinate, BBox.reset, Bool.and_eq_true, decide_eq_true_iff, t, u, ge_iff_le, sub_zero, add_zero,
        min_le_iff, le_max_iff]
      norm_num
    have s1 : oneSide 0 ((t.normal nrm).dot u.v0 - (t.normal nrm).dot t.v0) ((t.normal nrm).dot u.v1 - (t.normal nrm).dot t.v0)
        ((t.normal nrm).dot u.v2 - (t.normal nrm).dot t.v0) = false := by
      rw [et, et, et]
      have p0 : 0 < (nrm t.rawNormal)⁻¹ * ((1 - u.v0.y) / 25) := mul_pos hit (by norm_num [u])
      have p2 : (nrm t.rawNormal)⁻¹ * ((1 - u.v2.y) / 25) < 0 := mul_neg_of_pos_of_neg hit (by norm_num [u])
      simp [oneSide, p0.not_gt, p2.not_gt]
    have hca : u.containsAll nrm big t 0 = true := by
      have hc : ∀ p : Vec3 K, (u.bbox big).containsPt p 0 = true → (0 < p.y ∧ p.y < 4 ∧ 0 < p.x + p.z ∧ p.x + p.z + 2 * p.y < 8) → u.contains nrm big p 0 ≠ .outside := by
        intro p hb hp
        refine u.contains_of_sides hN hu big p hb ?_
        intro k hk
        obtain ⟨h1, h2, h3, h4⟩ := hp
        interval_cases k
        · have : (Vec3.cross (u.v (0 + 1) - u.v 0) (p - u.v 0)).dot u.rawNormal = 128 * p.y := by
            norm_num [u, v, rawNormal, Vec3.cross, Vec3.dot]; ring
          rw [this]; linarith
        · have : (Vec3.cross (u.v (1 + 1) - u.v 1) (p - u.v 1)).dot u.rawNormal = 64 * (8 - p.x - p.z - 2 * p.y) := by
            norm_num [u, v, rawNormal, Vec3.cross, Vec3.dot]; ring
          rw [this]; linarith
        · have : (Vec3.cross (u.v (2 + 1) - u.v 2) (p - u.v 2)).dot u.rawNormal = 64 * (p.x + p.z) := by
            norm_num [u, v, rawNormal, Vec3.cross, Vec3.dot]; ring
          rw [this]; linarith
      unfold containsAll
      simp only [Bool.and_eq_true, decide_eq_true_eq]
      refine ⟨⟨hc _ ?_ ?_, hc _ ?_ ?_⟩, hc _ ?_ ?_⟩
      · unfold BBox.containsPt Tri.bbox BBox.ofPoints
        simp only [List.foldl, BBox.addCoordinate, BBox.reset, Bool.and_eq_true, decide_eq_true_iff, t, u, ge_iff_le, sub_zero, add_zero,
          min_le_iff, le_max_iff]
        norm_num
      · norm_num [t]
      · unfold BBox.containsPt Tri.bbox BBox.ofPoints
        simp only [List.foldl, BBox.addCoordinate, BBox.reset, Bool.and_eq_true, decide_eq_true_iff, t, u, ge_iff_le, sub_zero, add_zero,
          min_le_iff, le_max_iff]
        norm_num
      · norm_num [t]
      · unfold BBox.containsPt Tri.bbox BBox.ofPoints
        simp only [List.foldl, BBox.addCoordinate, BBox.reset, Bool.and_eq_true, decide_eq_true_iff, t, u, ge_iff_le, sub_zero, add_zero,
          min_le_iff, le_max_iff]
        norm_num
      · norm_num [t]
    have hcr : ¬ nrm (Vec3.cross (t.normal nrm) (u.normal nrm)) ≤ 0 := by
      rw [t.cross_normals hN u ht hu]
      intro hle
      have h0 := hN.eq_zero.1 (le_antisymm hle (hN.nonneg _))
      have := congrArg Vec3.x h0
      simp only [Vec3.smul_x, Vec3.zero_x] at this
      have h2 : (Vec3.cross t.rawNormal u.rawNormal).x = -(16 / 25) := by norm_num [t, u, rawNormal, Vec3.cross]
      rw [h2] at this
      have := mul_pos hit hiu
      nlinarith
    unfold Tri.intersects
    simp only [nearVertices_zero hN, hbx, Bool.not_true, Bool.false_eq_true, if_false, s1, u.oneSide_self (nrm := nrm) (le_refl (0 : K))]
    rw [if_neg (by norm_num), if_neg (fun hh => hcr hh.1), if_neg (by norm_num)]
    by_cases hp : (pierced nrm big t u 0 || pierced nrm big u t 0) = true
    · rw [if_pos hp]
    · rw [if_neg hp]
      simp [hitTail, hca]
  · have s1 : oneSide 0 ((u.normal nrm).dot t.v0 - (u.normal nrm).dot u.v0) ((u.normal nrm).dot t.v1 - (u.normal nrm).dot u.v0)
        ((u.normal nrm).dot t.v2 - (u.normal nrm).dot u.v0) = true := by
      rw [eu, eu, eu]
      have p0 : 0 < (nrm u.rawNormal)⁻¹ * (16 * (t.v0.z - t.v0.x)) := mul_pos hiu (by norm_num [t])
      have p1 : 0 < (nrm u.rawNormal)⁻¹ * (16 * (t.v1.z - t.v1.x)) := mul_pos hiu (by norm_num [t])
      have p2 : 0 < (nrm u.rawNormal)⁻¹ * (16 * (t.v2.z - t.v2.x)) := mul_pos hiu (by norm_num [t])
      simp only [oneSide, p0, p1, p2]
      simp
    unfold Tri.intersects
    simp only [s1, if_true]
    split_ifs <;> rfl

/-- **C134 (opposite orientation).** Two triangles in one plane that does not pass through the origin, with opposite normals: with
tolerance 0 `intersects` says yes only when one of them contains the other, whatever their edges do. -/
theorem C134_flipped {nrm : Vec3 K → K} (hN : IsNorm nrm) (eps big cos1 : K) (t u : Tri K) (ht : t.rawNormal ≠ 0) (r : K) (hr : r < 0)
    (hu : u.rawNormal = r • t.rawNormal) (hp : t.rawNormal.dot u.v0 = t.rawNormal.dot t.v0) (hd : t.rawNormal.dot t.v0 ≠ 0)
    (k : TriHit) (h : t.intersects nrm eps big cos1 u 0 = some k) : (∀ i < 3, t.Has (u.v i)) ∨ (∀ i < 3, u.Has (t.v i)) := by
  have hD := hN.pos ht
  have hu0 : u.rawNormal ≠ 0 := by
    rw [hu]
    intro h0
    apply ht
    have kx := congrArg Vec3.x h0
    have ky := congrArg Vec3.y h0
    have kz := congrArg Vec3.z h0
    simp only [Vec3.smul_x, Vec3.smul_y, Vec3.smul_z, Vec3.zero_x, Vec3.zero_y, Vec3.zero_z] at kx ky kz
    ext
    · exact (mul_eq_zero.1 kx).resolve_left hr.ne
    · exact (mul_eq_zero.1 ky).resolve_left hr.ne
    · exact (mul_eq_zero.1 kz).resolve_left hr.ne
  have hD2 : nrm u.rawNormal = -r * nrm t.rawNormal := by
    have h1 := hN.sq u.rawNormal
    have h2 := hN.sq t.rawNormal
    have h3 : u.rawNormal.normSq = r * r * t.rawNormal.normSq := by rw [hu]; simp [Vec3.normSq, Vec3.dot]; ring
    rw [h3, ← h2] at h1
    have h4 : nrm u.rawNormal * nrm u.rawNormal = (-r * nrm t.rawNormal) * (-r * nrm t.rawNormal) := by linear_combination h1
    have h5 : 0 ≤ -r * nrm t.rawNormal := mul_nonneg (by linarith) hD.le
    exact (mul_self_inj (hN.nonneg _) h5).1 h4
  have hn : u.normal nrm = -t.normal nrm := by
    rw [u.normal_eq hN hu0, t.normal_eq hN ht, hD2, hu]
    have : nrm t.rawNormal ≠ 0 := hD.ne'
    have : r ≠ 0 := hr.ne
    ext <;> simp <;> field_simp
  have hneg : ∀ p : Vec3 K, (u.normal nrm).dot p = -(t.normal nrm).dot p := by
    intro p; rw [hn]; simp [Vec3.dot]; ring
  have ed : ∀ p : Vec3 K, (t.normal nrm).dot p = (nrm t.rawNormal)⁻¹ * t.rawNormal.dot p := by
    intro p; rw [t.normal_eq hN ht]; simp [Vec3.dot]; ring
  have hpl : ∀ i < 3, (t.normal nrm).dot (u.v i) = (t.normal nrm).dot t.v0 := by
    intro i _
    have h1 := u.normal_dot_v (nrm := nrm) i
    rw [hneg, hneg, neg_inj] at h1
    rw [h1, ed, ed, hp]
  have hpl' : ∀ i < 3, (u.normal nrm).dot (t.v i) = (u.normal nrm).dot u.v0 := by
    intro i _
    rw [hneg, hneg, t.normal_dot_v, neg_inj, ed, ed, hp]
  have dsub : ∀ n a b : Vec3 K, n.dot (a - b) = n.dot a - n.dot b := by intro n a b; simp [Vec3.dot]; ring
  have q1 : pierced nrm big t u 0 = false := by
    refine t.pierced_parallel u big fun k _ => ?_
    have h1 := u.normal_dot_v (nrm := nrm) k
    have h2 := u.normal_dot_v (nrm := nrm) (k + 1)
    rw [hneg, hneg, neg_inj] at h1 h2
    rw [dsub, h1, h2, sub_self]
  have q2 : pierced nrm big u t 0 = false := by
    refine u.pierced_parallel t big fun k _ => ?_
    rw [dsub, hneg, hneg, t.normal_dot_v, t.normal_dot_v k, sub_self]
  have hdd : ¬ |(t.normal nrm).dot t.v0 - (u.normal nrm).dot u.v0| ≤ 0 := by
    have hu0' := hpl 0 (by norm_num)
    have : (t.normal nrm).dot u.v0 = (t.normal nrm).dot t.v0 := hu0'
    rw [hneg, this, not_le, abs_pos]
    intro h0
    have h1 : (t.normal nrm).dot t.v0 = 0 := by linarith
    rw [ed] at h1
    exact hd ((mul_eq_zero.1 h1).resolve_left (inv_ne_zero hD.ne'))
  unfold Tri.intersects at h
  simp only [nearVertices_zero hN, q1, q2] at h
  have fin : ∀ (c1 c2 c3 : Prop) [Decidable c1] [Decidable c2] [Decidable c3] (z : Option TriHit),
      (if c1 then none else if c2 then none else if c3 then none else z) = some k → z = some k := by
    intro c1 c2 c3 _ _ _ z hz
    by_cases h1 : c1 <;> by_cases h2 : c2 <;> by_cases h3 : c3 <;> simp_all
  have h' := fin _ _ _ _ h
  rw [if_neg (by norm_num), if_neg (fun hh => hdd hh.2), if_neg (by norm_num)] at h'
  simp only [Bool.or_false, Bool.false_eq_true, if_false, hitTail] at h'
  rw [if_neg (by norm_num)] at h'
  cases hca : t.containsAll nrm big u 0 with
  | true => exact Or.inl (t.containsAll_has hN u ht big hca hpl)
  | false =>
    cases hcb : u.containsAll nrm big t 0 with
    | true => exact Or.inr (u.containsAll_has hN t hu0 big hcb hpl')
    | false => simp [hca, hcb] at h'

/-- **C134 (a crossing missed).** Two triangles in the plane `z = 1` forming a six-pointed star: listed with opposite orientations
`intersects` says no; with the corners of the second listed the other way round it says yes. -/
theorem C134_flipped_missed {nrm : Vec3 K → K} (hN : IsNorm nrm) (eps big cos1 : K) (h0 : 0 ≤ eps) (h1 : eps < 1) (hc : |cos1| ≤ 1) (hbig : 10 ≤ big) :
    let t : Tri K := ⟨⟨0, 0, 1⟩, ⟨6, 0, 1⟩, ⟨3, 5, 1⟩⟩
    let u : Tri K := ⟨⟨0, 3, 1⟩, ⟨6, 3, 1⟩, ⟨3, -2, 1⟩⟩
    (∃ x, t.Has x ∧ u.Has x) ∧ t.intersects nrm eps big cos1 u 0 = none ∧
      t.intersects nrm eps big cos1 ⟨u.v0, u.v2, u.v1⟩ 0 = some .internal := by
  intro t u
  have ht : t.rawNormal ≠ 0 := by intro h; have := congrArg Vec3.z h; norm_num [t, rawNormal, Vec3.cross] at this
  have hx : t.Has ⟨3, 2, 1⟩ := ⟨3 / 10, 3 / 10, 4 / 10, by norm_num, by norm_num, by norm_num, by norm_num, by ext <;> norm_num [t]⟩
  have hx' : u.Has ⟨3, 2, 1⟩ := ⟨4 / 10, 4 / 10, 2 / 10, by norm_num, by norm_num, by norm_num, by norm_num, by ext <;> norm_num [u]⟩
  refine ⟨⟨_, hx, hx'⟩, ?_, ?_⟩
  · cases hk : t.intersects nrm eps big cos1 u 0 with
    | none => rfl
    | some k =>
      exfalso
      rcases C134_flipped hN eps big cos1 t u ht (-1) (by norm_num) (by ext <;> norm_num [t, u, rawNormal, Vec3.cross])
        (by norm_num [t, u, rawNormal, Vec3.cross, Vec3.dot]) (by norm_num [t, rawNormal, Vec3.cross, Vec3.dot]) k hk with h | h
      · obtain ⟨a, b, c, ha, hb, hc, hs, he⟩ := h 2 (by norm_num)
        have := congrArg Vec3.y he
        simp [t, u, v] at this
        linarith
      · obtain ⟨a, b, c, ha, hb, hc, hs, he⟩ := h 2 (by norm_num)
        have := congrArg Vec3.y he
        simp [t, u, v] at this
        linarith
  · set w : Tri K := ⟨u.v0, u.v2, u.v1⟩ with hw
    have hwx : w.Has ⟨3, 2, 1⟩ := ⟨4 / 10, 2 / 10, 4 / 10, by norm_num, by norm_num, by norm_num, by norm_num, by ext <;> norm_num [u, w]⟩
    have hwr : w.rawNormal = t.rawNormal := by ext <;> norm_num [t, u, w, rawNormal, Vec3.cross]
    have hwn : w.normal nrm = t.normal nrm := by rw [w.normal_eq hN (by rw [hwr]; exact ht), t.normal_eq hN ht, hwr]
    have hb := t.boxes_meet w big hx hwx (le_refl (0 : K))
    have hs1 := w.not_oneSide_of_has (t.normal nrm) ((t.normal nrm).dot t.v0) hwx (t.normal_dot_has hx) (le_refl (0 : K))
    have hd : (t.normal nrm).dot t.v0 = (w.normal nrm).dot w.v0 := by
      rw [← t.normal_dot_has hx, ← w.normal_dot_has hwx, hwn]
    have hcr : nrm (Vec3.cross (t.normal nrm) (w.normal nrm)) = 0 := by
      rw [hwn, hN.eq_zero]
      ext <;> simp [Vec3.cross] <;> ring
    have hz : (0 : Vec3 K) = 0 := rfl
    have hseg := (C84_segments hN eps big cos1 h0 hc (t.edgeLine 0) (w.edgeLine 0) rfl rfl
      (by intro h; have := congrArg Vec3.z h; norm_num [t, u, w, edgeLine, GLine.mk2, v, Vec3.cross] at this)
      (by
        have : (w.edgeLine 0).vec.normSq = 34 := by norm_num [u, w, edgeLine, GLine.mk2, v, Vec3.normSq, Vec3.dot]
        rw [this]; linarith)).2 ⟨9 / 5, 0, 1⟩
      ⟨3 / 10, by norm_num, by norm_num, by ext <;> norm_num [t, edgeLine, GLine.mk2, v]⟩
      ⟨3 / 5, by norm_num, by norm_num, by ext <;> norm_num [u, w, edgeLine, GLine.mk2, v]⟩
    have hend : ¬ (t.edgeLine 0).IsEnd ⟨9 / 5, 0, 1⟩ := by
      rintro (h | h)
      · have := congrArg Vec3.x h; norm_num [t, edgeLine, GLine.mk2, v] at this
      · have := congrArg Vec3.x h; norm_num [t, edgeLine, GLine.mk2, v] at this
    rw [if_neg (fun hh => hend hh.1), if_pos (by
      have : ((⟨9 / 5, 0, 1⟩ : Vec3 K) - (w.edgeLine 0).startP).normSq = 306 / 25 := by norm_num [u, w, edgeLine, GLine.mk2, v, Vec3.normSq, Vec3.dot]
      rw [this]; linarith)] at hseg
    have hec : edgesCross nrm eps big cos1 t w 0 = true := by
      unfold edgesCross
      simp [hseg]
    unfold Tri.intersects
    simp only [nearVertices_zero hN, hb, Bool.not_true, Bool.false_eq_true, if_false, hs1, w.oneSide_self (nrm := nrm) (le_refl (0 : K)), hec, if_true]
    rw [if_neg (by norm_num), if_pos ⟨hcr.le, by rw [hd, sub_self, abs_zero]⟩]
    norm_num

end ENigMA
