import Verif.Geometry.TriTriLemmas
import Mathlib.Tactic.IntervalCases

/-! # C134: do two triangles meet -/

set_option linter.unusedSectionVars false
set_option autoImplicit false

namespace ENigMA

variable {K : Type} [Field K] [LinearOrder K] [IsStrictOrderedRing K]

namespace Tri

variable {nrm : Vec3 K → K} (hN : IsNorm nrm) (t u : Tri K)

include hN in
theorem nearVertices_zero : nearVertices nrm t u 0 = 0 := by
  unfold nearVertices
  have : ∀ v, ¬ nrm v < 0 := fun v => not_lt.2 (hN.nonneg v)
  simp [this]

theorem nearVertices_far {tol : K} (h : ∀ i < 3, ∀ j < 3, tol ≤ nrm (t.v i - u.v j)) : nearVertices nrm t u tol = 0 := by
  unfold nearVertices
  have : ∀ i < 3, ∀ j < 3, ¬ nrm (t.v i - u.v j) < tol := fun i hi j hj => not_lt.2 (h i hi j hj)
  simp [this 0 (by norm_num) 0 (by norm_num), this 0 (by norm_num) 1 (by norm_num), this 0 (by norm_num) 2 (by norm_num),
    this 1 (by norm_num) 0 (by norm_num), this 1 (by norm_num) 1 (by norm_num), this 1 (by norm_num) 2 (by norm_num),
    this 2 (by norm_num) 0 (by norm_num), this 2 (by norm_num) 1 (by norm_num), this 2 (by norm_num) 2 (by norm_num)]

include hN in
theorem pierced_sound (ht : t.rawNormal ≠ 0) (big : K) (h : pierced nrm big t u 0 = true) : ∃ x, t.Has x ∧ u.Has x := by
  unfold pierced at h
  rw [List.any_eq_true] at h
  obtain ⟨k, -, hk⟩ := h
  split at hk
  · rename_i x ty hx
    obtain ⟨hp, s, h0, h1, rfl⟩ := t.planeHit (t.normal_unit hN ht) hx
    rw [decide_eq_true_eq] at hk
    rw [neg_zero] at h0
    rw [add_zero] at h1
    have hc : t.contains nrm big ((u.edgeLine k).startP + s • (u.edgeLine k).vec) 0 ≠ .outside := by
      rcases hk with h | h <;> rw [h] <;> simp
    obtain ⟨a, b, c⟩ := t.sides_of_contains hN ht big hc
    exact ⟨_, t.has_of_sides hN ht hp a b c, u.has_edge ⟨s, h0, h1, rfl⟩⟩
  · simp at hk

include hN in
/-- A triangle whose corners all pass `contains` and that has a point of the plane. -/
theorem containsAll_sound (ht : t.rawNormal ≠ 0) (big : K) (h : containsAll nrm big t u 0 = true)
    (hs : oneSide 0 ((t.normal nrm).dot u.v0 - (t.normal nrm).dot t.v0) ((t.normal nrm).dot u.v1 - (t.normal nrm).dot t.v0)
      ((t.normal nrm).dot u.v2 - (t.normal nrm).dot t.v0) = false) : ∃ x, t.Has x ∧ u.Has x := by
  obtain ⟨x, hx, hp⟩ := u.has_plane_point _ _ hs
  unfold containsAll at h
  simp only [Bool.and_eq_true, decide_eq_true_eq] at h
  obtain ⟨⟨h0, h1⟩, h2⟩ := h
  obtain ⟨a0, b0, c0⟩ := t.sides_of_contains hN ht big h0
  obtain ⟨a1, b1, c1⟩ := t.sides_of_contains hN ht big h1
  obtain ⟨a2, b2, c2⟩ := t.sides_of_contains hN ht big h2
  have hx' := hx
  obtain ⟨a, b, c, ha, hb, hc, he, rfl⟩ := hx'
  refine ⟨_, t.has_of_sides hN ht hp ?_ ?_ ?_, hx⟩ <;> rw [t.side_affine _ _ _ he] <;> positivity

include hN in
theorem cross_normals (ht : t.rawNormal ≠ 0) (hu : u.rawNormal ≠ 0) :
    Vec3.cross (t.normal nrm) (u.normal nrm) = ((nrm t.rawNormal)⁻¹ * (nrm u.rawNormal)⁻¹) • Vec3.cross t.rawNormal u.rawNormal := by
  rw [t.normal_eq hN ht, u.normal_eq hN hu]
  ext <;> simp [Vec3.cross] <;> ring

/-- Both strict tests of `oneSide` in terms of the unnormalised normal. -/
theorem oneSide_raw (hN : IsNorm nrm) (hu : u.rawNormal ≠ 0)
    (h : ¬ (∀ i < 3, 0 < u.rawNormal.dot (t.v i - u.v0)) ∧ ¬ ∀ i < 3, u.rawNormal.dot (t.v i - u.v0) < 0) :
    oneSide 0 ((u.normal nrm).dot t.v0 - (u.normal nrm).dot u.v0) ((u.normal nrm).dot t.v1 - (u.normal nrm).dot u.v0)
      ((u.normal nrm).dot t.v2 - (u.normal nrm).dot u.v0) = false := by
  have hD := hN.pos hu
  have e : ∀ p : Vec3 K, (u.normal nrm).dot p - (u.normal nrm).dot u.v0 = (nrm u.rawNormal)⁻¹ * u.rawNormal.dot (p - u.v0) := by
    intro p; rw [u.normal_eq hN hu]; simp [Vec3.dot]; ring
  have hi : 0 < (nrm u.rawNormal)⁻¹ := inv_pos.2 hD
  by_contra hcon
  rw [Bool.not_eq_false] at hcon
  unfold oneSide at hcon
  simp only [e, Bool.or_eq_true, Bool.and_eq_true, decide_eq_true_eq, neg_zero] at hcon
  rcases hcon with ⟨⟨h0, h1⟩, h2⟩ | ⟨⟨h0, h1⟩, h2⟩
  · apply h.1
    intro i hi3
    interval_cases i
    · exact (mul_pos_iff_of_pos_left hi).1 h0
    · exact (mul_pos_iff_of_pos_left hi).1 h1
    · exact (mul_pos_iff_of_pos_left hi).1 h2
  · apply h.2
    have neg : ∀ x : K, (nrm u.rawNormal)⁻¹ * x < 0 → x < 0 := by
      intro x hx
      by_contra hx'
      exact absurd hx (not_lt.2 (mul_nonneg hi.le (not_lt.1 hx')))
    intro i hi3
    interval_cases i
    · exact neg _ h0
    · exact neg _ h1
    · exact neg _ h2

/-- Moving along a direction, some constraint becomes tight first. -/
theorem exists_stop (l : List (K × K)) (h : ∀ p ∈ l, 0 ≤ p.1) (hneg : ∃ p ∈ l, p.2 < 0) :
    ∃ τ : K, 0 ≤ τ ∧ (∀ p ∈ l, 0 ≤ p.1 + τ * p.2) ∧ ∃ p ∈ l, p.1 + τ * p.2 = 0 := by
  induction l with
  | nil => obtain ⟨p, hp, -⟩ := hneg; simp at hp
  | cons q l ih =>
    have hq := h q (by simp)
    have hl := fun p hp => h p (List.mem_cons_of_mem q hp)
    -- stopping at q
    have stop : q.2 < 0 → (∀ p ∈ l, 0 ≤ p.1 + q.1 / (-q.2) * p.2) → ∃ τ : K, 0 ≤ τ ∧ (∀ p ∈ q :: l, 0 ≤ p.1 + τ * p.2) ∧
        ∃ p ∈ q :: l, p.1 + τ * p.2 = 0 := by
      intro hq2 hall
      have hz : q.1 + q.1 / (-q.2) * q.2 = 0 := by
        have : q.2 ≠ 0 := hq2.ne
        field_simp; ring
      refine ⟨q.1 / (-q.2), div_nonneg hq (by linarith), ?_, q, by simp, hz⟩
      intro p hp
      rcases List.mem_cons.1 hp with rfl | hp
      · exact hz.ge
      · exact hall p hp
    by_cases htail : ∃ p ∈ l, p.2 < 0
    · obtain ⟨τ, h0, h1, h2⟩ := ih hl htail
      by_cases hok : 0 ≤ q.1 + τ * q.2
      · refine ⟨τ, h0, ?_, ?_⟩
        · intro p hp
          rcases List.mem_cons.1 hp with rfl | hp
          · exact hok
          · exact h1 p hp
        · obtain ⟨p, hp, e⟩ := h2
          exact ⟨p, List.mem_cons_of_mem q hp, e⟩
      · rw [not_le] at hok
        have hq2 : q.2 < 0 := by
          by_contra hn
          have := mul_nonneg h0 (not_lt.1 hn)
          linarith
        refine stop hq2 fun p hp => ?_
        have hle : q.1 / (-q.2) ≤ τ := by
          rw [div_le_iff₀ (by linarith)]
          linarith
        have hge : 0 ≤ q.1 / (-q.2) := div_nonneg hq (by linarith)
        by_cases hp2 : 0 ≤ p.2
        · have := hl p hp
          have := mul_nonneg hge hp2
          linarith
        · have := h1 p hp
          have := mul_le_mul_of_nonpos_right hle (le_of_lt (not_le.1 hp2))
          linarith
    · push Not at htail
      obtain ⟨p, hp, hp2⟩ := hneg
      have hpq : p = q := by
        rcases List.mem_cons.1 hp with rfl | hp
        · rfl
        · exact absurd (htail p hp) (not_le.2 hp2)
      subst hpq
      refine stop hp2 fun r hr => ?_
      have h1 := hl r hr
      have h2 := htail r hr
      have h3 : 0 ≤ p.1 / (-p.2) := div_nonneg hq (by linarith)
      have := mul_nonneg h3 h2
      linarith

include hN in
/-- A point of the triangle with side value 0 is on that edge. -/
theorem on_edge (ht : t.rawNormal ≠ 0) {y : Vec3 K} (hy : t.Has y) {k : Nat} (hk : k < 3) (h0 : t.side nrm y k = 0) :
    OnSeg (t.v k) (t.v (k + 1)) y := by
  have hD := hN.pos ht
  have hb := t.bary hN ht (t.normal_dot_has hy)
  obtain ⟨g0, g1, g2⟩ := t.sides_of_has hN ht hy
  have hsum := t.side_sum (nrm := nrm) y
  rw [t.raw_dot_normal hN ht] at hsum
  have main : ∀ (a b : Vec3 K) (α β : K), 0 ≤ α → 0 ≤ β → α + β = nrm t.rawNormal →
      y = (α / nrm t.rawNormal) • a + (β / nrm t.rawNormal) • b → OnSeg a b y := by
    intro a b α β hα hβ hs e
    refine ⟨β / nrm t.rawNormal, div_nonneg hβ hD.le, (div_le_one hD).2 (by linarith), ?_⟩
    have : α / nrm t.rawNormal = 1 - β / nrm t.rawNormal := by field_simp; linarith
    rw [e, this]
    ext <;> simp <;> ring
  interval_cases k
  · refine main t.v0 t.v1 _ _ g1 g2 (by linarith) ?_
    rw [h0, zero_div] at hb
    rw [← hb.trans (by ext <;> simp : _ = (t.side nrm y 1 / nrm t.rawNormal) • t.v0 + (t.side nrm y 2 / nrm t.rawNormal) • t.v1)]
  · refine main t.v1 t.v2 _ _ g2 g0 (by linarith) ?_
    rw [h0, zero_div] at hb
    rw [← hb.trans (by ext <;> simp : _ = (t.side nrm y 2 / nrm t.rawNormal) • t.v1 + (t.side nrm y 0 / nrm t.rawNormal) • t.v2)]
  · refine main t.v2 t.v0 _ _ g0 g1 (by linarith) ?_
    rw [h0, zero_div] at hb
    rw [← hb.trans (by ext <;> simp <;> ring : _ = (t.side nrm y 0 / nrm t.rawNormal) • t.v2 + (t.side nrm y 1 / nrm t.rawNormal) • t.v0)]

/-- The point is on an edge of the triangle. -/
def OnEdge (t : Tri K) (x : Vec3 K) : Prop := ∃ k < 3, OnSeg (t.v k) (t.v (k + 1)) x

include hN in
/-- Two triangles in different planes with a common point have a common point on an edge of one of them. -/
theorem exists_edge_point (ht : t.rawNormal ≠ 0) (hu : u.rawNormal ≠ 0) (hw : Vec3.cross t.rawNormal u.rawNormal ≠ 0) {x : Vec3 K}
    (hx : t.Has x) (hx' : u.Has x) : ∃ y, t.Has y ∧ u.Has y ∧ (t.OnEdge y ∨ u.OnEdge y) := by
  set w := Vec3.cross t.rawNormal u.rawNormal with hwdef
  -- side values along the direction
  let α : Tri K → Nat → K := fun s k => (Vec3.cross (s.v (k + 1) - s.v k) w).dot (s.normal nrm)
  have lin : ∀ (s : Tri K) (k : Nat) (τ : K), s.side nrm (x + τ • w) k = s.side nrm x k + τ * α s k := by
    intro s k τ
    simp only [side, α]
    generalize s.normal nrm = n
    generalize s.v (k + 1) = a
    generalize s.v k = b
    simp [Vec3.dot, Vec3.cross]; ring
  have plane : ∀ (s : Tri K), s.rawNormal ≠ 0 → s.Has x → s.rawNormal.dot w = 0 → ∀ τ : K,
      (s.normal nrm).dot (x + τ • w) = (s.normal nrm).dot s.v0 := by
    intro s hs hsx hsw τ
    rw [← s.normal_dot_has hsx]
    have : (s.normal nrm).dot w = 0 := by
      rw [s.normal_eq hN hs]
      have : ((nrm s.rawNormal)⁻¹ • s.rawNormal).dot w = (nrm s.rawNormal)⁻¹ * s.rawNormal.dot w := by simp [Vec3.dot]; ring
      rw [this, hsw, mul_zero]
    have e : (s.normal nrm).dot (x + τ • w) = (s.normal nrm).dot x + τ * (s.normal nrm).dot w := by simp [Vec3.dot]; ring
    rw [e, this, mul_zero, add_zero]
  have tw : t.rawNormal.dot w = 0 := by rw [hwdef]; simp [Vec3.dot, Vec3.cross]; ring
  have uw : u.rawNormal.dot w = 0 := by rw [hwdef]; simp [Vec3.dot, Vec3.cross]; ring
  have neg : ∃ k < 3, α t k < 0 := by
    by_contra hno
    push Not at hno
    have s0 := t.side_sum (nrm := nrm) x
    have s1 := t.side_sum (nrm := nrm) (x + (1 : K) • w)
    rw [lin, lin, lin] at s1
    have h0 := hno 0 (by norm_num)
    have h1 := hno 1 (by norm_num)
    have h2 := hno 2 (by norm_num)
    have e0 : α t 0 = 0 := by linarith
    have e1 : α t 1 = 0 := by linarith
    have e2 : α t 2 = 0 := by linarith
    have b0 := t.bary hN ht (t.normal_dot_has hx)
    have b1 := t.bary hN ht (plane t ht hx tw 1)
    simp only [lin, e0, e1, e2, mul_zero, add_zero] at b1
    rw [← b0] at b1
    apply hw
    have kx := congrArg Vec3.x b1
    have ky := congrArg Vec3.y b1
    have kz := congrArg Vec3.z b1
    simp only [Vec3.add_x, Vec3.add_y, Vec3.add_z, Vec3.smul_x, Vec3.smul_y, Vec3.smul_z, one_mul] at kx ky kz
    ext
    · simp only [Vec3.zero_x]; linarith
    · simp only [Vec3.zero_y]; linarith
    · simp only [Vec3.zero_z]; linarith
  obtain ⟨g0, g1, g2⟩ := t.sides_of_has hN ht hx
  obtain ⟨f0, f1, f2⟩ := u.sides_of_has hN hu hx'
  obtain ⟨τ, -, hall, p, hp, hz⟩ := exists_stop
    [(t.side nrm x 0, α t 0), (t.side nrm x 1, α t 1), (t.side nrm x 2, α t 2), (u.side nrm x 0, α u 0), (u.side nrm x 1, α u 1), (u.side nrm x 2, α u 2)]
    (by simp; exact ⟨g0, g1, g2, f0, f1, f2⟩)
    (by
      obtain ⟨k, hk, hk'⟩ := neg
      interval_cases k
      · exact ⟨(t.side nrm x 0, α t 0), by simp, hk'⟩
      · exact ⟨(t.side nrm x 1, α t 1), by simp, hk'⟩
      · exact ⟨(t.side nrm x 2, α t 2), by simp, hk'⟩)
  simp only [List.mem_cons, List.not_mem_nil, or_false, forall_eq_or_imp, forall_eq] at hall
  obtain ⟨q0, q1, q2, r0, r1, r2⟩ := hall
  have hty : t.Has (x + τ • w) := t.has_of_sides hN ht (plane t ht hx tw τ) (by rw [lin]; exact q0) (by rw [lin]; exact q1) (by rw [lin]; exact q2)
  have huy : u.Has (x + τ • w) := u.has_of_sides hN hu (plane u hu hx' uw τ) (by rw [lin]; exact r0) (by rw [lin]; exact r1) (by rw [lin]; exact r2)
  refine ⟨x + τ • w, hty, huy, ?_⟩
  simp only [List.mem_cons, List.not_mem_nil, or_false] at hp
  rcases hp with rfl | rfl | rfl | rfl | rfl | rfl
  · exact Or.inl ⟨0, by norm_num, t.on_edge hN ht hty (by norm_num) (by rw [lin]; exact hz)⟩
  · exact Or.inl ⟨1, by norm_num, t.on_edge hN ht hty (by norm_num) (by rw [lin]; exact hz)⟩
  · exact Or.inl ⟨2, by norm_num, t.on_edge hN ht hty (by norm_num) (by rw [lin]; exact hz)⟩
  · exact Or.inr ⟨0, by norm_num, u.on_edge hN hu huy (by norm_num) (by rw [lin]; exact hz)⟩
  · exact Or.inr ⟨1, by norm_num, u.on_edge hN hu huy (by norm_num) (by rw [lin]; exact hz)⟩
  · exact Or.inr ⟨2, by norm_num, u.on_edge hN hu huy (by norm_num) (by rw [lin]; exact hz)⟩

/-- No edge of `u` runs nearly parallel to the plane of `t`, and none meets `t` within `tol` of a corner of `t`. -/
structure Clear (nrm : Vec3 K → K) (t u : Tri K) (tol : K) : Prop where
  steep : ∀ k < 3, tol * tol < |(t.normal nrm).dot (u.v (k + 1) - u.v k)|
  far : ∀ x, u.OnEdge x → t.Has x → ∀ i < 3, tol < nrm (x - t.v i)

include hN in
theorem pierced_of (ht : t.rawNormal ≠ 0) {big tol : K} (h0 : 0 < tol) (hc : Clear nrm t u tol) {y : Vec3 K} (hy : t.Has y) (he : u.OnEdge y) :
    pierced nrm big t u tol = true := by
  have hfar := hc.far y he hy
  obtain ⟨k, hk, s, hs0, hs1, rfl⟩ := he
  obtain ⟨ty, hty⟩ := t.planeHit_of (t.normal_unit hN ht) (l := u.edgeLine k) h0.le (hc.steep k hk) hs0 hs1 (t.normal_dot_has hy)
  have hin := C58_contains nrm hN big t ht _ tol h0 hy
  have hnv : t.contains nrm big (u.v k + s • (u.v (k + 1) - u.v k)) tol ≠ .vertex := by
    intro hv
    rcases t.contains_vertex hv with h | h | h
    · exact absurd (hfar 0 (by norm_num)) (not_lt.2 h)
    · exact absurd (hfar 1 (by norm_num)) (not_lt.2 h)
    · exact absurd (hfar 2 (by norm_num)) (not_lt.2 h)
  unfold pierced
  rw [List.any_eq_true]
  refine ⟨k, by interval_cases k <;> simp, ?_⟩
  rw [hty]
  simp only [decide_eq_true_eq]
  change t.contains nrm big (u.v k + s • (u.v (k + 1) - u.v k)) tol = _ ∨ t.contains nrm big (u.v k + s • (u.v (k + 1) - u.v k)) tol = _
  cases hc' : t.contains nrm big (u.v k + s • (u.v (k + 1) - u.v k)) tol with
  | outside => exact absurd hc' hin
  | vertex => exact absurd hc' hnv
  | edge => exact Or.inr rfl
  | internal => exact Or.inl rfl

end Tri

open Tri

/-- **C134 (partial: no false alarm).** With tolerance 0, two triangles in planes that are not parallel: if `intersects` says yes and the
first triangle is not strictly on one side of the plane of the second, they have a common point. (Without the proviso this fails:
`C134_false_alarm`.) -/
theorem C134_sound_partial {nrm : Vec3 K → K} (hN : IsNorm nrm) (eps big cos1 : K) (t u : Tri K) (ht : t.rawNormal ≠ 0) (hu : u.rawNormal ≠ 0)
    (hw : Vec3.cross t.rawNormal u.rawNormal ≠ 0)
    (hside : ¬ (∀ i < 3, 0 < u.rawNormal.dot (t.v i - u.v0)) ∧ ¬ ∀ i < 3, u.rawNormal.dot (t.v i - u.v0) < 0)
    (k : TriHit) (h : t.intersects nrm eps big cos1 u 0 = some k) : ∃ x, t.Has x ∧ u.Has x := by
  have hc : ¬ nrm (Vec3.cross (t.normal nrm) (u.normal nrm)) ≤ 0 := by
    rw [t.cross_normals hN u ht hu]
    intro hle
    have hne : ((nrm t.rawNormal)⁻¹ * (nrm u.rawNormal)⁻¹) • Vec3.cross t.rawNormal u.rawNormal ≠ 0 := by
      intro h0
      have hm : (nrm t.rawNormal)⁻¹ * (nrm u.rawNormal)⁻¹ ≠ 0 := mul_ne_zero (inv_ne_zero (hN.pos ht).ne') (inv_ne_zero (hN.pos hu).ne')
      apply hw
      have kx := congrArg Vec3.x h0
      have ky := congrArg Vec3.y h0
      have kz := congrArg Vec3.z h0
      simp only [Vec3.smul_x, Vec3.smul_y, Vec3.smul_z, Vec3.zero_x, Vec3.zero_y, Vec3.zero_z] at kx ky kz
      ext
      · exact (mul_eq_zero.1 kx).resolve_left hm
      · exact (mul_eq_zero.1 ky).resolve_left hm
      · exact (mul_eq_zero.1 kz).resolve_left hm
    exact absurd (hN.pos hne) (not_lt.2 hle)
  unfold Tri.intersects at h
  simp only [nearVertices_zero hN] at h
  by_cases hb : (t.bbox big).intersects (u.bbox big) 0 = true
  swap
  · simp [hb] at h
  simp only [hb, Bool.not_true, Bool.false_eq_true, if_false] at h
  cases hs1 : oneSide 0 ((t.normal nrm).dot u.v0 - (t.normal nrm).dot t.v0) ((t.normal nrm).dot u.v1 - (t.normal nrm).dot t.v0)
      ((t.normal nrm).dot u.v2 - (t.normal nrm).dot t.v0) with
  | true => simp [hs1] at h
  | false =>
    simp only [hs1, Bool.false_eq_true, if_false, u.oneSide_self (nrm := nrm) (le_refl (0 : K))] at h
    rw [if_neg (by norm_num), if_neg (fun hh => hc hh.1), if_neg (by norm_num)] at h
    cases hp : pierced nrm big t u 0 with
    | true => exact t.pierced_sound hN u ht big hp
    | false =>
      cases hp' : pierced nrm big u t 0 with
      | true =>
        obtain ⟨x, h1, h2⟩ := u.pierced_sound hN t hu big hp'
        exact ⟨x, h2, h1⟩
      | false =>
        simp only [hp, hp', Bool.or_false, Bool.false_eq_true, if_false, hitTail] at h
        rw [if_neg (by norm_num)] at h
        cases hca : t.containsAll nrm big u 0 with
        | true => exact t.containsAll_sound hN u ht big hca hs1
        | false =>
          cases hcb : u.containsAll nrm big t 0 with
          | true =>
            obtain ⟨x, h1, h2⟩ := u.containsAll_sound hN t hu big hcb (t.oneSide_raw u hN hu hside)
            exact ⟨x, h2, h1⟩
          | false => simp [hca, hcb] at h

/-- **C134 (nothing missed).** A positive tolerance, two triangles whose planes are not nearly parallel, with edges that are not nearly
parallel to the plane of the other triangle and do not pass it within the tolerance of one of its corners: if they have a common point,
`intersects` says yes, and the kind is "internal" when no corner of one is within the tolerance of a corner of the other. -/
theorem C134_found {nrm : Vec3 K → K} (hN : IsNorm nrm) (eps big cos1 : K) (t u : Tri K) (tol : K) (h0 : 0 < tol) (ht : t.rawNormal ≠ 0)
    (hu : u.rawNormal ≠ 0) (hw : tol < nrm (Vec3.cross (t.normal nrm) (u.normal nrm))) (hc : Clear nrm t u tol) (hc' : Clear nrm u t tol)
    (x : Vec3 K) (hx : t.Has x) (hx' : u.Has x) :
    (∃ k, t.intersects nrm eps big cos1 u tol = some k) ∧
    ((∀ i < 3, ∀ j < 3, tol ≤ nrm (t.v i - u.v j)) → t.intersects nrm eps big cos1 u tol = some .internal) := by
  have hraw : Vec3.cross t.rawNormal u.rawNormal ≠ 0 := by
    intro h
    rw [t.cross_normals hN u ht hu, h] at hw
    have : ((nrm t.rawNormal)⁻¹ * (nrm u.rawNormal)⁻¹) • (0 : Vec3 K) = 0 := by ext <;> simp
    rw [this, hN.eq_zero.2 rfl] at hw
    linarith
  obtain ⟨y, hy, hy', hor⟩ := t.exists_edge_point hN u ht hu hraw hx hx'
  have hp : (pierced nrm big t u tol || pierced nrm big u t tol) = true := by
    rcases hor with h | h
    · rw [u.pierced_of hN t hu h0 hc' hy' h]; simp
    · rw [t.pierced_of hN u ht h0 hc hy h]; simp
  have hb := t.boxes_meet u big hx hx' h0.le
  have hs1 := u.not_oneSide_of_has (t.normal nrm) ((t.normal nrm).dot t.v0) hx' (t.normal_dot_has hx) h0.le
  have e : t.intersects nrm eps big cos1 u tol = if nearVertices nrm t u tol = 3 then some .coincident
      else if nearVertices nrm t u tol = 2 then some .edge else some .internal := by
    unfold Tri.intersects
    simp only [hb, Bool.not_true, Bool.false_eq_true, if_false, hs1, u.oneSide_self (nrm := nrm) h0.le, hp, if_true]
    rw [if_neg (c := _ ∧ _) (fun hh => absurd hw (not_lt.2 hh.1))]
  constructor
  · rw [e]; split_ifs <;> exact ⟨_, rfl⟩
  · intro hv
    rw [e, t.nearVertices_far u hv]
    norm_num

/-- **C134 (neighbours).** Two triangles with a common edge, run through in opposite senses as in an oriented surface, in different
planes, and with no other corners within the tolerance: the kind is "edge", not a crossing. -/
theorem C134_neighbours {nrm : Vec3 K → K} (hN : IsNorm nrm) (eps big cos1 : K) (a b c d : Vec3 K) (tol : K) (h0 : 0 < tol)
    (hab : tol ≤ nrm (a - b)) (hba : tol ≤ nrm (b - a)) (had : tol ≤ nrm (a - d)) (hbd : tol ≤ nrm (b - d)) (hca : tol ≤ nrm (c - a)) (hcb : tol ≤ nrm (c - b)) (hcd : tol ≤ nrm (c - d))
    (hw : tol < nrm (Vec3.cross (Tri.normal nrm ⟨a, b, c⟩) (Tri.normal nrm ⟨b, a, d⟩))) :
    Tri.intersects nrm eps big cos1 ⟨a, b, c⟩ ⟨b, a, d⟩ tol = some .edge := by
  have hz : nrm (0 : Vec3 K) < tol := by rw [hN.eq_zero.2 rfl]; exact h0
  have ea : ∀ v : Vec3 K, v - v = 0 := fun v => by ext <;> simp
  have hnv : nearVertices nrm (⟨a, b, c⟩ : Tri K) ⟨b, a, d⟩ tol = 2 := by
    unfold nearVertices
    have v0 : (⟨a, b, c⟩ : Tri K).v 0 = a := rfl
    have v1 : (⟨a, b, c⟩ : Tri K).v 1 = b := rfl
    have v2 : (⟨a, b, c⟩ : Tri K).v 2 = c := rfl
    have w0 : (⟨b, a, d⟩ : Tri K).v 0 = b := rfl
    have w1 : (⟨b, a, d⟩ : Tri K).v 1 = a := rfl
    have w2 : (⟨b, a, d⟩ : Tri K).v 2 = d := rfl
    simp [v0, v1, v2, w0, w1, w2, ea, hz, not_lt.2 hab, not_lt.2 hba, not_lt.2 had, not_lt.2 hbd, not_lt.2 hca, not_lt.2 hcb, not_lt.2 hcd]
  have hx : (⟨a, b, c⟩ : Tri K).Has a := (⟨a, b, c⟩ : Tri K).has_v 0
  have hx' : (⟨b, a, d⟩ : Tri K).Has a := (⟨b, a, d⟩ : Tri K).has_v 1
  have hb := (⟨a, b, c⟩ : Tri K).boxes_meet ⟨b, a, d⟩ big hx hx' h0.le
  have hs1 := (⟨b, a, d⟩ : Tri K).not_oneSide_of_has ((⟨a, b, c⟩ : Tri K).normal nrm) (((⟨a, b, c⟩ : Tri K).normal nrm).dot a) hx' rfl h0.le
  unfold Tri.intersects
  simp only [hb, Bool.not_true, Bool.false_eq_true, if_false, (⟨b, a, d⟩ : Tri K).oneSide_self (nrm := nrm) h0.le, hnv]
  simp only at hs1
  rw [hs1]
  simp only [Bool.false_eq_true, if_false]
  rw [if_neg (by norm_num), if_neg (c := _ ∧ _) (fun hh => absurd hw (not_lt.2 hh.1)), if_pos trivial]

/-- **C134 (segment).** With a positive tolerance, a segment that meets the triangle and is not nearly parallel to it: `intersects`
says yes and gives the common point. -/
theorem C134_segment {nrm : Vec3 K → K} (hN : IsNorm nrm) (big : K) (t : Tri K) (ht : t.rawNormal ≠ 0) (l : GLine K) (hl : l.vec = l.endP - l.startP)
    (tol : K) (h0 : 0 < tol) (hs : tol * tol < |(t.normal nrm).dot l.vec|) (x : Vec3 K) (hx : t.Has x) (hx' : OnSeg l.startP l.endP x) :
    ∃ loc, t.intersectsLine nrm big l tol = some (x, loc) := by
  obtain ⟨s, s0, s1, rfl⟩ := hx'
  rw [← hl] at hx ⊢
  obtain ⟨ty, hty⟩ := t.planeHit_of (t.normal_unit hN ht) h0.le hs s0 s1 (t.normal_dot_has hx)
  unfold Tri.intersectsLine
  rw [hty]
  simp only [if_neg (C58_contains nrm hN big t ht _ tol h0 hx)]
  exact ⟨_, rfl⟩

/-- **C134 (segment, no false alarm).** With tolerance 0 the point reported is on the segment and in the triangle. -/
theorem C134_segment_sound {nrm : Vec3 K → K} (hN : IsNorm nrm) (big : K) (t : Tri K) (ht : t.rawNormal ≠ 0) (l : GLine K) (hl : l.vec = l.endP - l.startP)
    (x : Vec3 K) (loc : Loc) (h : t.intersectsLine nrm big l 0 = some (x, loc)) : t.Has x ∧ OnSeg l.startP l.endP x := by
  unfold Tri.intersectsLine at h
  split at h
  · rename_i y ty hy
    by_cases hc : t.contains nrm big y 0 = .outside
    · simp [hc] at h
    rw [if_neg hc] at h
    obtain ⟨rfl, -⟩ := Prod.mk.inj (Option.some.inj h)
    obtain ⟨hp, s, s0, s1, rfl⟩ := t.planeHit (t.normal_unit hN ht) hy
    obtain ⟨a, b, c⟩ := t.sides_of_contains hN ht big hc
    rw [neg_zero] at s0
    rw [add_zero] at s1
    exact ⟨t.has_of_sides hN ht hp a b c, s, s0, s1, by rw [hl]⟩
  · simp at h

end ENigMA
