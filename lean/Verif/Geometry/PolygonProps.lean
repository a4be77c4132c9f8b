import Verif.Geometry.PolygonLemmas

/-!
# C37: polygon area; C40: triangulation
-/

set_option linter.unusedSectionVars false

namespace ENigMA
open Polygon

section Sums
variable {K : Type} [Field K] [LinearOrder K] [IsStrictOrderedRing K]

/-- **C37.** The area sum of `calculateArea` is the shoelace sum: dropping x, y or z gives the matching
component of the sum of the cross products of cyclically consecutive corners. -/
theorem C37_projectedSum (vs : List (Vec3 K)) :
    projectedSum 1 vs = (vecArea2 vs).x ∧ projectedSum 2 vs = (vecArea2 vs).y ∧
      projectedSum 3 vs = (vecArea2 vs).z :=
  ⟨shoelace_x vs, shoelace_y vs, shoelace_z vs⟩

/-- Rotating the corner list does not change the vector area. -/
theorem vecArea2_append_comm (l r : List (Vec3 K)) : vecArea2 (l ++ r) = vecArea2 (r ++ l) := by
  cases l with
  | nil => simp
  | cons a l =>
    cases r with
    | nil => simp
    | cons b r =>
      have h1 := openArea2_cut (a :: l) b (r ++ [a])
      have h2 := openArea2_cut (b :: r) a (l ++ [b])
      simp only [vecArea2, List.cons_append, List.append_assoc] at h1 h2 ⊢
      rw [h1, h2, add_comm]

theorem openArea2_map_sub_closed (o a : Vec3 K) (l : List (Vec3 K)) :
    openArea2 ((a :: l ++ [a]).map (· - o)) = openArea2 (a :: l ++ [a]) := by
  have := openArea2_translate o a (l ++ [a])
  have hl : (a :: (l ++ [a])).getLast (by simp) = a := by
    rw [List.getLast_cons (by simp)]; simp
  rw [hl, sub_self] at this
  rw [List.cons_append, this]
  simp [show Vec3.cross o 0 = 0 by ext <;> simp]

/-- Translating all corners does not change the vector area. -/
theorem vecArea2_translate (o : Vec3 K) (vs : List (Vec3 K)) : vecArea2 (vs.map (· - o)) = vecArea2 vs := by
  cases vs with
  | nil => rfl
  | cons a l =>
    have := openArea2_map_sub_closed o a l
    simpa [vecArea2] using this

theorem vecArea2_reverse (vs : List (Vec3 K)) : vecArea2 vs.reverse = -vecArea2 vs := by
  cases vs with
  | nil => simp [vecArea2]
  | cons a l =>
    rw [List.reverse_cons, vecArea2_append_comm]
    have h := openArea2_reverse (a :: l ++ [a])
    simp only [List.reverse_append, List.reverse_cons, List.reverse_nil, List.nil_append, List.cons_append] at h
    simp only [vecArea2, List.cons_append, List.nil_append]
    exact h

/-- **C37.** The area sums do not depend on the starting corner, nor on where the polygon is in space; they are
negated when the polygon is inverted; and they add up when the polygon is cut along the diagonal between two of
its corners. All for any number of corners. -/
theorem C37_sums (coord : Nat) :
    (∀ l r : List (Vec3 K), projectedSum coord (l ++ r) = projectedSum coord (r ++ l)) ∧
    (∀ (o : Vec3 K) vs, projectedSum coord (vs.map (· - o)) = projectedSum coord vs) ∧
    (∀ vs : List (Vec3 K), projectedSum coord (VertexList.invert vs) = -projectedSum coord vs) ∧
    (∀ (a b : Vec3 K) (p q : List (Vec3 K)), projectedSum coord (a :: p ++ b :: q) =
      projectedSum coord (a :: p ++ [b]) + projectedSum coord (b :: q ++ [a])) ∧
    (∀ (a : Vec3 K) l, projectedSum coord (a :: l ++ [a]) = projectedSum coord (a :: l)) := by
  have key : ∃ f : Vec3 K → K, (∀ v w, f (v + w) = f v + f w) ∧ (∀ v, f (-v) = -f v) ∧
      ∀ vs, projectedSum coord vs = f (vecArea2 vs) := by
    unfold projectedSum
    split
    · exact ⟨Vec3.x, fun _ _ => rfl, fun _ => rfl, shoelace_x⟩
    · exact ⟨Vec3.y, fun _ _ => rfl, fun _ => rfl, shoelace_y⟩
    · exact ⟨Vec3.z, fun _ _ => rfl, fun _ => rfl, shoelace_z⟩
  obtain ⟨f, hadd, hneg, hf⟩ := key
  refine ⟨fun l r => ?_, fun o vs => ?_, fun vs => ?_, fun a b p q => ?_, fun a l => ?_⟩
  · rw [hf, hf, vecArea2_append_comm]
  · rw [hf, hf, vecArea2_translate]
  · rw [hf, hf, ← hneg]; exact congrArg f (vecArea2_reverse vs)
  · rw [hf, hf, hf, ← hadd]
    congr 1
    have h1 := openArea2_cut (a :: p) b (q ++ [a])
    have h2 := openArea2_cut (a :: p) b [a]
    have h3 := openArea2_cut (b :: q) a [b]
    simp only [vecArea2, List.cons_append, List.append_assoc, List.nil_append, openArea2_cons_cons,
      openArea2_single, add_zero] at h1 h2 h3 ⊢
    rw [h1, h2, h3, Vec3.cross_swap a b]
    abel
  · rw [hf, hf, vecArea2_closed]

end Sums

section Area
variable {K : Type} [Field K] [LinearOrder K] [IsStrictOrderedRing K]

/-- All points lie in one plane. -/
def Planar (vs : List (Vec3 K)) : Prop := ∃ (m : Vec3 K) (d : K), m ≠ 0 ∧ ∀ v ∈ vs, m.dot v = d

/-- Some three consecutive points span a triangle whose cross product is longer than `eps`. -/
def HasCorner (nrm : Vec3 K → K) (eps : K) (vs : List (Vec3 K)) : Prop :=
  ∃ l a b c r, vs = l ++ a :: b :: c :: r ∧ eps < nrm (Vec3.cross (b - a) (c - a))

/-- The vector returned by `calculateNormal` is the unit vector along the first usable corner. -/
theorem normalLoop_spec (nrm : Vec3 K → K) (eps : K) (vs : List (Vec3 K)) (cur : Vec3 K)
    (h : HasCorner nrm eps vs) :
    ∃ l a b c r, vs = l ++ a :: b :: c :: r ∧ eps < nrm (Vec3.cross (b - a) (c - a)) ∧
      normalLoop nrm eps cur vs = (nrm (Vec3.cross (b - a) (c - a)))⁻¹ • Vec3.cross (b - a) (c - a) ∧
      (∀ l' a' b' c' r', vs = l' ++ a' :: b' :: c' :: r' → eps < nrm (Vec3.cross (b' - a') (c' - a')) →
        l.length ≤ l'.length) := by
  induction vs generalizing cur with
  | nil =>
    obtain ⟨l, a, b, c, r, he, _⟩ := h
    simp at he
  | cons a0 vs ih =>
    obtain ⟨l, a, b, c, r, he, hc⟩ := h
    match vs, ih, he with
    | [], _, he => cases l <;> simp at he
    | [x], _, he =>
      have := congrArg List.length he
      simp at this
      omega
    | b0 :: c0 :: rest, ih, he =>
      by_cases h0 : eps < nrm (Vec3.cross (b0 - a0) (c0 - a0))
      · refine ⟨[], a0, b0, c0, rest, rfl, h0, ?_, fun _ _ _ _ _ _ _ => Nat.zero_le _⟩
        simp only [normalLoop, if_pos h0]
      · have hl : l ≠ [] := by
          rintro rfl
          simp only [List.nil_append, List.cons.injEq] at he
          obtain ⟨rfl, rfl, rfl, _⟩ := he
          exact h0 hc
        obtain ⟨y, l', rfl⟩ := List.exists_cons_of_ne_nil hl
        simp only [List.cons_append, List.cons.injEq] at he
        obtain ⟨l2, a2, b2, c2, r2, e1, e2, e3, e4⟩ := ih (Vec3.cross (b0 - a0) (c0 - a0))
          ⟨l', a, b, c, r, he.2, hc⟩
        refine ⟨a0 :: l2, a2, b2, c2, r2, by rw [e1]; rfl, e2, ?_, ?_⟩
        · rw [← e3]
          simp only [normalLoop, if_neg h0]
        · intro l3 a3 b3 c3 r3 h3 h3'
          cases l3 with
          | nil =>
            simp only [List.nil_append, List.cons.injEq] at h3
            obtain ⟨rfl, rfl, rfl, _⟩ := h3
            exact absurd h3' h0
          | cons z l3 =>
            simp only [List.cons_append, List.cons.injEq] at h3
            have := e4 l3 a3 b3 c3 r3 h3.2 h3'
            simpa using this

/-- Three vectors orthogonal to a nonzero vector have zero determinant. -/
theorem det_zero_of_orthogonal {m p q r : Vec3 K} (hm : m ≠ 0) (hp : m.dot p = 0) (hq : m.dot q = 0)
    (hr : m.dot r = 0) : (Vec3.cross p q).dot r = 0 := by
  have hx : (Vec3.cross p q).dot r * m.x = 0 := by
    simp only [Vec3.dot, Vec3.cross_x, Vec3.cross_y, Vec3.cross_z] at *
    linear_combination (q.y * r.z - q.z * r.y) * hp + (r.y * p.z - r.z * p.y) * hq + (p.y * q.z - p.z * q.y) * hr
  have hy : (Vec3.cross p q).dot r * m.y = 0 := by
    simp only [Vec3.dot, Vec3.cross_x, Vec3.cross_y, Vec3.cross_z] at *
    linear_combination (q.z * r.x - q.x * r.z) * hp + (r.z * p.x - r.x * p.z) * hq + (p.z * q.x - p.x * q.z) * hr
  have hz : (Vec3.cross p q).dot r * m.z = 0 := by
    simp only [Vec3.dot, Vec3.cross_x, Vec3.cross_y, Vec3.cross_z] at *
    linear_combination (q.x * r.y - q.y * r.x) * hp + (r.x * p.y - r.y * p.x) * hq + (p.x * q.y - p.y * q.x) * hr
  by_contra hne
  apply hm
  ext
  · simpa [hne] using hx
  · simpa [hne] using hy
  · simpa [hne] using hz

theorem cross_parallel {n a b : Vec3 K} (hn : n.normSq = 1) (ha : a.dot n = 0) (hb : b.dot n = 0) :
    Vec3.cross a b = ((Vec3.cross a b).dot n) • n := by
  ext
  · simp only [Vec3.normSq, Vec3.dot, Vec3.cross_x, Vec3.cross_y, Vec3.cross_z, Vec3.smul_x] at *
    linear_combination (n.y * b.z - n.z * b.y) * ha - (n.y * a.z - n.z * a.y) * hb - (a.y * b.z - a.z * b.y) * hn
  · simp only [Vec3.normSq, Vec3.dot, Vec3.cross_x, Vec3.cross_y, Vec3.cross_z, Vec3.smul_y] at *
    linear_combination (n.z * b.x - n.x * b.z) * ha - (n.z * a.x - n.x * a.z) * hb - (a.z * b.x - a.x * b.z) * hn
  · simp only [Vec3.normSq, Vec3.dot, Vec3.cross_x, Vec3.cross_y, Vec3.cross_z, Vec3.smul_z] at *
    linear_combination (n.x * b.y - n.y * b.x) * ha - (n.x * a.y - n.y * a.x) * hb - (a.x * b.y - a.y * b.x) * hn

theorem openArea2_parallel {n : Vec3 K} (hn : n.normSq = 1) (l : List (Vec3 K)) (h : ∀ v ∈ l, v.dot n = 0) :
    openArea2 l = ((openArea2 l).dot n) • n := by
  induction l with
  | nil => simp
  | cons a l ih =>
    cases l with
    | nil => simp
    | cons b l =>
      rw [openArea2_cons_cons, Vec3.add_dot, add_smul, ← ih (fun v hv => h v (by simp [hv])),
        ← cross_parallel hn (h a (by simp)) (h b (by simp))]

theorem vecArea2_parallel {n : Vec3 K} (hn : n.normSq = 1) (vs : List (Vec3 K))
    (h : ∀ v ∈ vs, ∀ w ∈ vs, (v - w).dot n = 0) : vecArea2 vs = ((vecArea2 vs).dot n) • n := by
  cases vs with
  | nil => simp [vecArea2]
  | cons a l =>
    have e : vecArea2 (a :: l) = openArea2 ((a :: l ++ [a]).map (· - a)) :=
      (openArea2_map_sub_closed a a l).symm
    rw [e]
    apply openArea2_parallel hn
    intro v hv
    obtain ⟨w, hw, rfl⟩ := List.mem_map.1 hv
    apply h w _ a (by simp)
    simpa [or_comm] using hw

/-- The coordinate that is dropped is one in which the normal does not vanish. -/
theorem areaWith_of_parallel (nrm : Vec3 K → K) (eps : K) (n : Vec3 K) (vs : List (Vec3 K)) (α : K)
    (hlen : 1 < vs.length) (hn0 : n ≠ 0) (hn : nrm n = 1) (heps : eps < 1) (h : vecArea2 vs = α • n) :
    areaWith nrm eps n vs = α / 2 := by
  unfold areaWith
  rw [if_pos hlen, hn, if_pos heps]
  obtain ⟨p1, p2, p3⟩ := C37_projectedSum vs
  unfold dropped
  split_ifs with h1 h2 h3
  · have hx : n.x ≠ 0 := fun h0 => by rw [h0, abs_zero] at h1; exact absurd h1 (not_lt.2 (abs_nonneg _))
    simp only [p1, h, Vec3.smul_x]; field_simp
  · have hz : n.z ≠ 0 := fun h0 => by
      rw [h0, abs_zero, not_lt] at h2
      exact absurd (lt_of_lt_of_le h1 h2) (not_lt.2 (abs_nonneg _))
    simp only [p3, h, Vec3.smul_z]; field_simp
  · have hy : n.y ≠ 0 := fun h0 => by rw [h0, abs_zero] at h3; exact absurd h3 (not_lt.2 (abs_nonneg _))
    simp only [p2, h, Vec3.smul_y]; field_simp
  · have hz : n.z ≠ 0 := fun h0 => by
      rw [h0, abs_zero, not_lt] at h3
      have hy := abs_nonpos_iff.1 h3
      rw [hy, abs_zero, not_lt] at h1
      exact hn0 (Vec3.ext (abs_nonpos_iff.1 h1) hy h0)
    simp only [p3, h, Vec3.smul_z]; field_simp

/-- **C37.** For a planar polygon with any number of vertices and at least one usable corner, `calculateNormal`
gives a unit vector orthogonal to the plane, and `calculateArea` gives the signed area along it: twice the area
times the normal is exactly the vector area (the sum of cross products around the polygon). In particular the
absolute value of the area is half the length of the vector area. -/
theorem C37_area (nrm : Vec3 K → K) (hN : IsNorm nrm) (eps : K) (heps : 0 ≤ eps ∧ eps < 1)
    (vs : List (Vec3 K)) (hp : Planar vs) (hc : HasCorner nrm eps vs) :
    (normal nrm eps vs).normSq = 1 ∧
    (∀ v ∈ vs, ∀ w ∈ vs, (v - w).dot (normal nrm eps vs) = 0) ∧
    (2 * area nrm eps vs) • normal nrm eps vs = vecArea2 vs ∧
    2 * |area nrm eps vs| = nrm (vecArea2 vs) := by
  obtain ⟨m, d, hm, hpl⟩ := hp
  obtain ⟨l, a, b, c, r, hvs, hlong, hnorm, -⟩ := normalLoop_spec nrm eps vs 0 hc
  have hn : normal nrm eps vs = (nrm (Vec3.cross (b - a) (c - a)))⁻¹ • Vec3.cross (b - a) (c - a) := hnorm
  set x := Vec3.cross (b - a) (c - a) with hx
  set n := normal nrm eps vs with hndef
  have hpos : 0 < nrm x := lt_of_le_of_lt heps.1 hlong
  have hsq : n.normSq = 1 := by
    have h2 := hN.sq x
    have : n.normSq = (nrm x)⁻¹ * (nrm x)⁻¹ * x.normSq := by
      rw [hn]; simp only [Vec3.normSq, Vec3.dot, Vec3.smul_x, Vec3.smul_y, Vec3.smul_z]; ring
    rw [this, ← h2]
    field_simp
  have hnrm : nrm n = 1 := hN.eq_of_sq zero_le_one (by rw [hsq]; ring)
  have hn0 : n ≠ 0 := by
    intro h0; rw [h0] at hsq; simp [Vec3.normSq] at hsq
  have hdiff : ∀ v ∈ vs, ∀ w ∈ vs, m.dot (v - w) = 0 := fun v hv w hw => by
    rw [Vec3.dot_sub, hpl v hv, hpl w hw, sub_self]
  have hma : a ∈ vs := by rw [hvs]; simp
  have hmb : b ∈ vs := by rw [hvs]; simp
  have hmc : c ∈ vs := by rw [hvs]; simp
  have horth : ∀ v ∈ vs, ∀ w ∈ vs, (v - w).dot n = 0 := by
    intro v hv w hw
    have := det_zero_of_orthogonal hm (hdiff b hmb a hma) (hdiff c hmc a hma) (hdiff v hv w hw)
    rw [hn, Vec3.dot_smul, Vec3.dot_comm, hx, this, mul_zero]
  have hpar := vecArea2_parallel hsq vs horth
  have hlen : 1 < vs.length := by rw [hvs]; simp; omega
  have harea : area nrm eps vs = (vecArea2 vs).dot n / 2 :=
    areaWith_of_parallel nrm eps n vs _ hlen hn0 hnrm heps.2 hpar
  have h2 : 2 * area nrm eps vs = (vecArea2 vs).dot n := by rw [harea]; ring
  refine ⟨hsq, horth, by rw [h2]; exact hpar.symm, ?_⟩
  rw [hpar, hN.smul, hnrm, mul_one, ← h2, abs_mul, abs_of_pos (zero_lt_two' K)]

/-- An arrow-shaped polygon in the plane `z = 0`, counter-clockwise, of area 4. -/
def arrow : List (Vec3 K) := [⟨0, 0, 0⟩, ⟨4, 0, 0⟩, ⟨1, 1, 0⟩, ⟨0, 4, 0⟩, ⟨0, 0, 0⟩]

/-- The same polygon, started one corner later (its second corner is now the reflex one). -/
def arrow' : List (Vec3 K) := [⟨4, 0, 0⟩, ⟨1, 1, 0⟩, ⟨0, 4, 0⟩, ⟨0, 0, 0⟩, ⟨4, 0, 0⟩]

example : Planar (arrow : List (Vec3 ℝ)) ∧ HasCorner realNorm (1 / 2) (arrow : List (Vec3 ℝ)) := by
  refine ⟨⟨⟨0, 0, 1⟩, 0, ?_, ?_⟩, [], ⟨0, 0, 0⟩, ⟨4, 0, 0⟩, ⟨1, 1, 0⟩, [⟨0, 4, 0⟩, ⟨0, 0, 0⟩], rfl, ?_⟩
  · intro h; have := congrArg Vec3.z h; norm_num at this
  · simp [arrow, Vec3.dot]
  · rw [isNorm_real.eq_of_sq (c := 4) (by norm_num) (by simp [Vec3.normSq, Vec3.dot])]; norm_num

/-- The claim "the area does not depend on the starting vertex" holds for the sums (`C37_sums`) but fails for the
value stored by `calculateArea`: its sign follows the first usable corner, which may be a reflex one. The same
counter-clockwise polygon has area `4` or `-4` depending on where its vertex list starts. -/
theorem C37_area_sign_depends_on_start (nrm : Vec3 K → K) (hN : IsNorm nrm) (eps : K)
    (heps : 0 ≤ eps ∧ eps < 1) :
    area nrm eps (arrow : List (Vec3 K)) = 4 ∧ area nrm eps (arrow' : List (Vec3 K)) = -4 := by
  have hn4 : nrm (⟨0, 0, 4⟩ : Vec3 K) = 4 := hN.eq_of_sq (by norm_num) (by simp [Vec3.normSq, Vec3.dot])
  have hn8 : nrm (⟨0, 0, -8⟩ : Vec3 K) = 8 := hN.eq_of_sq (by norm_num) (by simp [Vec3.normSq, Vec3.dot])
  have hp1 : nrm (⟨0, 0, 1⟩ : Vec3 K) = 1 := hN.eq_of_sq (by norm_num) (by simp [Vec3.normSq, Vec3.dot])
  have hm1 : nrm (⟨0, 0, -1⟩ : Vec3 K) = 1 := hN.eq_of_sq (by norm_num) (by simp [Vec3.normSq, Vec3.dot])
  have c4 : Vec3.cross ((⟨4, 0, 0⟩ : Vec3 K) - ⟨0, 0, 0⟩) ((⟨1, 1, 0⟩ : Vec3 K) - ⟨0, 0, 0⟩) = ⟨0, 0, 4⟩ := by
    ext <;> simp
  have c8 : Vec3.cross ((⟨1, 1, 0⟩ : Vec3 K) - ⟨4, 0, 0⟩) ((⟨0, 4, 0⟩ : Vec3 K) - ⟨4, 0, 0⟩) = ⟨0, 0, -8⟩ := by
    ext <;> simp; norm_num
  have n1 : normal nrm eps (arrow : List (Vec3 K)) = ⟨0, 0, 1⟩ := by
    simp only [normal, arrow, normalLoop, c4, hn4, if_pos (show eps < 4 by linarith [heps.2])]
    ext <;> simp
  have n2 : normal nrm eps (arrow' : List (Vec3 K)) = ⟨0, 0, -1⟩ := by
    simp only [normal, arrow', normalLoop, c8, hn8, if_pos (show eps < 8 by linarith [heps.2])]
    ext <;> simp
  have v1 : vecArea2 (arrow : List (Vec3 K)) = (8 : K) • ⟨0, 0, 1⟩ := by
    ext <;> simp [arrow, vecArea2]; norm_num
  have v2 : vecArea2 (arrow' : List (Vec3 K)) = (-8 : K) • ⟨0, 0, -1⟩ := by
    ext <;> simp [arrow', vecArea2]; norm_num
  constructor
  · unfold area
    rw [n1, areaWith_of_parallel nrm eps _ _ 8 (by simp [arrow]) (by
      intro h; have := congrArg Vec3.z h; norm_num at this) hp1 heps.2 v1]
    norm_num
  · unfold area
    rw [n2, areaWith_of_parallel nrm eps _ _ (-8) (by simp [arrow']) (by
      intro h; have := congrArg Vec3.z h; norm_num at this) hm1 heps.2 v2]
    norm_num

/-- **C37.** Once a polygon's area has been calculated, `invert()` keeps area and normal consistent without
recalculation: the cached area stays, the cached normal turns round, and together they still describe the vector
area of the (now reversed) vertex list, which has changed sign. -/
theorem C37_invert_cached (nrm : Vec3 K → K) (hN : IsNorm nrm) (eps : K) (heps : 0 ≤ eps ∧ eps < 1)
    (vs : List (Vec3 K)) (hp : Planar vs) (hc : HasCorner nrm eps vs) :
    let q := ((ofPolyline vs).calculateArea nrm eps false).invert
    (2 * q.m_area) • q.m_normal = vecArea2 q.vs ∧ vecArea2 q.vs = -vecArea2 vs ∧
      (q.calculateArea nrm eps false).m_area = q.m_area := by
  have hlen : 1 < vs.length := by
    obtain ⟨l, a, b, c, r, hvs, -⟩ := hc
    rw [hvs]; simp; omega
  obtain ⟨-, -, h3, -⟩ := C37_area nrm hN eps heps vs hp hc
  have hm : (ofPolyline vs).calculateArea nrm eps false =
      ⟨vs, normal nrm eps vs, true, area nrm eps vs, true⟩ := by
    simp [calculateArea, calculateNormal, ofPolyline, hlen, area]
  simp only [hm, invert]
  refine ⟨?_, vecArea2_reverse vs, by simp [calculateArea]⟩
  rw [smul_neg, h3, vecArea2_reverse]

/-- A cached area is not invalidated by `setPolyline`: whatever the new vertices are, asking again without forcing
recalculation reports the area of the old ones. -/
theorem C37_setPolyline_stale (nrm : Vec3 K → K) (eps : K) (vs ws : List (Vec3 K)) :
    ((((ofPolyline vs).calculateArea nrm eps false).setPolyline ws).calculateArea nrm eps false).m_area =
      ((ofPolyline vs).calculateArea nrm eps false).m_area := by
  simp [calculateArea, calculateNormal, ofPolyline, setPolyline]

end Area

section Triangulate
variable {K : Type} [Field K] [LinearOrder K] [IsStrictOrderedRing K]

/-- Removing the corner `x` between `z` and `y` removes the triangle `(x, y, z)`. -/
theorem vecArea2_ear (x y z : Vec3 K) (l : List (Vec3 K)) :
    vecArea2 (x :: y :: l ++ [z]) = vecArea2 [x, y, z] + vecArea2 (y :: l ++ [z]) := by
  have h1 := openArea2_cut (y :: l) z [x]
  have h2 := openArea2_cut (y :: l) z [y]
  simp only [vecArea2, List.cons_append, List.append_assoc, List.nil_append, openArea2_cons_cons,
    openArea2_single, add_zero] at h1 h2 ⊢
  rw [h1, h2, Vec3.cross_swap z y]
  abel

/-- `(ii, ip, im, wi)` describes the corner at position `wi` of the chain with its cyclic neighbours. -/
def EarAt (chain : List Nat) (b : Nat × Nat × Nat × Nat) : Prop :=
  ∃ l r, chain = l ++ b.1 :: r ∧ l.length = b.2.2.2 ∧ (r ++ l).head? = some b.2.1 ∧ (r ++ l).getLast? = some b.2.2.1

theorem earAt_pos (chain : List Nat) (h3 : 2 < chain.length) (i : Nat) (hi : i < chain.length) :
    EarAt chain (chain.getD i 0, if i = 0 then chain.getD 1 0 else chain.getD ((i + 1) % chain.length) 0,
      if i = 0 then chain.getD (chain.length - 1) 0 else chain.getD (i - 1) 0, i) := by
  refine ⟨chain.take i, chain.drop (i + 1), ?_, by simp; omega, ?_, ?_⟩
  · have : chain.getD i 0 = chain[i] := by simp [List.getD, hi]
    simp only [this]
    rw [List.getElem_cons_drop, List.take_append_drop]
  · rw [List.head?_append, List.head?_drop]
    by_cases h0 : i = 0
    · subst h0
      simp [List.getD, show 1 < chain.length by omega]
    · rw [if_neg h0]
      by_cases h1 : i + 1 < chain.length
      · rw [Nat.mod_eq_of_lt h1]
        simp [List.getD, h1]
      · have : i + 1 = chain.length := by omega
        rw [this, Nat.mod_self, List.getElem?_eq_none le_rfl, Option.none_or, List.head?_take, if_neg h0,
          List.head?_eq_getElem?]
        simp [List.getD, show 0 < chain.length by omega]
  · rw [List.getLast?_append]
    by_cases h0 : i = 0
    · subst h0
      simp only [List.take_zero, List.getLast?_nil, Option.none_or, if_true]
      rw [List.getLast?_drop, if_neg (by omega), List.getLast?_eq_getElem?]
      simp [List.getD, show chain.length - 1 < chain.length by omega]
    · rw [if_neg h0, List.getLast?_take, if_neg h0]
      simp [List.getD, show i - 1 < chain.length by omega, h0]

theorem bestEar_spec (ang : Vec3 K → Vec3 K → K) (vs : List (Vec3 K)) (chain : List Nat) (h3 : 2 < chain.length)
    (is : List Nat) (his : ∀ i ∈ is, i < chain.length) (minAngle : K) (best : Nat × Nat × Nat × Nat)
    (h : EarAt chain best ∨ (is ≠ [] ∧ ∀ v w, |ang v w| < minAngle)) :
    EarAt chain (bestEar ang vs chain is minAngle best) := by
  induction is generalizing minAngle best with
  | nil => rcases h with h | h
           · exact h
           · exact absurd rfl h.1
  | cons i is ih =>
    have he := earAt_pos chain h3 i (his i (by simp))
    unfold bestEar
    simp only
    generalize (if i = 0 then chain.getD 1 0 else chain.getD ((i + 1) % chain.length) 0) = ip at he ⊢
    generalize (if i = 0 then chain.getD (chain.length - 1) 0 else chain.getD (i - 1) 0) = im at he ⊢
    split_ifs with hlt
    · exact ih (fun j hj => his j (by simp [hj])) _ _ (Or.inl he)
    · rcases h with h | h
      · exact ih (fun j hj => his j (by simp [hj])) _ _ (Or.inl h)
      · exact absurd (h.2 _ _) hlt

theorem eraseIdx_mid {α : Type} (l : List α) (a : α) (r : List α) : (l ++ a :: r).eraseIdx l.length = l ++ r := by
  induction l with
  | nil => rfl
  | cons b l ih => simp [ih]

/-- Twice the vector area of a triangle given as a triple. -/
def triArea2 (t : Vec3 K × Vec3 K × Vec3 K) : Vec3 K := vecArea2 [t.1, t.2.1, t.2.2]

/-- The three positions are in cyclic order. -/
def CyclicOrder (i j k : Nat) : Prop := (i < j ∧ j < k) ∨ (j < k ∧ k < i) ∨ (k < i ∧ i < j)

theorem triLoop_spec (ang : Vec3 K → Vec3 K → K) (maxAngle : K) (hmax : ∀ v w, |ang v w| < maxAngle)
    (vs : List (Vec3 K)) (n : Nat) (k : Nat) (chain : List Nat) (hk : chain.length ≤ k + 2) (p : Nat × Nat × Nat)
    (hs : chain.Pairwise (· < ·)) (hb : ∀ i ∈ chain, i < n) (h2 : 2 ≤ chain.length) :
    (triLoop ang maxAngle vs k chain p).length = chain.length - 2 ∧
    ((triLoop ang maxAngle vs k chain p).map triArea2).sum = vecArea2 (chain.map (vtx vs)) ∧
    ∀ t ∈ triLoop ang maxAngle vs k chain p, ∃ i j l, i < n ∧ j < n ∧ l < n ∧ CyclicOrder i j l ∧
      t = (vtx vs i, vtx vs j, vtx vs l) := by
  have hbase : ∀ c : List Nat, c.length = 2 → vecArea2 (c.map (vtx vs)) = 0 := by
    intro c hc
    match c, hc with
    | [a, b], _ => simp [vecArea2, Vec3.cross_swap (vtx vs b) (vtx vs a)]
  induction k generalizing chain p with
  | zero =>
    have : chain.length = 2 := by omega
    simp [triLoop, this, hbase chain this]
  | succ k ih =>
    unfold triLoop
    by_cases h3 : 2 < chain.length
    · rw [if_pos h3]
      simp only
      have hear := bestEar_spec ang vs chain h3 (List.range chain.length) (fun i hi => List.mem_range.1 hi)
        maxAngle (p.1, p.2.1, p.2.2, 0) (Or.inr ⟨by
          intro h0
          have := congrArg List.length h0
          rw [List.length_range, List.length_nil] at this; omega, hmax⟩)
      generalize bestEar ang vs chain (List.range chain.length) maxAngle (p.1, p.2.1, p.2.2, 0) = b at hear ⊢
      obtain ⟨ii, ip, im, wi⟩ := b
      obtain ⟨l, r, hch, hwi, hhead, hlast⟩ := hear
      simp only at hch hwi hhead hlast ⊢
      have herase : chain.eraseIdx wi = l ++ r := by rw [hch, ← hwi, eraseIdx_mid]
      rw [herase]
      have hlr : (l ++ r).length + 1 = chain.length := by rw [hch]; simp; omega
      have hsub : (l ++ r).Sublist chain := by
        rw [hch]; exact List.Sublist.append (List.Sublist.refl _) (List.sublist_cons_self _ _)
      obtain ⟨i1, i2, i3⟩ := ih (l ++ r) (by omega) (ii, ip, im) (hs.sublist hsub)
        (fun i hi => hb i (hsub.subset hi)) (by omega)
      -- the cyclic neighbours
      obtain ⟨w, hw⟩ : ∃ w, r ++ l = ip :: w ++ [im] := by
        match hrl : r ++ l with
        | [] => rw [hrl] at hhead; simp at hhead
        | [a] =>
          have := congrArg List.length hrl
          simp at this hlr; omega
        | a :: c :: rest =>
          rw [hrl] at hhead hlast
          have ha : a = ip := by simpa using hhead
          subst ha
          have hne : c :: rest ≠ [] := by simp
          rw [List.getLast?_cons_cons, List.getLast?_eq_some_getLast hne] at hlast
          have : (c :: rest).getLast hne = im := by simpa using hlast
          refine ⟨(c :: rest).dropLast, ?_⟩
          rw [← this, List.cons_append, List.dropLast_concat_getLast hne]
      refine ⟨by simp only [List.length_cons, i1]; omega, ?_, ?_⟩
      · rw [List.map_cons, List.sum_cons, i2, hch]
        have e1 : vecArea2 ((l ++ ii :: r).map (vtx vs)) = vecArea2 ((ii :: (r ++ l)).map (vtx vs)) := by
          rw [List.map_append, vecArea2_append_comm, ← List.map_append]; rfl
        have e2 : vecArea2 ((l ++ r).map (vtx vs)) = vecArea2 ((r ++ l).map (vtx vs)) := by
          rw [List.map_append, vecArea2_append_comm, ← List.map_append]
        rw [e1, e2, hw]
        simp only [List.map_cons, List.map_append, List.map_nil, List.cons_append]
        have := vecArea2_ear (vtx vs ii) (vtx vs ip) (vtx vs im) (w.map (vtx vs))
        simp only [List.cons_append] at this
        rw [this]; rfl
      · intro t ht
        rcases List.mem_cons.1 ht with rfl | ht
        · have hipm : ip ∈ r ++ l := by rw [hw]; simp
          have himm : im ∈ r ++ l := by rw [hw]; simp
          have hin : ∀ x ∈ r ++ l, x ∈ chain := fun x hx => by
            rw [hch]; simp only [List.mem_append, List.mem_cons] at hx ⊢; tauto
          refine ⟨ii, ip, im, hb _ (by rw [hch]; simp), hb _ (hin _ hipm), hb _ (hin _ himm), ?_, rfl⟩
          -- order
          rw [hch, List.pairwise_append] at hs
          obtain ⟨sl, sr, slr⟩ := hs
          rw [List.pairwise_cons] at sr
          rcases List.eq_nil_or_concat r with hr | ⟨r', z, hr⟩
          · subst hr
            rw [List.nil_append] at hw
            rw [hw] at sl slr
            rw [List.pairwise_append] at sl
            right; left
            exact ⟨sl.2.2 ip (by simp) im (by simp), slr im (by simp) ii (by simp)⟩
          · cases hl : l with
            | nil =>
              subst hl
              rw [List.append_nil] at hw
              rw [hw] at sr
              left
              refine ⟨sr.1 ip (by simp), ?_⟩
              have := sr.2
              rw [List.pairwise_append] at this
              exact this.2.2 ip (by simp) im (by simp)
            | cons y l' =>
              have hr2 : r ≠ [] := by rw [hr]; simp
              have hipr : ip ∈ r := by
                rw [List.head?_append] at hhead
                cases hh : r.head? with
                | none => rw [List.head?_eq_none_iff] at hh; exact absurd hh hr2
                | some q =>
                  rw [hh] at hhead
                  have : q = ip := by simpa using hhead
                  subst this
                  exact List.mem_of_head? hh
              have himl : im ∈ l := by
                rw [List.getLast?_append] at hlast
                cases hh : l.getLast? with
                | none => rw [List.getLast?_eq_none_iff] at hh; rw [hl] at hh; simp at hh
                | some q =>
                  rw [hh] at hlast
                  have : q = im := by simpa using hlast
                  subst this
                  exact List.mem_of_getLast? hh
              right; right
              exact ⟨slr im himl ii (by simp), sr.1 ip hipr⟩
        · exact i3 t ht
    · rw [if_neg h3]
      have : chain.length = 2 := by omega
      simp [this, hbase chain this]

/-- The corners of the closed polyline `c ++ [c₀]`, read through the cyclic accessor. -/
theorem map_vtx_closed (a : Vec3 K) (l : List (Vec3 K)) :
    (List.range (a :: l).length).map (vtx (a :: l ++ [a])) = a :: l := by
  apply List.ext_getElem
  · simp
  · intro i h1 h2
    rw [List.getElem_map, List.getElem_range, vtx_lt _ (by simp at h2 ⊢; omega), List.getD_append _ _ _ _ h2]
    simp only [List.getD, List.getElem?_eq_getElem h2, Option.getD_some]

/-- **C40.** `triangulate()` of a closed polygon with `n ≥ 3` corners returns exactly `n - 2` triangles. Their
vertices are corners of the polygon, taken in its cyclic order, and their vector areas add up to the vector area of
the polygon. The angle function enters only through its bound (`acos` never reaches `2 * 3.142`). -/
theorem C40_triangulate (ang : Vec3 K → Vec3 K → K) (maxAngle : K) (hmax : ∀ v w, |ang v w| < maxAngle)
    (a : Vec3 K) (l : List (Vec3 K)) (h3 : 3 ≤ (a :: l).length) :
    (triangulate ang maxAngle (a :: l ++ [a])).length = (a :: l).length - 2 ∧
    ((triangulate ang maxAngle (a :: l ++ [a])).map fun t => vecArea2 [t.1, t.2.1, t.2.2]).sum = vecArea2 (a :: l) ∧
    ∀ t ∈ triangulate ang maxAngle (a :: l ++ [a]), ∃ i j k : Nat,
      ((i < j ∧ j < k) ∨ (j < k ∧ k < i) ∨ (k < i ∧ i < j)) ∧
      (a :: l)[i]? = some t.1 ∧ (a :: l)[j]? = some t.2.1 ∧ (a :: l)[k]? = some t.2.2 := by
  have hn : (a :: l ++ [a]).length - 1 = (a :: l).length := by simp
  obtain ⟨h1, h2, h4⟩ := triLoop_spec ang maxAngle hmax (a :: l ++ [a]) (a :: l).length (a :: l).length
    (List.range (a :: l).length) (by simp) (0, 1, 2) List.pairwise_lt_range (fun i hi => List.mem_range.1 hi)
    (by simp at h3 ⊢; omega)
  rw [map_vtx_closed] at h2
  unfold triangulate
  rw [hn]
  refine ⟨by rw [h1]; simp, h2, fun t ht => ?_⟩
  obtain ⟨i, j, k, hi, hj, hk, ho, rfl⟩ := h4 t ht
  have hv : ∀ m, m < (a :: l).length → (a :: l)[m]? = some (vtx (a :: l ++ [a]) m) := by
    intro m hm
    rw [vtx_lt _ (by simp at hm ⊢; omega), List.getD_append _ _ _ _ hm]
    simp only [List.getD, List.getElem?_eq_getElem hm, Option.getD_some]
  exact ⟨i, j, k, ho, hv i hi, hv j hj, hv k hk⟩

/-- **C40.** For a convex polygon (every three corners in order turn the same way, seen along `n`) no triangle is
turned over, so the areas themselves add up without overlap. -/
theorem C40_convex (ang : Vec3 K → Vec3 K → K) (maxAngle : K) (hmax : ∀ v w, |ang v w| < maxAngle)
    (a : Vec3 K) (l : List (Vec3 K)) (h3 : 3 ≤ (a :: l).length) (n : Vec3 K)
    (hconv : ∀ (i j k : Nat) (p q r : Vec3 K), i < j → j < k → (a :: l)[i]? = some p → (a :: l)[j]? = some q →
      (a :: l)[k]? = some r → 0 ≤ (Vec3.cross (q - p) (r - p)).dot n) :
    (∀ t ∈ triangulate ang maxAngle (a :: l ++ [a]), 0 ≤ (vecArea2 [t.1, t.2.1, t.2.2]).dot n) ∧
    ((triangulate ang maxAngle (a :: l ++ [a])).map fun t => (vecArea2 [t.1, t.2.1, t.2.2]).dot n).sum =
      (vecArea2 (a :: l)).dot n := by
  obtain ⟨-, h2, h4⟩ := C40_triangulate ang maxAngle hmax a l h3
  have e : ∀ p q r : Vec3 K, vecArea2 [p, q, r] = Vec3.cross (q - p) (r - p) := by
    intro p q r
    ext <;> simp [vecArea2] <;> ring
  have rot : ∀ p q r : Vec3 K, vecArea2 [p, q, r] = vecArea2 [q, r, p] := fun p q r =>
    vecArea2_append_comm [p] [q, r]
  refine ⟨fun t ht => ?_, ?_⟩
  · obtain ⟨i, j, k, ho, hi, hj, hk⟩ := h4 t ht
    rcases ho with ⟨h, h'⟩ | ⟨h, h'⟩ | ⟨h, h'⟩
    · rw [e]; exact hconv i j k _ _ _ h h' hi hj hk
    · rw [rot, e]; exact hconv j k i _ _ _ h h' hj hk hi
    · rw [rot, rot, e]; exact hconv k i j _ _ _ h h' hk hi hj
  · rw [← h2]
    generalize triangulate ang maxAngle (a :: l ++ [a]) = ts
    induction ts with
    | nil => simp
    | cons t ts ih => simp only [List.map_cons, List.sum_cons, Vec3.add_dot, ih]

/-- The hypotheses are met: a constant angle below the bound and a convex pentagon; and the run on it. -/
example : triangulate (fun _ _ : Vec3 ℚ => (1 : ℚ)) (6284 / 1000)
    ([⟨0, 0, 0⟩, ⟨2, 0, 0⟩, ⟨3, 1, 0⟩, ⟨1, 3, 0⟩, ⟨-1, 1, 0⟩, ⟨0, 0, 0⟩]) =
    [(⟨0, 0, 0⟩, ⟨2, 0, 0⟩, ⟨-1, 1, 0⟩), (⟨2, 0, 0⟩, ⟨3, 1, 0⟩, ⟨-1, 1, 0⟩), (⟨3, 1, 0⟩, ⟨1, 3, 0⟩, ⟨-1, 1, 0⟩)] ∧
    ∀ v w : Vec3 ℚ, |(fun _ _ : Vec3 ℚ => (1 : ℚ)) v w| < 6284 / 1000 :=
  ⟨by decide +kernel, fun _ _ => by norm_num⟩

end Triangulate

end ENigMA
