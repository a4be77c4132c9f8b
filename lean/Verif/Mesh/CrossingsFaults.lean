import Verif.Mesh.CrossingsProps

/-!
# C141: crossings that are missed, and meshes with other elements
-/

set_option linter.unusedSectionVars false
set_option autoImplicit false

namespace ENigMA

variable {K : Type} [Field K] [LinearOrder K] [IsStrictOrderedRing K]

/-- The point is a mean of the corners of the triangle with positive weights: it is strictly inside. -/
def Tri.InteriorPt (t : Tri K) (x : Vec3 K) : Prop :=
  ∃ a b c : K, 0 < a ∧ 0 < b ∧ 0 < c ∧ a + b + c = 1 ∧ x = a • t.v0 + b • t.v1 + c • t.v2

/-- A triangle on one side of the plane of the first is not said to cross it. -/
theorem Tri.intersects_side {nrm : Vec3 K → K} (hN : IsNorm nrm) (eps big cos1 : K) (t u : Tri K) (ht : t.rawNormal ≠ 0)
    (h : (0 < t.rawNormal.dot (u.v0 - t.v0) ∧ 0 < t.rawNormal.dot (u.v1 - t.v0) ∧ 0 < t.rawNormal.dot (u.v2 - t.v0)) ∨
      (t.rawNormal.dot (u.v0 - t.v0) < 0 ∧ t.rawNormal.dot (u.v1 - t.v0) < 0 ∧ t.rawNormal.dot (u.v2 - t.v0) < 0)) :
    t.intersects nrm eps big cos1 u 0 = none := by
  have e : ∀ p : Vec3 K, (t.normal nrm).dot p - (t.normal nrm).dot t.v0 = (nrm t.rawNormal)⁻¹ * t.rawNormal.dot (p - t.v0) := by
    intro p; rw [t.normal_eq hN ht]; simp [Vec3.dot]; ring
  have hi : 0 < (nrm t.rawNormal)⁻¹ := inv_pos.2 (hN.pos ht)
  have hone : Tri.oneSide 0 ((t.normal nrm).dot u.v0 - (t.normal nrm).dot t.v0) ((t.normal nrm).dot u.v1 - (t.normal nrm).dot t.v0)
      ((t.normal nrm).dot u.v2 - (t.normal nrm).dot t.v0) = true := by
    unfold Tri.oneSide
    simp only [e, Bool.or_eq_true, Bool.and_eq_true, decide_eq_true_eq, neg_zero]
    rcases h with ⟨h0, h1, h2⟩ | ⟨h0, h1, h2⟩
    · exact Or.inl ⟨⟨mul_pos hi h0, mul_pos hi h1⟩, mul_pos hi h2⟩
    · exact Or.inr ⟨⟨mul_neg_of_pos_of_neg hi h0, mul_neg_of_pos_of_neg hi h1⟩, mul_neg_of_pos_of_neg hi h2⟩
  unfold Tri.intersects
  by_cases hb : (!((t.bbox big).intersects (u.bbox big) 0)) = true
  · rw [if_pos hb]
  · rw [if_neg hb]
    exact if_pos hone

/-- The tree of three elements has one node, with the boxes in the order of the elements. -/
theorem Mesh.crossTree_three (vol : BBox K → K) (big : K) (m : Mesh K) (i0 i1 i2 : Int) (hids : m.elements.ids = [i0, i1, i2]) (b0 b1 b2 : BBox K)
    (h0 : m.elementBox big i0 = some b0) (h1 : m.elementBox big i1 = some b1) (h2 : m.elementBox big i2 = some b2) :
    m.crossTree vol big = some (.mk 0 [(b0, .inl i0), (b1, .inl i1), (b2, .inl i2)]) := by
  simp [Mesh.crossTree, hids, h0, h1, h2, Rtree.add, Rtree.insertRect, Rtree.insertRec, Rtree.empty, Rtree.Node.level, Rtree.Node.bs, Rtree.addBranch, Rtree.maxNodes]

theorem find_three (q b0 b1 b2 : BBox K) (i0 i1 i2 : Int) (h0 : Rtree.overlap q b0 = true) (h1 : Rtree.overlap q b1 = true) (h2 : Rtree.overlap q b2 = true) :
    Rtree.find [] q 0 (.mk 0 [(b0, .inl i0), (b1, .inl i1), (b2, .inl i2)]) = some [i0, i1, i2] := by
  unfold Rtree.find Rtree.search
  simp [Rtree.Node.level, Rtree.Node.bs, h0, h1, h2]

/-- **C141 fails (only one candidate is tested).** In a mesh of three triangles whose boxes meet, the first of which crosses neither of the others, the answer is no, whatever the
other two do. -/
theorem C141_three (vol : BBox K → K) (nrm : Vec3 K → K) (eps big cos1 tol : K) (m : Mesh K) (i0 i1 i2 : Int) (hids : m.elements.ids = [i0, i1, i2])
    (h01 : i0 ≠ i1) (h02 : i0 ≠ i2) (t0 t1 t2 : Tri K) (hb : ∀ n p, m.nodes.get? n = some p → p.Bounded big)
    (h0 : m.Corners i0 t0) (h1 : m.Corners i1 t1) (h2 : m.Corners i2 t2) (k01 : BoxesMeet (t0.bbox big) (t1.bbox big))
    (k02 : BoxesMeet (t0.bbox big) (t2.bbox big)) (k12 : BoxesMeet (t1.bbox big) (t2.bbox big)) (c01 : ¬ t0.SaidToCross nrm eps big cos1 tol t1) (c10 : ¬ t1.SaidToCross nrm eps big cos1 tol t0)
    (c20 : ¬ t2.SaidToCross nrm eps big cos1 tol t0) :
    m.checkIntersections vol nrm eps big cos1 tol = some false := by
  have n0 := Tri.bbox_nonEmpty (h0.bounded hb)
  have n1 := Tri.bbox_nonEmpty (h1.bounded hb)
  have n2 := Tri.bbox_nonEmpty (h2.bounded hb)
  have refl : ∀ b : BBox K, b.NonEmpty → Rtree.overlap b b = true := fun b h => by
    rw [Rtree.overlap_iff]; exact ⟨⟨h.1, h.1⟩, ⟨h.2.1, h.2.1⟩, h.2.2, h.2.2⟩
  have sym : ∀ a b : BBox K, BoxesMeet a b → BoxesMeet b a := fun a b ⟨p, h, h'⟩ => ⟨p, h', h⟩
  have hcross : ∀ t u : Tri K, ¬ t.SaidToCross nrm eps big cos1 tol u → triCounts (t.intersects nrm eps big cos1 u tol) = false := by
    intro t u h
    rw [← Bool.not_eq_true, triCounts_iff]
    exact h
  let T : Int → Tri K := fun i => if i = i0 then t0 else if i = i1 then t1 else t2
  have e0 : T i0 = t0 := if_pos rfl
  have e1 : T i1 = t1 := by simp only [T, if_neg h01.symm, if_true]
  have e2 : i1 ≠ i2 → T i2 = t2 := fun h => by simp only [T, if_neg h02.symm, if_neg h.symm]
  have h12 : i1 = i2 → t1 = t2 := fun h => by subst h; exact h1.unique h2
  have e2 : T i2 = t2 := by
    by_cases h : i1 = i2
    · rw [← h, e1, h12 h]
    · exact e2 h
  have hC : ∀ i ∈ m.elements.ids, m.Corners i (T i) := by
    intro i hi
    rw [hids] at hi
    simp only [List.mem_cons, List.not_mem_nil, or_false] at hi
    rcases hi with rfl | rfl | rfl
    · rw [e0]; exact h0
    · rw [e1]; exact h1
    · rw [e2]; exact h2
  have hfind : ∀ i ∈ m.elements.ids, Rtree.find [] ((T i).bbox big) 0 (.mk 0 [(t0.bbox big, .inl i0), (t1.bbox big, .inl i1), (t2.bbox big, .inl i2)]) = some [i0, i1, i2] := by
    intro i hi
    rw [hids] at hi
    simp only [List.mem_cons, List.not_mem_nil, or_false] at hi
    rcases hi with rfl | rfl | rfl
    · rw [e0]; exact find_three _ _ _ _ _ _ _ (refl _ n0) ((boxesMeet_iff _ _ n0 n1).1 k01) ((boxesMeet_iff _ _ n0 n2).1 k02)
    · rw [e1]; exact find_three _ _ _ _ _ _ _ ((boxesMeet_iff _ _ n1 n0).1 (sym _ _ k01)) (refl _ n1) ((boxesMeet_iff _ _ n1 n2).1 k12)
    · rw [e2]; exact find_three _ _ _ _ _ _ _ ((boxesMeet_iff _ _ n2 n0).1 (sym _ _ k02)) ((boxesMeet_iff _ _ n2 n1).1 (sym _ _ k12)) (refl _ n2)
  unfold Mesh.checkIntersections
  rw [m.crossTree_three vol big i0 i1 i2 hids _ _ _ (h0.box big) (h1.box big) (h2.box big)]
  simp only [Option.bind_eq_bind, Option.bind_some]
  rw [Mesh.crossElements_eq nrm eps big cos1 tol m T _ (fun _ => [i0, i1, i2]) m.elements.ids hC fun i hi => ⟨hfind i hi, fun j hj => hC j (by rw [hids]; exact hj)⟩, hids]
  simp only [List.any_cons, List.any_nil, List.find?_cons, e0, e1, e2, ne_eq, not_true_eq_false, decide_false, h01.symm, h01, h02, not_false_eq_true, decide_true,
    hcross _ _ c01, hcross _ _ c10, hcross _ _ c20, Bool.or_false]

theorem points_in {big : K} {ps : List (Vec3 K)} (hb : ∀ p ∈ ps, p.Bounded big) (p : Vec3 K) (hp : p ∈ ps) :
    InBox (BBox.ofPoints big ps).min (BBox.ofPoints big ps).max p := by
  have := (BBox.containsPt_iff _ _ _).1 ((C17_least_box big _ hb).1 p hp)
  simpa [InBox] using this

theorem points_nonEmpty {big : K} {ps : List (Vec3 K)} (hb : ∀ p ∈ ps, p.Bounded big) (p : Vec3 K) (hp : p ∈ ps) : (BBox.ofPoints big ps).NonEmpty := by
  obtain ⟨h1, h2, h3⟩ := points_in hb p hp
  exact ⟨h1.1.trans h1.2, h2.1.trans h2.2, h3.1.trans h3.2⟩

/-- The boxes of two lists of points meet if in no direction all the points of one come before all the points of the other. -/
theorem boxes_meet {big : K} {ps qs : List (Vec3 K)} (hp : ∀ p ∈ ps, p.Bounded big) (hq : ∀ p ∈ qs, p.Bounded big)
    (h1 : ∃ p ∈ ps, ∃ q ∈ qs, p.x ≤ q.x) (h2 : ∃ p ∈ ps, ∃ q ∈ qs, q.x ≤ p.x) (h3 : ∃ p ∈ ps, ∃ q ∈ qs, p.y ≤ q.y) (h4 : ∃ p ∈ ps, ∃ q ∈ qs, q.y ≤ p.y)
    (h5 : ∃ p ∈ ps, ∃ q ∈ qs, p.z ≤ q.z) (h6 : ∃ p ∈ ps, ∃ q ∈ qs, q.z ≤ p.z) : BoxesMeet (BBox.ofPoints big ps) (BBox.ofPoints big qs) := by
  obtain ⟨⟨p1, m1, q1, n1, h1⟩, ⟨p2, m2, q2, n2, h2⟩, ⟨p3, m3, q3, n3, h3⟩, ⟨p4, m4, q4, n4, h4⟩, ⟨p5, m5, q5, n5, h5⟩, ⟨p6, m6, q6, n6, h6⟩⟩ :=
    And.intro h1 (And.intro h2 (And.intro h3 (And.intro h4 (And.intro h5 h6))))
  rw [boxesMeet_iff _ _ (points_nonEmpty hp _ m1) (points_nonEmpty hq _ n1), Rtree.overlap_iff]
  exact ⟨⟨(points_in hp _ m1).1.1.trans (h1.trans (points_in hq _ n1).1.2), (points_in hq _ n2).1.1.trans (h2.trans (points_in hp _ m2).1.2)⟩,
    ⟨(points_in hp _ m3).2.1.1.trans (h3.trans (points_in hq _ n3).2.1.2), (points_in hq _ n4).2.1.1.trans (h4.trans (points_in hp _ m4).2.1.2)⟩,
    (points_in hp _ m5).2.2.1.trans (h5.trans (points_in hq _ n5).2.2.2), (points_in hq _ n6).2.2.1.trans (h6.trans (points_in hp _ m6).2.2.2)⟩

/-! ### A crossing that is missed -/

namespace CrossingExample

/-- The first triangle. -/
def t0 : Tri K := ⟨⟨1, 3, 0⟩, ⟨0, 2, 3⟩, ⟨0, 1, 1⟩⟩
/-- The second triangle. -/
def t1 : Tri K := ⟨⟨0, 0, 3⟩, ⟨2, 3, 2⟩, ⟨2, 1, 0⟩⟩
/-- The third triangle. -/
def t2 : Tri K := ⟨⟨2, 3, 0⟩, ⟨2, 1, 2⟩, ⟨0, 0, 1⟩⟩

/-- The mesh of the three triangles. -/
def mesh : Mesh K where
  nodes := ((((((((Cont.empty.add 0 t0.v0).add 1 t0.v1).add 2 t0.v2).add 3 t1.v0).add 4 t1.v1).add 5 t1.v2).add 6 t2.v0).add 7 t2.v1).add 8 t2.v2
  faces := Cont.empty
  elements := ((Cont.empty.add 0 { elementType := .triangle, nodeIds := [0, 1, 2] }).add 1 { elementType := .triangle, nodeIds := [3, 4, 5] }).add 2
    { elementType := .triangle, nodeIds := [6, 7, 8] }
  nbBoundary := 0

/-- The first two triangles and a beam. -/
def mixed : Mesh K := { (mesh : Mesh K) with elements := ((Cont.empty.add 0 { elementType := .triangle, nodeIds := [0, 1, 2] }).add 1
  { elementType := .triangle, nodeIds := [3, 4, 5] }).add 2 { elementType := .beam, nodeIds := [6, 8] } }

/-- The normals. -/
theorem raw : (t0 : Tri K).rawNormal = ⟨5, -2, 1⟩ ∧ (t1 : Tri K).rawNormal = ⟨-8, 4, -4⟩ ∧ (t2 : Tri K).rawNormal = ⟨4, -4, -4⟩ := by
  refine ⟨?_, ?_, ?_⟩ <;> ext <;> norm_num [t0, t1, t2, Tri.rawNormal, Vec3.cross]

theorem raw_ne : (t0 : Tri K).rawNormal ≠ 0 ∧ (t1 : Tri K).rawNormal ≠ 0 ∧ (t2 : Tri K).rawNormal ≠ 0 := by
  obtain ⟨r0, r1, r2⟩ := raw (K := K)
  have ne : ∀ {v w : Vec3 K}, v.x ≠ w.x → v ≠ w := fun h h' => h (by rw [h'])
  exact ⟨ne (by rw [r0]; norm_num), ne (by rw [r1]; norm_num), ne (by rw [r2]; norm_num)⟩

theorem bounded {big : K} (hbig : 10 ≤ big) : ∀ n p, (mesh : Mesh K).nodes.get? n = some p → p.Bounded big := by
  intro n p
  simp only [mesh, Cont.get?_add]
  intro h
  split_ifs at h
  all_goals first
    | (cases h; norm_num [Vec3.Bounded, t0, t1, t2]; (repeat' constructor) <;> linarith)
    | (exact absurd h (by simp [Cont.get?, Cont.empty, SMap.find?, SMap.empty, SMap.findL]))

theorem quiet {nrm : Vec3 K → K} {eps big cos1 : K} {t u : Tri K} (h : t.intersects nrm eps big cos1 u 0 = none) : ¬ t.SaidToCross nrm eps big cos1 0 u := by
  rintro ⟨k, hk, -⟩
  rw [h] at hk
  cases hk

end CrossingExample

open CrossingExample in
/-- **C141 fails (a crossing missed).** A mesh of three triangles, two of which pass through each other at a point inside both: `checkIntersections` says no. -/
theorem C141_missed (vol : BBox K → K) (nrm : Vec3 K → K) (hN : IsNorm nrm) (eps big cos1 : K) (hbig : 10 ≤ big) :
    (mesh : Mesh K).Corners 0 t0 ∧ (mesh : Mesh K).Corners 1 t1 ∧ (mesh : Mesh K).Corners 2 t2 ∧
    (∃ x, (t1 : Tri K).InteriorPt x ∧ (t2 : Tri K).InteriorPt x) ∧ Vec3.cross (t1 : Tri K).rawNormal (t2 : Tri K).rawNormal ≠ 0 ∧
    (mesh : Mesh K).checkIntersections vol nrm eps big cos1 0 = some false := by
  have c0 : (mesh : Mesh K).Corners 0 t0 := ⟨_, 0, 1, 2, rfl, rfl, rfl, rfl, rfl, rfl⟩
  have c1 : (mesh : Mesh K).Corners 1 t1 := ⟨_, 3, 4, 5, rfl, rfl, rfl, rfl, rfl, rfl⟩
  have c2 : (mesh : Mesh K).Corners 2 t2 := ⟨_, 6, 7, 8, rfl, rfl, rfl, rfl, rfl, rfl⟩
  obtain ⟨r0, r1, r2⟩ := raw (K := K)
  obtain ⟨z0, z1, z2⟩ := raw_ne (K := K)
  have hb := bounded (K := K) hbig
  have b0 := (c0.bounded hb)
  have b1 := (c1.bounded hb)
  have b2 := (c2.bounded hb)
  have ne : ∀ {v w : Vec3 K}, v.x ≠ w.x → v ≠ w := fun h h' => h (by rw [h'])
  refine ⟨c0, c1, c2, ⟨⟨3 / 2, 5 / 4, 5 / 4⟩, ⟨1 / 4, 1 / 4, 1 / 2, by norm_num, by norm_num, by norm_num, by norm_num, by ext <;> norm_num [t1]⟩,
    ⟨1 / 4, 1 / 2, 1 / 4, by norm_num, by norm_num, by norm_num, by norm_num, by ext <;> norm_num [t2]⟩⟩, ne (by rw [r1, r2]; norm_num [Vec3.cross]), ?_⟩
  refine C141_three vol nrm eps big cos1 0 mesh 0 1 2 rfl (by decide) (by decide) t0 t1 t2 hb c0 c1 c2 (boxes_meet b0 b1 ?_ ?_ ?_ ?_ ?_ ?_) (boxes_meet b0 b2 ?_ ?_ ?_ ?_ ?_ ?_)
    (boxes_meet b1 b2 ?_ ?_ ?_ ?_ ?_ ?_) (quiet (Tri.intersects_side hN eps big cos1 _ _ z0 ?_)) (quiet (Tri.intersects_side hN eps big cos1 _ _ z1 ?_))
    (quiet (Tri.intersects_side hN eps big cos1 _ _ z2 ?_))
  iterate 18 norm_num [t0, t1, t2]
  · rw [r0]; norm_num [t0, t1, Vec3.dot]
  · rw [r1]; norm_num [t0, t1, Vec3.dot]
  · rw [r2]; norm_num [t0, t2, Vec3.dot]

/-- **C141 fails (meshes with other elements).** Three elements whose boxes meet that of the first, the first two triangles that are not said to cross and the third something else, for
instance a beam or a quadrilateral: the vertices of a triangle without vertices are read. -/
theorem C141_mixed (vol : BBox K → K) (nrm : Vec3 K → K) (eps big cos1 tol : K) (m : Mesh K) (i0 i1 i2 : Int) (hids : m.elements.ids = [i0, i1, i2])
    (h01 : i0 ≠ i1) (h02 : i0 ≠ i2) (t0 t1 : Tri K) (b2 : BBox K) (e2 : Elem) (h0 : m.Corners i0 t0) (h1 : m.Corners i1 t1) (h2 : m.elements.get? i2 = some e2)
    (hty : e2.elementType ≠ .triangle) (hb2 : m.elementBox big i2 = some b2) (hn0 : (t0.bbox big).NonEmpty) (hn1 : (t1.bbox big).NonEmpty) (hn2 : b2.NonEmpty)
    (k01 : BoxesMeet (t0.bbox big) (t1.bbox big)) (k02 : BoxesMeet (t0.bbox big) b2) (c01 : ¬ t0.SaidToCross nrm eps big cos1 tol t1) :
    m.checkIntersections vol nrm eps big cos1 tol = none := by
  have refl : Rtree.overlap (t0.bbox big) (t0.bbox big) = true := by
    rw [Rtree.overlap_iff]; exact ⟨⟨hn0.1, hn0.1⟩, ⟨hn0.2.1, hn0.2.1⟩, hn0.2.2, hn0.2.2⟩
  have hc : triCounts (t0.intersects nrm eps big cos1 t1 tol) = false := by
    rw [← Bool.not_eq_true, triCounts_iff]
    exact c01
  obtain ⟨e0, g0, s0⟩ := h0.shape
  obtain ⟨e1, g1, s1⟩ := h1.shape
  unfold Mesh.checkIntersections
  rw [m.crossTree_three vol big i0 i1 i2 hids _ _ _ (h0.box big) (h1.box big) hb2]
  simp only [Option.bind_eq_bind, Option.bind_some]
  rw [hids, Mesh.crossElements]
  simp only [g0, s0, Option.bind_eq_bind, Option.bind_some, h0.box big]
  rw [find_three _ _ _ _ _ _ _ refl ((boxesMeet_iff _ _ hn0 hn1).1 k01) ((boxesMeet_iff _ _ hn0 hn2).1 k02), Option.bind_some]
  have hloop : Mesh.crossLoop nrm eps big cos1 m tol i0 (.tri t0) [i0, i1, i2] (Shape.tri t0).nl (Shape.tri t0).nt = none := by
    rw [Mesh.crossLoop, if_pos rfl, Mesh.crossLoop, if_neg h01]
    simp only [g1, s1, Option.bind_eq_bind, Option.bind_some, Shape.nl, Shape.nt, Shape.tri?, hc]
    rw [if_neg (by simp), if_pos trivial, if_neg (by simp), Mesh.crossLoop, if_neg h02]
    simp only [h2, Option.bind_eq_bind, Option.bind_some]
    cases hs : m.shape e2 with
    | none => rfl
    | some s =>
      simp only [Option.bind_some]
      have hs' : s.nt = 0 ∧ s.tri? = none ∧ s.nl ≤ 1 := by
        unfold Mesh.shape at hs
        cases hk : e2.elementType <;> rw [hk] at hs <;> simp only [Option.some.injEq] at hs
        case triangle => exact absurd hk hty
        case beam =>
          rw [Option.bind_eq_bind, Option.bind_eq_some_iff] at hs
          obtain ⟨a, -, hs⟩ := hs
          rw [Option.bind_eq_some_iff] at hs
          obtain ⟨b, -, hs⟩ := hs
          cases hs
          exact ⟨rfl, rfl, le_rfl⟩
        all_goals (subst hs; exact ⟨rfl, rfl, Nat.zero_le _⟩)
      obtain ⟨q1, q2, q3⟩ := hs'
      rw [if_neg (by omega), q1, if_pos rfl, q2]
      rfl
  rw [hloop]
  rfl

open CrossingExample in
/-- **C141 fails (a triangle without vertices).** Two triangles that do not cross and a beam, with boxes that meet. -/
theorem C141_mixed_beam (vol : BBox K → K) (nrm : Vec3 K → K) (hN : IsNorm nrm) (eps big cos1 : K) (hbig : 10 ≤ big) :
    (mixed : Mesh K).checkIntersections vol nrm eps big cos1 0 = none := by
  have c0 : (mixed : Mesh K).Corners 0 t0 := ⟨_, 0, 1, 2, rfl, rfl, rfl, rfl, rfl, rfl⟩
  have c1 : (mixed : Mesh K).Corners 1 t1 := ⟨_, 3, 4, 5, rfl, rfl, rfl, rfl, rfl, rfl⟩
  have hb : ∀ n p, (mixed : Mesh K).nodes.get? n = some p → p.Bounded big := bounded (K := K) hbig
  have b2 : ∀ p ∈ [(t2 : Tri K).v0, t2.v2], p.Bounded big := by
    intro p hp
    simp only [List.mem_cons, List.not_mem_nil, or_false] at hp
    rcases hp with rfl | rfl
    · exact hb 6 _ rfl
    · exact hb 8 _ rfl
  refine C141_mixed vol nrm eps big cos1 0 mixed 0 1 2 rfl (by decide) (by decide) t0 t1 (BBox.ofPoints big [t2.v0, t2.v2]) _ c0 c1 rfl (by decide) rfl
    (Tri.bbox_nonEmpty (c0.bounded hb)) (Tri.bbox_nonEmpty (c1.bounded hb)) (points_nonEmpty b2 t2.v0 (by simp)) (boxes_meet (c0.bounded hb) (c1.bounded hb) ?_ ?_ ?_ ?_ ?_ ?_)
    (boxes_meet (c0.bounded hb) b2 ?_ ?_ ?_ ?_ ?_ ?_) (quiet (Tri.intersects_side hN eps big cos1 _ _ raw_ne.1 ?_))
  iterate 12 norm_num [t0, t1, t2]
  · rw [raw.1]; norm_num [t0, t1, Vec3.dot]

/-- A corner of two triangles with a common edge. -/
def cornerMesh : Mesh ℝ where
  nodes := (((Cont.empty.add 0 ⟨0, 0, 0⟩).add 1 ⟨2, 0, 0⟩).add 2 ⟨0, 2, 0⟩).add 3 ⟨0, 0, 2⟩
  faces := Cont.empty
  elements := (Cont.empty.add 0 { elementType := .triangle, nodeIds := [0, 1, 2] }).add 1 { elementType := .triangle, nodeIds := [1, 0, 3] }
  nbBoundary := 0

/-- The hypotheses of `C141_first`, `C141_said` and `C141_neighbours` are met by the corner: it is said to cross itself. -/
example (sqrt : ℝ → ℝ) (hs : IsSqrt sqrt) : cornerMesh.checkIntersections (Rtree.sphericalVolume sqrt 4) realNorm 0 1000 1 (1 / 100) = some true := by
  have far : ∀ v : Vec3 ℝ, (1 / 100) ^ 2 ≤ v.normSq → 1 / 100 ≤ realNorm v := by
    intro v h
    rw [← isNorm_real.sq] at h
    nlinarith [isNorm_real.nonneg v]
  have c0 : cornerMesh.Corners 0 ⟨⟨0, 0, 0⟩, ⟨2, 0, 0⟩, ⟨0, 2, 0⟩⟩ := ⟨_, 0, 1, 2, rfl, rfl, rfl, rfl, rfl, rfl⟩
  have c1 : cornerMesh.Corners 1 ⟨⟨2, 0, 0⟩, ⟨0, 0, 0⟩, ⟨0, 0, 2⟩⟩ := ⟨_, 1, 0, 3, rfl, rfl, rfl, rfl, rfl, rfl⟩
  have hb : ∀ n p, cornerMesh.nodes.get? n = some p → p.Bounded 1000 := by
    intro n p
    simp only [cornerMesh, Cont.get?_add]
    intro h
    split_ifs at h
    all_goals first
      | (cases h; norm_num [Vec3.Bounded]; done)
      | (exact absurd h (by simp [Cont.get?, Cont.empty, SMap.find?, SMap.empty, SMap.findL]))
  have ids : ∀ i ∈ cornerMesh.elements.ids, i = 0 ∨ i = 1 := by
    intro i hi
    have e : cornerMesh.elements.ids = [0, 1] := rfl
    rw [e] at hi
    simpa using hi
  have ok : cornerMesh.elements.Ok := Cont.add_ok (Cont.add_ok Cont.empty_ok _ (by decide)) _ (by decide)
  have hx : Tri.ShareEdge realNorm (1 / 100) (⟨⟨0, 0, 0⟩, ⟨2, 0, 0⟩, ⟨0, 2, 0⟩⟩ : Tri ℝ) ⟨⟨2, 0, 0⟩, ⟨0, 0, 0⟩, ⟨0, 0, 2⟩⟩ := by
    refine ⟨0, 1, 1, 0, by decide, by decide, rfl, rfl, ?_⟩
    intro i j
    fin_cases i <;> fin_cases j <;> intro h1 h2 <;> first
      | exact absurd rfl h1
      | exact absurd rfl h2
      | (apply far; norm_num [Tri.v, Vec3.normSq, Vec3.dot])
  refine C141_neighbours sqrt hs 4 (by norm_num) realNorm isNorm_real 0 1000 1 (1 / 100) (by norm_num) cornerMesh ok hb ?_ 0 _ c0 ⟨1, _, by decide, c1, ?_⟩ ?_
  · intro i hi
    rcases ids i hi with rfl | rfl
    · exact ⟨_, c0⟩
    · exact ⟨_, c1⟩
  · exact ⟨⟨0, 0, 0⟩, Tri.bbox_mem (c0.bounded hb) _ (by simp), Tri.bbox_mem (c1.bounded hb) _ (by simp)⟩
  · intro j u hj hu _
    have : j ∈ cornerMesh.elements.ids := by
      obtain ⟨e, -, -, -, h, -⟩ := hu
      exact (ok.2 j).2 ⟨e, h⟩
    rcases ids j this with rfl | rfl
    · exact absurd rfl hj
    · rw [hu.unique c1]; exact hx

/-- The proviso of `C141_sparse_partial` is met by the corner: there are only two triangles. -/
example : ∀ i j k (t u w : Tri ℝ), i ≠ j → i ≠ k → cornerMesh.Corners i t → cornerMesh.Corners j u → cornerMesh.Corners k w →
    BoxesMeet (t.bbox 1000) (u.bbox 1000) → BoxesMeet (t.bbox 1000) (w.bbox 1000) → j = k := by
  intro i j k t u w hij hik ht hu hw _ _
  have ok : cornerMesh.elements.Ok := Cont.add_ok (Cont.add_ok Cont.empty_ok _ (by decide)) _ (by decide)
  have ids : ∀ i t, cornerMesh.Corners i t → i = 0 ∨ i = 1 := by
    rintro i t ⟨e, -, -, -, h, -⟩
    have hi := (ok.2 i).2 ⟨e, h⟩
    have e : cornerMesh.elements.ids = [0, 1] := rfl
    rw [e] at hi
    simpa using hi
  rcases ids i t ht with rfl | rfl <;> rcases ids j u hu with rfl | rfl <;> rcases ids k w hw with rfl | rfl <;> simp_all

end ENigMA
