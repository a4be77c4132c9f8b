import Verif.Geometry.Centroids
import Verif.Geometry.PolyhedronProps
import Verif.Geometry.BBoxProps

/-!
# C140: centroids and boxes
-/

set_option linter.unusedSectionVars false
set_option autoImplicit false

namespace ENigMA

variable {K : Type} [Field K] [LinearOrder K] [IsStrictOrderedRing K]

/-! ### Specification -/

/-- Every vertex of the polyhedron moved by `t`. -/
def Polyhedron.shift (t : Vec3 K) (p : Polyhedron K) : Polyhedron K :=
  { p with polygons := p.polygons.mapVal fun _ q => { q with vs := q.vs.map (· + t) } }

/-- Twice the signed area, in the plane `z = const`, of a triangle. -/
def flatArea2 (a b c : Vec3 K) : K := (b.x - a.x) * (c.y - a.y) - (b.y - a.y) * (c.x - a.x)

/-- The centre of mass of a plane quadrilateral: the centroids of two triangles weighted with their areas. -/
def quadMass (a b c d : Vec3 K) : Vec3 K :=
  (flatArea2 a b c + flatArea2 a c d)⁻¹ • (flatArea2 a b c • (Tri.centroid ⟨a, b, c⟩) + flatArea2 a c d • (Tri.centroid ⟨a, c, d⟩))

/-- The centre of mass of the pyramid with base `a b c d` and apex `o`: the centroids of two tetrahedra weighted with their volumes. -/
def pyramidMass (a b c d o : Vec3 K) : Vec3 K :=
  ((⟨a, b, c, o⟩ : Tet K).volume + (⟨a, c, d, o⟩ : Tet K).volume)⁻¹ •
    ((⟨a, b, c, o⟩ : Tet K).volume • (Tet.centroid ⟨a, b, c, o⟩) + (⟨a, c, d, o⟩ : Tet K).volume • (Tet.centroid ⟨a, c, d, o⟩))

/-! ### Lemmas -/

theorem sum_moved (t : Vec3 K) (l : List (Vec3 K)) : (l.map (· + t)).sum = l.sum + (l.length : K) • t := by
  induction l with
  | nil => simp
  | cons a l ih =>
    rw [List.map_cons, List.sum_cons, ih, List.sum_cons, List.length_cons]
    push_cast
    ext <;> simp <;> ring

theorem dot_sum_le (n : Vec3 K) (d : K) (l : List (Vec3 K)) (h : ∀ v ∈ l, n.dot v ≤ d) : n.dot l.sum ≤ (l.length : K) * d := by
  induction l with
  | nil => simp [Vec3.dot]
  | cons a l ih =>
    have h1 := h a (by simp)
    have h2 := ih fun v hv => h v (by simp [hv])
    have e : n.dot (a + l.sum) = n.dot a + n.dot l.sum := by simp [Vec3.dot]; ring
    rw [List.sum_cons, e, List.length_cons]
    push_cast
    linarith

theorem dot_mean_le (n : Vec3 K) (d : K) (l : List (Vec3 K)) (hl : l ≠ []) (h : ∀ v ∈ l, n.dot v ≤ d) : n.dot ((l.length : K)⁻¹ • l.sum) ≤ d := by
  have hp : (0 : K) < (l.length : K) := by exact_mod_cast List.length_pos_iff.2 hl
  have e : n.dot ((l.length : K)⁻¹ • l.sum) = (l.length : K)⁻¹ * n.dot l.sum := by simp [Vec3.dot]; ring
  rw [e, inv_mul_le_iff₀ hp]
  exact dot_sum_le n d l h

theorem polygon_centroid_eq (vs : List (Vec3 K)) (h : 1 < vs.length) :
    Polygon.centroid vs = ((vs.drop 1).length : K)⁻¹ • (vs.drop 1).sum := by
  unfold Polygon.centroid
  rw [if_pos h, List.length_drop, Nat.cast_sub h.le, Nat.cast_one]

/-- **C140, polygons.** The centroid of a closed polygon is the mean of its vertices, whichever vertex it starts with; a closed triangle has the centroid of the
triangle. -/
theorem C140_polygon (a : Vec3 K) (l : List (Vec3 K)) :
    Polygon.centroid (a :: l ++ [a]) = ((l.length : K) + 1)⁻¹ • (a + l.sum) ∧
    (∀ b r, l = b :: r → Polygon.centroid (b :: r ++ [a] ++ [b]) = Polygon.centroid (a :: l ++ [a])) ∧
    (∀ b c, l = [b, c] → Polygon.centroid (a :: l ++ [a]) = Tri.centroid ⟨a, b, c⟩) := by
  have key : ∀ (a : Vec3 K) (l : List (Vec3 K)), Polygon.centroid (a :: l ++ [a]) = ((l.length : K) + 1)⁻¹ • (a + l.sum) := by
    intro a l
    rw [polygon_centroid_eq _ (by simp)]
    simp only [List.cons_append, List.drop_succ_cons, List.drop_zero, List.length_append, List.length_singleton, List.sum_append, List.sum_singleton]
    rw [add_comm l.sum a]
    push_cast
    rfl
  refine ⟨key a l, ?_, ?_⟩
  · rintro b r rfl
    have := key b (r ++ [a])
    rw [show b :: r ++ [a] ++ [b] = b :: (r ++ [a]) ++ [b] by simp, this, key]
    simp only [List.length_append, List.length_singleton, List.length_cons, List.sum_append, List.sum_cons, List.sum_nil, add_zero]
    have e : b + (r.sum + a) = a + (b + r.sum) := by ext <;> simp <;> ring
    rw [e]
    simp
  · rintro b c rfl
    rw [key]
    ext <;> simp [Tri.centroid] <;> ring

/-- **C140, polygons.** The centroid of a polygon with at least two vertices moves with the polygon and lies in every half-space that contains its vertices. -/
theorem C140_polygon_moves (vs : List (Vec3 K)) (h : 1 < vs.length) (t n : Vec3 K) (d : K) :
    Polygon.centroid (vs.map (· + t)) = Polygon.centroid vs + t ∧ ((∀ v ∈ vs, n.dot v ≤ d) → n.dot (Polygon.centroid vs) ≤ d) := by
  have hne : vs.drop 1 ≠ [] := by
    intro hh
    have := congrArg List.length hh
    simp at this
    omega
  constructor
  · have hp : (((vs.drop 1).length : ℕ) : K) ≠ 0 := by
      have : 0 < (vs.drop 1).length := List.length_pos_iff.2 hne
      exact_mod_cast this.ne'
    rw [polygon_centroid_eq _ (by simpa using h), polygon_centroid_eq _ h, ← List.map_drop, sum_moved, List.length_map, smul_add, smul_smul, inv_mul_cancel₀ hp,
      one_smul]
  · intro hv
    rw [polygon_centroid_eq _ h]
    exact dot_mean_le n d _ hne fun v hv' => hv v (List.mem_of_mem_drop hv')

/-- **C140, polyhedra.** If no face was replaced (there are as many ids as polygons), there is a face and every face has at least two vertices, the centroid of the
polyhedron moves with it and lies in every half-space that contains its vertices. -/
theorem C140_polyhedron_moves (p : Polyhedron K) (hids : p.ids.length = p.polygons.entries.length) (hne : p.polygons.entries ≠ [])
    (hf : ∀ e ∈ p.polygons.entries, 1 < e.2.vs.length) (t n : Vec3 K) (d : K) :
    (p.shift t).centroid = p.centroid + t ∧ ((∀ e ∈ p.polygons.entries, ∀ v ∈ e.2.vs, n.dot v ≤ d) → n.dot p.centroid ≤ d) := by
  have hpos : 0 < p.polygons.entries.length := List.length_pos_iff.2 hne
  have hp : ((p.polygons.entries.length : ℕ) : K) ≠ 0 := by exact_mod_cast hpos.ne'
  have e1 : ∀ l : List (Int × Polygon K), (∀ e ∈ l, 1 < e.2.vs.length) →
      ((l.map fun e => (e.1, ({ e.2 with vs := e.2.vs.map (· + t) } : Polygon K))).map fun e => Polygon.centroid e.2.vs) =
        (l.map fun e => Polygon.centroid e.2.vs).map (· + t) := by
    intro l hl
    rw [List.map_map, List.map_map]
    refine List.map_congr_left fun e he => ?_
    exact (C140_polygon_moves e.2.vs (hl e he) t n d).1
  constructor
  · have hpos' : 0 < (p.shift t).polygons.entries.length := by simpa [Polyhedron.shift, SMap.mapVal] using hpos
    unfold Polyhedron.centroid
    dsimp only
    rw [if_pos hpos, if_pos hpos']
    show ((p.ids.length : K))⁻¹ • ((p.polygons.entries.map fun e => (e.1, ({ e.2 with vs := e.2.vs.map (· + t) } : Polygon K))).map fun e => Polygon.centroid e.2.vs).sum = _
    rw [e1 _ hf, sum_moved, List.length_map, hids, smul_add, smul_smul, inv_mul_cancel₀ hp, one_smul]
  · intro hv
    unfold Polyhedron.centroid
    dsimp only
    rw [if_pos hpos, hids]
    have := dot_mean_le n d (p.polygons.entries.map fun e => Polygon.centroid e.2.vs) (by simpa using hne) (by
      intro v hv'
      obtain ⟨e, he, rfl⟩ := List.mem_map.1 hv'
      exact (C140_polygon_moves e.2.vs (hf e he) 0 n d).2 (hv e he))
    rwa [List.length_map] at this

/-- **C140, tetrahedra.** The polyhedron made of a tetrahedron with distinct vertices has the centroid of the tetrahedron, the mean of its vertices. -/
theorem C140_tetrahedron (nrm : Vec3 K → K) (hN : IsNorm nrm) (t : Tet K) (h02 : t.v0 ≠ t.v2) (h13 : t.v1 ≠ t.v3) (h23 : t.v2 ≠ t.v3) (h31 : t.v3 ≠ t.v1) :
    (Polyhedron.ofTet nrm t).centroid = t.centroid := by
  have c : ∀ a b c : Vec3 K, a ≠ c → Polyline.close nrm 0 [a, b, c] = [a, b, c, a] := fun a b c h => Polyhedron.close_append nrm hN a b c [] h
  have e : Polyhedron.ofTet nrm t = ⟨⟨[((0 : Int), Polygon.ofPolyline [t.v0, t.v1, t.v2, t.v0]), (1, Polygon.ofPolyline [t.v1, t.v0, t.v3, t.v1]),
      (2, Polygon.ofPolyline [t.v3, t.v0, t.v2, t.v3]), (3, Polygon.ofPolyline [t.v3, t.v2, t.v1, t.v3])], by simp⟩, [0, 1, 2, 3], 0, false, 0, false⟩ := by
    unfold Polyhedron.ofTet Polyhedron.ofFaces
    simp only [List.zipIdx, List.map, c _ _ _ h02, c _ _ _ h13, c _ _ _ h23.symm, c _ _ _ h31]
    rfl
  rw [e]
  unfold Polyhedron.centroid
  have k : ∀ a b c : Vec3 K, Polygon.centroid (Polygon.ofPolyline [a, b, c, a]).vs = Tri.centroid ⟨a, b, c⟩ := fun a b c => (C140_polygon a [b, c]).2.2 b c rfl
  dsimp only [List.map]
  rw [k, k, k, k]
  ext <;> simp [Tri.centroid, Tet.centroid] <;> ring

/-- A trapezoid. -/
def trapezoid : List (Vec3 ℚ) := [⟨0, 0, 0⟩, ⟨4, 0, 0⟩, ⟨1, 1, 0⟩, ⟨0, 1, 0⟩]

/-- **C140 fails** as a centre of mass: for a trapezoid the centroid reported is (5/4, 1/2), its centre of mass is (7/5, 2/5). -/
theorem C140_polygon_mass :
    Polygon.centroid (trapezoid ++ [⟨0, 0, 0⟩]) = ⟨5 / 4, 1 / 2, 0⟩ ∧ quadMass (⟨0, 0, 0⟩ : Vec3 ℚ) ⟨4, 0, 0⟩ ⟨1, 1, 0⟩ ⟨0, 1, 0⟩ = ⟨7 / 5, 2 / 5, 0⟩ := by
  constructor
  · unfold trapezoid; decide +kernel
  · decide +kernel

/-- A pyramid of height 1 on the unit square, its faces as closed loops. -/
def pyramidFaces : List (Int × List (Vec3 ℚ)) :=
  [(0, [⟨0, 0, 0⟩, ⟨0, 1, 0⟩, ⟨1, 1, 0⟩, ⟨1, 0, 0⟩, ⟨0, 0, 0⟩]), (1, [⟨0, 0, 0⟩, ⟨1, 0, 0⟩, ⟨0, 0, 1⟩, ⟨0, 0, 0⟩]), (2, [⟨1, 0, 0⟩, ⟨1, 1, 0⟩, ⟨0, 0, 1⟩, ⟨1, 0, 0⟩]),
   (3, [⟨1, 1, 0⟩, ⟨0, 1, 0⟩, ⟨0, 0, 1⟩, ⟨1, 1, 0⟩]), (4, [⟨0, 1, 0⟩, ⟨0, 0, 0⟩, ⟨0, 0, 1⟩, ⟨0, 1, 0⟩])]

/-- **C140 fails** as a centre of mass: the centroid of the pyramid is reported at height 4/15, its centre of mass is at height 1/4. The hypotheses of
`C140_polyhedron_moves` are met by it. -/
theorem C140_polyhedron_mass :
    let p := Polyhedron.build pyramidFaces
    p.centroid = ⟨11 / 30, 11 / 30, 4 / 15⟩ ∧ pyramidMass (⟨0, 0, 0⟩ : Vec3 ℚ) ⟨1, 0, 0⟩ ⟨1, 1, 0⟩ ⟨0, 1, 0⟩ ⟨0, 0, 1⟩ = ⟨3 / 8, 3 / 8, 1 / 4⟩ ∧
    p.ids.length = p.polygons.entries.length ∧ p.polygons.entries ≠ [] ∧ ∀ e ∈ p.polygons.entries, 1 < e.2.vs.length := by
  decide +kernel

/-- **C140 fails** if a face is added a second time under the same id: the five faces are counted as six, and the centroid of the pyramid moves towards the origin
by a factor of 5/6. -/
theorem C140_replaced :
    let p := Polyhedron.build pyramidFaces
    let q := Polyhedron.build (pyramidFaces ++ pyramidFaces.take 1)
    q.polygons.keys = p.polygons.keys ∧ q.centroid = (5 / 6 : ℚ) • p.centroid := by
  decide +kernel

/-- **C140, boxes.** The box of a polyhedron is the least box around its vertices. -/
theorem C140_polyhedron_box (big : K) (p : Polyhedron K) (hb : ∀ e ∈ p.polygons.entries, ∀ v ∈ e.2.vs, v.Bounded big) :
    (∀ e ∈ p.polygons.entries, ∀ v ∈ e.2.vs, (p.bbox big).containsPt v 0 = true) ∧
    ((∃ e ∈ p.polygons.entries, ∃ v, v ∈ e.2.vs) → ∀ lo hi, (∀ e ∈ p.polygons.entries, ∀ v ∈ e.2.vs, InBox lo hi v) →
      ∀ q, (p.bbox big).containsPt q 0 = true → InBox lo hi q) := by
  have hm : ∀ v, v ∈ (p.polygons.entries.flatMap fun e => e.2.vs) ↔ ∃ e ∈ p.polygons.entries, v ∈ e.2.vs := fun v => List.mem_flatMap
  have h := C17_least_box big (p.polygons.entries.flatMap fun e => e.2.vs) fun v hv => by
    obtain ⟨e, he, hv⟩ := (hm v).1 hv
    exact hb e he v hv
  refine ⟨fun e he v hv => h.1 v ((hm v).2 ⟨e, he, hv⟩), ?_⟩
  rintro ⟨e, he, v, hv⟩ lo hi hin q hq
  refine h.2 (List.ne_nil_of_mem ((hm v).2 ⟨e, he, hv⟩)) lo hi (fun r hr => ?_) q hq
  obtain ⟨e', he', hr⟩ := (hm r).1 hr
  exact hin e' he' r hr

theorem box_two (big r z : K) (hr : 0 ≤ r) (hz : 0 ≤ z) (hb : r ≤ big) (hzb : z ≤ big) :
    BBox.ofPoints big [⟨-r, -r, -z⟩, ⟨r, r, z⟩] = ⟨⟨-r, -r, -z⟩, ⟨r, r, z⟩⟩ := by
  have k : ∀ w : K, 0 ≤ w → w ≤ big → min big (-w) = -w ∧ min (-w) w = -w ∧ max (-big) (-w) = -w ∧ max (-w) w = w := fun w h1 h2 =>
    ⟨min_eq_right (by linarith), min_eq_left (by linarith), max_eq_right (by linarith), max_eq_right (by linarith)⟩
  obtain ⟨h1, h2, h3, h4⟩ := k r hr hb
  obtain ⟨h5, h6, h7, h8⟩ := k z hz hzb
  ext <;> simp [BBox.ofPoints, BBox.addCoordinate, BBox.reset, h1, h2, h3, h4, h5, h6, h7, h8]

theorem contains_iff (nrm : Vec3 K → K) (hN : IsNorm nrm) (b : Ball K) (hr : 0 ≤ b.radius) (p : Vec3 K) :
    b.contains nrm p 0 = true ↔ (p - b.center).normSq ≤ b.radius * b.radius := by
  unfold Ball.contains
  rw [decide_eq_true_iff, add_zero, ← hN.sq]
  exact ⟨fun h => mul_self_le_mul_self (hN.nonneg _) h, fun h => (mul_self_le_mul_self_iff (hN.nonneg _) hr).2 h⟩

/-- **C140 fails for spheres**, except around the origin: the box of a sphere contains every point of the sphere if and only if its centre is the origin. -/
theorem C140_sphere_box (nrm : Vec3 K → K) (hN : IsNorm nrm) (big : K) (b : Ball K) (hr : 0 ≤ b.radius) (hb : b.radius ≤ big) :
    (∀ p, b.contains nrm p 0 = true → (b.sphereBox big).containsPt p 0 = true) ↔ b.center = 0 := by
  have e : b.sphereBox big = ⟨⟨-b.radius, -b.radius, -b.radius⟩, ⟨b.radius, b.radius, b.radius⟩⟩ := box_two big b.radius b.radius hr hr hb hb
  have hin := contains_iff nrm hN b hr
  constructor
  · intro h
    have hx : ∀ a : Vec3 K, a.normSq = b.radius * b.radius → InBox ⟨-b.radius - 0, -b.radius - 0, -b.radius - 0⟩ ⟨b.radius + 0, b.radius + 0, b.radius + 0⟩ (b.center + a) := by
      intro a ha
      have := h (b.center + a) ((hin _).2 (by rw [add_sub_cancel_left]; exact ha.le))
      rw [e, BBox.containsPt_iff] at this
      exact this
    have x1 := (hx ⟨b.radius, 0, 0⟩ (by simp [Vec3.normSq, Vec3.dot])).1.2
    have x2 := (hx ⟨-b.radius, 0, 0⟩ (by simp [Vec3.normSq, Vec3.dot])).1.1
    have y1 := (hx ⟨0, b.radius, 0⟩ (by simp [Vec3.normSq, Vec3.dot])).2.1.2
    have y2 := (hx ⟨0, -b.radius, 0⟩ (by simp [Vec3.normSq, Vec3.dot])).2.1.1
    have z1 := (hx ⟨0, 0, b.radius⟩ (by simp [Vec3.normSq, Vec3.dot])).2.2.2
    have z2 := (hx ⟨0, 0, -b.radius⟩ (by simp [Vec3.normSq, Vec3.dot])).2.2.1
    simp at x1 x2 y1 y2 z1 z2
    ext
    · exact le_antisymm x1 x2
    · exact le_antisymm y1 y2
    · exact le_antisymm z1 z2
  · intro h p hp
    rw [hin, h, sub_zero, Vec3.normSq, Vec3.dot] at hp
    rw [e, BBox.containsPt_iff]
    simp only [sub_zero, add_zero, InBox]
    have q : ∀ w : K, w * w ≤ b.radius * b.radius → -b.radius ≤ w ∧ w ≤ b.radius := fun w hw =>
      abs_le.1 (abs_le_of_sq_le_sq (by rw [sq, sq]; exact hw) hr)
    have := mul_self_nonneg p.x
    have := mul_self_nonneg p.y
    have := mul_self_nonneg p.z
    exact ⟨q p.x (by linarith), q p.y (by linarith), q p.z (by linarith)⟩

/-- **C140 fails for circles**, except around the origin: the box of a circle (in the plane `z = const` of its centre) contains every point of it if and only if its
centre is the origin. -/
theorem C140_circle_box (nrm : Vec3 K → K) (hN : IsNorm nrm) (big : K) (b : Ball K) (hr : 0 ≤ b.radius) (hb : b.radius ≤ big) :
    (∀ p, p.z = b.center.z → b.contains nrm p 0 = true → (b.circleBox big).containsPt p 0 = true) ↔ b.center = 0 := by
  have e : b.circleBox big = ⟨⟨-b.radius, -b.radius, 0⟩, ⟨b.radius, b.radius, 0⟩⟩ := by
    have := box_two big b.radius 0 hr le_rfl hb (hr.trans hb)
    rw [neg_zero] at this
    exact this
  have hin := contains_iff nrm hN b hr
  constructor
  · intro h
    have hx : ∀ a : Vec3 K, a.z = 0 → a.normSq ≤ b.radius * b.radius → InBox ⟨-b.radius - 0, -b.radius - 0, 0 - 0⟩ ⟨b.radius + 0, b.radius + 0, 0 + 0⟩ (b.center + a) := by
      intro a hz ha
      have := h (b.center + a) (by simp [hz]) ((hin _).2 (by rw [add_sub_cancel_left]; exact ha))
      rw [e, BBox.containsPt_iff] at this
      exact this
    have x1 := (hx ⟨b.radius, 0, 0⟩ rfl (by simp [Vec3.normSq, Vec3.dot])).1.2
    have x2 := (hx ⟨-b.radius, 0, 0⟩ rfl (by simp [Vec3.normSq, Vec3.dot])).1.1
    have y1 := (hx ⟨0, b.radius, 0⟩ rfl (by simp [Vec3.normSq, Vec3.dot])).2.1.2
    have y2 := (hx ⟨0, -b.radius, 0⟩ rfl (by simp [Vec3.normSq, Vec3.dot])).2.1.1
    have z := (hx 0 rfl (by simp [Vec3.normSq, Vec3.dot]; exact mul_self_nonneg _)).2.2
    simp at x1 x2 y1 y2 z
    ext
    · exact le_antisymm x1 x2
    · exact le_antisymm y1 y2
    · exact le_antisymm z.2 z.1
  · intro h p hz hp
    rw [hin, h, sub_zero, Vec3.normSq, Vec3.dot] at hp
    rw [h] at hz
    rw [e, BBox.containsPt_iff]
    simp only [sub_zero, add_zero, InBox]
    have q : ∀ w : K, w * w ≤ b.radius * b.radius → -b.radius ≤ w ∧ w ≤ b.radius := fun w hw =>
      abs_le.1 (abs_le_of_sq_le_sq (by rw [sq, sq]; exact hw) hr)
    have := mul_self_nonneg p.x
    have := mul_self_nonneg p.y
    have := mul_self_nonneg p.z
    exact ⟨q p.x (by linarith), q p.y (by linarith), le_of_eq hz.symm, le_of_eq hz⟩

/-- **C140 fails for the normal of a circle.** A circle lies in a plane `z = const`, but the normal reported lies in that plane too: for every circle of positive radius
there is a point of it whose direction from the centre is not perpendicular to the normal reported (and every such direction is perpendicular to the `z` axis). -/
theorem C140_circle_normal (nrm : Vec3 K → K) (hN : IsNorm nrm) (b : Ball K) (hr : 0 < b.radius) :
    (∃ p : Vec3 K, p.z = b.center.z ∧ b.contains nrm p 0 = true ∧ b.circleNormal.dot (p - b.center) ≠ 0) ∧
    ∀ p : Vec3 K, p.z = b.center.z → (⟨0, 0, 1⟩ : Vec3 K).dot (p - b.center) = 0 := by
  constructor
  · refine ⟨b.center + ⟨b.radius, 0, 0⟩, by simp, ?_, ?_⟩
    · rw [contains_iff nrm hN b hr.le, add_sub_cancel_left]
      simp [Vec3.normSq, Vec3.dot]
    · rw [add_sub_cancel_left]
      simp [Ball.circleNormal, Vec3.dot, hr.ne']
  · intro p hp
    simp [Vec3.dot, hp]

/-- A sphere away from the origin: its box does not even contain its centre. -/
example : ((⟨⟨5, 0, 0⟩, 1⟩ : Ball ℚ).sphereBox 100).containsPt ⟨5, 0, 0⟩ 0 = false ∧ ((⟨⟨0, 0, 0⟩, 1⟩ : Ball ℚ).sphereBox 100).containsPt ⟨1, 0, 0⟩ 0 = true := by
  decide +kernel

/-- The hypotheses of `C140_sphere_box`, `C140_circle_box` and `C140_circle_normal` are met over the reals. -/
example : IsNorm realNorm ∧ (0 : ℝ) < (⟨⟨5, 0, 0⟩, 1⟩ : Ball ℝ).radius ∧ (⟨⟨5, 0, 0⟩, 1⟩ : Ball ℝ).radius ≤ 100 := ⟨isNorm_real, by norm_num, by norm_num⟩

/-- The hypotheses of `C140_tetrahedron` are met by the unit tetrahedron. -/
example : let t : Tet ℝ := ⟨⟨0, 0, 0⟩, ⟨1, 0, 0⟩, ⟨0, 1, 0⟩, ⟨0, 0, 1⟩⟩
    t.v0 ≠ t.v2 ∧ t.v1 ≠ t.v3 ∧ t.v2 ≠ t.v3 ∧ t.v3 ≠ t.v1 := by
  simp

/-- The hypotheses of `C140_polyhedron_box` are met by the pyramid. -/
example : ∀ e ∈ (Polyhedron.build pyramidFaces).polygons.entries, ∀ v ∈ e.2.vs, v.Bounded (100 : ℚ) := by
  unfold Vec3.Bounded
  decide +kernel

end ENigMA
