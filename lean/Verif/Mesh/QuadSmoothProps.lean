import Verif.Mesh.QuadSmoothLemmas

/-!
# C126 and C127: flipping edges and moving nodes in a mesh of triangles and quadrilaterals
-/

set_option linter.unusedSectionVars false
set_option autoImplicit false

namespace ENigMA
open QuadSmooth
variable {K : Type} [Field K] [LinearOrder K] [IsStrictOrderedRing K]

/-! ## C126 -/

section
variable [FloorRing K]

/-- **C126 (preparation).** On every mesh of triangles and convex quadrilaterals `generateFaces` gives a mesh that meets the hypotheses `TrueFaces` and
`ListedFaces` of the theorems below and has the same elements. -/
theorem C126_faces (mc : HashGrid.Machine K) (m : Mesh K) (hm : m.PlaneMesh) (hc : Smooth.Machine mc m) (tol : K) (ht : 0 ≤ tol) :
    ∃ m', m.generateFaces mc tol = some m' ∧ m'.PlaneMesh ∧ m'.TrueFaces ∧ m'.ListedFaces ∧ m'.nodes = m.nodes ∧ m'.outlines = m.outlines := by
  obtain ⟨m', h1, h2, h3, h4, -, h6, -⟩ := true_faces hm hc ht
  exact ⟨m', h1, h2, h3, listed_faces hm hc ht h1, h4, h6⟩

variable (P : Par K) (mc : HashGrid.Machine K) (m : Mesh K)

/-- **C126 (a mesh stays one).** On every mesh of triangles and convex quadrilaterals with up-to-date faces and for every tolerance `≥ 0`, `flipEdges` is
defined. It moves no node, keeps the ids and the types of the elements, and gives again a mesh of triangles and convex quadrilaterals, traversed counter-clockwise, of which no two
overlap, with up-to-date faces. So it can be called again. -/
theorem C126_flip (ht : 0 ≤ P.tol) (hm : m.PlaneMesh) (hf : m.TrueFaces) (hc : Smooth.Machine mc m) :
    ∃ m', flipEdges P mc m = some m' ∧ m'.PlaneMesh ∧ m'.TrueFaces ∧ m'.nodes = m.nodes ∧ m'.elements.ids = m.elements.ids ∧
      ∀ id e, m.elements.get? id = some e → ∃ e', m'.elements.get? id = some e' ∧ e'.elementType = e.elementType := by
  obtain ⟨m', h1, h2, h3, h4, h5, h6, -⟩ := flip_core (P := P) ht hm hf hc
  exact ⟨m', h1, h2, h3, h4, h5, h6⟩

variable {P mc m}

/-- **C126 (the region).** A point on no side of an element, before or after, is inside an element after `flipEdges` iff it was inside an element before; the
sum of the areas does not change. -/
theorem C126_region (ht : 0 ≤ P.tol) (hm : m.PlaneMesh) (hf : m.TrueFaces) (hc : Smooth.Machine mc m) {m' : Mesh K} (h : flipEdges P mc m = some m') :
    (∀ p, (∀ s ∈ m.outlineSides, ¬ Covers s p) → (∀ s ∈ m'.outlineSides, ¬ Covers s p) →
      ((∃ o ∈ m'.outlines, InsideOutline o p) ↔ ∃ o ∈ m.outlines, InsideOutline o p)) ∧
    (m'.outlines.map outlineArea).sum = (m.outlines.map outlineArea).sum := by
  obtain ⟨m1, h1, h2, -, -, -, -, h7, -⟩ := flip_core (P := P) ht hm hf hc
  rw [h] at h1
  obtain rfl := Option.some.inj h1
  refine ⟨fun p k1 k2 => in_iff hm.convex h2.convex (fun f hf => h7 ℤ f hf) k1 k2, ?_⟩
  exact h7 K (fun a b => a.x * b.y - a.y * b.x) (fun a b => by ring)

/-- **C126 (the boundary).** The sides that only one element has are the same before and after. -/
theorem C126_boundary (ht : 0 ≤ P.tol) (hm : m.PlaneMesh) (hf : m.TrueFaces) (hc : Smooth.Machine mc m) {m' : Mesh K} (h : flipEdges P mc m = some m')
    (p q : Vec3 K) : ((p, q) ∈ m'.outlineSides ∧ (q, p) ∉ m'.outlineSides) ↔ ((p, q) ∈ m.outlineSides ∧ (q, p) ∉ m.outlineSides) := by
  obtain ⟨m1, h1, h2, -, -, -, -, h7, -⟩ := flip_core (P := P) ht hm hf hc
  rw [h] at h1
  obtain rfl := Option.some.inj h1
  exact open_iff (sides_nodup hm.convex hm.apart) (sides_nodup h2.convex h2.apart) (fun f hf => h7 ℤ f hf) p q

/-- **C126 (the quality).** For every measure of quality of triangles and of quadrilaterals that does not depend on the corner from which they are read: if no
element has a quality below `B`, none has after `flipEdges`. -/
theorem C126_quality (ht : 0 ≤ P.tol) (hm : m.PlaneMesh) (hf : m.TrueFaces) (hc : Smooth.Machine mc m) {m' : Mesh K} (h : flipEdges P mc m = some m')
    (hq3 : ∀ a b c, P.triQ ⟨b, c, a⟩ = P.triQ ⟨a, b, c⟩) (hq4 : ∀ a b c d, P.quadQ ⟨b, c, d, a⟩ = P.quadQ ⟨a, b, c, d⟩) (B : K)
    (h3 : ∀ a b c, [a, b, c] ∈ m.outlines → B ≤ P.triQ ⟨a, b, c⟩) (h4 : ∀ a b c d, [a, b, c, d] ∈ m.outlines → B ≤ P.quadQ ⟨a, b, c, d⟩) :
    (∀ a b c, [a, b, c] ∈ m'.outlines → B ≤ P.triQ ⟨a, b, c⟩) ∧ ∀ a b c d, [a, b, c, d] ∈ m'.outlines → B ≤ P.quadQ ⟨a, b, c, d⟩ := by
  obtain ⟨m1, h1, h2, -, -, -, -, -, h8⟩ := flip_core (P := P) ht hm hf hc
  rw [h] at h1
  obtain rfl := Option.some.inj h1
  have key := h8 ⟨hq3, hq4⟩ B (by
    intro o ho
    rcases outline_cases (hm.convex o ho) with ⟨a, b, c, rfl, -⟩ | ⟨a, b, c, d, rfl, -⟩
    · exact h3 a b c ho
    · exact h4 a b c d ho)
  exact ⟨fun a b c ho => key _ ho, fun a b c d ho => key _ ho⟩

end

/-- The measures of quality of the code meet the hypotheses of `C126_quality`. -/
example (eps tol : ℝ) : let P : QuadSmooth.Par ℝ := ⟨realNorm, Quality.triangle eps, fun q => (Quality.quadrilateral q).getD 0, tol⟩
    (∀ a b c, P.triQ ⟨b, c, a⟩ = P.triQ ⟨a, b, c⟩) ∧ ∀ a b c d, P.quadQ ⟨b, c, d, a⟩ = P.quadQ ⟨a, b, c, d⟩ := by
  refine ⟨fun a b c => (C82_triangle_order eps a b c).1, fun a b c d => ?_⟩
  have e1 : Quad.normalArea realNorm ⟨b, c, d, a⟩ = Quad.normalArea realNorm ⟨a, b, c, d⟩ := by
    have : Vec3.cross (d - b) (a - c) = Vec3.cross (c - a) (d - b) := by
      ext <;> simp <;> ring
    simp only [Quad.normalArea, this]
  have e2 : (c - b).normSq + (d - c).normSq + (a - d).normSq + (b - a).normSq = (b - a).normSq + (c - b).normSq + (d - c).normSq + (a - d).normSq := by ring
  simp only [Quality.quadrilateral, e1, e2]

/-! ## C127 -/

variable {P : QuadSmooth.Par K} {m : Mesh K}

/-- **C127 (what holds).** On every consistent mesh of triangles and quadrilaterals with up-to-date faces `relaxNodes` is defined and returns. It changes
positions of nodes only, and no node leaves a half-space, with any direction `v`, that contains all the nodes. What is missing: that the boundary stays
(`C127_hole`), that elements stay convex and apart (`C127_hole`), and that an interior node with better places around it moves (`C127_grid`). -/
theorem C127_relax_partial (hw : m.WF) (hk : m.TrisAndQuads) (hl : m.ListedFaces) :
    ∃ m', relaxNodes P m = some (some m') ∧ m'.elements = m.elements ∧ m'.faces = m.faces ∧ m'.nodes.ids = m.nodes.ids ∧ m'.WF ∧
      ∀ v d, (∀ n p, m.nodes.get? n = some p → Vec3.dot v p ≤ d) → ∀ n p, m'.nodes.get? n = some p → Vec3.dot v p ≤ d := by
  obtain ⟨N, h, hN⟩ := relax_core (P := P) hw hk hl
  refine ⟨_, h, rfl, rfl, hN.ids, ⟨hN.ok, hw.faces, hw.elements, ?_, ?_⟩, hN.half⟩
  · intro i f hf n hn
    show n ∈ N.ids
    rw [hN.ids]; exact hw.faceNodes i f hf n hn
  · intro i f hf n hn
    show n ∈ N.ids
    rw [hN.ids]; exact hw.elemNodes i f hf n hn

/-! ## Concrete cases -/

namespace QuadSmooth

/-- A side of `o` has all of `u` on its right. -/
def Separated (o u : List (Vec3 K)) : Prop := ∃ s ∈ outlineSides o, ∀ p ∈ u, orient s.1 s.2 p ≤ 0

instance (o u : List (Vec3 K)) : Decidable (Separated o u) := by unfold Separated; infer_instance

theorem mix (a b c p : Vec3 K) (s : Vec3 K × Vec3 K) : orient s.1 s.2 p * orient a b c =
    orient b c p * orient s.1 s.2 a + orient c a p * orient s.1 s.2 b + orient a b p * orient s.1 s.2 c := by
  simp only [orient]; ring

theorem mix_le {a b c p : Vec3 K} {s : Vec3 K × Vec3 K} (h : 0 < orient a b c) (h1 : 0 ≤ orient b c p) (h2 : 0 ≤ orient c a p) (h3 : 0 ≤ orient a b p)
    (k1 : orient s.1 s.2 a ≤ 0) (k2 : orient s.1 s.2 b ≤ 0) (k3 : orient s.1 s.2 c ≤ 0) : orient s.1 s.2 p ≤ 0 := by
  by_contra hc
  push Not at hc
  have e := mix a b c p s
  have := mul_pos hc h
  have t1 := mul_nonneg h1 (neg_nonneg.2 k1)
  have t2 := mul_nonneg h2 (neg_nonneg.2 k2)
  have t3 := mul_nonneg h3 (neg_nonneg.2 k3)
  simp only [mul_neg] at t1 t2 t3
  linarith

theorem orient_flip (a c p : Vec3 K) : orient c a p = - orient a c p := by simp only [orient]; ring

theorem separated_disjoint {o u : List (Vec3 K)} (hu : ConvexOutline u) (h : Separated o u) {p : Vec3 K} (ho : InsideOutline o p) : ¬ InsideOutline u p := by
  intro hp
  obtain ⟨s, hs, hk⟩ := h
  refine absurd (ho s hs) (not_lt.2 ?_)
  rcases outline_cases hu with ⟨a, b, c, rfl, hu⟩ | ⟨a, b, c, d, rfl, hu⟩
  · rw [inside3] at hp
    exact mix_le hu hp.2.1.le hp.2.2.le hp.1.le (hk a (by simp)) (hk b (by simp)) (hk c (by simp))
  · rw [inside4] at hp
    obtain ⟨p1, p2, p3, p4⟩ := hp
    obtain ⟨u1, u2, u3, u4⟩ := hu
    rcases le_total 0 (orient c a p) with h | h
    · exact mix_le u1 p2.le h p1.le (hk a (by simp)) (hk b (by simp)) (hk c (by simp))
    · have e := orient_flip a c p
      have u3' : 0 < orient c d a := u3
      exact mix_le (a := a) (b := c) (c := d) (by simp only [orient] at u3' ⊢; linarith) p3.le p4.le (by linarith) (hk a (by simp)) (hk c (by simp)) (hk d (by simp))

theorem apart_of_separated {l : List (List (Vec3 K))} (hup : ∀ o ∈ l, ConvexOutline o) (h : l.Pairwise fun o u => Separated o u ∨ Separated u o) (p : Vec3 K) :
    (l.countP fun o => decide (InsideOutline o p)) ≤ 1 := by
  induction l with
  | nil => simp
  | cons a l ih =>
    rw [List.pairwise_cons] at h
    have ih := ih (fun t ht => hup t (List.mem_cons_of_mem _ ht)) h.2
    rw [List.countP_cons]
    by_cases ha : InsideOutline a p
    · have h0 : (l.countP fun o => decide (InsideOutline o p)) = 0 := by
        rw [List.countP_eq_zero]
        intro u hu
        simp only [decide_eq_true_eq]
        rcases h.1 u hu with h1 | h1
        · exact separated_disjoint (hup u (List.mem_cons_of_mem _ hu)) h1 ha
        · exact fun hc => separated_disjoint (hup a (by simp)) h1 hc ha
      simp [h0, ha]
    · simpa [ha] using ih

/-- A test that shows concrete meshes to be meshes of triangles and convex quadrilaterals. -/
def checkPlane (m : Mesh ℚ) : Bool :=
  m.check && m.elements.map.entries.all (fun p => decide ((p.2.elementType = .triangle ∧ p.2.nodeIds.length = 3) ∨ (p.2.elementType = .quadrilateral ∧ p.2.nodeIds.length = 4))) &&
  m.outlines.all (fun o => decide (ConvexOutline o)) && decide (m.outlines.Pairwise fun o u => Separated o u ∨ Separated u o)

theorem plane_of_check {m : Mesh ℚ} (h : checkPlane m = true) : m.PlaneMesh := by
  simp only [checkPlane, Bool.and_eq_true, List.all_eq_true, decide_eq_true_iff] at h
  obtain ⟨⟨⟨h1, h2⟩, h3⟩, h4⟩ := h
  refine ⟨Mesh.wf_of_check h1, ?_, h3, apart_of_separated h3 h4⟩
  intro id e he
  exact h2 _ ((SMap.find?_eq_some_iff _ _ _).1 he)

/-- A rational measure of quality of quadrilaterals: the area against the sum of the squares of the sides. -/
def ratQuad (q : Quad ℚ) : ℚ :=
  2 * |(Vec3.cross (q.v2 - q.v0) (q.v3 - q.v1)).z| / ((q.v1 - q.v0).normSq + (q.v2 - q.v1).normSq + (q.v3 - q.v2).normSq + (q.v0 - q.v3).normSq)

/-- Over `ℚ`, the largest coordinate stands for the length. -/
def exPar : QuadSmooth.Par ℚ := ⟨fun v => max |v.x| (max |v.y| |v.z|), Smooth.ratQuality, ratQuad, 0⟩

/-- A house cut from a corner of the roof to the ground, and a shed beside it. -/
def house : Mesh ℚ :=
  { nodes := ((((((Cont.empty.add 1 ⟨0, 0, 0⟩).add 2 ⟨2, 6, 0⟩).add 3 ⟨0, 4, 0⟩).add 4 ⟨4, 4, 0⟩).add 5 ⟨4, 0, 0⟩).add 6 ⟨8, 0, 0⟩).add 7 ⟨8, 3, 0⟩
    faces := Cont.empty
    elements := ((Cont.empty.add 0 ⟨.triangle, [1, 2, 3], []⟩).add 1 ⟨.quadrilateral, [2, 1, 5, 4], []⟩).add 4 ⟨.quadrilateral, [5, 6, 7, 4], []⟩
    nbBoundary := 0 }

/-- Four quadrilaterals with a common node off the centre. -/
def grid : Mesh ℚ :=
  { nodes := ((((((((Cont.empty.add 0 ⟨0, 0, 0⟩).add 1 ⟨4, 0, 0⟩).add 2 ⟨8, 0, 0⟩).add 3 ⟨0, 4, 0⟩).add 4 ⟨3, 3, 0⟩).add 5 ⟨8, 4, 0⟩).add 6 ⟨0, 8, 0⟩).add 7 ⟨4, 8, 0⟩).add 8 ⟨8, 8, 0⟩
    faces := Cont.empty
    elements := (((Cont.empty.add 0 ⟨.quadrilateral, [0, 1, 4, 3], []⟩).add 1 ⟨.quadrilateral, [1, 2, 5, 4], []⟩).add 2 ⟨.quadrilateral, [3, 4, 7, 6], []⟩).add 3 ⟨.quadrilateral, [4, 5, 8, 7], []⟩
    nbBoundary := 0 }

/-- Four quadrilaterals around a square hole. -/
def hole : Mesh ℚ :=
  { nodes := (((((((Cont.empty.add 0 ⟨-4, -4, 0⟩).add 1 ⟨4, -4, 0⟩).add 2 ⟨4, 4, 0⟩).add 3 ⟨-4, 4, 0⟩).add 4 ⟨-3, -3, 0⟩).add 5 ⟨-1, -3, 0⟩).add 6 ⟨-1, -1, 0⟩).add 7 ⟨-3, -1, 0⟩
    faces := Cont.empty
    elements := (((Cont.empty.add 0 ⟨.quadrilateral, [4, 0, 1, 5], []⟩).add 1 ⟨.quadrilateral, [5, 1, 2, 6], []⟩).add 2 ⟨.quadrilateral, [6, 2, 3, 7], []⟩).add 3 ⟨.quadrilateral, [7, 3, 0, 4], []⟩
    nbBoundary := 0 }

theorem bounded_of {m : Mesh ℚ} (h : (m.nodes.map.entries.all fun p => decide (-smallMachine.big < p.2.x ∧ p.2.x < smallMachine.big ∧ -smallMachine.big < p.2.y ∧ p.2.y < smallMachine.big ∧ -smallMachine.big < p.2.z ∧ p.2.z < smallMachine.big)) = true) : Smooth.Machine smallMachine m := by
  refine ⟨by norm_num [smallMachine], by norm_num [smallMachine], ?_⟩
  intro n v hv
  simp only [List.all_eq_true, decide_eq_true_iff] at h
  obtain ⟨h1, h2, h3, h4, h5, h6⟩ := h _ ((SMap.find?_eq_some_iff _ _ _).1 hv)
  exact ⟨⟨h1.le, h2.le⟩, ⟨h3.le, h4.le⟩, h5.le, h6.le⟩

end QuadSmooth

/-- The meshes meet the hypotheses of `C126_faces`, whose result meets those of the other theorems. -/
theorem house_ok : house.PlaneMesh ∧ grid.PlaneMesh ∧ hole.PlaneMesh :=
  ⟨plane_of_check (by decide +kernel), plane_of_check (by decide +kernel), plane_of_check (by decide +kernel)⟩

theorem house_bounded : Smooth.Machine smallMachine house ∧ Smooth.Machine smallMachine grid ∧ Smooth.Machine smallMachine hole ∧ 0 ≤ QuadSmooth.exPar.tol := by
  refine ⟨bounded_of ?_, bounded_of ?_, bounded_of ?_, by decide +kernel⟩ <;> decide +kernel

example : ∃ m', house.generateFaces smallMachine 0 = some m' ∧ m'.PlaneMesh ∧ m'.TrueFaces ∧ m'.ListedFaces := by
  obtain ⟨m', h1, h2, h3, h4, -⟩ := C126_faces smallMachine house house_ok.1 house_bounded.1 0 le_rfl
  exact ⟨m', h1, h2, h3, h4⟩

/-- The roof becomes the triangle. -/
example : ((house.generateFaces smallMachine 0).bind (QuadSmooth.flipEdges QuadSmooth.exPar smallMachine)).map
    (fun m => m.elements.ids.filterMap fun i => (m.elements.get? i).map Elem.nodeIds) = some [[2, 3, 4], [1, 5, 4, 3], [5, 6, 7, 4]] := by decide +kernel

namespace QuadSmooth

/-- `generateFaces` and then `relaxNodes`: what comes out. -/
def relaxed (m : Mesh ℚ) : Option (Mesh ℚ) := (m.generateFaces smallMachine 0).bind fun m => (relaxNodes exPar m).bind id

end QuadSmooth

/-- **C127 (it fails: an interior node stays).** Four quadrilaterals have a common node off the centre. `relaxNodes` leaves it there, although at the mean of
the nine nodes every one of the four elements would be convex and the worst of them better. -/
theorem C127_grid : (relaxed grid).map (fun m => m.nodes.map.entries) = some grid.nodes.map.entries ∧
    (let m' : Mesh ℚ := { grid with nodes := { grid.nodes with map := grid.nodes.map.insert 4 ⟨35 / 9, 35 / 9, 0⟩ } }
     (∀ o ∈ m'.outlines, ConvexOutline o) ∧ ∃ o ∈ grid.outlines, ∀ o' ∈ m'.outlines, oq exPar o < oq exPar o') := by
  refine ⟨by decide +kernel, by decide +kernel, by decide +kernel⟩

/-- **C127 (it fails: the boundary moves).** Four quadrilaterals around a square hole; every node is on the boundary. `relaxNodes` moves all the nodes of the hole
(the walk around a node takes face `(k + 1) % 3` also in a quadrilateral, and so goes around the hole), puts two of them at the same place, and leaves elements that
are not convex: only the first three nodes of an element are looked at. The area changes. -/
theorem C127_hole : (relaxed hole).map (fun m => ((m.nodes.ids.filterMap m.nodes.get?, (m.outlines.map outlineArea).sum), m.outlines.map fun o => decide (ConvexOutline o))) =
    some (([⟨-4, -4, 0⟩, ⟨4, -4, 0⟩, ⟨4, 4, 0⟩, ⟨-4, 4, 0⟩, ⟨-1, -1, 0⟩, ⟨-3 / 4, -3 / 4, 0⟩, ⟨-1, -1, 0⟩, ⟨-23 / 32, -15 / 32, 0⟩], 128), [false, false, false, true]) ∧
    (hole.outlines.map outlineArea).sum = 120 := by
  refine ⟨by decide +kernel, by decide +kernel⟩

end ENigMA
