import Verif.Mesh.TetFlipLemmas
import Verif.Mesh.TetSmoothProps

/-!
# C107: replacing three tetrahedra by two

The full property is that `flipEdges32` of the tetrahedron mesher keeps the region that a mesh of tetrahedra fills. It fails (`C107_hole`, `C107_overlap`), because the
three tetrahedra around an edge are looked up in lists built before the loop, and only one of the three is tested for having been changed already. The theorems with
the suffix `_partial` have the hypothesis `Mesh.Isolated`, under which this does not happen.
-/

set_option linter.unusedSectionVars false
set_option autoImplicit false

namespace ENigMA
open TetSmooth TetFlip Space

variable {K : Type} [Field K] [LinearOrder K] [IsStrictOrderedRing K] [FloorRing K]

/-- **C107 (preparation).** On every mesh that fills a region with tetrahedra, `generateFaces` gives a mesh that meets the hypotheses of the theorems below about the
faces, has the same tetrahedra, and the same ids of elements. -/
theorem C107_faces (mc : HashGrid.Machine K) (m : Mesh K) (hm : m.Filling) (hc : Smooth.Machine mc m) (tol : K) (ht : 0 ≤ tol) :
    ∃ m', m.generateFaces mc tol = some m' ∧ m'.Filling ∧ m'.TetFit ∧ m'.Owned ∧ m'.nodes = m.nodes ∧ m'.tets = m.tets ∧ m'.elements.ids = m.elements.ids := by
  obtain ⟨m', g1, g2, g3, g4, g5, -, g7, -⟩ := faces_fit hm hc ht
  exact ⟨m', g1, g2, g3, owned_faces hm hc ht g1, g4, g5, g7⟩

variable (P : Par K) (mc : HashGrid.Machine K) (m : Mesh K)

/-- **C107 (the mesh still fills a region).** On every mesh of tetrahedra of positive volume that do not overlap, with up-to-date faces and elements in increasing
order of id, and for every tolerance `≥ 0`, `flipEdges32` is defined if the edges that it may remove are isolated. It moves no node, adds no element, and its result
has the same properties: all volumes are positive, no point is inside two tetrahedra, and the faces are up to date. What is missing: meshes whose edges are not
isolated, where it is false. -/
theorem C107_flip_partial (ht : 0 ≤ P.tol) (hm : m.Filling) (hfit : m.TetFit) (hown : m.Owned) (hs : m.elements.ids.Pairwise (· < ·)) (hiso : m.Isolated)
    (hc : Smooth.Machine mc m) :
    ∃ m', flipEdges32 P mc m = some m' ∧ m'.Filling ∧ m'.TetFit ∧ m'.Owned ∧ m'.elements.ids.Pairwise (· < ·) ∧ m'.nodes = m.nodes ∧
      ∀ id ∈ m'.elements.ids, id ∈ m.elements.ids := by
  obtain ⟨m', h1, h2, h3, h4, h5, h6, -⟩ := TetFlip.flip_core ht hm hfit hown hs hiso hc
  exact ⟨m', h1, h2, h3, h4, hs.sublist h6, h5, fun id hid => h6.subset hid⟩

variable {P mc m}

/-- **C107 (the region).** A point, any point, is in a tetrahedron or on its boundary after `flipEdges32` iff it was before; the sum of the volumes does not
change. -/
theorem C107_region_partial (ht : 0 ≤ P.tol) (hm : m.Filling) (hfit : m.TetFit) (hown : m.Owned) (hs : m.elements.ids.Pairwise (· < ·)) (hiso : m.Isolated)
    (hc : Smooth.Machine mc m) {m' : Mesh K} (h : flipEdges32 P mc m = some m') :
    (∀ p, Fill m'.tets p ↔ Fill m.tets p) ∧ (m'.tets.map Tet.volume).sum = (m.tets.map Tet.volume).sum := by
  obtain ⟨m1, g1, g2, -, -, -, -, g7⟩ := TetFlip.flip_core ht hm hfit hown hs hiso hc
  rw [h] at g1
  obtain rfl := Option.some.inj g1
  exact ⟨fun p => (fill_same hm.positive g2.positive (TetFlip.flips_hull g7) p).symm, volumes_same (TetFlip.flips_hull g7)⟩

/-- **C107 (the boundary).** The triangles that are a face of a tetrahedron on one side only are the same before and after. -/
theorem C107_boundary_partial (ht : 0 ≤ P.tol) (hm : m.Filling) (hfit : m.TetFit) (hown : m.Owned) (hs : m.elements.ids.Pairwise (· < ·)) (hiso : m.Isolated)
    (hc : Smooth.Machine mc m) {m' : Mesh K} (h : flipEdges32 P mc m = some m') (a b c : Vec3 K) :
    (HasFace m'.tets a b c ∧ ¬ HasFace m'.tets b a c) ↔ (HasFace m.tets a b c ∧ ¬ HasFace m.tets b a c) := by
  obtain ⟨m1, g1, g2, -, -, -, -, g7⟩ := TetFlip.flip_core ht hm hfit hown hs hiso hc
  rw [h] at g1
  obtain rfl := Option.some.inj g1
  exact (boundary_same hm.positive g2.positive hm.apart g2.apart (TetFlip.flips_hull g7) a b c).symm

/-- **C107 (the quality).** For every measure of quality that does not depend on the order in which the corners of a tetrahedron are read, no tetrahedron after
`flipEdges32` is worse than the worst before. The measure of the code is one of these (`C104_measure`). -/
theorem C107_quality_partial (ht : 0 ≤ P.tol) (hm : m.Filling) (hfit : m.TetFit) (hown : m.Owned) (hs : m.elements.ids.Pairwise (· < ·)) (hiso : m.Isolated)
    (hc : Smooth.Machine mc m) {m' : Mesh K} (h : flipEdges32 P mc m = some m')
    (hq : ∀ a b c d, P.quality ⟨b, c, a, d⟩ = P.quality ⟨a, b, c, d⟩) (hq' : ∀ a b c d, P.quality ⟨b, a, d, c⟩ = P.quality ⟨a, b, c, d⟩) :
    ∀ t ∈ m'.tets, ∃ u ∈ m.tets, P.quality u ≤ P.quality t := by
  obtain ⟨m1, g1, g2, -, -, -, -, g7⟩ := TetFlip.flip_core ht hm hfit hown hs hiso hc
  rw [h] at g1
  obtain rfl := Option.some.inj g1
  exact worst (ne_nil hm.positive g2.positive (TetFlip.flips_hull g7)) fun k hk => TetFlip.flips_quality (alike_quality hq hq') g7 k hk

/-! ## Concrete cases -/

namespace TetFlip

/-- A mesh of tetrahedra from the positions of its nodes and the corners of its elements. -/
def meshOf (nodes : List (Vec3 ℚ)) (els : List (Int × Int × Int × Int)) : Mesh ℚ :=
  { nodes := nodes.foldl (fun c v => c.add c.ids.length v) Cont.empty
    faces := Cont.empty
    elements := els.foldl (fun c t => c.add c.ids.length ⟨.tetrahedron, [t.1, t.2.1, t.2.2.1, t.2.2.2], []⟩) Cont.empty
    nbBoundary := 0 }

/-- Eleven tetrahedra in a tetrahedron with three nodes inside. The three edges 3-5, 1-6 and 5-6 are in three tetrahedra each. -/
def loose : Mesh ℚ :=
  meshOf [⟨-6, -6, 1⟩, ⟨6, 2, 1⟩, ⟨4, 1, -4⟩, ⟨6, -6, 2⟩, ⟨5, -1, 1⟩, ⟨-3, -5, 1⟩, ⟨-3, -4, 0⟩]
    [(5, 3, 4, 2), (3, 2, 1, 4), (1, 6, 0, 4), (0, 4, 6, 5), (1, 4, 2, 6), (0, 6, 1, 2), (0, 3, 5, 2), (1, 3, 4, 0), (5, 4, 3, 0), (0, 2, 5, 6), (4, 6, 5, 2)]

/-- Eight tetrahedra in a tetrahedron with two nodes inside. -/
def holed : Mesh ℚ :=
  meshOf [⟨5, 5, 2⟩, ⟨-3, -6, 5⟩, ⟨2, -2, -2⟩, ⟨-5, -3, 6⟩, ⟨1, -2, 0⟩, ⟨-1, -2, 2⟩]
    [(4, 3, 2, 5), (1, 2, 4, 3), (1, 5, 0, 3), (5, 2, 0, 3), (2, 4, 0, 1), (5, 3, 1, 4), (4, 0, 1, 5), (2, 4, 5, 0)]

/-- Eight tetrahedra in a tetrahedron with two nodes inside. -/
def overlapping : Mesh ℚ :=
  meshOf [⟨-2, -2, 4⟩, ⟨3, -6, -3⟩, ⟨5, 4, 5⟩, ⟨-5, 1, 1⟩, ⟨0, -1, 3⟩, ⟨-1, 0, 3⟩]
    [(5, 0, 4, 3), (1, 5, 2, 4), (2, 3, 5, 1), (0, 4, 3, 1), (0, 4, 2, 5), (5, 4, 1, 3), (4, 1, 0, 2), (3, 5, 0, 2)]

instance decBounded (b : ℚ) (v : Vec3 ℚ) : Decidable (Vec3.Bounded b v) := by unfold Vec3.Bounded; infer_instance

/-- The positions are small. -/
def checkMachine (m : Mesh ℚ) : Bool := m.nodes.map.entries.all fun p => decide (Vec3.Bounded smallMachine.big p.2)

theorem machine_of_check {m : Mesh ℚ} (h : checkMachine m = true) : Smooth.Machine smallMachine m := by
  refine ⟨by norm_num [smallMachine], by norm_num [smallMachine], fun n v hv => ?_⟩
  simp only [checkMachine, List.all_eq_true, decide_eq_true_iff] at h
  exact h _ ((SMap.find?_eq_some_iff _ _ _).1 hv)

/-- A test for `OnBoundary`. -/
def onBoundary (m : Mesh ℚ) (n : Int) : Bool := m.faces.map.entries.any fun p => !p.2.hasPair && decide (n ∈ p.2.nodeIds)

/-- A test for `Three`. -/
def three (m : Mesh ℚ) (p : Int × Int) : Bool := decide (p.1 ≠ p.2) && !(onBoundary m p.1 && onBoundary m p.2) && decide ((m.around p.1 p.2).length = 3)

/-- A test that shows the edges of a concrete mesh to be isolated: an element has at most one edge in three elements. -/
def checkIsolated (m : Mesh ℚ) : Bool := m.elements.map.entries.all fun e =>
  let l := (e.2.nodeIds.flatMap fun a => e.2.nodeIds.map fun b => (a, b)).filter (three m)
  l.all fun p => l.all fun q => decide ((q.1 = p.1 ∧ q.2 = p.2) ∨ (q.1 = p.2 ∧ q.2 = p.1))

theorem three_of {m : Mesh ℚ} {a b : Int} (h : m.Three a b) : three m (a, b) = true := by
  obtain ⟨h1, h2, h3⟩ := h
  have hb : ∀ n, onBoundary m n = true → m.OnBoundary n := by
    intro n hn
    obtain ⟨⟨i, f⟩, hp, hn⟩ := List.any_eq_true.1 hn
    simp only [Bool.and_eq_true, Bool.not_eq_true', decide_eq_true_eq] at hn
    exact ⟨i, f, (SMap.find?_eq_some_iff _ _ _).2 hp, hn.1, hn.2⟩
  simp only [three, Bool.and_eq_true, Bool.not_eq_true', decide_eq_true_eq, h3, and_true]
  refine ⟨h1, ?_⟩
  by_contra hc
  rw [Bool.not_eq_false, Bool.and_eq_true] at hc
  exact h2 ⟨hb _ hc.1, hb _ hc.2⟩

theorem isolated_of_check {m : Mesh ℚ} (h : checkIsolated m = true) : m.Isolated := by
  intro id a b c d hs h3 h1 h2
  simp only [checkIsolated, List.all_eq_true] at h
  have k1 := (List.mem_filter.1 h1).2
  have k2 := (List.mem_filter.1 h2).2
  rw [decide_eq_true_iff] at k1 k2
  obtain ⟨⟨e, he, ha⟩, e', he', hb⟩ := k1
  rw [he] at he'
  obtain rfl := Option.some.inj he'
  obtain ⟨⟨e', he', hc⟩, e'', he'', hd⟩ := k2
  rw [he] at he' he''
  obtain rfl := Option.some.inj he'
  obtain rfl := Option.some.inj he''
  have hpair : ∀ x y, x ∈ e.nodeIds → y ∈ e.nodeIds → (x, y) ∈ e.nodeIds.flatMap fun a => e.nodeIds.map fun b => (a, b) := fun x y hx hy =>
    List.mem_flatMap.2 ⟨x, hx, List.mem_map.2 ⟨y, hy, rfl⟩⟩
  have := h _ ((SMap.find?_eq_some_iff _ _ _).1 he) _ (List.mem_filter.2 ⟨hpair a b ha hb, three_of hs.1⟩) _ (List.mem_filter.2 ⟨hpair c d hc hd, three_of h3⟩)
  simpa using this

/-- A test for two points: filled before and not after; inside how many after. -/
def after (m : Mesh ℚ) (p : Vec3 ℚ) : Option (Bool × Nat × ℚ) :=
  (flipEdges32 exPar smallMachine m).map fun m' => (m'.tets.any fun t => decide (t.Contains p), m'.tets.countP fun t => decide (t.Inside p), (m'.tets.map Tet.volume).sum)

end TetFlip

/-- The hypotheses of the theorems above are met by a mesh of eleven tetrahedra, and `flipEdges32` replaces three of them by two there: 3, 9 and 10 around the edge
5-6. -/
example : ∃ m, loose.generateFaces smallMachine 0 = some m ∧ m.Filling ∧ m.TetFit ∧ m.Owned ∧ m.elements.ids.Pairwise (· < ·) ∧ m.Isolated ∧ Smooth.Machine smallMachine m ∧
    (flipEdges32 exPar smallMachine m).map (fun m' => m'.elements.ids.filterMap fun i => (m'.elements.get? i).map fun e => (i, e.nodeIds)) =
      some [(0, [5, 3, 4, 2]), (1, [3, 2, 1, 4]), (2, [1, 6, 0, 4]), (3, [0, 4, 2, 5]), (4, [1, 4, 2, 6]), (5, [0, 6, 1, 2]), (6, [0, 3, 5, 2]), (7, [1, 3, 4, 0]),
        (8, [5, 4, 3, 0]), (9, [0, 4, 6, 2])] := by
  have hc : Smooth.Machine smallMachine loose := machine_of_check (by decide +kernel)
  obtain ⟨m, h1, h2, h3, h4, h5, h6, h7⟩ := C107_faces smallMachine loose (filling_of_check (by decide +kernel)) hc 0 le_rfl
  refine ⟨m, h1, h2, h3, h4, by rw [h7]; decide +kernel, isolated_of_check ?_, ⟨hc.eps, hc.big, fun n v h => hc.bounded n v (by rw [← h5]; exact h)⟩, ?_⟩
  · have : (loose.generateFaces smallMachine 0).map checkIsolated = some true := by decide +kernel
    rw [h1] at this
    exact Option.some.inj this
  · have : ((loose.generateFaces smallMachine 0).bind (flipEdges32 exPar smallMachine)).map (fun m' => m'.elements.ids.filterMap fun i => (m'.elements.get? i).map fun e => (i, e.nodeIds)) =
      some [(0, [5, 3, 4, 2]), (1, [3, 2, 1, 4]), (2, [1, 6, 0, 4]), (3, [0, 4, 2, 5]), (4, [1, 4, 2, 6]), (5, [0, 6, 1, 2]), (6, [0, 3, 5, 2]), (7, [1, 3, 4, 0]),
        (8, [5, 4, 3, 0]), (9, [0, 4, 6, 2])] := by decide +kernel
    rw [h1] at this
    exact this

/-- **C107 fails (a hole).** A mesh of eight tetrahedra fills a tetrahedron; its faces are those of `generateFaces`. After `flipEdges32` it no longer does: a point
that was in it is in none of the tetrahedra, and two thirds of the volume are lost. The edges are not isolated: two flips share a tetrahedron, and the second one
overwrites what the first one made of it. -/
theorem C107_hole : ∃ m : Mesh ℚ, m.Filling ∧ m.TetFit ∧ m.Owned ∧ m.elements.ids.Pairwise (· < ·) ∧ Smooth.Machine smallMachine m ∧ 0 ≤ exPar.tol ∧
    ∃ m', flipEdges32 exPar smallMachine m = some m' ∧ (∃ p, Fill m.tets p ∧ ¬ Fill m'.tets p) ∧ (m.tets.map Tet.volume).sum = 115 / 3 ∧ (m'.tets.map Tet.volume).sum = 37 / 3 := by
  have hc : Smooth.Machine smallMachine holed := machine_of_check (by decide +kernel)
  obtain ⟨m, h1, h2, h3, h4, h5, h6, h7⟩ := C107_faces smallMachine holed (filling_of_check (by decide +kernel)) hc 0 le_rfl
  have key : (holed.generateFaces smallMachine 0).bind (fun m => after m ⟨-3, -4, 5⟩) = some (false, 0, 37 / 3) := by decide +kernel
  rw [h1, Option.bind_some, after] at key
  obtain ⟨m', g1, g2⟩ := Option.map_eq_some_iff.1 key
  simp only [Prod.mk.injEq] at g2
  refine ⟨m, h2, h3, h4, by rw [h7]; decide +kernel, ⟨hc.eps, hc.big, fun n v h => hc.bounded n v (by rw [← h5]; exact h)⟩, by decide +kernel, m', g1, ⟨⟨-3, -4, 5⟩, ?_, ?_⟩, ?_, g2.2.2⟩
  · rw [h6]
    have : (holed.tets.any fun t => decide (t.Contains ⟨-3, -4, 5⟩)) = true := by decide +kernel
    obtain ⟨t, ht, hp⟩ := List.any_eq_true.1 this
    exact ⟨t, ht, by simpa using hp⟩
  · rintro ⟨t, ht, hp⟩
    have := g2.1
    rw [List.any_eq_false] at this
    exact this t ht (by simpa using hp)
  · rw [h6]; decide +kernel

/-- **C107 fails (an overlap).** A mesh of eight tetrahedra that do not overlap; after `flipEdges32` a point is inside two. -/
theorem C107_overlap : ∃ m : Mesh ℚ, m.Filling ∧ m.TetFit ∧ m.Owned ∧ m.elements.ids.Pairwise (· < ·) ∧ Smooth.Machine smallMachine m ∧ 0 ≤ exPar.tol ∧
    ∃ m', flipEdges32 exPar smallMachine m = some m' ∧ ¬ Apart m'.tets := by
  have hc : Smooth.Machine smallMachine overlapping := machine_of_check (by decide +kernel)
  obtain ⟨m, h1, h2, h3, h4, h5, h6, h7⟩ := C107_faces smallMachine overlapping (filling_of_check (by decide +kernel)) hc 0 le_rfl
  have key : (overlapping.generateFaces smallMachine 0).bind (fun m => after m ⟨0, -2, 1⟩) = some (true, 2, 232 / 3) := by decide +kernel
  rw [h1, Option.bind_some, after] at key
  obtain ⟨m', g1, g2⟩ := Option.map_eq_some_iff.1 key
  simp only [Prod.mk.injEq] at g2
  refine ⟨m, h2, h3, h4, by rw [h7]; decide +kernel, ⟨hc.eps, hc.big, fun n v h => hc.bounded n v (by rw [← h5]; exact h)⟩, by decide +kernel, m', g1, fun ha => ?_⟩
  have := ha ⟨0, -2, 1⟩
  omega

end ENigMA
