import Verif.Stl.RelaxProps
import Verif.Stl.SplitResults

/-!
# Moving the vertices of a surface
-/

set_option linter.unusedSectionVars false
set_option autoImplicit false

namespace ENigMA

section
variable {K : Type} [Field K] [LinearOrder K] [IsStrictOrderedRing K]

/-- Relaxing never fails. It keeps the facets, their neighbours and the fit of neighbouring edges. Vertices of the rim and those at which an edge marked as outline starts stay (at all facets that meet there), all others end in the hull
of the vertices. What depends on the rim only, like the vector of the area, stays the same. -/
theorem C111_relax (outline : Int × Nat → Bool) (accept : List (Stl.Facet K × Nat) → Vec3 K → Bool) {s : Stl.File K} (hs : Stl.Sound s) (hone : Stl.OneCorner s) :
    ∃ s', Stl.relaxVertices outline accept s = some s' ∧ Stl.Sound s' ∧ s'.ids = s.ids ∧ (∀ x, Stl.link s' x = Stl.link s x) ∧
      (∀ x y, Fan.Same (Stl.nx s) x y → Stl.link s y = none ∨ Stl.link s (y.1, (y.2 + 2) % 3) = none ∨ outline y = true → Stl.vert s' x = Stl.vert s x) ∧
      (∀ p ∈ Stl.points s', Stl.InHull (Stl.points s) p) ∧
      (∀ (M : Type) [AddCommGroup M] (F : Vec3 K → Vec3 K → Vec3 K → M) (H : Vec3 K → Vec3 K → M), Stl.OfEdges F H → Stl.total F s' = Stl.total F s) := by
  obtain ⟨s', h1, h2, h3⟩ := Stl.relaxVertices_spec outline accept hs hone
  exact ⟨s', h1, h2.sound, h2.ids, fun x => by rw [Stl.link_of_edges h2.edges], h2.fixed, h3, fun M _ F H hF => h2.total hF hs⟩

/-- One corner at a time: either nothing happens, or all corners at this vertex, and no others, move to the mean of the vertices next to it. -/
theorem C111_round (outline : Int × Nat → Bool) (accept : List (Stl.Facet K × Nat) → Vec3 K → Bool) {s : Stl.File K} (hs : Stl.Sound s) (hone : Stl.OneCorner s) {i j : Nat} (hi : i < s.count) (hj : j < 3) :
    ∃ s', Stl.relaxCorner outline accept s i (i : Int) j = some s' ∧ (s' = s ∨ ∃ p, Stl.IsMean s ((i : Int), j) p ∧ Stl.MovesTo s s' ((i : Int), j) p) := by
  obtain ⟨s', h1, -, -, h2⟩ := Stl.relaxCorner_spec outline accept hs hone (i := i) (j := j) ⟨hs.plain.mem.2 ⟨by omega, by omega⟩, hj⟩
  exact ⟨s', h1, h2⟩

/-- Collapsing never fails. It keeps the facets (the flat ones too), their neighbours and the fit of neighbouring edges; vertices of the rim stay; no vertex is new; what depends on the rim only stays the same. -/
theorem C112_collapse (g : Stl.Gauge K) (least : K) (accept : List (Stl.Facet K × Nat) → Vec3 K → Bool) {s : Stl.File K} (hs : Stl.Sound s) (hone : Stl.OneCorner s) :
    ∃ s', Stl.collapseEdges g least accept s = some s' ∧ Stl.Sound s' ∧ s'.ids = s.ids ∧ (∀ x, Stl.link s' x = Stl.link s x) ∧
      (∀ x y, Fan.Same (Stl.nx s) x y → Stl.link s y = none ∨ Stl.link s (y.1, (y.2 + 2) % 3) = none → Stl.vert s' x = Stl.vert s x) ∧
      (∀ p ∈ Stl.points s', p ∈ Stl.points s) ∧
      (∀ (M : Type) [AddCommGroup M] (F : Vec3 K → Vec3 K → Vec3 K → M) (H : Vec3 K → Vec3 K → M), Stl.OfEdges F H → Stl.total F s' = Stl.total F s) := by
  obtain ⟨s', h1, h2, h3⟩ := Stl.collapseEdges_spec g least accept hs hone
  refine ⟨s', h1, h2.sound, h2.ids, fun x => by rw [Stl.link_of_edges h2.edges], fun x y hxy hy => h2.fixed x y hxy ?_, h3, fun M _ F H hF => h2.total hF hs⟩
  rcases hy with h | h
  · exact Or.inl h
  · exact Or.inr (Or.inl h)

/-- One facet at a time: either nothing happens, or the quality of the facet is not above the least one, and all corners at the end of its shortest edge, and no others, move to the start of this edge. Then this facet and its neighbour there are flat; both are marked, and a marked facet is left as it is, so no facet is collapsed twice. -/
theorem C112_round (g : Stl.Gauge K) (least : K) (accept : List (Stl.Facet K × Nat) → Vec3 K → Bool) {s : Stl.File K} (marks : List Int) (hs : Stl.Sound s) (hone : Stl.OneCorner s) {i : Nat} (hi : i < s.count) :
    ∃ s' marks', Stl.collapseFacet g least accept (s, marks) i = some (s', marks') ∧ ((s', marks') = (s, marks) ∨ ∃ p0 p1 p2 k p y, k < 3 ∧ Stl.vert s ((i : Int), 0) = some p0 ∧ Stl.vert s ((i : Int), 1) = some p1 ∧ Stl.vert s ((i : Int), 2) = some p2 ∧
      g.quality p0 p1 p2 ≤ least ∧ (∀ j, g.norm (Stl.pick p0 p1 p2 (k + 1) - Stl.pick p0 p1 p2 k) ≤ g.norm (Stl.pick p0 p1 p2 (j + 1) - Stl.pick p0 p1 p2 j)) ∧
      Stl.vert s ((i : Int), k) = some p ∧ Stl.MovesTo s s' ((i : Int), (k + 1) % 3) p ∧ Stl.link s ((i : Int), k) = some y ∧
      (i : Int) ∉ marks ∧ marks' = (i : Int) :: y.1 :: marks ∧
      Stl.vert s' ((i : Int), k) = Stl.vert s' ((i : Int), (k + 1) % 3) ∧ Stl.vert s' y = Stl.vert s' (Stl.after y)) := by
  obtain ⟨⟨s', marks'⟩, h1, h2, -, h3⟩ := Stl.collapseFacet_spec g least accept marks hs hone hi
  refine ⟨s', marks', h1, ?_⟩
  rcases h3 with h3 | ⟨p0, p1, p2, k, p, hk, v0, v1, v2, hq, hsm, hp, hl, hmv⟩
  · exact Or.inl h3
  · obtain ⟨y, hy, hnot, hmk⟩ := hl
    have e1 : Stl.vert s' ((i : Int), (k + 1) % 3) = some p := (hmv _).1 (Relation.EqvGen.refl _)
    have e2 : Stl.vert s' ((i : Int), k) = some p := by
      by_cases h : Fan.Same (Stl.nx s) ((i : Int), (k + 1) % 3) ((i : Int), k)
      · exact (hmv _).1 h
      · rw [(hmv _).2 h, hp]
    obtain ⟨o1, o2⟩ := h2.sound.opp _ _ ((congrFun (Stl.link_of_edges h2.edges) _).trans hy)
    refine Or.inr ⟨p0, p1, p2, k, p, y, hk, v0, v1, v2, hq, hsm, hp, hmv, hy, hnot, hmk, e2.trans e1.symm, ?_⟩
    rw [o1, o2]
    exact e1.trans e2.symm

end

theorem Stl.solid_one : Stl.OneCorner Stl.solid :=
  Stl.oneCorner_of Stl.solid_sound fun x y hx hy => by
    have : ∀ x ∈ Stl.corners Stl.solid, ∀ y ∈ Stl.corners Stl.solid, x.1 = y.1 → Stl.vert Stl.solid x = Stl.vert Stl.solid y → x = y := by decide +kernel
    exact this x (Stl.mem_corners.2 hx) y (Stl.mem_corners.2 hy)

/-- Both on a tetrahedron, where they do move vertices; and the vector of the area is the sum of a quantity of the edges. -/
example : Stl.Sound Stl.solid ∧ Stl.OneCorner Stl.solid ∧
    (Stl.relaxVertices (fun _ => false) (fun _ _ => true) Stl.solid).map (fun s => Stl.vert s (0, 0)) = some (some ⟨35342 / 59049, 10838 / 59049, 71918 / 59049⟩) ∧
    (Stl.relaxVertices (fun x => x.1 == 0) (fun _ _ => true) Stl.solid).map (fun s => (Stl.vert s (0, 0), Stl.vert s (1, 2))) = some (some ⟨0, 0, 0⟩, some ⟨2 / 3, 2 / 3, 0⟩) ∧
    (Stl.collapseEdges Stl.plainGauge 1 (fun _ _ => true) Stl.solid).map (fun s => Stl.vert s (0, 1)) = some (some ⟨0, 0, 0⟩) ∧
    Stl.OfEdges (fun a b c : Vec3 ℚ => (b - a).cross (c - a)) Vec3.cross := by
  refine ⟨Stl.solid_sound, Stl.solid_one, by decide +kernel, by decide +kernel, by decide +kernel, ⟨fun a b c => ?_, fun a b => ?_⟩⟩
  · ext <;> simp <;> ring
  · ext <;> simp <;> ring

/-- The same surface, stored in another order. -/
def Stl.shuffled : Stl.File ℚ :=
  (((Cont.empty.add 0 ⟨[⟨0, 0, 0⟩, ⟨0, 2, 0⟩, ⟨2, 0, 0⟩], ⟨0, 0, 0⟩, (0, 0), [⟨3, 1, false⟩, ⟨2, 2, false⟩, ⟨1, 2, false⟩]⟩).add 1
    ⟨[⟨0, 0, 0⟩, ⟨2, 0, 0⟩, ⟨0, 0, 2⟩], ⟨0, 0, 0⟩, (0, 0), [⟨0, 1, false⟩, ⟨2, 1, false⟩, ⟨3, 2, false⟩]⟩).add 3
    ⟨[⟨0, 0, 0⟩, ⟨0, 0, 2⟩, ⟨0, 2, 0⟩], ⟨0, 0, 0⟩, (0, 0), [⟨1, 1, false⟩, ⟨2, 0, false⟩, ⟨0, 2, false⟩]⟩).add 2
    ⟨[⟨2, 0, 0⟩, ⟨0, 2, 0⟩, ⟨0, 0, 2⟩], ⟨0, 0, 0⟩, (0, 0), [⟨0, 0, false⟩, ⟨3, 0, false⟩, ⟨1, 0, false⟩]⟩

/-- The ids have to be positions: stored in another order, a closed surface is torn by relaxing. -/
theorem C111_ids_needed : ∃ (s s' : Stl.File ℚ) (x y : Int × Nat), s.Ok ∧ Stl.Triangular s ∧ (∀ id ∈ s.ids, 0 ≤ id) ∧ Stl.Joined s ∧ Stl.Mutual s ∧ Stl.Clean s ∧ Stl.NoSelf s ∧
    Stl.relaxVertices (fun _ => false) (fun _ _ => true) s = some s' ∧ Stl.link s' x = some y ∧ Stl.vert s' y ≠ Stl.vert s' (Stl.after x) := by
  have hok : Stl.shuffled.Ok := Cont.add_ok (Cont.add_ok (Cont.add_ok (Cont.add_ok Cont.empty_ok _ (by decide +kernel)) _ (by decide +kernel)) _ (by decide +kernel)) _ (by decide +kernel)
  have hg : Stl.Good Stl.shuffled := ⟨hok, Stl.ok_of_adds hok (by decide +kernel)⟩
  have hpos : ∀ id ∈ Stl.shuffled.ids, 0 ≤ id := by decide +kernel
  have hm : Stl.Mutual Stl.shuffled := Stl.mutual_of hg hpos (by decide +kernel)
  have hc : Stl.Clean Stl.shuffled := Stl.edges_of hg (by decide +kernel)
  have hn : Stl.NoSelf Stl.shuffled := Stl.edges_of hg (by decide +kernel)
  refine ⟨Stl.shuffled, ((Stl.relaxVertices (fun _ => false) (fun _ _ => true) Stl.shuffled).getD Cont.empty), (0, 0), (3, 2), hok, hg.tri, hpos, Stl.joined_of_links hg hpos hm hc hn (by decide +kernel), hm, hc, hn, ?_, ?_⟩
  · have : (Stl.relaxVertices (fun _ => false) (fun _ _ => true) Stl.shuffled).isSome = true := by decide +kernel
    obtain ⟨r, hr⟩ := Option.isSome_iff_exists.1 this
    rw [hr]; rfl
  · decide +kernel

end ENigMA
