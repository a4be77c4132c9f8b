import Verif.Geometry.RtreeProps
import Verif.Mesh.BoxScaleProps
import Verif.Mesh.Crossings

/-!
# C141: lemmas about the search for elements that cross
-/

set_option linter.unusedSectionVars false
set_option autoImplicit false

namespace ENigMA

variable {K : Type} [Field K] [LinearOrder K] [IsStrictOrderedRing K]

/-! ### Specification -/

/-- The element `id` of the mesh is a triangle, and `t` has its corners. -/
def Mesh.Corners (m : Mesh K) (id : Int) (t : Tri K) : Prop :=
  ∃ e a b c, m.elements.get? id = some e ∧ e.elementType = .triangle ∧ e.nodeIds = [a, b, c] ∧
    m.nodes.get? a = some t.v0 ∧ m.nodes.get? b = some t.v1 ∧ m.nodes.get? c = some t.v2

/-- All elements of the mesh are triangles with three stored corners. -/
def Mesh.OnlyTriangles (m : Mesh K) : Prop := ∀ id ∈ m.elements.ids, ∃ t, m.Corners id t

/-- The test of two triangles says that they share more than a corner. -/
def Tri.SaidToCross (nrm : Vec3 K → K) (eps big cos1 tol : K) (t u : Tri K) : Prop :=
  ∃ k, t.intersects nrm eps big cos1 u tol = some k ∧ k ≠ .vertex

/-! ### Lemmas -/

theorem triCounts_iff (o : Option TriHit) : triCounts o = true ↔ ∃ k, o = some k ∧ k ≠ .vertex := by
  cases o with
  | none => simp [triCounts]
  | some k => cases k <;> simp [triCounts]

namespace Mesh

theorem Corners.shape {m : Mesh K} {id : Int} {t : Tri K} (h : m.Corners id t) : ∃ e, m.elements.get? id = some e ∧ m.shape e = some (.tri t) := by
  obtain ⟨e, a, b, c, h1, h2, h3, h4, h5, h6⟩ := h
  refine ⟨e, h1, ?_⟩
  simp [Mesh.shape, h2, h3, h4, h5, h6]

theorem Corners.box {m : Mesh K} {id : Int} {t : Tri K} (h : m.Corners id t) (big : K) : m.elementBox big id = some (t.bbox big) := by
  obtain ⟨e, a, b, c, h1, h2, h3, h4, h5, h6⟩ := h
  simp [Mesh.elementBox, h1, h3, boxLoop, h4, h5, h6, Tri.bbox, BBox.ofPoints]

theorem Corners.unique {m : Mesh K} {id : Int} {t u : Tri K} (h : m.Corners id t) (h' : m.Corners id u) : t = u := by
  obtain ⟨e, h1, h2⟩ := h.shape
  obtain ⟨e', h1', h2'⟩ := h'.shape
  rw [h1] at h1'
  cases h1'
  rw [h2] at h2'
  injection h2' with h
  injection h

theorem Corners.bounded {m : Mesh K} {id : Int} {t : Tri K} (h : m.Corners id t) {big : K} (hb : ∀ n p, m.nodes.get? n = some p → p.Bounded big) :
    ∀ p ∈ [t.v0, t.v1, t.v2], p.Bounded big := by
  obtain ⟨e, a, b, c, h1, h2, h3, h4, h5, h6⟩ := h
  intro p hp
  simp only [List.mem_cons, List.not_mem_nil, or_false] at hp
  rcases hp with rfl | rfl | rfl
  · exact hb _ _ h4
  · exact hb _ _ h5
  · exact hb _ _ h6

end Mesh

theorem Tri.bbox_mem {big : K} {t : Tri K} (hb : ∀ p ∈ [t.v0, t.v1, t.v2], p.Bounded big) (p : Vec3 K) (hp : p ∈ [t.v0, t.v1, t.v2]) :
    InBox (t.bbox big).min (t.bbox big).max p := by
  have := (BBox.containsPt_iff _ _ _).1 ((C17_least_box big _ hb).1 p hp)
  simpa [InBox, Tri.bbox] using this

theorem Tri.bbox_nonEmpty {big : K} {t : Tri K} (hb : ∀ p ∈ [t.v0, t.v1, t.v2], p.Bounded big) : (t.bbox big).NonEmpty := by
  obtain ⟨h1, h2, h3⟩ := t.bbox_mem hb t.v0 (by simp)
  exact ⟨h1.1.trans h1.2, h2.1.trans h2.2, h3.1.trans h3.2⟩

theorem rtLive_adds (B : Int → BBox K) (l : List Int) (e : BBox K × Int) : e ∈ rtLive (l.map fun id => RtOp.add id (B id)) ↔ e.2 ∈ l ∧ e.1 = B e.2 := by
  induction l using List.reverseRecOn with
  | nil => simp [rtLive]
  | append_singleton l a ih =>
    rw [List.map_append, List.map_singleton, rtLive_snoc]
    simp only [List.mem_cons, ih, List.mem_append, List.not_mem_nil, or_false]
    constructor
    · rintro (rfl | ⟨h1, h2⟩)
      · exact ⟨Or.inr rfl, rfl⟩
      · exact ⟨Or.inl h1, h2⟩
    · rintro ⟨h1 | h1, h2⟩
      · exact Or.inr ⟨h1, h2⟩
      · exact Or.inl (by cases e; simp_all)

theorem rtLegal_adds (B : Int → BBox K) (l : List Int) (hn : l.Nodup) (hB : ∀ id ∈ l, (B id).NonEmpty) : RtLegal (l.map fun id => RtOp.add id (B id)) := by
  intro pre op post h
  obtain ⟨l1, l2, rfl, rfl, h2⟩ := List.map_eq_append_iff.1 h
  obtain ⟨a, l3, rfl, rfl, rfl⟩ := List.map_eq_cons_iff.1 h2
  refine ⟨hB a (by simp), fun e he hea => ?_⟩
  rw [rtLive_adds] at he
  rw [hea] at he
  exact (List.disjoint_of_nodup_append hn) he.1 (by simp)

theorem Mesh.crossTree_eq (vol : BBox K → K) (big : K) (m : Mesh K) (B : Int → BBox K) (hB : ∀ id ∈ m.elements.ids, m.elementBox big id = some (B id)) :
    m.crossTree vol big = RtOp.history vol (m.elements.ids.map fun id => RtOp.add id (B id)) := by
  unfold Mesh.crossTree RtOp.history
  rw [List.foldlM_map]
  generalize Rtree.empty = t
  revert hB t
  induction m.elements.ids with
  | nil => intro _ t; rfl
  | cons a l ih =>
    intro hB t
    rw [List.foldlM_cons, List.foldlM_cons, hB a (by simp)]
    simp only [Option.bind_eq_bind, Option.bind_some, RtOp.run]
    congr 1
    funext t'
    exact ih (fun id h => hB id (List.mem_cons_of_mem _ h)) t'

/-- The candidates of every triangle are the triangles whose boxes meet its own. -/
theorem Mesh.candidates {sqrt : K → K} (hs : IsSqrt sqrt) {c : K} (hc : 0 ≤ c) {big : K} {m : Mesh K} (hm : m.elements.Ok)
    (hb : ∀ n p, m.nodes.get? n = some p → p.Bounded big) {T : Int → Tri K} (hT : ∀ id ∈ m.elements.ids, m.Corners id (T id)) :
    ∃ tree, m.crossTree (Rtree.sphericalVolume sqrt c) big = some tree ∧ ∀ i ∈ m.elements.ids, ∃ out, Rtree.find [] ((T i).bbox big) 0 tree = some out ∧ out.Nodup ∧
      ∀ j, j ∈ out ↔ j ∈ m.elements.ids ∧ BoxesMeet ((T i).bbox big) ((T j).bbox big) := by
  have hne : ∀ id ∈ m.elements.ids, ((T id).bbox big).NonEmpty := fun id h => Tri.bbox_nonEmpty ((hT id h).bounded hb)
  obtain ⟨tree, h1, h2⟩ := C15_find sqrt hs c hc _ (rtLegal_adds (fun id => (T id).bbox big) m.elements.ids hm.1 hne)
  refine ⟨tree, ?_, fun i hi => ?_⟩
  · rw [m.crossTree_eq _ big (fun id => (T id).bbox big) fun id h => (hT id h).box big]
    exact h1
  · obtain ⟨out, k1, k2, k3⟩ := h2 [] _ 0 (hne i hi)
    refine ⟨out, k1, k2, fun j => ?_⟩
    rw [k3]
    constructor
    · rintro ⟨box, hbx, hmeet⟩
      rw [rtLive_adds] at hbx
      exact ⟨hbx.1, by have := hbx.2; dsimp only at this; rw [← this]; exact hmeet⟩
    · rintro ⟨hj, hmeet⟩
      exact ⟨_, (rtLive_adds _ _ _).2 ⟨hj, rfl⟩, hmeet⟩

section
variable (nrm : Vec3 K → K) (eps big cos1 tol : K) (m : Mesh K) (T : Int → Tri K)

/-- After two triangles have been counted, nothing is tested any more. -/
theorem Mesh.crossLoop_done (i : Int) (t : Tri K) (l : List Int) (hl : ∀ j ∈ l, m.Corners j (T j)) :
    ∀ nt, 2 ≤ nt → m.crossLoop nrm eps big cos1 tol i (.tri t) l 0 nt = some false := by
  induction l with
  | nil => intro nt _; rfl
  | cons j l ih =>
    intro nt hnt
    have ih := ih fun j h => hl j (List.mem_cons_of_mem _ h)
    rw [Mesh.crossLoop]
    by_cases hij : i = j
    · rw [if_pos hij]; exact ih nt hnt
    · rw [if_neg hij]
      obtain ⟨e, h1, h2⟩ := (hl j (by simp)).shape
      simp only [h1, h2, Option.bind_eq_bind, Option.bind_some, Shape.nl, Shape.nt]
      rw [if_neg (by simp), if_neg (by omega)]
      exact ih _ (by omega)

/-- Only the first candidate other than the element itself is tested. -/
theorem Mesh.crossLoop_eq (i : Int) (t : Tri K) (l : List Int) (hl : ∀ j ∈ l, m.Corners j (T j)) :
    m.crossLoop nrm eps big cos1 tol i (.tri t) l 0 1 =
      some (match l.find? (fun j => decide (j ≠ i)) with | none => false | some j => triCounts (t.intersects nrm eps big cos1 (T j) tol)) := by
  induction l with
  | nil => rfl
  | cons j l ih =>
    have hl' : ∀ j ∈ l, m.Corners j (T j) := fun j h => hl j (List.mem_cons_of_mem _ h)
    rw [Mesh.crossLoop]
    by_cases hij : i = j
    · rw [if_pos hij, ih hl', List.find?_cons_of_neg (by simp [hij])]
    · rw [if_neg hij, List.find?_cons_of_pos (by simpa using fun h => hij h.symm)]
      obtain ⟨e, h1, h2⟩ := (hl j (by simp)).shape
      simp only [h1, h2, Option.bind_eq_bind, Option.bind_some, Shape.nl, Shape.nt, Shape.tri?]
      rw [if_neg (by simp), if_pos (by trivial)]
      cases hk : triCounts (t.intersects nrm eps big cos1 (T j) tol) with
      | true => rfl
      | false => exact m.crossLoop_done nrm eps big cos1 tol T i t l hl' _ le_rfl

/-- The loop over the elements, for triangles only. -/
theorem Mesh.crossElements_eq (tree : Rtree.Node K) (cand : Int → List Int) (l : List Int) (hl : ∀ i ∈ l, m.Corners i (T i))
    (hc : ∀ i ∈ l, Rtree.find [] ((T i).bbox big) 0 tree = some (cand i) ∧ ∀ j ∈ cand i, m.Corners j (T j)) :
    m.crossElements nrm eps big cos1 tol tree l = some (l.any fun i =>
      match (cand i).find? (fun j => decide (j ≠ i)) with | none => false | some j => triCounts ((T i).intersects nrm eps big cos1 (T j) tol)) := by
  induction l with
  | nil => rfl
  | cons i l ih =>
    have ih := ih (fun j h => hl j (List.mem_cons_of_mem _ h)) (fun j h => hc j (List.mem_cons_of_mem _ h))
    obtain ⟨e, h1, h2⟩ := (hl i (by simp)).shape
    obtain ⟨k1, k2⟩ := hc i (by simp)
    rw [Mesh.crossElements]
    simp only [h1, h2, Option.bind_eq_bind, Option.bind_some, (hl i (by simp)).box big, k1, Shape.nl, Shape.nt]
    rw [m.crossLoop_eq nrm eps big cos1 tol T i (T i) (cand i) k2, Option.bind_some, ih, List.any_cons]
    cases hk : (match (cand i).find? (fun j => decide (j ≠ i)) with | none => false | some j => triCounts ((T i).intersects nrm eps big cos1 (T j) tol)) <;> simp
end
end ENigMA
