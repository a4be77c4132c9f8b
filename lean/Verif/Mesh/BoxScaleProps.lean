import Verif.Mesh.NakedProps

/-!
# Bounding boxes and scaling of meshes; cases that meet the hypotheses about unpaired edges
-/

set_option linter.unusedSectionVars false
set_option autoImplicit false

namespace ENigMA
namespace Mesh
variable {K : Type} [Field K] [LinearOrder K] [IsStrictOrderedRing K]

theorem boxLoop_spec (m : Mesh K) (l : List Int) : ∀ b : BBox K, (∀ id ∈ l, ∃ p, m.nodes.get? id = some p) →
    ∃ ps : List (Vec3 K), List.Forall₂ (fun id p => m.nodes.get? id = some p) l ps ∧ boxLoop m l b = some (ps.foldl BBox.addCoordinate b) := by
  induction l with
  | nil => intro b _; exact ⟨[], List.Forall₂.nil, rfl⟩
  | cons id t ih =>
    intro b h
    obtain ⟨p, hp⟩ := h id (by simp)
    obtain ⟨ps, h1, h2⟩ := ih (b.addCoordinate p) fun i hi => h i (List.mem_cons_of_mem _ hi)
    refine ⟨p :: ps, List.Forall₂.cons hp h1, ?_⟩
    simp only [boxLoop, hp, Option.bind_eq_bind, Option.bind_some]
    exact h2

/-- A consistent container stores as many entries as it lists ids. -/
theorem entries_length {α : Type} {c : Cont α} (h : c.Ok) : c.map.entries.length = c.ids.length := by
  have hp : c.map.keys.Perm c.ids := by
    rw [List.perm_ext_iff_of_nodup c.map.keys_nodup h.1]
    intro id
    rw [SMap.mem_keys, h.2 id, Option.isSome_iff_exists]
    rfl
  have := hp.length_eq
  rw [← this]
  simp [SMap.keys]

end Mesh

open Mesh
variable {K : Type} [Field K] [LinearOrder K] [IsStrictOrderedRing K]

/-- The box is the least one with sides along the axes around the points given by `P`. -/
def LeastBox (P : Vec3 K → Prop) (b : BBox K) : Prop :=
  (∀ p, P p → b.containsPt p 0 = true) ∧ ((∃ p, P p) → ∀ lo hi, (∀ p, P p → InBox lo hi p) → ∀ q, b.containsPt q 0 = true → InBox lo hi q)

theorem mem_points {m : Mesh K} {l : List Int} {ps : List (Vec3 K)} (h : List.Forall₂ (fun id p => m.nodes.get? id = some p) l ps) (p : Vec3 K) :
    p ∈ ps ↔ ∃ n ∈ l, m.nodes.get? n = some p := by
  induction h with
  | nil => simp
  | cons h _ ih =>
    rename_i id q l' ps' _
    simp only [List.mem_cons, ih]
    constructor
    · rintro (rfl | ⟨n, hn, hp⟩)
      · exact ⟨id, Or.inl rfl, h⟩
      · exact ⟨n, Or.inr hn, hp⟩
    · rintro ⟨n, rfl | hn, hp⟩
      · left; rw [h] at hp; exact (Option.some.inj hp).symm
      · exact Or.inr ⟨n, hn, hp⟩

theorem leastBox_points (big : K) {m : Mesh K} (hb : ∀ n p, m.nodes.get? n = some p → p.Bounded big) {l : List Int} {ps : List (Vec3 K)}
    (h : List.Forall₂ (fun id p => m.nodes.get? id = some p) l ps) : LeastBox (fun p => ∃ n ∈ l, m.nodes.get? n = some p) (BBox.ofPoints big ps) := by
  have hbd : ∀ p ∈ ps, p.Bounded big := fun p hp => by
    obtain ⟨n, _, hn⟩ := (mem_points h p).1 hp
    exact hb n p hn
  constructor
  · intro p hp
    exact (C17_least_box big ps hbd).1 p ((mem_points h p).2 hp)
  · rintro ⟨p, hp⟩ lo hi hin q hq
    exact (C17_least_box big ps hbd).2 (List.ne_nil_of_mem ((mem_points h p).2 hp)) lo hi (fun r hr => hin r ((mem_points h r).1 hr)) q hq

/-- **C137 (box of a mesh).** `boundingBox()` of a consistent mesh is the least box around its nodes. -/
theorem C137_mesh_box (big : K) (m : Mesh K) (hm : m.nodes.Ok) (hb : ∀ n p, m.nodes.get? n = some p → p.Bounded big) :
    ∃ b, m.box big = some b ∧ LeastBox (fun p => ∃ n, m.nodes.get? n = some p) b := by
  obtain ⟨ps, h1, h2⟩ := boxLoop_spec m m.nodes.ids (BBox.reset big) fun id hid => (hm.2 id).1 hid
  refine ⟨BBox.ofPoints big ps, ?_, ?_⟩
  · simp only [box, entries_length hm, le_refl, if_true, List.take_length, Option.bind_eq_bind, Option.bind_some]
    exact h2
  · have : (fun p => ∃ n, m.nodes.get? n = some p) = fun p => ∃ n ∈ m.nodes.ids, m.nodes.get? n = some p := by
      funext p
      exact propext ⟨fun ⟨n, hn⟩ => ⟨n, (hm.2 n).2 ⟨p, hn⟩, hn⟩, fun ⟨n, _, hn⟩ => ⟨n, hn⟩⟩
    rw [this]
    exact leastBox_points big hb h1

/-- **C137 (box of an element).** `boundingBox(id)` is the least box around the nodes of the element. -/
theorem C137_element_box (big : K) (m : Mesh K) (hm : m.WF) (hb : ∀ n p, m.nodes.get? n = some p → p.Bounded big) (id : Int) (e : Elem)
    (he : m.elements.get? id = some e) : ∃ b, m.elementBox big id = some b ∧ LeastBox (fun p => ∃ n ∈ e.nodeIds, m.nodes.get? n = some p) b := by
  obtain ⟨ps, h1, h2⟩ := boxLoop_spec m e.nodeIds (BBox.reset big) fun n hn => (hm.nodes.2 n).1 (hm.elemNodes id e he n hn)
  refine ⟨BBox.ofPoints big ps, ?_, leastBox_points big hb h1⟩
  simp only [elementBox, he, Option.bind_eq_bind, Option.bind_some]
  exact h2

/-- **C137 (scaling).** `scale(c)` moves every node to `c` times its place and changes nothing else; scaling by `c` and then by `d` is scaling by `d * c`. -/
theorem C137_scale (m : Mesh K) (c d : K) : (m.scale c).faces = m.faces ∧ (m.scale c).elements = m.elements ∧ (m.scale c).nodes.ids = m.nodes.ids ∧
    (∀ n, (m.scale c).nodes.get? n = (m.nodes.get? n).map fun p => c • p) ∧ ∀ n, ((m.scale c).scale d).nodes.get? n = (m.scale (d * c)).nodes.get? n := by
  have h : ∀ (m : Mesh K) c n, (m.scale c).nodes.get? n = (m.nodes.get? n).map fun p => c • p := by
    intro m c n
    simp [scale, Cont.mapPayload, Cont.get?]
  refine ⟨rfl, rfl, rfl, h m c, fun n => ?_⟩
  rw [h, h, h]
  cases m.nodes.get? n with
  | none => rfl
  | some p =>
    simp only [Option.map_some, Option.some.injEq]
    ext <;> simp [mul_assoc]

/-- Two edges without partners, apart from each other: one of length 1, the other of length 3. -/
def twoEdges : Mesh ℚ where
  nodes := (((Cont.empty.add 1 ⟨0, 0, 0⟩).add 2 ⟨1, 0, 0⟩).add 5 ⟨7, 0, 0⟩).add 4 ⟨10, 0, 0⟩
  faces := (Cont.empty.add 3 (nakedFace 1 2)).add 8 (nakedFace 5 4)
  elements := Cont.empty.add 0 { elementType := .beam, nodeIds := [1, 2] }
  nbBoundary := 0

theorem twoEdges_wf : twoEdges.WF := by
  refine ⟨?_, ?_, ?_, ?_, ?_⟩
  · exact Cont.add_ok (Cont.add_ok (Cont.add_ok (Cont.add_ok Cont.empty_ok _ (by decide)) _ (by decide)) _ (by decide)) _ (by decide)
  · exact Cont.add_ok (Cont.add_ok Cont.empty_ok _ (by decide)) _ (by decide)
  · exact Cont.add_ok Cont.empty_ok _ (by decide)
  · intro id f
    simp only [twoEdges, Cont.get?_add]
    split_ifs
    · intro h; obtain rfl := Option.some.inj h; decide
    · intro h; obtain rfl := Option.some.inj h; decide
    · simp [Cont.empty, Cont.get?]
  · intro id f
    simp only [twoEdges, Cont.get?_add]
    split_ifs
    · intro h; obtain rfl := Option.some.inj h; decide
    · simp [Cont.empty, Cont.get?]

theorem twoEdges_ends : twoEdges.EdgesHaveEnds := by
  intro id f
  simp only [twoEdges, Cont.get?_add]
  split_ifs
  · intro h _; obtain rfl := Option.some.inj h; decide
  · intro h _; obtain rfl := Option.some.inj h; decide
  · simp [Cont.empty, Cont.get?]

theorem twoEdges_naked (id a b : Int) : twoEdges.NakedEdge id a b ↔ (id = 3 ∧ a = 1 ∧ b = 2) ∨ (id = 8 ∧ a = 5 ∧ b = 4) := by
  constructor
  · rintro ⟨f, hf, _, _, h0, h1⟩
    simp only [twoEdges, Cont.get?_add] at hf
    split_ifs at hf with c1 c2
    · obtain rfl := Option.some.inj hf
      simp [nakedFace] at h0 h1
      exact Or.inr ⟨c1, h0.symm, h1.symm⟩
    · obtain rfl := Option.some.inj hf
      simp [nakedFace] at h0 h1
      exact Or.inl ⟨c2, h0.symm, h1.symm⟩
    · simp [Cont.empty, Cont.get?] at hf
  · rintro (⟨rfl, rfl, rfl⟩ | ⟨rfl, rfl, rfl⟩)
    · exact ⟨_, rfl, rfl, rfl, rfl, rfl⟩
    · exact ⟨_, rfl, rfl, rfl, rfl, rfl⟩

/-- The hypotheses of the theorems about closed edges are met by `twoEdges`, with the length taken along the first axis: the shortest length is 1, the edges are
apart, and with the tolerance 1 the short edge is closed and the long one stays. -/
example : IsLeast (nakedLengths (fun v : Vec3 ℚ => |v.x|) twoEdges) 1 ∧
    (∀ id a b id' a' b', twoEdges.NakedEdge id a b → twoEdges.NakedEdge id' a' b' → id ≠ id' → a ≠ a' ∧ a ≠ b' ∧ b ≠ a' ∧ b ≠ b') ∧
    (∀ id a b, twoEdges.NakedEdge id a b → a ≠ b) ∧
    (collapseNakedEdges (fun v : Vec3 ℚ => |v.x|) 100 twoEdges 1).map (fun m => (m.nodes.get? 1, m.nodes.get? 2, m.nodes.get? 5, m.nodes.get? 4)) =
      some (some ⟨1, 0, 0⟩, some ⟨1, 0, 0⟩, some ⟨7, 0, 0⟩, some ⟨10, 0, 0⟩) := by
  refine ⟨⟨?_, ?_⟩, ?_, ?_, by decide +kernel⟩
  · exact ⟨3, 1, 2, ⟨0, 0, 0⟩, ⟨1, 0, 0⟩, (twoEdges_naked 3 1 2).2 (Or.inl ⟨rfl, rfl, rfl⟩), rfl, rfl, by decide +kernel⟩
  · rintro x ⟨id, a, b, p, q, hab, hp, hq, rfl⟩
    rcases (twoEdges_naked id a b).1 hab with ⟨rfl, rfl, rfl⟩ | ⟨rfl, rfl, rfl⟩
    · have e1 : twoEdges.nodes.get? 1 = some ⟨0, 0, 0⟩ := rfl
      have e2 : twoEdges.nodes.get? 2 = some ⟨1, 0, 0⟩ := rfl
      rw [e1] at hp; rw [e2] at hq
      obtain rfl := Option.some.inj hp
      obtain rfl := Option.some.inj hq
      decide +kernel
    · have e1 : twoEdges.nodes.get? 5 = some ⟨7, 0, 0⟩ := rfl
      have e2 : twoEdges.nodes.get? 4 = some ⟨10, 0, 0⟩ := rfl
      rw [e1] at hp; rw [e2] at hq
      obtain rfl := Option.some.inj hp
      obtain rfl := Option.some.inj hq
      decide +kernel
  · intro id a b id' a' b' h h' hne
    rw [twoEdges_naked] at h h'
    omega
  · intro id a b h
    rw [twoEdges_naked] at h
    omega

/-- The hypotheses of the theorem about edges that follow each other are met over the reals. -/
example : realNorm ((⟨1, 0, 0⟩ : Vec3 ℝ) - ⟨0, 0, 0⟩) < min (min (min 100 (realNorm ((⟨1, 0, 0⟩ : Vec3 ℝ) - ⟨0, 0, 0⟩)))
      (realNorm ((⟨2, 0, 0⟩ : Vec3 ℝ) - ⟨1, 0, 0⟩))) (realNorm ((⟨0, 0, 0⟩ : Vec3 ℝ) - ⟨2, 0, 0⟩)) + 1 := by
  have h1 : realNorm ((⟨1, 0, 0⟩ : Vec3 ℝ) - ⟨0, 0, 0⟩) = 1 := isNorm_real.eq_of_sq (by norm_num) (by simp [Vec3.normSq, Vec3.dot])
  have h2 : realNorm ((⟨2, 0, 0⟩ : Vec3 ℝ) - ⟨1, 0, 0⟩) = 1 := isNorm_real.eq_of_sq (by norm_num) (by norm_num [Vec3.normSq, Vec3.dot])
  have h3 : realNorm ((⟨0, 0, 0⟩ : Vec3 ℝ) - ⟨2, 0, 0⟩) = 2 := isNorm_real.eq_of_sq (by norm_num) (by norm_num [Vec3.normSq, Vec3.dot])
  rw [h1, h2, h3]
  norm_num

/-- The boxes of `twoEdges`. -/
example : twoEdges.box 100 = some ⟨⟨0, 0, 0⟩, ⟨10, 0, 0⟩⟩ ∧ twoEdges.elementBox 100 0 = some ⟨⟨0, 0, 0⟩, ⟨1, 0, 0⟩⟩ ∧
    (twoEdges.scale 3).box 100 = some ⟨⟨0, 0, 0⟩, ⟨30, 0, 0⟩⟩ := by decide +kernel

end ENigMA
