import Verif.Solvers.PisoProps
import Verif.Fvm.FvmMeshProps

/-!
# C73: `generateFaces` and `CFvmMesh::set` establish what the theorems about the PISO solver ask of the mesh
-/

set_option linter.unusedSectionVars false
set_option autoImplicit false

namespace ENigMA
open Piso Mesh FvmMesh
variable {K : Type} [Field K] [LinearOrder K] [IsStrictOrderedRing K]

namespace Piso

theorem build_ids (l : List (Int × List (Vec3 K))) : (Polyhedron.build l).ids = l.map Prod.fst := by
  have key : ∀ (l : List (Int × Polygon K)) (p : Polyhedron K), (p.addPolygons l).ids = p.ids ++ l.map Prod.fst := by
    intro l
    induction l with
    | nil => intro p; simp [Polyhedron.addPolygons]
    | cons a t ih =>
      intro p
      have : p.addPolygons (a :: t) = (p.addPolygon a.1 a.2).addPolygons t := rfl
      rw [this, ih]
      simp [Polyhedron.addPolygon]
  unfold Polyhedron.build
  rw [key]
  simp [Polyhedron.empty, Function.comp_def]

theorem build_polygon (l : List (Int × List (Vec3 K))) (k : Int) (vs : List (Vec3 K)) (h : (k, vs) ∈ l) (hu : ∀ ws, (k, ws) ∈ l → ws = vs) :
    (Polyhedron.build l).polygon k = Polygon.ofPolyline vs := by
  have key : ∀ (l : List (Int × Polygon K)) (p : Polyhedron K) (q : Polygon K), (∀ w, (k, w) ∈ l → w = q) →
      ((k, q) ∈ l ∨ p.polygons.find? k = some q) → (p.addPolygons l).polygons.find? k = some q := by
    intro l
    induction l with
    | nil => intro p q _ h; simpa [Polyhedron.addPolygons] using h
    | cons a t ih =>
      intro p q hu h
      have : p.addPolygons (a :: t) = (p.addPolygon a.1 a.2).addPolygons t := rfl
      rw [this]
      refine ih _ _ (fun w hw => hu w (by simp [hw])) ?_
      by_cases ha : a.1 = k
      · right
        have : a.2 = q := hu a.2 (by rw [← ha]; simp)
        rw [← this, ← ha]
        simp [Polyhedron.addPolygon, SMap.find?_insert]
      · rcases h with h | h
        · rcases List.mem_cons.1 h with h | h
          · exact absurd (congrArg Prod.fst h).symm ha
          · exact Or.inl h
        · right
          simp [Polyhedron.addPolygon, SMap.find?_insert, ha, h, Ne.symm ha]
  unfold Polyhedron.polygon Polyhedron.build
  rw [key _ _ (Polygon.ofPolyline vs) ?_ (Or.inl (List.mem_map.2 ⟨_, h, rfl⟩))]
  · rfl
  · intro w hw
    obtain ⟨⟨a, b⟩, h1, h2⟩ := List.mem_map.1 hw
    simp only [Prod.mk.injEq] at h2
    obtain ⟨rfl, rfl⟩ := h2
    rw [hu b h1]

/-- The faces of the mesh are listed element after element, and each element lists exactly the faces it owns, once. -/
structure Listed (m : Mesh K) : Prop where
  owned : ∀ id e, m.elements.get? id = some e → ∀ fid : Int, fid ∈ e.faceIds ↔ ∃ f, m.faces.get? fid = some f ∧ f.elementId = id
  once : ∀ id e, m.elements.get? id = some e → e.faceIds.Nodup
  owner : ∀ i f, m.faces.get? i = some f → f.elementId ∈ m.elements.ids
  order : ∀ i j f g, [i, j].Sublist m.faces.ids → m.faces.get? i = some f → m.faces.get? j = some g → f.elementId ≠ g.elementId →
    [f.elementId, g.elementId].Sublist m.elements.ids
  apart : ∀ i p f g, m.partner i = some p → m.faces.get? i = some f → m.faces.get? p = some g → f.elementId ≠ g.elementId

theorem linked_of_set (nrm : Vec3 K → K) {m : Mesh K} (hm : m.WF) (hs : m.SymmetricPairs) (hf : m.FaceIdsOk) (hl : Listed m) :
    ∃ r, FvmMesh.set nrm m = some r ∧ Linked r ∧
      (∀ id c, r.cvs.get? id = some c → ∀ k ∈ c.poly.ids, ∀ F, r.faces.get? k = some F → c.poly.polygon k = Polygon.ofPolyline (seenFrom id F)) ∧
      (∀ k F, r.faces.get? k = some F → ∃ i f vs, m.faces.get? i = some f ∧ m.coords f.nodeIds = vs.map some ∧ F.vs = Polyline.close nrm 0 vs) ∧
      (∀ id c, r.cvs.get? id = some c → c.poly = Polyhedron.build (c.poly.ids.map fun k => (k, seenFrom id ((r.faces.get? k).getD {})))) ∧
      (∀ k F, r.faces.get? k = some F → F.cvId ∈ r.cvs.ids ∧ k ∈ cellFaces r F.cvId) ∧ r.faces.Ok ∧ r.cvs.Ok := by
  obtain ⟨r, ν, γ, h1, h2, h3, h4, h5, h6, h7, h8, -, h10, h11⟩ := C24_set nrm m hm hs hf
  have hids : ∀ id c, r.cvs.get? id = some c → ∃ e, m.elements.get? id = some e := by
    intro id c hc
    have := (h4.2 id).2 ⟨c, hc⟩
    rw [h10] at this
    exact (hm.elements.2 id).1 this
  refine ⟨r, h1, ?_, ?_, ?_, ?_, ?_, h2, h4⟩
  rotate_left
  · intro id c hc k hk F hF
    obtain ⟨e, he⟩ := hids id c hc
    rw [h11 id e he] at hc
    cases hc
    rw [build_ids] at hk
    simp only [List.map_map, Function.comp_def, List.mem_map] at hk
    obtain ⟨j, hj, rfl⟩ := hk
    have hF' : ∀ j' ∈ e.faceIds, ν j' = ν j → γ j' = F := by
      intro j' hj' h'
      have := (h6 j' (hf id e he j' hj')).1
      rw [h', hF] at this
      exact (Option.some.inj this).symm
    exact build_polygon _ _ _ (List.mem_map.2 ⟨j, hj, by rw [hF' j hj rfl]⟩) (by
      intro w hw
      obtain ⟨j', hj', h'⟩ := List.mem_map.1 hw
      simp only [Prod.mk.injEq] at h'
      rw [← h'.2, hF' j' hj' h'.1])
  · intro k F hk
    obtain ⟨i, hi, rfl⟩ := h8 k ((h2.2 k).2 ⟨F, hk⟩)
    obtain ⟨g1, g2⟩ := h6 i hi
    rw [hk] at g1
    cases g1
    rcases g2 with ⟨⟨x, q1, -, -, ⟨vs, q4, q4'⟩, -⟩, -⟩ | ⟨p, -, ⟨x, q1, -, -, ⟨vs, q4, q4'⟩, -⟩, -⟩
    · exact ⟨i, x, vs, q1, q4, q4'⟩
    · exact ⟨p, x, vs, q1, q4, q4'⟩
  · intro id c hc
    obtain ⟨e, he⟩ := hids id c hc
    rw [h11 id e he] at hc
    cases hc
    rw [build_ids]
    simp only [List.map_map, Function.comp_def]
    congr 1
    apply List.map_congr_left
    intro j hj
    rw [(h6 j (hf id e he j hj)).1, Option.getD_some]
  · intro k F hk
    obtain ⟨i, hi, rfl⟩ := h8 k ((h2.2 k).2 ⟨F, hk⟩)
    obtain ⟨g1, g2⟩ := h6 i hi
    rw [hk] at g1
    cases g1
    have key : ∀ j x, m.faces.get? j = some x → ν j = ν i → (γ i).cvId = x.elementId → (γ i).cvId ∈ r.cvs.ids ∧ ν i ∈ cellFaces r (γ i).cvId := by
      intro j x hj hν hx
      have hmemx := hl.owner j x hj
      obtain ⟨e, he⟩ := (hm.elements.2 _).1 hmemx
      rw [hx]
      refine ⟨by rw [h10]; exact hmemx, ?_⟩
      simp only [cellFaces, h11 _ e he, build_ids, Option.map_some, Option.getD_some, List.map_map, Function.comp_def]
      rw [← hν]
      exact List.mem_map.2 ⟨j, (hl.owned _ e he j).2 ⟨x, hj, rfl⟩, rfl⟩
    rcases g2 with ⟨⟨x, q1, -, q3, -⟩, -⟩ | ⟨p, hp, ⟨x, q1, -, q3, -⟩, -⟩
    · exact key i x q1 rfl q3
    · exact key p x q1 ((h7 i hi p ((hm.faces.2 p).2 ⟨x, q1⟩)).2 (Or.inr hp)).symm q3
  have hcf : ∀ id e, m.elements.get? id = some e → cellFaces r id = e.faceIds.map ν := by
    intro id e he
    simp [cellFaces, h11 id e he, build_ids, Function.comp_def]
  have hmem : ∀ i f, m.faces.get? i = some f → i ∈ m.faces.ids := fun i f h => (hm.faces.2 i).2 ⟨f, h⟩
  -- the FVM face of a mesh face, its owner and its neighbour
  have hface : ∀ i f, m.faces.get? i = some f → (γ i).cvId = f.elementId ∨ (γ i).hasPair = true ∧ (γ i).nbId = f.elementId := by
    intro i f hi
    rcases (h6 i (hmem i f hi)).2 with ⟨⟨x, q1, q2, q3, -⟩, -⟩ | ⟨p, hp, ⟨x, q1, q2, q3, -, q5, -⟩, -⟩
    · rw [hi] at q1; cases q1; exact Or.inl q3
    · right
      have hp' := (partner_symm hs hp).1
      have hxp : x.hasPair = true ∧ x.pairFaceId = i := by
        unfold partner at hp'
        rw [q1] at hp'
        simp only [Option.bind_some] at hp'
        split_ifs at hp' with h'
        exact ⟨h', Option.some.inj hp'⟩
      obtain ⟨y, q6, q7⟩ := q5 hxp.1
      rw [hxp.2, hi] at q6
      cases q6
      exact ⟨by rw [q2]; exact hxp.1, q7⟩
  refine ⟨by rw [h10]; exact hm.elements.1, ?_, ?_, ?_⟩
  · intro id hid
    rw [h10] at hid
    obtain ⟨e, he⟩ := (hm.elements.2 id).1 hid
    refine ⟨_, h11 id e he, ?_⟩
    rw [build_ids]
    simp only [List.map_map, Function.comp_def]
    refine List.Nodup.map_on ?_ (hl.once id e he)
    intro a ha b hb hab
    obtain ⟨fa, ha1, ha2⟩ := (hl.owned id e he a).1 ha
    obtain ⟨fb, hb1, hb2⟩ := (hl.owned id e he b).1 hb
    rcases (h7 a (hmem a fa ha1) b (hmem b fb hb1)).1 hab with h | h
    · exact h
    · exact absurd (ha2.trans hb2.symm) (hl.apart a b fa fb h ha1 hb1)
  · intro id hid fid hfid
    rw [h10] at hid
    obtain ⟨e, he⟩ := (hm.elements.2 id).1 hid
    rw [hcf id e he] at hfid
    obtain ⟨i, hi, rfl⟩ := List.mem_map.1 hfid
    obtain ⟨f, hf1, rfl⟩ := (hl.owned id e he i).1 hi
    exact ⟨γ i, (h6 i (hmem i f hf1)).1, hface i f hf1⟩
  · intro k F hk hp
    obtain ⟨i, hi, rfl⟩ := h8 k ((h2.2 k).2 ⟨F, hk⟩)
    obtain ⟨g1, g2⟩ := h6 i hi
    rw [hk] at g1
    cases g1
    -- the first of the two mesh faces
    have key : ∀ j p, m.partner j = some p → ν j = ν i → MadeFrom nrm m j (γ i) → [j, p].Sublist m.faces.ids →
        (γ i).cvId ≠ (γ i).nbId ∧ ν i ∈ cellFaces r (γ i).cvId ∧ ν i ∈ cellFaces r (γ i).nbId ∧
          [(γ i).cvId, (γ i).nbId].Sublist r.cvs.ids := by
      rintro j p hjp hν ⟨x, q1, q2, q3, -, q5, -⟩ hsub
      have hxp : x.hasPair = true ∧ x.pairFaceId = p := by
        have h' := hjp
        unfold partner at h'
        rw [q1] at h'
        simp only [Option.bind_some] at h'
        split_ifs at h' with h''
        exact ⟨h'', Option.some.inj h'⟩
      obtain ⟨y, q6, q7⟩ := q5 hxp.1
      rw [hxp.2] at q6
      have hne := hl.apart j p x y hjp q1 q6
      have hin : ∀ a z, m.faces.get? a = some z → ν a = ν i → ν i ∈ cellFaces r z.elementId := by
        intro a z ha hνa
        obtain ⟨e, he⟩ := (hm.elements.2 _).1 (hl.owner a z ha)
        rw [hcf _ e he, ← hνa]
        exact List.mem_map_of_mem ((hl.owned _ e he a).2 ⟨z, ha, rfl⟩)
      have hνp : ν p = ν i := by
        rw [← hν]
        exact ((h7 j (hmem j x q1) p (hmem p y q6)).2 (Or.inr hjp)).symm
      rw [q3, q7, h10]
      exact ⟨hne, hin j x q1 hν, hin p y q6 hνp, hl.order j p x y hsub q1 q6 hne⟩
    rcases g2 with ⟨hmade, hfirst⟩ | ⟨p, hp', hmade, hsub⟩
    · have hmade1 := hmade
      obtain ⟨x, q1, q2, -⟩ := hmade1
      have hx : m.partner i = some x.pairFaceId := by
        unfold partner
        rw [q1]
        simp [← q2, hp]
      exact key i _ hx rfl hmade (hfirst _ hx)
    · have hpm : p ∈ m.faces.ids := by obtain ⟨x, q1, -⟩ := hmade; exact hmem p x q1
      exact key p i (partner_symm hs hp').1 (((h7 i hi p hpm).2 (Or.inr hp')).symm) hmade hsub

/-- If two members of a concatenation come from different parts, the parts come in the same order. -/
theorem sublist_flatMap {α : Type} (own : α → Int) (F : Int → List α) (ids : List Int) (hF : ∀ id ∈ ids, ∀ f ∈ F id, own f = id) {i j : Nat} (hij : i < j)
    {f g : α} (hi : (ids.flatMap F)[i]? = some f) (hj : (ids.flatMap F)[j]? = some g) (hne : own f ≠ own g) :
    [own f, own g].Sublist ids := by
  induction ids generalizing i j with
  | nil => simp at hi
  | cons a t ih =>
    rw [List.flatMap_cons] at hi hj
    have hgt : ∀ {n : Nat} {x : α}, (t.flatMap F)[n]? = some x → own x ∈ t := by
      intro n x hx
      obtain ⟨id, h1, h2⟩ := List.mem_flatMap.1 (List.mem_of_getElem? hx)
      rw [hF id (by simp [h1]) x h2]; exact h1
    by_cases hi' : i < (F a).length
    · rw [List.getElem?_append_left hi'] at hi
      have hfa := hF a (by simp) f (List.mem_of_getElem? hi)
      by_cases hj' : j < (F a).length
      · rw [List.getElem?_append_left hj'] at hj
        exact absurd (hfa.trans (hF a (by simp) g (List.mem_of_getElem? hj)).symm) hne
      · rw [List.getElem?_append_right (by omega)] at hj
        rw [hfa]
        exact List.Sublist.cons_cons a (List.singleton_sublist.2 (hgt hj))
    · rw [List.getElem?_append_right (by omega)] at hi
      rw [List.getElem?_append_right (by omega)] at hj
      exact (ih (fun id h => hF id (by simp [h])) (by omega) hi hj).cons a

/-- A triangle, or a planar convex quadrilateral whose halves are longer than `eps`. -/
inductive Flat (nrm : Vec3 K → K) (eps : K) : List (Vec3 K) → Prop
  | triangle (a b c : Vec3 K) : Flat nrm eps [a, b, c]
  | quadrilateral (a b c d : Vec3 K) (t : K) (ht : 0 < t) (h : Vec3.cross (c - a) (d - a) = t • Vec3.cross (b - a) (c - a))
      (hb : eps < nrm (Vec3.cross (b - a) (c - a))) (hd : eps < nrm (Vec3.cross (c - a) (d - a))) (hda : 0 < nrm (d - a)) : Flat nrm eps [a, b, c, d]

theorem Flat.length (nrm : Vec3 K → K) {eps : K} {vs : List (Vec3 K)} (h : Flat nrm eps vs) : 3 ≤ (Polyline.close nrm 0 vs).length := by
  cases h with
  | triangle a b c => simp only [Polyline.close, List.head?_cons, List.getLast?_cons_cons, List.getLast?_singleton]; split_ifs <;> simp
  | quadrilateral a b c d => simp only [Polyline.close, List.head?_cons, List.getLast?_cons_cons, List.getLast?_singleton]; split_ifs <;> simp

theorem Flat.reverse {nrm : Vec3 K → K} (hN : ∀ (c : K) (v : Vec3 K), nrm (c • v) = |c| * nrm v) {eps : K} (heps : 0 ≤ eps) {vs : List (Vec3 K)}
    (h : Flat nrm eps vs) :
    Polygon.normal nrm eps (Polyline.close nrm 0 vs).reverse = -Polygon.normal nrm eps (Polyline.close nrm 0 vs) := by
  have hneg : ∀ v : Vec3 K, nrm (-v) = nrm v := by
    intro v
    have := hN (-1) v
    rw [show (-1 : K) • v = -v by ext <;> simp] at this
    rw [this]; simp
  cases h with
  | triangle a b c =>
    simp only [Polyline.close, List.head?_cons, List.getLast?_cons_cons, List.getLast?_singleton]
    have e1 : Vec3.cross (c - a) (b - a) = -Vec3.cross (b - a) (c - a) := by ext <;> simp [Vec3.cross] <;> ring
    have e2 : Vec3.cross (c - b) (a - b) = Vec3.cross (b - a) (c - a) := by ext <;> simp [Vec3.cross] <;> ring
    have e3 : Vec3.cross (b - c) (a - c) = -Vec3.cross (b - a) (c - a) := by ext <;> simp [Vec3.cross] <;> ring
    split_ifs with h
    · simp only [List.cons_append, List.nil_append, List.reverse_cons, List.reverse_nil, Polygon.normal, Polygon.normalLoop, e1, e2, e3, hneg]
      split_ifs <;> ext <;> simp
    · simp only [List.cons_append, List.nil_append, List.reverse_cons, List.reverse_nil, Polygon.normal, Polygon.normalLoop, e3, hneg]
      split_ifs <;> ext <;> simp
  | quadrilateral a b c d t ht hcross hb hd hda =>
    simp only [Polyline.close, List.head?_cons, List.getLast?_cons_cons, List.getLast?_singleton]
    rw [if_pos ⟨by simp, hda⟩]
    have e1 : Vec3.cross (d - a) (c - a) = -Vec3.cross (c - a) (d - a) := by ext <;> simp [Vec3.cross] <;> ring
    simp only [List.cons_append, List.nil_append, List.reverse_cons, List.reverse_nil, Polygon.normal, Polygon.normalLoop, e1, hneg, hb, hd, if_true]
    have hpos : nrm (Vec3.cross (b - a) (c - a)) ≠ 0 := by linarith
    rw [hcross, hN, abs_of_pos ht]
    ext <;> simp <;> field_simp

theorem listed_of_generateFaces [FloorRing K] (mc : HashGrid.Machine K) (m : Mesh K) (hm : m.WF) (hf : m.FullElements) (hg : GoodFaces mc m)
    (tol : K) (htol : 0 ≤ tol) (m' : Mesh K) (hgen : generateFaces mc m tol = some m')
    (hd : ∀ i j f g, i ≠ j → m'.faces.get? i = some f → m'.faces.get? j = some g → Coincide f g → f.elementId ≠ g.elementId) : Listed m' := by
  obtain ⟨m1, a1, a2, a3, a4, a5, a6, a7, a8, a9⟩ := C07_generateFaces_faces mc m hm hf hg tol htol
  obtain ⟨m2, b1, b2, b3, -⟩ := C07_generateFaces_pairs mc m hm hf hg tol htol
  obtain ⟨m3, c0, c1, -, -, -, -, -, -, -, c9, c10⟩ := generateFaces_spec mc m hm hf hg tol htol
  rw [hgen] at a1 b1 c1
  cases a1; cases b1; cases c1
  have hown : ∀ f ∈ m.expectedFaces, f.elementId ∈ m.elements.ids := by
    intro f hf'
    rw [expectedFaces_eq hm.elements hf] at hf'
    obtain ⟨id, hid, hf'⟩ := List.mem_flatMap.1 hf'
    obtain ⟨e, he⟩ := (hm.elements.2 id).1 hid
    simp only [he, Option.map_some, Option.getD_some, facesWithOwner, List.mem_map] at hf'
    obtain ⟨g, -, rfl⟩ := hf'
    exact hid
  have hget : ∀ i f, m'.faces.get? i = some f → ∃ k : Nat, i = k ∧ ∃ f0, m.expectedFaces[k]? = some f0 ∧ f0.elementId = f.elementId := by
    intro i f hi
    have him := (a5.faces.2 i).2 ⟨f, hi⟩
    rw [a3] at him
    obtain ⟨k, -, rfl⟩ := List.mem_map.1 him
    refine ⟨k, rfl, ?_⟩
    have := a4 k
    rw [show Int.ofNat k = (k : Int) from rfl] at hi
    rw [hi] at this
    obtain ⟨f0, h0, h0'⟩ := Option.map_eq_some_iff.1 this.symm
    simp only [Prod.mk.injEq] at h0'
    exact ⟨f0, h0, h0'.2.2⟩
  refine ⟨a9, ?_, ?_, ?_, ?_⟩
  · intro id e' he'
    have hid : id ∈ m.elements.ids := by rw [← a8]; exact (a5.elements.2 id).2 ⟨e', he'⟩
    obtain ⟨a, b, hab⟩ := List.append_of_mem hid
    obtain ⟨e, he⟩ := (hm.elements.2 id).1 hid
    rw [c10 a b id hab e he] at he'
    cases he'
    exact List.Nodup.map (fun _ _ h => Int.ofNat.inj h) List.nodup_range'
  · intro i f hi
    obtain ⟨k, -, f0, h1, h2⟩ := hget i f hi
    rw [a8, ← h2]
    exact hown f0 (List.mem_of_getElem? h1)
  · intro i j f g hsub hi hj hne
    obtain ⟨k, rfl, f0, h1, h2⟩ := hget i f hi
    obtain ⟨l, rfl, g0, h3, h4⟩ := hget j g hj
    have hlt : k < l := by
      rw [a3] at hsub
      have hp : ((List.range m.expectedFaces.length).map Int.ofNat).Pairwise (· < ·) := by
        rw [List.pairwise_map]
        exact List.Pairwise.imp (fun h => Int.ofNat_lt.2 h) List.pairwise_lt_range
      have := hp.sublist hsub
      simpa using this
    rw [expectedFaces_eq hm.elements hf] at h1 h3
    rw [a8, ← h2, ← h4]
    refine sublist_flatMap Face.elementId _ _ ?_ hlt h1 h3 (by rw [h2, h4]; exact hne)
    intro id hid f hf'
    obtain ⟨e, he⟩ := (hm.elements.2 id).1 hid
    simp only [he, Option.map_some, Option.getD_some, facesWithOwner, List.mem_map] at hf'
    obtain ⟨g, -, rfl⟩ := hf'
    rfl
  · intro i p f g hp hi hg'
    unfold partner at hp
    rw [hi] at hp
    simp only [Option.bind_some] at hp
    split_ifs at hp with h'
    cases hp
    obtain ⟨q1, g', q2, q3⟩ := b3 i f hi h'
    rw [hg'] at q2
    cases q2
    exact hd i _ f g (Ne.symm q1) hi hg' q3

end Piso

/-- **C73.** `generateFaces` followed by `CFvmMesh::set` establishes `Linked`, for every mesh in which at most two element faces coincide and
they belong to different elements. If moreover the faces are triangles or planar convex quadrilaterals, the two cells of a face see it with
opposite normals. -/
theorem C73_reachable [FloorRing K] (nrm : Vec3 K → K) (mc : HashGrid.Machine K) (m : Mesh K) (hm : m.WF) (hf : m.FullElements) (hg : GoodFaces mc m)
    (tol : K) (htol : 0 ≤ tol) (m' : Mesh K) (hgen : generateFaces mc m tol = some m')
    (h2 : ∀ i j k f g h, m'.faces.get? i = some f → m'.faces.get? j = some g → m'.faces.get? k = some h →
          Coincide f g → Coincide f h → i ≠ j → i ≠ k → j = k)
    (hd : ∀ i j f g, i ≠ j → m'.faces.get? i = some f → m'.faces.get? j = some g → Coincide f g → f.elementId ≠ g.elementId) :
    ∃ r, FvmMesh.set nrm m' = some r ∧ Linked r ∧
      ∀ eps dist, 0 ≤ eps → (∀ (c : K) (v : Vec3 K), nrm (c • v) = |c| * nrm v) →
        (∀ i f vs, m'.faces.get? i = some f → m'.coords f.nodeIds = vs.map some → Flat nrm eps vs) → Opposite r (Geom.ofMesh nrm eps dist r) := by
  obtain ⟨a1, a2, a3, -⟩ := C24_after_generateFaces mc m hm hf hg tol htol m' hgen h2
  obtain ⟨r, b1, b2, b3, b4, -⟩ := linked_of_set nrm a1 a2 a3 (listed_of_generateFaces mc m hm hf hg tol htol m' hgen hd)
  refine ⟨r, b1, b2, fun eps dist heps hN hflat k F hk hp => ?_⟩
  obtain ⟨hne, hc1, hc2, -⟩ := b2.pair k F hk hp
  obtain ⟨i, f, vs, e1, e2, e3⟩ := b4 k F hk
  have hcell : ∀ cv, k ∈ cellFaces r cv → (Geom.ofMesh nrm eps dist r).normal cv k = Polygon.normal nrm eps (seenFrom cv F) := by
    intro cv hcv
    cases hc : r.cvs.get? cv with
    | none => simp [cellFaces, hc] at hcv
    | some c =>
      simp only [cellFaces, hc, Option.map_some, Option.getD_some] at hcv
      simp only [Geom.ofMesh, hc, Option.map_some, Option.getD_some, b3 cv c hc k hcv F hk]
      have hlen : 1 < (seenFrom cv F).length := by
        have : 3 ≤ (Polyline.close nrm 0 vs).length := (hflat i f vs e1 e2).length nrm
        unfold seenFrom
        split_ifs
        · rw [e3]; omega
        · rw [List.length_reverse, e3]; omega
      simp [Polygon.calculateArea, Polygon.calculateNormal, Polygon.ofPolyline, hlen]
  rw [hcell _ hc1, hcell _ hc2]
  simp only [seenFrom, if_true, if_neg hne]
  rw [e3]
  exact (hflat i f vs e1 e2).reverse hN heps

end ENigMA
