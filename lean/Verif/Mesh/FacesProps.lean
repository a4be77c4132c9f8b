import Verif.Mesh.FacesLemmas

/-! # C07: `generateFaces`; C35: `checkOpen`; C53: `extractBoundary` -/

set_option linter.unusedSectionVars false

namespace ENigMA

/-- `CMshCheckMesh::checkOpen`, inner loop: MshCheckMesh_Imp.hpp:34-42. -/
def checkFaces (faces : Cont Face) : List Int → Option Bool
  | [] => some false
  | fid :: t => do
    let f ← faces.get? fid
    if !f.hasPair then return true
    checkFaces faces t

namespace Mesh
open Cont
variable {K : Type}

/-- `CMshCheckMesh::checkOpen`, outer loop: MshCheckMesh_Imp.hpp:28-43. -/
def checkOpenLoop (m : Mesh K) : List Int → Option Bool
  | [] => some false
  | eid :: t => do
    let e ← m.elements.get? eid
    let b ← checkFaces m.faces e.faceIds
    if b then return true
    checkOpenLoop m t

/-- `CMshCheckMesh::checkOpen`: MshCheckMesh_Imp.hpp:26-46. -/
def checkOpen (m : Mesh K) : Option Bool := checkOpenLoop m m.elements.ids

/-! ### Specification -/

/-- The faces all elements generate on their own (C05), element after element, each marked with its element. -/
def expectedFaces (m : Mesh K) : List Face :=
  m.elements.ids.flatMap fun id =>
    match (m.elements.get? id).bind Elem.generateFaces with
    | some (fs, _) => fs.map fun f => { f with elementId := id }
    | none => []

/-- Two faces coincide: same type, same nodes up to order. -/
def Coincide (f g : Face) : Prop := f.faceType = g.faceType ∧ f.nodeIds.Perm g.nodeIds

/-- Every element has at least the nodes its type needs. -/
def FullElements (m : Mesh K) : Prop :=
  ∀ id e, m.elements.get? id = some e → e.elementType.nbNodes ≤ e.nodeIds.length

theorem expectedFaces_eq {m : Mesh K} (hm : m.elements.Ok) (hf : m.FullElements) :
    m.expectedFaces = m.elements.ids.flatMap fun id => ((m.elements.get? id).map (facesWithOwner id)).getD [] := by
  unfold expectedFaces
  apply List.flatMap_congr
  intro id hid
  obtain ⟨e, he⟩ := (hm.2 id).1 hid
  simp [he, Elem.generateFaces_eq' e (hf id e he), facesWithOwner]

variable [Field K] [LinearOrder K] [IsStrictOrderedRing K] [FloorRing K]

theorem perm_meanOf (m : Mesh K) {l l' : List Int} (h : l.Perm l') : m.meanOf l = m.meanOf l' := by
  unfold meanOf
  rw [h.length_eq, (h.map m.posOf).sum_eq]

/-- The hash grid of the face centres can be built (C13): machine constants positive, coordinates finite, and not all
face centres equal unless the machine defines the cast of NaN. -/
structure GoodFaces (mc : HashGrid.Machine K) (m : Mesh K) : Prop where
  eps : 0 < mc.eps
  big : 0 < mc.big
  bounded : ∀ n v, m.nodes.get? n = some v → v.Bounded mc.big
  spread : mc.bad ≠ none ∨ m.expectedFaces = [] ∨
    ∃ f ∈ m.expectedFaces, ∃ g ∈ m.expectedFaces, m.meanOf f.nodeIds ≠ m.meanOf g.nodeIds

theorem expectedFaces_nodes {m : Mesh K} (hm : m.WF) (hf : m.FullElements) :
    ∀ f ∈ m.expectedFaces, ∀ n ∈ f.nodeIds, n ∈ m.nodes.ids := by
  rw [expectedFaces_eq hm.elements hf]
  intro f hf' n hn
  obtain ⟨id, hid, hf'⟩ := List.mem_flatMap.1 hf'
  obtain ⟨e, he⟩ := (hm.elements.2 id).1 hid
  simp only [he, Option.map_some, Option.getD_some, facesWithOwner, List.mem_map] at hf'
  obtain ⟨g, hg, rfl⟩ := hf'
  simp only at hn
  unfold Elem.facesOf at hg
  obtain ⟨t, ht, rfl⟩ := List.mem_map.1 hg
  simp only [List.mem_map] at hn
  obtain ⟨k, hk, rfl⟩ := hn
  have hlt := lt_of_lt_of_le (Elem.template_lt _ t ht k hk) (hf id e he)
  apply hm.elemNodes id e he
  simp [Elem.idAt, List.getElem?_eq_getElem hlt]

theorem expectedFaces_unpaired {m : Mesh K} (hm : m.elements.Ok) (hf : m.FullElements) :
    ∀ f ∈ m.expectedFaces, f.hasPair = false := by
  rw [expectedFaces_eq hm hf]
  intro f hf'
  obtain ⟨id, hid, hf'⟩ := List.mem_flatMap.1 hf'
  obtain ⟨e, he⟩ := (hm.2 id).1 hid
  simp only [he, Option.map_some, Option.getD_some, facesWithOwner, List.mem_map] at hf'
  obtain ⟨g, hg, rfl⟩ := hf'
  unfold Elem.facesOf at hg
  obtain ⟨t, ht, rfl⟩ := List.mem_map.1 hg
  rfl

/-- What `generateFaces` computes. -/
theorem generateFaces_spec (mc : HashGrid.Machine K) (m : Mesh K) (hm : m.WF) (hf : m.FullElements) (hg : GoodFaces mc m)
    (tol : K) (htol : 0 ≤ tol) :
    ∃ m' c0, generateFaces mc m tol = some m' ∧ m'.nodes = m.nodes ∧ Filled c0 m.expectedFaces ∧
      PairInv c0 c0.ids m'.faces ∧
      m'.nbBoundary = (m'.faces.map.entries.filter (fun p => !p.2.hasPair)).length ∧
      m'.elements.ids = m.elements.ids ∧ m'.elements.indices = m.elements.indices ∧ m'.elements.counter = m.elements.counter ∧
      (∀ id, id ∉ m.elements.ids → m'.elements.get? id = none) ∧
      (∀ (a b : List Int) id, m.elements.ids = a ++ id :: b → ∀ e, m.elements.get? id = some e → m'.elements.get? id = some (
        { e with faceIds := (List.range' (a.flatMap fun id =>
            ((m.elements.get? id).map (facesWithOwner id)).getD []).length e.facesOf.length).map Int.ofNat })) := by
  obtain ⟨els, c0, h1, h2, h3, h4, h5, h6, h7⟩ := genFacesLoop_spec m.elements m.elements.ids hm.elements.1
    (fun id hid => by
      obtain ⟨e, he⟩ := (hm.elements.2 id).1 hid
      exact ⟨e, he, hf id e he⟩) m.elements Cont.empty [] (fun _ _ => rfl) filled_empty
  rw [List.nil_append, ← expectedFaces_eq hm.elements hf] at h2
  let pos : Int → Vec3 K := fun i => m.meanOf ((c0.get? i).map Face.nodeIds |>.getD [])
  have hnodes : ∀ i f, c0.get? i = some f → f ∈ m.expectedFaces := by
    intro i f hi
    have him := (h2.ok.2 i).2 ⟨f, hi⟩
    rw [h2.ids, mem_iota] at him
    obtain ⟨k, rfl⟩ := Int.eq_ofNat_of_zero_le him.1
    rw [h2.get] at hi
    exact List.mem_of_getElem? hi
  have hcen : ∀ i f, c0.get? i = some f → centroid m.nodes f.nodeIds = some (pos i) := by
    intro i f hi
    rw [centroid_eq hm.nodes (expectedFaces_nodes hm hf f (hnodes i f hi))]
    simp [pos, hi]
  have hobjs : (c0.ids.mapM fun fid => do
      let f ← c0.get? fid
      let c ← centroid m.nodes f.nodeIds
      return (fid, c)) = some (c0.ids.map fun n => (n, pos n)) := by
    apply mapM_option_eq
    intro i hi
    obtain ⟨f, hfi⟩ := (h2.ok.2 i).1 hi
    simp [hfi, hcen i f hfi]
  have hgr : Gridable mc (c0.ids.map fun n => (n, pos n)) := by
    refine ⟨hg.eps, hg.big, ?_, ?_⟩
    · intro o ho
      obtain ⟨i, hi, rfl⟩ := List.mem_map.1 ho
      obtain ⟨f, hfi⟩ := (h2.ok.2 i).1 hi
      simp only [pos, hfi, Option.map_some, Option.getD_some]
      exact meanOf_bounded m hg.big _ (fun n hn => hg.bounded n _ (posOf_get hm.nodes
        (expectedFaces_nodes hm hf f (hnodes i f hfi) n hn)))
    · rcases hg.spread with h | h | ⟨f, hfm, g, hgm, hne⟩
      · exact Or.inl h
      · right; left; rw [h2.ids, h]; rfl
      · right; right
        obtain ⟨i, hi, rfl⟩ := List.mem_iff_getElem.1 hfm
        obtain ⟨j, hj, rfl⟩ := List.mem_iff_getElem.1 hgm
        have hii : c0.get? (i : Int) = some m.expectedFaces[i] := by rw [h2.get, List.getElem?_eq_getElem hi]
        have hjj : c0.get? (j : Int) = some m.expectedFaces[j] := by rw [h2.get, List.getElem?_eq_getElem hj]
        refine ⟨_, List.mem_map.2 ⟨(i : Int), (h2.ok.2 _).2 ⟨_, hii⟩, rfl⟩, _, List.mem_map.2 ⟨(j : Int), (h2.ok.2 _).2 ⟨_, hjj⟩, rfl⟩, ?_⟩
        simpa [pos, hii, hjj] using hne
  obtain ⟨g, hgrid, hfind⟩ := grid_exact hgr tol
  obtain ⟨c', h8, h9⟩ := pairLoop_spec h2.ok pos tol htol _ hfind (by
      intro i j f g hi hj hp
      simp only [pos, hi, hj, Option.map_some, Option.getD_some]
      exact perm_meanOf m hp) c0.ids [] c0 rfl (by
      refine ⟨rfl, rfl, rfl, fun _ => rfl, ?_, by simp⟩
      intro i f hi hp
      rw [expectedFaces_unpaired hm.elements hf f (hnodes i f hi)] at hp
      simp at hp)
  refine ⟨{ m with
      elements := els
      faces := c'
      nbBoundary := (c'.map.entries.filter (fun p => !p.2.hasPair)).length }, c0, ?_, rfl, h2, h9, rfl, h3, h4, h5, ?_, ?_⟩
  · unfold generateFaces
    rw [h1]
    simp only [Option.bind_eq_bind, Option.bind_some]
    have hobjs' := hobjs
    simp only [Option.bind_eq_bind] at hobjs'
    rw [hobjs']
    simp only [Option.bind_some, hgrid, h8]
    rfl
  · intro id hid
    rw [h6 id hid]
    cases hx : m.elements.get? id with
    | none => rfl
    | some a => exact absurd ((hm.elements.2 id).2 ⟨a, hx⟩) hid
  · intro a b id hab e he
    have := h7 a b id hab e he
    simpa using this

end Mesh

open Mesh Cont
variable {K : Type} [Field K] [LinearOrder K] [IsStrictOrderedRing K] [FloorRing K]

/-- **C07 (the faces).** On every consistent mesh whose face centres can be hashed, `generateFaces(tol)`, `tol ≥ 0`, is
defined; the faces of the mesh are then, under ids `0, 1, …` in order, exactly the faces its elements generate (type, nodes
in order, owner); nodes and elements keep their ids, types and nodes, and each element lists exactly the ids of the faces it owns. -/
theorem C07_generateFaces_faces (mc : HashGrid.Machine K) (m : Mesh K) (hm : m.WF) (hf : m.FullElements) (hg : GoodFaces mc m)
    (tol : K) (htol : 0 ≤ tol) :
    ∃ m', generateFaces mc m tol = some m' ∧ m'.nodes = m.nodes ∧
      m'.faces.ids = (List.range m.expectedFaces.length).map Int.ofNat ∧
      (∀ k : Nat, (m'.faces.get? k).map (fun f => (f.faceType, f.nodeIds, f.elementId)) =
        (m.expectedFaces[k]?).map (fun f => (f.faceType, f.nodeIds, f.elementId))) ∧
      m'.WF ∧ m'.faces.RoundTrip ∧
      (∀ id e', m'.elements.get? id = some e' → ∃ e, m.elements.get? id = some e ∧ e'.elementType = e.elementType ∧
        e'.nodeIds = e.nodeIds) ∧ m'.elements.ids = m.elements.ids ∧
      (∀ id e', m'.elements.get? id = some e' → ∀ fid : Int, fid ∈ e'.faceIds ↔
        ∃ f, m'.faces.get? fid = some f ∧ f.elementId = id) := by
  obtain ⟨m', c0, h1, h2, h3, h4, h5, h6, h7, h8, h9, h10⟩ := generateFaces_spec mc m hm hf hg tol htol
  have hids : m'.faces.ids = (List.range m.expectedFaces.length).map Int.ofNat := by rw [h4.ids, h3.ids]; rfl
  have hget : ∀ k : Nat, (m'.faces.get? k).map static = (m.expectedFaces[k]?).map static := by
    intro k; rw [h4.stat, h3.get]
  have hcases : ∀ id e', m'.elements.get? id = some e' → ∃ (a b : List Int) (e : Elem), m.elements.ids = a ++ id :: b ∧
      m.elements.get? id = some e ∧ e' = { e with faceIds := (List.range' (a.flatMap fun id =>
            ((m.elements.get? id).map (facesWithOwner id)).getD []).length e.facesOf.length).map Int.ofNat } := by
    intro id e' he'
    by_cases hid : id ∈ m.elements.ids
    · obtain ⟨a, b, hab⟩ := List.append_of_mem hid
      obtain ⟨e, he⟩ := (hm.elements.2 id).1 hid
      rw [h10 a b id hab e he] at he'
      simp only [Option.some.injEq] at he'
      exact ⟨a, b, e, hab, he, he'.symm⟩
    · rw [h9 id hid] at he'; simp at he'
  have hfok : m'.faces.Ok := by
    refine ⟨by rw [h4.ids]; exact h3.ok.1, fun id => ?_⟩
    rw [h4.ids, h3.ok.2]
    have := h4.stat id
    constructor
    · rintro ⟨a, ha⟩
      rw [ha] at this
      obtain ⟨b, hb, -⟩ := Option.map_eq_some_iff.1 this
      exact ⟨b, hb⟩
    · rintro ⟨a, ha⟩
      rw [ha] at this
      obtain ⟨b, hb, -⟩ := Option.map_eq_some_iff.1 this.symm
      exact ⟨b, hb⟩
  refine ⟨m', h1, h2, hids, hget, ⟨by rw [h2]; exact hm.nodes, hfok, ?_, ?_, ?_⟩, ?_, ?_, h6, ?_⟩
  · refine ⟨h6 ▸ hm.elements.1, fun id => ?_⟩
    rw [h6]
    constructor
    · intro hid
      obtain ⟨a, b, hab⟩ := List.append_of_mem hid
      obtain ⟨e, he⟩ := (hm.elements.2 id).1 hid
      exact ⟨_, h10 a b id hab e he⟩
    · rintro ⟨a, ha⟩
      by_contra hid
      rw [h9 id hid] at ha; simp at ha
  · intro id f hfi n hn
    have hid := (hfok.2 id).2 ⟨f, hfi⟩
    rw [hids] at hid
    obtain ⟨k, hk, rfl⟩ := List.mem_map.1 hid
    have := hget k
    rw [show Int.ofNat k = (k : Int) from rfl] at hfi
    rw [hfi] at this
    obtain ⟨f0, hf0, hst⟩ := Option.map_eq_some_iff.1 this.symm
    simp only [static, Prod.mk.injEq] at hst
    rw [h2]
    exact expectedFaces_nodes hm hf f0 (List.mem_of_getElem? hf0) n (by rw [hst.2.1]; exact hn)
  · intro id e' he' n hn
    obtain ⟨a, b, e, hab, he, rfl⟩ := hcases id e' he'
    rw [h2]
    exact hm.elemNodes id e he n hn
  · have hs := h3.synced
    have hs' : m'.faces.Synced := by
      unfold Cont.Synced at hs ⊢
      rw [h4.ids, h4.indices]; exact hs
    exact hs'.roundTrip
  · intro id e' he'
    obtain ⟨a, b, e, hab, he, rfl⟩ := hcases id e' he'
    exact ⟨e, he, rfl, rfl⟩
  · intro id e' he' fid
    obtain ⟨a, b, e, hab, he, rfl⟩ := hcases id e' he'
    have hnd := hm.elements.1
    rw [hab] at hnd
    have hexp : m.expectedFaces = (a.flatMap fun id => ((m.elements.get? id).map (facesWithOwner id)).getD []) ++
        (facesWithOwner id e ++ (b.flatMap fun id => ((m.elements.get? id).map (facesWithOwner id)).getD [])) := by
      rw [expectedFaces_eq hm.elements hf, hab, List.flatMap_append, List.flatMap_cons, he]
      rfl
    have howner : ∀ (l : List Int) (f : Face), f ∈ (l.flatMap fun id => ((m.elements.get? id).map (facesWithOwner id)).getD []) →
        f.elementId ∈ l := by
      intro l f hfl
      obtain ⟨j, hj, hfl⟩ := List.mem_flatMap.1 hfl
      cases hx : m.elements.get? j with
      | none => rw [hx] at hfl; simp at hfl
      | some x =>
        rw [hx] at hfl
        simp only [Option.map_some, Option.getD_some, facesWithOwner, List.mem_map] at hfl
        obtain ⟨y, -, rfl⟩ := hfl
        exact hj
    have hlen : (facesWithOwner id e).length = e.facesOf.length := by simp [facesWithOwner]
    generalize hA : (a.flatMap fun id => ((m.elements.get? id).map (facesWithOwner id)).getD []) = A at *
    generalize hB : (b.flatMap fun id => ((m.elements.get? id).map (facesWithOwner id)).getD []) = B at *
    have hida : id ∉ a := fun h => (List.nodup_append.1 hnd).2.2 id h id (by simp) rfl
    have hidb : id ∉ b := (List.nodup_cons.1 (List.nodup_append.1 hnd).2.1).1
    constructor
    · intro h
      obtain ⟨k, hk, rfl⟩ := List.mem_map.1 h
      rw [List.mem_range'_1] at hk
      have hk1 : m.expectedFaces[k]? = (facesWithOwner id e)[k - A.length]? := by
        rw [hexp, List.getElem?_append_right hk.1, List.getElem?_append_left (by omega)]
      have hk2 : k - A.length < (facesWithOwner id e).length := by omega
      rw [List.getElem?_eq_getElem hk2] at hk1
      have hst := hget k
      rw [hk1] at hst
      obtain ⟨f, hfk, hst⟩ := Option.map_eq_some_iff.1 hst
      refine ⟨f, hfk, ?_⟩
      simp only [static, Prod.mk.injEq] at hst
      rw [hst.2.2]
      simp [facesWithOwner]
    · rintro ⟨f, hfk, rfl⟩
      have hid := (hfok.2 fid).2 ⟨f, hfk⟩
      rw [hids] at hid
      obtain ⟨k, hk, rfl⟩ := List.mem_map.1 hid
      rw [List.mem_range] at hk
      have hst := hget k
      rw [show Int.ofNat k = (k : Int) from rfl] at hfk
      rw [hfk] at hst
      obtain ⟨f0, hf0, hst⟩ := Option.map_eq_some_iff.1 hst.symm
      simp only [static, Prod.mk.injEq] at hst
      refine List.mem_map.2 ⟨k, ?_, rfl⟩
      rw [List.mem_range'_1]
      rw [hexp] at hf0
      by_cases hk1 : k < A.length
      · rw [List.getElem?_append_left hk1] at hf0
        have := howner a f0 (by rw [hA]; exact List.mem_of_getElem? hf0)
        rw [hst.2.2] at this
        exact absurd this hida
      · rw [List.getElem?_append_right (by omega)] at hf0
        by_cases hk2 : k - A.length < (facesWithOwner f.elementId e).length
        · omega
        · rw [List.getElem?_append_right (by omega)] at hf0
          have := howner b f0 (by rw [hB]; exact List.mem_of_getElem? hf0)
          rw [hst.2.2] at this
          exact absurd this hidb

/-- **C07 (pairs).** After `generateFaces(tol)`, `tol ≥ 0`: a face has a pair iff another face coincides with it, its pair is
another stored face that coincides with it, and `nbBoundaryFaces()` is the number of faces without a pair. If no three different
faces coincide, `f` has pair `g` iff `f ≠ g` coincide, hence pairing is symmetric. -/
theorem C07_generateFaces_pairs (mc : HashGrid.Machine K) (m : Mesh K) (hm : m.WF) (hf : m.FullElements) (hg : GoodFaces mc m)
    (tol : K) (htol : 0 ≤ tol) :
    ∃ m', generateFaces mc m tol = some m' ∧
      (∀ i f, m'.faces.get? i = some f → (f.hasPair = true ↔ ∃ j g, j ≠ i ∧ m'.faces.get? j = some g ∧ Coincide f g)) ∧
      (∀ i f, m'.faces.get? i = some f → f.hasPair = true → f.pairFaceId ≠ i ∧
        ∃ g, m'.faces.get? f.pairFaceId = some g ∧ Coincide f g) ∧
      m'.nbBoundary = (m'.faces.ids.filter fun i => (m'.faces.get? i).any fun f => !f.hasPair).length ∧
      ((∀ i j k f g h, m'.faces.get? i = some f → m'.faces.get? j = some g → m'.faces.get? k = some h →
          Coincide f g → Coincide f h → i ≠ j → i ≠ k → j = k) →
        (∀ i j f g, m'.faces.get? i = some f → m'.faces.get? j = some g →
          ((f.hasPair = true ∧ f.pairFaceId = j) ↔ i ≠ j ∧ Coincide f g)) ∧
        (∀ i j f g, m'.faces.get? i = some f → m'.faces.get? j = some g →
          ((f.hasPair = true ∧ f.pairFaceId = j) ↔ (g.hasPair = true ∧ g.pairFaceId = i)))) := by
  obtain ⟨m', c0, h1, h2, h3, h4, h5, -⟩ := generateFaces_spec mc m hm hf hg tol htol
  have hmem : ∀ i, i ∈ m'.faces.ids ↔ ∃ f, m'.faces.get? i = some f := by
    intro id
    rw [h4.ids, h3.ok.2]
    have := h4.stat id
    constructor
    · rintro ⟨a, ha⟩
      rw [ha] at this
      obtain ⟨b, hb, -⟩ := Option.map_eq_some_iff.1 this
      exact ⟨b, hb⟩
    · rintro ⟨a, ha⟩
      rw [ha] at this
      obtain ⟨b, hb, -⟩ := Option.map_eq_some_iff.1 this.symm
      exact ⟨b, hb⟩
  have hpair : ∀ i f, m'.faces.get? i = some f → (f.hasPair = true ↔ ∃ j g, j ≠ i ∧ m'.faces.get? j = some g ∧ Coincide f g) := by
    intro i f hi
    constructor
    · intro hp
      obtain ⟨q1, g, q2, q3⟩ := h4.sound i f hi hp
      exact ⟨_, g, q1, q2, q3⟩
    · rintro ⟨j, g, q1, q2, q3⟩
      exact h4.complete i (h4.ids ▸ (hmem i).2 ⟨f, hi⟩) f hi ⟨j, g, q1, q2, q3⟩
  have hsound : ∀ i f, m'.faces.get? i = some f → f.hasPair = true → f.pairFaceId ≠ i ∧
        ∃ g, m'.faces.get? f.pairFaceId = some g ∧ Coincide f g := h4.sound
  refine ⟨m', h1, hpair, hsound, ?_, ?_⟩
  · rw [h5, ← List.length_map (f := Prod.fst)]
    norm_cast
    apply List.Perm.length_eq
    rw [List.perm_ext_iff_of_nodup]
    · intro i
      simp only [List.mem_map, List.mem_filter, Prod.exists, exists_and_right, exists_eq_right]
      constructor
      · rintro ⟨f, hfm, hp⟩
        have hfi : m'.faces.get? i = some f := (m'.faces.map.find?_eq_some_iff i f).2 hfm
        exact ⟨(hmem i).2 ⟨f, hfi⟩, by simpa [hfi] using hp⟩
      · rintro ⟨hi, hp⟩
        obtain ⟨f, hfi⟩ := (hmem i).1 hi
        exact ⟨f, (m'.faces.map.find?_eq_some_iff i f).1 hfi, by simpa [hfi] using hp⟩
    · exact (m'.faces.map.keys_nodup).sublist (List.filter_sublist.map _)
    · exact (h4.ids ▸ h3.ok.1 : m'.faces.ids.Nodup).filter _
  · intro huniq
    have hiff : ∀ i j f g, m'.faces.get? i = some f → m'.faces.get? j = some g →
          ((f.hasPair = true ∧ f.pairFaceId = j) ↔ i ≠ j ∧ Coincide f g) := by
      intro i j f g hi hj
      constructor
      · rintro ⟨hp, rfl⟩
        obtain ⟨q1, g', q2, q3⟩ := hsound i f hi hp
        rw [hj] at q2
        simp only [Option.some.injEq] at q2
        subst q2
        exact ⟨fun h => q1 h.symm, q3⟩
      · rintro ⟨hne, hc⟩
        have hp := (hpair i f hi).2 ⟨j, g, fun h => hne h.symm, hj, hc⟩
        obtain ⟨q1, g', q2, q3⟩ := hsound i f hi hp
        exact ⟨hp, (huniq i j _ f g g' hi hj q2 hc q3 hne (fun h => q1 h.symm)).symm⟩
    refine ⟨hiff, fun i j f g hi hj => ?_⟩
    rw [hiff i j f g hi hj, hiff j i g f hj hi]
    constructor
    · rintro ⟨h1, h2, h3⟩; exact ⟨fun h => h1 h.symm, h2.symm, h3.symm⟩
    · rintro ⟨h1, h2, h3⟩; exact ⟨fun h => h1 h.symm, h2.symm, h3.symm⟩

/-- Two tetrahedra that share the face `1 2 3`, over `ℚ`. -/
def twoTets : Mesh ℚ :=
  { nodes := ((((Cont.empty.add 0 ⟨0, 0, 0⟩).add 1 ⟨1, 0, 0⟩).add 2 ⟨0, 1, 0⟩).add 3 ⟨0, 0, 1⟩).add 4 ⟨1, 1, 1⟩
    faces := Cont.empty
    elements := (Cont.empty.add 0 ⟨.tetrahedron, [0, 1, 2, 3], []⟩).add 1 ⟨.tetrahedron, [4, 3, 2, 1], []⟩
    nbBoundary := 0 }

theorem twoTets_ok : twoTets.WF ∧ twoTets.FullElements ∧ GoodFaces smallMachine twoTets := by
  refine ⟨⟨?_, empty_ok, ?_, ?_, ?_⟩, ?_, ⟨by norm_num [smallMachine], by norm_num [smallMachine], ?_, ?_⟩⟩
  · exact add_ok (add_ok (add_ok (add_ok (add_ok empty_ok _ (by decide)) _ (by decide)) _ (by decide)) _ (by decide)) _ (by decide)
  · exact add_ok (add_ok empty_ok _ (by decide)) _ (by decide)
  · intro id f h; simp [twoTets, Cont.empty, Cont.get?] at h
  · intro id e h n hn
    simp only [twoTets, get?_add] at h
    split_ifs at h <;> first
      | (simp only [Option.some.injEq] at h; subst h; simp at hn; rcases hn with rfl | rfl | rfl | rfl <;> decide)
      | (simp [Cont.empty, Cont.get?] at h)
  · intro id e h
    simp only [twoTets, get?_add] at h
    split_ifs at h <;> first
      | (simp only [Option.some.injEq] at h; subst h; decide)
      | (simp [Cont.empty, Cont.get?] at h)
  · intro n v h
    simp only [twoTets, get?_add] at h
    split_ifs at h <;> first
      | (simp only [Option.some.injEq] at h; subst h; norm_num [Vec3.Bounded, smallMachine])
      | (simp [Cont.empty, Cont.get?] at h)
  · right; right
    refine ⟨twoTets.expectedFaces[0]'(by decide), List.getElem_mem _, twoTets.expectedFaces[1]'(by decide), List.getElem_mem _, ?_⟩
    decide +kernel

/-- There one face of each tetrahedron is paired with the other, and six faces are on the boundary. -/
example : (generateFaces smallMachine twoTets 0).map (fun m => (m.nbBoundary, m.faces.ids.filterMap fun i =>
    (m.faces.get? i).bind fun f => if f.hasPair then some (i, f.pairFaceId) else none)) =
    some (6, [(1, 5), (5, 1)]) := by decide +kernel

/-- Three triangles on the edge `0 1`. -/
def threeFins : Mesh ℚ :=
  { nodes := ((((Cont.empty.add 0 ⟨0, 0, 0⟩).add 1 ⟨1, 0, 0⟩).add 2 ⟨0, 1, 0⟩).add 3 ⟨0, 0, 1⟩).add 4 ⟨0, -1, 0⟩
    faces := Cont.empty
    elements := ((Cont.empty.add 0 ⟨.triangle, [0, 1, 2], []⟩).add 1 ⟨.triangle, [0, 1, 3], []⟩).add 2 ⟨.triangle, [0, 1, 4], []⟩
    nbBoundary := 0 }

/-- **C07, the proviso is needed.** When three faces coincide pairing is not symmetric: face 0 has pair 6, face 3 has pair 0. -/
theorem C07_three_faces_asymmetric :
    (generateFaces smallMachine threeFins 0).map (fun m => m.faces.ids.filterMap fun i =>
      (m.faces.get? i).bind fun f => if f.hasPair then some (i, f.pairFaceId) else none) =
    some [(0, 6), (3, 0), (6, 0)] := by decide +kernel

/-! ### C35 -/

theorem checkFaces_spec (faces : Cont Face) (l : List Int) (hl : ∀ i ∈ l, ∃ f, faces.get? i = some f) :
    ∃ b, checkFaces faces l = some b ∧ (b = true ↔ ∃ i ∈ l, ∃ f, faces.get? i = some f ∧ f.hasPair = false) := by
  induction l with
  | nil => exact ⟨false, rfl, by simp⟩
  | cons i t ih =>
    obtain ⟨f, hf⟩ := hl i (by simp)
    obtain ⟨b, hb, hb'⟩ := ih (fun j hj => hl j (by simp [hj]))
    cases hp : f.hasPair with
    | false => exact ⟨true, by simp [checkFaces, hf, hp], by simp only [true_iff]; exact ⟨i, by simp, f, hf, hp⟩⟩
    | true =>
      refine ⟨b, by simp [checkFaces, hf, hp, hb], hb'.trans ?_⟩
      constructor
      · rintro ⟨j, hj, q⟩; exact ⟨j, by simp [hj], q⟩
      · rintro ⟨j, hj, g, hg, hgp⟩
        rcases List.mem_cons.1 hj with rfl | hj
        · rw [hf] at hg; simp only [Option.some.injEq] at hg; subst hg; rw [hp] at hgp; simp at hgp
        · exact ⟨j, hj, g, hg, hgp⟩

theorem checkOpenLoop_spec (m : Mesh K) (l : List Int) (hl : ∀ i ∈ l, ∃ e, m.elements.get? i = some e ∧
      ∀ fid ∈ e.faceIds, ∃ f, m.faces.get? fid = some f) :
    ∃ b, checkOpenLoop m l = some b ∧ (b = true ↔ ∃ i ∈ l, ∃ e, m.elements.get? i = some e ∧ ∃ fid ∈ e.faceIds,
      ∃ f, m.faces.get? fid = some f ∧ f.hasPair = false) := by
  induction l with
  | nil => exact ⟨false, rfl, by simp⟩
  | cons i t ih =>
    obtain ⟨e, he, hfs⟩ := hl i (by simp)
    obtain ⟨b, hb, hb'⟩ := ih (fun j hj => hl j (by simp [hj]))
    obtain ⟨c, hc, hc'⟩ := checkFaces_spec m.faces e.faceIds hfs
    cases c with
    | true =>
      refine ⟨true, by simp [checkOpenLoop, he, hc], ?_⟩
      simp only [true_iff] at hc' ⊢
      exact ⟨i, by simp, e, he, hc'⟩
    | false =>
      refine ⟨b, by simp [checkOpenLoop, he, hc, hb], hb'.trans ?_⟩
      constructor
      · rintro ⟨j, hj, q⟩; exact ⟨j, by simp [hj], q⟩
      · rintro ⟨j, hj, e', he', q⟩
        rcases List.mem_cons.1 hj with rfl | hj
        · rw [he] at he'; simp only [Option.some.injEq] at he'; subst he'
          exact absurd (hc'.2 q) (by simp)
        · exact ⟨j, hj, e', he', q⟩

/-- **C35.** On every consistent mesh whose elements list stored faces, `checkOpen` is defined and true iff some live element
lists a face without a pair. -/
theorem C35_checkOpen (m : Mesh K) (hm : m.WF)
    (hfs : ∀ id e, m.elements.get? id = some e → ∀ fid ∈ e.faceIds, ∃ f, m.faces.get? fid = some f) :
    ∃ b, checkOpen m = some b ∧ (b = true ↔ ∃ id e, m.elements.get? id = some e ∧ ∃ fid ∈ e.faceIds,
      ∃ f, m.faces.get? fid = some f ∧ f.hasPair = false) := by
  obtain ⟨b, hb, hb'⟩ := checkOpenLoop_spec m m.elements.ids (fun i hi => by
    obtain ⟨e, he⟩ := (hm.elements.2 i).1 hi
    exact ⟨e, he, hfs i e he⟩)
  refine ⟨b, hb, hb'.trans ?_⟩
  constructor
  · rintro ⟨i, -, q⟩; exact ⟨i, q⟩
  · rintro ⟨i, e, he, q⟩; exact ⟨i, (hm.elements.2 i).2 ⟨e, he⟩, e, he, q⟩

/-- **C35 (after `generateFaces`).** Run on the result of `generateFaces(tol)`, `checkOpen` says whether `nbBoundaryFaces() > 0`,
i.e. whether some face coincides with no other. -/
theorem C35_open_iff_boundary (mc : HashGrid.Machine K) (m : Mesh K) (hm : m.WF) (hf : m.FullElements) (hg : GoodFaces mc m)
    (tol : K) (htol : 0 ≤ tol) :
    ∃ m' b, generateFaces mc m tol = some m' ∧ checkOpen m' = some b ∧ (b = true ↔ 0 < m'.nbBoundary) ∧
      (b = true ↔ ∃ i f, m'.faces.get? i = some f ∧ ∀ j g, m'.faces.get? j = some g → j ≠ i → ¬ Coincide f g) := by
  obtain ⟨m', h1, h2, h3, h4, h5, h6, h7, h8, h9⟩ := C07_generateFaces_faces mc m hm hf hg tol htol
  obtain ⟨m'', g1, g2, g3, g4, -⟩ := C07_generateFaces_pairs mc m hm hf hg tol htol
  rw [h1] at g1
  simp only [Option.some.injEq] at g1
  subst g1
  obtain ⟨b, hb, hb'⟩ := C35_checkOpen m' h5 (fun id e he fid hfid => by
    obtain ⟨f, hf, -⟩ := (h9 id e he fid).1 hfid
    exact ⟨f, hf⟩)
  -- an unpaired face belongs to a live element
  have hkey : b = true ↔ ∃ i f, m'.faces.get? i = some f ∧ f.hasPair = false := by
    rw [hb']
    constructor
    · rintro ⟨id, e, he, fid, hfid, f, hf, hp⟩; exact ⟨fid, f, hf, hp⟩
    · rintro ⟨i, f, hfi, hp⟩
      have hi := (h5.faces.2 i).2 ⟨f, hfi⟩
      rw [h3] at hi
      obtain ⟨k, hk, rfl⟩ := List.mem_map.1 hi
      have hst := h4 k
      rw [show Int.ofNat k = (k : Int) from rfl] at hfi
      rw [hfi] at hst
      obtain ⟨f0, hf0, hst⟩ := Option.map_eq_some_iff.1 hst.symm
      simp only [Prod.mk.injEq] at hst
      have hmem := List.mem_of_getElem? hf0
      have hown : f0.elementId ∈ m.elements.ids := by
        rw [expectedFaces_eq hm.elements hf] at hmem
        obtain ⟨j, hj, hfl⟩ := List.mem_flatMap.1 hmem
        obtain ⟨x, hx⟩ := (hm.elements.2 j).1 hj
        rw [hx] at hfl
        simp only [Option.map_some, Option.getD_some, facesWithOwner, List.mem_map] at hfl
        obtain ⟨y, -, rfl⟩ := hfl
        exact hj
      rw [hst.2.2, ← h8] at hown
      obtain ⟨e, he⟩ := (h5.elements.2 _).1 hown
      exact ⟨f.elementId, e, he, (k : Int), (h9 _ e he _).2 ⟨f, hfi, rfl⟩, f, hfi, hp⟩
  refine ⟨m', b, h1, hb, ?_, ?_⟩
  · rw [hkey, g4]
    constructor
    · rintro ⟨i, f, hfi, hp⟩
      have : i ∈ m'.faces.ids.filter fun i => (m'.faces.get? i).any fun f => !f.hasPair :=
        List.mem_filter.2 ⟨(h5.faces.2 i).2 ⟨f, hfi⟩, by simp [hfi, hp]⟩
      have := List.length_pos_of_mem this
      exact_mod_cast this
    · intro h
      have h' : 0 < (m'.faces.ids.filter fun i => (m'.faces.get? i).any fun f => !f.hasPair).length := by exact_mod_cast h
      obtain ⟨i, hi⟩ := List.exists_mem_of_length_pos h'
      obtain ⟨hi1, hi2⟩ := List.mem_filter.1 hi
      obtain ⟨f, hfi⟩ := (h5.faces.2 i).1 hi1
      exact ⟨i, f, hfi, by simpa [hfi] using hi2⟩
  · rw [hkey]
    constructor
    · rintro ⟨i, f, hfi, hp⟩
      refine ⟨i, f, hfi, fun j g hj hne hc => ?_⟩
      have := (g2 i f hfi).2 ⟨j, g, hne, hj, hc⟩
      rw [hp] at this; simp at this
    · rintro ⟨i, f, hfi, h⟩
      refine ⟨i, f, hfi, ?_⟩
      by_contra hp
      simp only [Bool.not_eq_false] at hp
      obtain ⟨j, g, hne, hj, hc⟩ := (g2 i f hfi).1 hp
      exact h j g hj hne hc

/-- `twoTets` is open. -/
example : ((generateFaces smallMachine twoTets 0).bind checkOpen) = some true := by decide +kernel

/-! ### C53 -/

theorem boundaryLoop_spec (faces : Cont Face) (l : List Int) (hl : ∀ i ∈ l, ∃ f, faces.get? i = some f) :
    ∀ (n : Nat) (els : Cont Elem), els.ids = iota n → (∀ j : Int, (n : Int) ≤ j → els.get? j = none) → els.Ok →
    ∃ els', boundaryLoop faces l n els = some els' ∧ els'.Ok ∧
      (∀ k : Nat, k < n → els'.get? k = els.get? k) ∧
      els'.ids = iota (n + (l.filterMap fun i => (faces.get? i).bind fun f => if f.hasPair then none else some f).length) ∧
      (∀ k : Nat, els'.get? ((n + k : Nat) : Int) = ((l.filterMap fun i => (faces.get? i).bind fun f =>
        if f.hasPair then none else some f)[k]?).map fun f => { elementType := boundaryType f.faceType, nodeIds := f.nodeIds }) := by
  induction l with
  | nil =>
    intro n els h1 h2 h3
    exact ⟨els, rfl, h3, fun _ _ => rfl, by simpa using h1, fun k => by simpa using h2 (n + k) (by omega)⟩
  | cons i t ih =>
    intro n els h1 h2 h3
    obtain ⟨f, hf⟩ := hl i (by simp)
    have ih := ih (fun j hj => hl j (by simp [hj]))
    cases hp : f.hasPair with
    | true =>
      obtain ⟨els', q1, q2, q3, q4, q5⟩ := ih n els h1 h2 h3
      refine ⟨els', by simp [boundaryLoop, hf, hp, q1], q2, q3, ?_, ?_⟩
      · rw [q4]; simp [hf, hp]
      · intro k; rw [q5]; simp [hf, hp]
    | false =>
      let x : Elem := { elementType := boundaryType f.faceType, nodeIds := f.nodeIds }
      have hn : (n : Int) ∉ els.ids := by rw [h1, mem_iota]; omega
      obtain ⟨els', q1, q2, q3, q4, q5⟩ := ih (n + 1) (els.add n x) (by rw [iota_succ, ← h1]; rfl)
        (by
          intro j hj
          push_cast at hj
          rw [get?_add, if_neg (by omega)]
          exact h2 j (by omega)) (add_ok h3 x hn)
      refine ⟨els', ?_, q2, ?_, ?_, ?_⟩
      · simp only [boundaryLoop, hf, Option.bind_eq_bind, Option.bind_some, hp, Bool.not_false, if_true]
        exact_mod_cast q1
      · intro k hk
        rw [q3 k (by omega), get?_add, if_neg (by omega)]
      · rw [q4]
        simp only [List.filterMap_cons, hf, Option.bind_some, hp, Bool.false_eq_true, if_false, List.length_cons]
        congr 1; omega
      · intro k
        simp only [List.filterMap_cons, hf, Option.bind_some, hp, Bool.false_eq_true, if_false]
        cases k with
        | zero =>
          rw [Nat.add_zero, q3 n (by omega), get?_add, if_pos rfl]
          rfl
        | succ k =>
          have := q5 k
          rw [show n + (k + 1) = n + 1 + k by omega, this]
          simp

theorem copyNodesLoop_spec (nodes : Cont (Vec3 K)) (l : List Int) (hl : ∀ i ∈ l, ∃ f, nodes.get? i = some f) :
    ∀ (c : Cont (Vec3 K)), c.Ok → (c.ids ++ l).Nodup →
    ∃ c', copyNodesLoop nodes l c = some c' ∧ c'.Ok ∧ c'.ids = c.ids ++ l ∧
      ∀ k, c'.get? k = if k ∈ l then nodes.get? k else c.get? k := by
  induction l with
  | nil => intro c hc _; exact ⟨c, rfl, hc, by simp, by simp⟩
  | cons i t ih =>
    intro c hc hnd
    obtain ⟨v, hv⟩ := hl i (by simp)
    have hi : i ∉ c.ids := fun h => (List.nodup_append.1 hnd).2.2 i h i (by simp) rfl
    have hit : i ∉ t := (List.nodup_cons.1 (List.nodup_append.1 hnd).2.1).1
    obtain ⟨c', h1, h2, h3, h4⟩ := ih (fun j hj => hl j (by simp [hj])) (c.add i v) (add_ok hc v hi) (by
      simpa [Cont.add] using hnd)
    refine ⟨c', by simp [copyNodesLoop, hv, h1], h2, by rw [h3]; simp [Cont.add], fun k => ?_⟩
    rw [h4, get?_add]
    by_cases hk : k = i
    · subst hk; simp [hit, hv]
    · simp [hk]

/-- **C53.** On every consistent mesh (face centres hashable) `extractBoundary(tol)`, `tol ≥ 0`, is defined. With `m'` the mesh after
`generateFaces(tol)`, which it leaves behind, the boundary mesh has the same nodes under the same ids, no faces, and its elements, numbered
`0, 1, …`, are exactly the faces of `m'` that coincide with no other face, in order, with the same nodes in the same order and the type
belonging to the face type; there are `nbBoundaryFaces()` of them. -/
theorem C53_extractBoundary (mc : HashGrid.Machine K) (m : Mesh K) (hm : m.WF) (hf : m.FullElements) (hg : GoodFaces mc m)
    (tol : K) (htol : 0 ≤ tol) :
    ∃ b m', extractBoundary mc m tol = some (b, m') ∧ generateFaces mc m tol = some m' ∧ b.WF ∧
      (∀ n, b.nodes.get? n = m.nodes.get? n) ∧ b.nodes.ids = m.nodes.ids ∧ b.faces.ids = [] ∧
      (b.elements.ids.length : Int) = m'.nbBoundary ∧
      (∃ outer : List Int, outer.Sublist m'.faces.ids ∧
        (∀ i f, m'.faces.get? i = some f → (i ∈ outer ↔ ∀ j g, m'.faces.get? j = some g → j ≠ i → ¬ Coincide f g)) ∧
        b.elements.ids = (List.range outer.length).map Int.ofNat ∧
        ∀ k : Nat, b.elements.get? k = ((outer[k]?).bind m'.faces.get?).map fun f =>
          { elementType := match f.faceType with
              | .line => .beam | .triangle => .triangle | .quadrilateral => .quadrilateral | _ => .none,
            nodeIds := f.nodeIds, faceIds := [] }) := by
  obtain ⟨m', h1, h2, h3, h4, h5, -⟩ := C07_generateFaces_faces mc m hm hf hg tol htol
  obtain ⟨m'', g1, g2, g3, g4, -⟩ := C07_generateFaces_pairs mc m hm hf hg tol htol
  rw [h1] at g1
  simp only [Option.some.injEq] at g1
  subst g1
  have hfex : ∀ i ∈ m'.faces.ids, ∃ f, m'.faces.get? i = some f := fun i hi => (h5.faces.2 i).1 hi
  obtain ⟨els, q1, q2, -, q4, q5⟩ := boundaryLoop_spec m'.faces m'.faces.ids hfex 0 Cont.empty rfl
    (by intros; rfl) empty_ok
  obtain ⟨nodes, r1, r2, r3, r4⟩ := copyNodesLoop_spec m'.nodes m'.nodes.ids
    (fun i hi => (h5.nodes.2 i).1 hi) Cont.empty empty_ok (by simpa [Cont.empty] using h5.nodes.1)
  let p : Int → Bool := fun i => (m'.faces.get? i).any fun f => !f.hasPair
  have hfilter : ∀ l : List Int, (l.filterMap fun i => (m'.faces.get? i).bind fun f => if f.hasPair then none else some f) =
      (l.filter p).filterMap m'.faces.get? := by
    intro l
    induction l with
    | nil => rfl
    | cons i t ih =>
      simp only [List.filterMap_cons, List.filter_cons, p]
      cases hx : m'.faces.get? i with
      | none => simp only [Option.bind_none, Option.any_none, Bool.false_eq_true, if_false]; exact ih
      | some f =>
        cases hp : f.hasPair with
        | true => simp only [Option.bind_some, hp, if_true, Option.any_some, Bool.not_true, Bool.false_eq_true, if_false]; exact ih
        | false =>
          simp only [Option.bind_some, hp, Bool.false_eq_true, if_false, Option.any_some, Bool.not_false, if_true,
            List.filterMap_cons, hx]
          rw [ih]
  have hgetf : ∀ l : List Int, (∀ i ∈ l, ∃ f, m'.faces.get? i = some f) →
      (l.filterMap m'.faces.get?).length = l.length ∧ ∀ k : Nat, (l.filterMap m'.faces.get?)[k]? = (l[k]?).bind m'.faces.get? := by
    intro l
    induction l with
    | nil => intro _; simp
    | cons i t ih =>
      intro hl
      obtain ⟨f, hf⟩ := hl i (by simp)
      obtain ⟨ih1, ih2⟩ := ih (fun j hj => hl j (by simp [hj]))
      refine ⟨by simp [List.filterMap_cons, hf, ih1], fun k => ?_⟩
      cases k with
      | zero => simp [List.filterMap_cons, hf]
      | succ k => simp [List.filterMap_cons, hf, ih2]
  obtain ⟨hlen, hget⟩ := hgetf (m'.faces.ids.filter p) (fun i hi => hfex i (List.mem_filter.1 hi).1)
  rw [hfilter] at q4
  rw [hlen, Nat.zero_add] at q4
  have hget' : ∀ k : Nat, els.get? k = (((m'.faces.ids.filter p)[k]?).bind m'.faces.get?).map fun f =>
      { elementType := boundaryType f.faceType, nodeIds := f.nodeIds } := by
    intro k
    have := q5 k
    rw [hfilter, hget, Nat.zero_add] at this
    exact this
  refine ⟨{ nodes := nodes, faces := Cont.empty, elements := els, nbBoundary := 0 }, m', ?_, h1, ⟨r2, empty_ok, q2, ?_, ?_⟩, ?_, ?_, rfl, ?_,
    m'.faces.ids.filter p, List.filter_sublist, ?_, q4, ?_⟩
  · unfold extractBoundary
    have q1' : boundaryLoop m'.faces m'.faces.ids 0 Cont.empty = some els := q1
    simp only [h1, Option.bind_eq_bind, Option.bind_some, q1', r1]
    rfl
  · intro id f h; simp [Cont.empty, Cont.get?] at h
  · intro id e he n hn
    have hid := (q2.2 id).2 ⟨e, he⟩
    rw [q4, mem_iota] at hid
    obtain ⟨k, rfl⟩ := Int.eq_ofNat_of_zero_le hid.1
    simp only at he
    rw [hget'] at he
    obtain ⟨f, hfi, rfl⟩ := Option.map_eq_some_iff.1 he
    obtain ⟨i, hi, hfi⟩ := Option.bind_eq_some_iff.1 hfi
    simp only at hn ⊢
    rw [r3]
    simpa [Cont.empty] using h5.faceNodes i f hfi n hn
  · intro n
    rw [r4, h2]
    split_ifs with hn
    · rfl
    · cases hx : m.nodes.get? n with
      | none => rfl
      | some v => exact absurd ((hm.nodes.2 n).2 ⟨v, hx⟩) hn
  · rw [r3, h2]; simp [Cont.empty]
  · rw [g4, q4]; simp [iota, p]
  · intro i f hfi
    rw [List.mem_filter]
    simp only [p, hfi, Option.any_some, Bool.not_eq_true', (h5.faces.2 i).2 ⟨f, hfi⟩, true_and]
    constructor
    · intro hp j g hj hne hc
      rw [(g2 i f hfi).2 ⟨j, g, hne, hj, hc⟩] at hp
      simp at hp
    · intro h
      by_contra hp
      simp only [Bool.not_eq_false] at hp
      obtain ⟨j, g, hne, hj, hc⟩ := (g2 i f hfi).1 hp
      exact h j g hj hne hc
  · intro k
    simp only
    rw [hget']
    congr 1

/-- The boundary of `twoTets` has six triangles. -/
example : (extractBoundary smallMachine twoTets 0).map (fun b => b.1.elements.ids.map b.1.elements.get?) =
    some [some ⟨.triangle, [0, 1, 2], []⟩, some ⟨.triangle, [0, 3, 1], []⟩, some ⟨.triangle, [0, 2, 3], []⟩,
      some ⟨.triangle, [4, 3, 2], []⟩, some ⟨.triangle, [4, 1, 3], []⟩, some ⟨.triangle, [4, 2, 1], []⟩] := by decide +kernel

end ENigMA
