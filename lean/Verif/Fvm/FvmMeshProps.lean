import Verif.Fvm.FvmMesh
import Verif.Mesh.FacesProps
import Verif.Geometry.PolyhedronProps
import Mathlib.Data.List.Forall2

/-! # C23, C24: sides of FVM faces, construction of the FVM mesh -/

set_option linter.unusedSectionVars false

namespace ENigMA

/-! ### Specification -/

namespace Mesh
variable {K : Type}

/-- The id of the face paired with face `i`, if there is one. -/
def partner (m : Mesh K) (i : Int) : Option Int :=
  (m.faces.get? i).bind fun f => if f.hasPair then some f.pairFaceId else none

/-- Pairing is symmetric: the pair of a face exists, is another face, and is paired with it. (`generateFaces` establishes this: C07.) -/
def SymmetricPairs (m : Mesh K) : Prop :=
  ∀ i f, m.faces.get? i = some f → f.hasPair = true → f.pairFaceId ≠ i ∧
    ∃ g, m.faces.get? f.pairFaceId = some g ∧ g.hasPair = true ∧ g.pairFaceId = i

/-- Every face an element refers to is stored. -/
def FaceIdsOk (m : Mesh K) : Prop := ∀ id e, m.elements.get? id = some e → ∀ j ∈ e.faceIds, j ∈ m.faces.ids

/-- The number of faces without a pair. -/
def nbUnpaired (m : Mesh K) : Nat := (m.faces.ids.filter fun i => (m.partner i).isNone).length

theorem partner_symm {m : Mesh K} (hs : m.SymmetricPairs) {i p : Int} (h : m.partner i = some p) : m.partner p = some i ∧ p ≠ i := by
  unfold partner at h
  obtain ⟨f, hf, h⟩ := Option.bind_eq_some_iff.1 h
  split_ifs at h with hp
  cases h
  obtain ⟨h1, g, hg, h2, h3⟩ := hs i f hf hp
  refine ⟨?_, h1⟩
  simp [partner, hg, h2, h3]

end Mesh

namespace FvmMesh
open Cont Mesh
variable {K : Type} [Field K] [LinearOrder K] [IsStrictOrderedRing K]

/-- `g` is the FVM face made from mesh face `i`: its polyline are the nodes of the face, closed; its owner is the element of the face
and its neighbour the element of the paired face. -/
def MadeFrom (nrm : Vec3 K → K) (m : Mesh K) (i : Int) (g : FvmFace K) : Prop :=
  ∃ f, m.faces.get? i = some f ∧ g.hasPair = f.hasPair ∧ g.cvId = f.elementId ∧
    (∃ vs, m.coords f.nodeIds = vs.map some ∧ g.vs = Polyline.close nrm 0 vs) ∧
    (f.hasPair = true → ∃ f', m.faces.get? f.pairFaceId = some f' ∧ g.nbId = f'.elementId) ∧ (f.hasPair = false → g.nbId = 0)

theorem makeFace_spec (nrm : Vec3 K → K) {m : Mesh K} (hm : m.WF) (hs : m.SymmetricPairs) {i : Int} {f : Face}
    (hf : m.faces.get? i = some f) : ∃ g, makeFace nrm m f = some g ∧ MadeFrom nrm m i g := by
  obtain ⟨vs, hvs⟩ : ∃ vs, f.nodeIds.mapM m.nodes.get? = some vs ∧ m.coords f.nodeIds = vs.map some := by
    have : ∀ l : List Int, (∀ n ∈ l, n ∈ m.nodes.ids) → ∃ vs, l.mapM m.nodes.get? = some vs ∧ m.coords l = vs.map some := by
      intro l
      induction l with
      | nil => intro _; exact ⟨[], rfl, rfl⟩
      | cons a t ih =>
        intro h
        obtain ⟨v, hv⟩ := (hm.nodes.2 a).1 (h a (by simp))
        obtain ⟨vs, h1, h2⟩ := ih (fun n hn => h n (by simp [hn]))
        refine ⟨v :: vs, by simp [List.mapM_cons, hv, h1], ?_⟩
        simp only [coords, List.map_cons, hv] at h2 ⊢
        rw [h2]
    exact this _ (hm.faceNodes i f hf)
  cases hp : f.hasPair with
  | false =>
    refine ⟨{ vs := Polyline.close nrm 0 vs, hasPair := f.hasPair, cvId := f.elementId, nbId := 0 }, ?_, f, hf, rfl, rfl, ⟨vs, hvs.2, rfl⟩, ?_, fun _ => rfl⟩
    · simp only [makeFace, hvs.1, hp, Option.bind_eq_bind, Option.bind_some]; rfl
    · intro h; rw [hp] at h; simp at h
  | true =>
    obtain ⟨h1, g, hg, h2, h3⟩ := hs i f hf hp
    refine ⟨{ vs := Polyline.close nrm 0 vs, hasPair := f.hasPair, cvId := f.elementId, nbId := g.elementId }, ?_, f, hf, rfl, rfl,
      ⟨vs, hvs.2, rfl⟩, fun _ => ⟨g, hg, rfl⟩, ?_⟩
    · simp only [makeFace, hvs.1, hp, hg, if_true, Option.map_some, Option.bind_eq_bind, Option.bind_some]; rfl
    · intro h; rw [hp] at h; simp at h

/-- The mesh face `i` is one of `R` or the pair of one of `R`. -/
def Covered (m : Mesh K) (R : List Int) (i : Int) : Prop := ∃ j ∈ R, i = j ∨ m.partner j = some i

/-- The state of the first loop when the mesh faces `R` have been turned into FVM faces. -/
structure SetInv (nrm : Vec3 K → K) (m : Mesh K) (R : List Int) (s : SetState K) : Prop where
  filled : ∃ L, Filled s.faces L ∧ List.Forall₂ (MadeFrom nrm m) R L
  next : s.next = R.length
  nodup : R.Nodup
  sub : ∀ j ∈ R, j ∈ m.faces.ids
  sep : ∀ j ∈ R, ∀ p, m.partner j = some p → p ∉ R
  new : ∀ i k, s.new.find? i = some k ↔ ∃ n : Nat, k = n ∧ ∃ j, R[n]? = some j ∧ (i = j ∨ m.partner j = some i)
  added : ∀ i ∈ m.faces.ids, ∃ b, s.added.find? i = some b ∧ (b = true ↔ Covered m R i)

theorem faceStep_spec (nrm : Vec3 K → K) {m : Mesh K} (hm : m.WF) (hs : m.SymmetricPairs) {R : List Int} {s : SetState K}
    (h : SetInv nrm m R s) {id : Int} (hid : id ∈ m.faces.ids) :
    ∃ s' R', faceStep nrm m id s = some s' ∧ SetInv nrm m R' s' ∧ (∀ i, Covered m R i → Covered m R' i) ∧ Covered m R' id ∧
      (∀ j ∈ R', j ∈ R ∨ j = id ∧ ∀ p, m.partner id = some p → ¬ Covered m R p) := by
  obtain ⟨b, hb, hbc⟩ := h.added id hid
  by_cases hcov : Covered m R id
  · refine ⟨s, R, ?_, h, fun _ hi => hi, hcov, fun j hj => Or.inl hj⟩
    have := hbc.2 hcov
    subst this
    simp [faceStep, hb]
  · have hbf : b = false := by
      cases b with
      | false => rfl
      | true => exact absurd (hbc.1 rfl) hcov
    subst hbf
    obtain ⟨f, hf⟩ := (hm.faces.2 id).1 hid
    obtain ⟨g, hg, hmade⟩ := makeFace_spec nrm hm hs hf
    obtain ⟨L, hL, hRL⟩ := h.filled
    have hlen : L.length = R.length := hRL.length_eq.symm
    have hnext : s.faces.nextId = s.next := by rw [hL.nextId, hlen, h.next]
    have hidR : id ∉ R := fun hr => hcov ⟨id, hr, Or.inl rfl⟩
    have hfilled : ∃ L, Filled (s.faces.add s.next g) L ∧ List.Forall₂ (MadeFrom nrm m) (R ++ [id]) L := by
      refine ⟨L ++ [g], ?_, List.rel_append hRL (List.Forall₂.cons hmade List.Forall₂.nil)⟩
      rw [← hnext]; exact hL.add g
    -- a partner of `id` is not covered either
    have hpc : ∀ p, m.partner id = some p → ¬ Covered m R p := by
      rintro p hp ⟨j, hj, rfl | hjp⟩
      · exact hcov ⟨p, hj, Or.inr (partner_symm hs hp).1⟩
      · have h1 := (partner_symm hs hp).1
        have h2 := (partner_symm hs hjp).1
        rw [h1] at h2
        cases h2
        exact hidR hj
    have hsub : ∀ j ∈ R ++ [id], j ∈ m.faces.ids := by
      intro j hj
      rw [List.mem_append, List.mem_singleton] at hj
      rcases hj with hj | rfl
      · exact h.sub j hj
      · exact hid
    have hnodup : (R ++ [id]).Nodup := by
      rw [List.nodup_append]
      exact ⟨h.nodup, List.nodup_singleton id, fun a ha b hb => by
        rw [List.mem_singleton] at hb; subst hb; rintro rfl; exact hidR ha⟩
    have hsep : ∀ j ∈ R ++ [id], ∀ p, m.partner j = some p → p ∉ R ++ [id] := by
      intro j hj p hp hmem
      rw [List.mem_append, List.mem_singleton] at hj hmem
      rcases hj with hj | rfl
      · rcases hmem with hmem | rfl
        · exact h.sep j hj p hp hmem
        · exact hcov ⟨j, hj, Or.inr hp⟩
      · rcases hmem with hmem | rfl
        · exact hpc p hp ⟨p, hmem, Or.inl rfl⟩
        · exact (partner_symm hs hp).2 rfl
    have hmono : ∀ i, Covered m R i → Covered m (R ++ [id]) i := by
      rintro i ⟨j, hj, h'⟩
      exact ⟨j, by simp [hj], h'⟩
    have hcov' : ∀ i, Covered m (R ++ [id]) i ↔ Covered m R i ∨ i = id ∨ m.partner id = some i := by
      intro i
      constructor
      · rintro ⟨j, hj, h'⟩
        rw [List.mem_append, List.mem_singleton] at hj
        rcases hj with hj | rfl
        · exact Or.inl ⟨j, hj, h'⟩
        · exact Or.inr h'
      · rintro (h' | h')
        · exact hmono i h'
        · exact ⟨id, by simp, h'⟩
    have hnewold : ∀ i, ¬ Covered m R i → s.new.find? i = none := by
      intro i hi
      cases hx : s.new.find? i with
      | none => rfl
      | some k =>
        obtain ⟨n, -, j, hj, h'⟩ := (h.new i k).1 hx
        exact absurd ⟨j, List.mem_of_getElem? hj, h'⟩ hi
    have hnew : ∀ (N : SMap Int Int), (∀ i, N.find? i = if i = id ∨ m.partner id = some i then some s.next else s.new.find? i) →
        ∀ i k, N.find? i = some k ↔ ∃ n : Nat, k = n ∧ ∃ j, (R ++ [id])[n]? = some j ∧ (i = j ∨ m.partner j = some i) := by
      intro N hN i k
      rw [hN]
      by_cases hi : i = id ∨ m.partner id = some i
      · have hic : ¬ Covered m R i := by
          rcases hi with rfl | hi
          · exact hcov
          · exact hpc i hi
        rw [if_pos hi]
        constructor
        · intro hk
          cases hk
          exact ⟨R.length, h.next, id, by simp, hi⟩
        · rintro ⟨n, rfl, j, hj, h'⟩
          rw [List.getElem?_append] at hj
          split_ifs at hj with hn
          · exact absurd ⟨j, List.mem_of_getElem? hj, h'⟩ hic
          · have hlt := (List.getElem?_eq_some_iff.1 hj).1
            simp at hlt
            rw [h.next]; congr 1; omega
      · rw [if_neg hi, h.new]
        constructor
        · rintro ⟨n, hk, j, hj, h'⟩
          exact ⟨n, hk, j, by rw [List.getElem?_append_left (List.getElem?_eq_some_iff.1 hj).1]; exact hj, h'⟩
        · rintro ⟨n, hk, j, hj, h'⟩
          rw [List.getElem?_append] at hj
          split_ifs at hj with hn
          · exact ⟨n, hk, j, hj, h'⟩
          · have hmem := List.mem_of_getElem? hj
            rw [List.mem_singleton] at hmem
            subst hmem
            exact absurd h' hi
    have hadd : ∀ (D : SMap Int Bool), (∀ i, D.find? i = if i = id ∨ m.partner id = some i then some true else s.added.find? i) →
        ∀ i ∈ m.faces.ids, ∃ b, D.find? i = some b ∧ (b = true ↔ Covered m (R ++ [id]) i) := by
      intro D hD i hi
      rw [hD]
      by_cases hc : i = id ∨ m.partner id = some i
      · rw [if_pos hc]
        exact ⟨true, rfl, by simp [hcov', hc]⟩
      · rw [if_neg hc]
        obtain ⟨b, h1, h2⟩ := h.added i hi
        exact ⟨b, h1, by rw [h2, hcov']; simp [hc]⟩
    have hlast : ∀ j ∈ R ++ [id], j ∈ R ∨ j = id ∧ ∀ p, m.partner id = some p → ¬ Covered m R p := by
      intro j hj
      rcases List.mem_append.1 hj with hj | hj
      · exact Or.inl hj
      · exact Or.inr ⟨List.mem_singleton.1 hj, hpc⟩
    cases hp : f.hasPair with
    | false =>
      have hpn : m.partner id = none := by simp [partner, hf, hp]
      refine ⟨{ faces := s.faces.add s.next g, added := s.added.insert id true, new := s.new.insert id s.next, next := s.next + 1 },
        R ++ [id], ?_, ⟨hfilled, by simp [h.next], hnodup, hsub, hsep, hnew _ ?_, hadd _ ?_⟩, hmono, ⟨id, by simp, Or.inl rfl⟩, hlast⟩
      · simp only [faceStep, hb, hf, hg, hp, Option.bind_eq_bind, Option.bind_some]; rfl
      · intro i; simp [SMap.find?_insert, hpn]
      · intro i; simp [SMap.find?_insert, hpn]
    | true =>
      have hpn : m.partner id = some f.pairFaceId := by simp [partner, hf, hp]
      refine ⟨{ faces := s.faces.add s.next g, added := (s.added.insert id true).insert f.pairFaceId true,
                new := (s.new.insert id s.next).insert f.pairFaceId s.next, next := s.next + 1 },
        R ++ [id], ?_, ⟨hfilled, by simp [h.next], hnodup, hsub, hsep, hnew _ ?_, hadd _ ?_⟩, hmono, ⟨id, by simp, Or.inl rfl⟩, hlast⟩
      · simp only [faceStep, hb, hf, hg, hp, Option.bind_eq_bind, Option.bind_some, if_true]; rfl
      · intro i
        rw [SMap.find?_insert, SMap.find?_insert, hpn]
        by_cases h1 : i = f.pairFaceId
        · simp [h1]
        · by_cases h2 : i = id
          · simp [h2]
          · simp [h1, h2, Ne.symm h1]
      · intro i
        rw [SMap.find?_insert, SMap.find?_insert, hpn]
        by_cases h1 : i = f.pairFaceId
        · simp [h1]
        · by_cases h2 : i = id
          · simp [h2]
          · simp [h1, h2, Ne.symm h1]

theorem faceLoop_spec (nrm : Vec3 K → K) {m : Mesh K} (hm : m.WF) (hs : m.SymmetricPairs) (l : List Int) :
    ∀ (R : List Int) (s : SetState K), SetInv nrm m R s → (∀ i ∈ l, i ∈ m.faces.ids) →
    ∃ s' R', faceLoop nrm m l s = some s' ∧ SetInv nrm m R' s' ∧ (∀ i, Covered m R i → Covered m R' i) ∧ (∀ i ∈ l, Covered m R' i) ∧
      (∀ d, m.faces.ids = d ++ l → (∀ i ∈ d, Covered m R i) → (∀ j ∈ R, ∀ p, m.partner j = some p → [j, p].Sublist m.faces.ids) →
        ∀ j ∈ R', ∀ p, m.partner j = some p → [j, p].Sublist m.faces.ids) := by
  induction l with
  | nil => intro R s h _; exact ⟨s, R, rfl, h, fun _ hi => hi, by simp, fun _ _ _ h => h⟩
  | cons id t ih =>
    intro R s h hl
    obtain ⟨s1, R1, h1, h2, h3, h4, h5⟩ := faceStep_spec nrm hm hs h (hl id (by simp))
    obtain ⟨s', R', g1, g2, g3, g4, g5⟩ := ih R1 s1 h2 (fun i hi => hl i (by simp [hi]))
    refine ⟨s', R', ?_, g2, fun i hi => g3 i (h3 i hi), ?_, ?_⟩
    · simp only [faceLoop, h1, Option.bind_eq_bind, Option.bind_some, g1]
    · intro i hi
      rcases List.mem_cons.1 hi with rfl | hi
      · exact g3 _ h4
      · exact g4 i hi
    · intro d hd hdc hR
      refine g5 (d ++ [id]) (by rw [hd]; simp) ?_ ?_
      · intro i hi
        rcases List.mem_append.1 hi with hi | hi
        · exact h3 i (hdc i hi)
        · rw [List.mem_singleton.1 hi]; exact h4
      · intro j hj p hp
        rcases h5 j hj with hj | ⟨rfl, hnc⟩
        · exact hR j hj p hp
        · have hpm : p ∈ m.faces.ids := by
            obtain ⟨q1, -⟩ := partner_symm hs hp
            have : (m.faces.get? p).isSome := by
              unfold partner at q1
              cases hg : m.faces.get? p with
              | none => simp [hg] at q1
              | some _ => rfl
            exact (hm.faces.2 p).2 (Option.isSome_iff_exists.1 this)
          have hpd : p ∉ d := fun h' => hnc p hp (hdc p h')
          have hpt : p ∈ t := by
            rw [hd] at hpm
            rcases List.mem_append.1 hpm with h' | h'
            · exact absurd h' hpd
            · exact (List.mem_cons.1 h').resolve_left (partner_symm hs hp).2
          rw [hd]
          exact (List.Sublist.cons_cons j (List.singleton_sublist.2 hpt)).trans (List.sublist_append_right d _)

theorem init_inv (nrm : Vec3 K → K) (m : Mesh K) :
    SetInv nrm m [] ⟨Cont.empty, Mesh.setAll false m.faces.ids SMap.empty, SMap.empty, 0⟩ := by
  refine ⟨⟨[], filled_empty, List.Forall₂.nil⟩, rfl, List.nodup_nil, by simp, by simp, by simp, ?_⟩
  intro i hi
  refine ⟨false, ?_, by simp [Covered]⟩
  rw [setAll_find]; simp [hi]

/-! ### Control volumes -/

/-- The polygon of an FVM face as seen from the control volume `cv`. -/
def seenFrom (cv : Int) (g : FvmFace K) : List (Vec3 K) := if g.cvId = cv then g.vs else g.vs.reverse

theorem cvFaceLoop_spec (faces : Cont (FvmFace K)) (new : SMap Int Int) (cv : Int) (ν : Int → Int) (γ : Int → FvmFace K) (l : List Int) :
    ∀ c : ControlVolume K, (∀ j ∈ l, new.find? j = some (ν j) ∧ faces.get? (ν j) = some (γ j)) →
    cvFaceLoop faces new cv l c = some ⟨c.cvId, c.poly.addPolygons (l.map fun j => (ν j, Polygon.ofPolyline (seenFrom cv (γ j))))⟩ := by
  induction l with
  | nil => intro c _; rfl
  | cons j t ih =>
    intro c hl
    obtain ⟨h1, h2⟩ := hl j (by simp)
    simp only [cvFaceLoop, h1, h2, Option.bind_eq_bind, Option.bind_some]
    rw [ih _ (fun i hi => hl i (by simp [hi]))]
    have hvs : (if (γ j).cvId ≠ cv then { γ j with vs := VertexList.invert (γ j).vs } else γ j).vs = seenFrom cv (γ j) := by
      unfold seenFrom
      by_cases h : (γ j).cvId = cv <;> simp [h, VertexList.invert]
    simp only [ControlVolume.addFace, hvs, List.map_cons, Polyhedron.addPolygons]

theorem cvLoop_spec (m : Mesh K) (faces : Cont (FvmFace K)) (new : SMap Int Int) (P : Int → ControlVolume K → Prop) (l : List Int) (hl : l.Nodup)
    (hcv : ∀ id ∈ l, ∃ e c, m.elements.get? id = some e ∧ cvFaceLoop faces new id e.faceIds (ControlVolume.new id) = some c ∧ P id c) :
    ∀ cvs : Cont (ControlVolume K), cvs.Ok → cvs.Synced → cvs.counter = cvs.ids.length → (∀ i ∈ l, i ∉ cvs.ids) →
    ∃ cvs', cvLoop m faces new l cvs = some cvs' ∧ cvs'.Ok ∧ cvs'.Synced ∧ cvs'.ids = cvs.ids ++ l ∧
      (∀ i ∈ l, ∃ c, cvs'.get? i = some c ∧ P i c) ∧ (∀ i, i ∉ l → cvs'.get? i = cvs.get? i) := by
  induction l with
  | nil => intro cvs h1 h2 _ _; exact ⟨cvs, rfl, h1, h2, by simp, by simp, fun _ _ => rfl⟩
  | cons id t ih =>
    intro cvs h1 h2 h3 h4
    rw [List.nodup_cons] at hl
    obtain ⟨e, c, he, hc, hP⟩ := hcv id (by simp)
    have hnot := h4 id (by simp)
    obtain ⟨cvs', g1, g2, g3, g4, g5, g6⟩ := ih hl.2 (fun i hi => hcv i (by simp [hi])) (cvs.add id c) (add_ok h1 c hnot)
      (add_synced cvs c h2 h3 hnot) (by simp [Cont.add, h3]) (by
        intro i hi hmem
        simp only [Cont.add, List.mem_append, List.mem_singleton] at hmem
        rcases hmem with hmem | rfl
        · exact h4 i (by simp [hi]) hmem
        · exact hl.1 hi)
    refine ⟨cvs', ?_, g2, g3, by rw [g4]; simp [Cont.add], ?_, ?_⟩
    · simp only [cvLoop, he, hc, Option.bind_eq_bind, Option.bind_some, g1]
    · intro i hi
      rcases List.mem_cons.1 hi with rfl | hi
      · refine ⟨c, ?_, hP⟩
        rw [g6 _ hl.1, get?_add, if_pos rfl]
      · exact g5 i hi
    · intro i hi
      rw [List.mem_cons, not_or] at hi
      rw [g6 i hi.2, get?_add, if_neg hi.1]

theorem count_spec {nrm : Vec3 K → K} {m : Mesh K} (hm : m.WF) (hs : m.SymmetricPairs) {R : List Int} {s : SetState K}
    (h : SetInv nrm m R s) (hall : ∀ i ∈ m.faces.ids, Covered m R i) :
    ∃ pairs, R.length = m.nbUnpaired + pairs ∧ m.faces.ids.length = m.nbUnpaired + 2 * pairs := by
  have hpm : ∀ j ∈ R, ∀ p, m.partner j = some p → p ∈ m.faces.ids := by
    intro j _ p hp
    have := (partner_symm hs hp).1
    unfold partner at this
    obtain ⟨f, hf, -⟩ := Option.bind_eq_some_iff.1 this
    exact (hm.faces.2 p).2 ⟨f, hf⟩
  have hnd : (R ++ R.filterMap m.partner).Nodup := by
    rw [List.nodup_append]
    refine ⟨h.nodup, ?_, ?_⟩
    · refine List.Nodup.filterMap ?_ h.nodup
      intro a b c ha hb
      have h1 := (partner_symm hs ha).1
      have h2 := (partner_symm hs hb).1
      rw [h1] at h2; exact Option.some.inj h2
    · intro a ha b hb hab
      subst hab
      obtain ⟨j, hj, hjp⟩ := List.mem_filterMap.1 hb
      exact h.sep j hj a hjp ha
  have hperm : m.faces.ids.Perm (R ++ R.filterMap m.partner) := by
    rw [List.perm_ext_iff_of_nodup hm.faces.1 hnd]
    intro i
    rw [List.mem_append, List.mem_filterMap]
    constructor
    · intro hi
      obtain ⟨j, hj, rfl | h'⟩ := hall i hi
      · exact Or.inl hj
      · exact Or.inr ⟨j, hj, h'⟩
    · rintro (hi | ⟨j, hj, h'⟩)
      · exact h.sub i hi
      · exact hpm j hj i h'
  have hsplit : ∀ l : List Int, l.length = (l.filter fun i => (m.partner i).isNone).length + (l.filterMap m.partner).length := by
    intro l
    induction l with
    | nil => rfl
    | cons a t ih =>
      cases hp : m.partner a with
      | none => simp [hp, ih]; omega
      | some p => simp [hp, ih]; omega
  have hun : m.nbUnpaired = (R.filter fun i => (m.partner i).isNone).length := by
    unfold nbUnpaired
    rw [(hperm.filter _).length_eq, List.filter_append, List.length_append]
    have : ((R.filterMap m.partner).filter fun i => (m.partner i).isNone) = [] := by
      rw [List.filter_eq_nil_iff]
      intro a ha
      obtain ⟨j, hj, hjp⟩ := List.mem_filterMap.1 ha
      simp [(partner_symm hs hjp).1]
    rw [this]; rfl
  refine ⟨(R.filterMap m.partner).length, ?_, ?_⟩
  · rw [hun]; exact hsplit R
  · rw [hperm.length_eq, List.length_append, hun]
    have := hsplit R
    omega

end FvmMesh

open Mesh FvmMesh
variable {K : Type} [Field K] [LinearOrder K] [IsStrictOrderedRing K]

/-- **C24.** For every consistent mesh with symmetric pairing, `set` succeeds. There is an assignment `ν` of FVM face ids to mesh
faces, `γ` being the FVM face, such that: two mesh faces share an FVM face exactly when they are paired; every FVM face comes from a
mesh face and is made from it or from its pair (nodes, owner, neighbour), whichever comes first in the mesh; there are as many FVM faces as unpaired mesh faces plus
pairs; the control volumes are the elements in their order, and the polygons of a control volume are the FVM faces of the faces of
the element, in their order, turned round when the control volume is not the owner. -/
theorem C24_set (nrm : Vec3 K → K) (m : Mesh K) (hm : m.WF) (hs : m.SymmetricPairs) (hf : m.FaceIdsOk) :
    ∃ (r : FvmMesh K) (ν : Int → Int) (γ : Int → FvmFace K), FvmMesh.set nrm m = some r ∧
      r.faces.Ok ∧ r.faces.RoundTrip ∧ r.cvs.Ok ∧ r.cvs.RoundTrip ∧
      (∀ i ∈ m.faces.ids, r.faces.get? (ν i) = some (γ i) ∧
        (MadeFrom nrm m i (γ i) ∧ (∀ p, m.partner i = some p → [i, p].Sublist m.faces.ids) ∨
          ∃ p, m.partner i = some p ∧ MadeFrom nrm m p (γ i) ∧ [p, i].Sublist m.faces.ids)) ∧
      (∀ i ∈ m.faces.ids, ∀ i' ∈ m.faces.ids, ν i = ν i' ↔ i = i' ∨ m.partner i = some i') ∧
      (∀ k ∈ r.faces.ids, ∃ i ∈ m.faces.ids, ν i = k) ∧
      (∃ pairs, r.faces.count = m.nbUnpaired + pairs ∧ m.faces.count = m.nbUnpaired + 2 * pairs) ∧
      r.cvs.ids = m.elements.ids ∧
      (∀ id e, m.elements.get? id = some e →
        r.cvs.get? id = some ⟨id, Polyhedron.build (e.faceIds.map fun j => (ν j, seenFrom id (γ j)))⟩) := by
  obtain ⟨s, R, h1, h2, -, h4, hfirst⟩ := faceLoop_spec nrm hm hs m.faces.ids [] _ (init_inv nrm m) (fun _ hi => hi)
  have hfirst := hfirst [] rfl (by simp) (by simp)
  obtain ⟨L, hL, hRL⟩ := h2.filled
  have hlen : R.length = L.length := hRL.length_eq
  have hνx : ∀ i ∈ m.faces.ids, ∃ k, s.new.find? i = some k := by
    intro i hi
    obtain ⟨j, hj, h'⟩ := h4 i hi
    obtain ⟨n, hn⟩ := List.mem_iff_getElem?.1 hj
    exact ⟨n, (h2.new i n).2 ⟨n, rfl, j, hn, h'⟩⟩
  let ν : Int → Int := fun i => (s.new.find? i).getD 0
  have hν : ∀ i ∈ m.faces.ids, s.new.find? i = some (ν i) := by
    intro i hi
    obtain ⟨k, hk⟩ := hνx i hi
    simp [ν, hk]
  have hγx : ∀ i ∈ m.faces.ids, ∃ g, s.faces.get? (ν i) = some g ∧ (MadeFrom nrm m i g ∧ (∀ p, m.partner i = some p → [i, p].Sublist m.faces.ids) ∨
      ∃ p, m.partner i = some p ∧ MadeFrom nrm m p g ∧ [p, i].Sublist m.faces.ids) := by
    intro i hi
    obtain ⟨n, hn, j, hj, h'⟩ := (h2.new i (ν i)).1 (hν i hi)
    have hlt : n < L.length := by rw [← hlen]; exact (List.getElem?_eq_some_iff.1 hj).1
    have hmade : MadeFrom nrm m j L[n] := by
      have := List.Forall₂.get hRL (by rw [hlen]; exact hlt) hlt
      rwa [List.get_eq_getElem, List.get_eq_getElem, (List.getElem?_eq_some_iff.1 hj).2] at this
    refine ⟨L[n], by rw [hn, hL.get, List.getElem?_eq_getElem hlt], ?_⟩
    rcases h' with rfl | h'
    · exact Or.inl ⟨hmade, hfirst _ (List.mem_of_getElem? hj)⟩
    · exact Or.inr ⟨j, (partner_symm hs h').1, hmade, hfirst _ (List.mem_of_getElem? hj) _ h'⟩
  let γ : Int → FvmFace K := fun i => (s.faces.get? (ν i)).getD {}
  have hγ : ∀ i ∈ m.faces.ids, s.faces.get? (ν i) = some (γ i) := by
    intro i hi
    obtain ⟨g, hg, -⟩ := hγx i hi
    simp [γ, hg]
  obtain ⟨cvs, c1, c2, c3, c4, c5, -⟩ := cvLoop_spec m s.faces s.new
    (fun id c => ∀ e, m.elements.get? id = some e → c = ⟨id, Polyhedron.build (e.faceIds.map fun j => (ν j, seenFrom id (γ j)))⟩)
    m.elements.ids hm.elements.1 (by
      intro id hid
      obtain ⟨e, he⟩ := (hm.elements.2 id).1 hid
      have hcv := cvFaceLoop_spec s.faces s.new id ν γ e.faceIds (ControlVolume.new id)
        (fun j hj => ⟨hν j (hf id e he j hj), hγ j (hf id e he j hj)⟩)
      refine ⟨e, _, he, hcv, ?_⟩
      intro e' he'
      rw [he] at he'
      cases he'
      simp only [ControlVolume.new, Polyhedron.build, List.map_map, Function.comp_def]) Cont.empty Cont.empty_ok Cont.empty_synced rfl (by simp [Cont.empty])
  obtain ⟨pairs, p1, p2⟩ := count_spec hm hs h2 h4
  refine ⟨⟨s.faces, cvs⟩, ν, γ, ?_, hL.ok, hL.synced.roundTrip, c2, c3.roundTrip, ?_, ?_, ?_, ⟨pairs, ?_, p2⟩, by simpa [Cont.empty] using c4, ?_⟩
  · simp only [FvmMesh.set, h1, c1, Option.bind_eq_bind, Option.bind_some]; rfl
  · intro i hi
    obtain ⟨g, hg, hg'⟩ := hγx i hi
    have := hγ i hi
    rw [hg] at this
    cases this
    exact ⟨hg, hg'⟩
  · intro i hi i' hi'
    constructor
    · intro heq
      obtain ⟨n, hn, j, hj, h'⟩ := (h2.new i (ν i)).1 (hν i hi)
      obtain ⟨n', hn', j', hj', h''⟩ := (h2.new i' (ν i')).1 (hν i' hi')
      have hnn : n = n' := by rw [heq, hn'] at hn; exact_mod_cast hn.symm
      subst hnn
      rw [hj] at hj'
      cases hj'
      rcases h' with rfl | h'
      · rcases h'' with rfl | h''
        · exact Or.inl rfl
        · exact Or.inr h''
      · rcases h'' with rfl | h''
        · exact Or.inr (partner_symm hs h').1
        · rw [h'] at h''; exact Or.inl (Option.some.inj h'')
    · rintro (rfl | hp)
      · rfl
      · obtain ⟨n, hn, j, hj, h'⟩ := (h2.new i (ν i)).1 (hν i hi)
        have : s.new.find? i' = some (ν i) := by
          rw [h2.new]
          refine ⟨n, hn, j, hj, ?_⟩
          rcases h' with rfl | h'
          · exact Or.inr hp
          · rw [(partner_symm hs h').1] at hp
            exact Or.inl (Option.some.inj hp).symm
        rw [hν i' hi'] at this
        exact (Option.some.inj this).symm
  · intro k hk
    rw [hL.ids, mem_iota] at hk
    obtain ⟨n, rfl⟩ := Int.eq_ofNat_of_zero_le hk.1
    have hlt : n < R.length := by rw [hlen]; omega
    have hmem : R[n] ∈ m.faces.ids := h2.sub _ (List.getElem_mem hlt)
    refine ⟨R[n], hmem, ?_⟩
    have : s.new.find? R[n] = some (n : Int) := (h2.new _ _).2 ⟨n, rfl, R[n], List.getElem?_eq_getElem hlt, Or.inl rfl⟩
    rw [hν _ hmem] at this
    exact Option.some.inj this
  · rw [Cont.count, hL.ids, ← p1, hlen]; simp [iota]
  · intro id e he
    obtain ⟨c, e1, e2⟩ := c5 id ((hm.elements.2 id).2 ⟨e, he⟩)
    rw [e1, e2 e he]

/-- **C24.** The hypotheses of `C24_set` are what `generateFaces` establishes, for every mesh in which at most two element faces
coincide: it succeeds, and on its result pairing is symmetric, elements refer to stored faces, and every face is listed by exactly the
element it belongs to. -/
theorem C24_after_generateFaces [FloorRing K] (mc : HashGrid.Machine K) (m : Mesh K) (hm : m.WF) (hf : m.FullElements) (hg : GoodFaces mc m)
    (tol : K) (htol : 0 ≤ tol) (m' : Mesh K) (hgen : generateFaces mc m tol = some m')
    (h2 : ∀ i j k f g h, m'.faces.get? i = some f → m'.faces.get? j = some g → m'.faces.get? k = some h →
          Coincide f g → Coincide f h → i ≠ j → i ≠ k → j = k) :
    m'.WF ∧ m'.SymmetricPairs ∧ m'.FaceIdsOk ∧
      (∀ id e, m'.elements.get? id = some e → ∀ fid : Int, fid ∈ e.faceIds ↔ ∃ f, m'.faces.get? fid = some f ∧ f.elementId = id) := by
  obtain ⟨m1, a1, a2, a3, a4, a5, a6, a7, a8, a9⟩ := C07_generateFaces_faces mc m hm hf hg tol htol
  obtain ⟨m2, b1, b2, b3, b4, b5⟩ := C07_generateFaces_pairs mc m hm hf hg tol htol
  rw [hgen] at a1 b1
  cases a1; cases b1
  obtain ⟨c1, c2⟩ := b5 h2
  refine ⟨a5, ?_, ?_, a9⟩
  · intro i f hi hp
    obtain ⟨d1, g, d2, d3⟩ := b3 i f hi hp
    have := (c2 i f.pairFaceId f g hi d2).1 ⟨hp, rfl⟩
    exact ⟨d1, g, d2, this⟩
  · intro id e he j hj
    obtain ⟨f, hf', -⟩ := (a9 id e he j).1 hj
    exact (a5.faces.2 j).2 ⟨f, hf'⟩

/-- A concrete case: two tetrahedra sharing a face, with any function as length (it only decides whether to close a polyline). Eight
mesh faces, one pair: seven FVM faces; each tetrahedron has four polygons and they share FVM face 1. -/
example : (((generateFaces smallMachine twoTets 0).bind (FvmMesh.set fun v => |v.x| + |v.y| + |v.z|)).map fun r =>
    (r.faces.count, r.cvs.ids, r.cvs.ids.map fun i => (r.cvs.get? i).map fun c => c.poly.ids)) =
    some (7, [0, 1], [some [0, 1, 2, 3], some [4, 1, 5, 6]]) := by decide +kernel

/-! ### C23 -/

/-- **C23.** For a face whose two sides have been set to different cells `a` and `b`, the queries from either side are
complementary. -/
theorem C23_sides (f : FvmFace K) (a b : Int) (hab : a ≠ b) :
    let g := (f.setControlVolumeId a).setNeighborId b
    g.controlVolumeId a = a ∧ g.neighborId a = b ∧ g.controlVolumeId b = b ∧ g.neighborId b = a := by
  simp [FvmFace.controlVolumeId, FvmFace.neighborId, FvmFace.setControlVolumeId, FvmFace.setNeighborId, hab]

/-- **C23.** In an FVM mesh made from a mesh with symmetric pairing, the face shared by two different elements answers each of them
with itself and with the other one. -/
theorem C23_shared_face (nrm : Vec3 K → K) (m : Mesh K) (hm : m.WF) (hs : m.SymmetricPairs) (hf : m.FaceIdsOk) :
    ∃ (r : FvmMesh K) (ν : Int → Int), FvmMesh.set nrm m = some r ∧
      ∀ i f p f', m.faces.get? i = some f → m.partner i = some p → m.faces.get? p = some f' → f.elementId ≠ f'.elementId →
        ν i = ν p ∧ ∃ g, r.faces.get? (ν i) = some g ∧ g.hasPair = true ∧
          g.controlVolumeId f.elementId = f.elementId ∧ g.neighborId f.elementId = f'.elementId ∧
          g.controlVolumeId f'.elementId = f'.elementId ∧ g.neighborId f'.elementId = f.elementId := by
  obtain ⟨r, ν, γ, h1, h2, h3, h4, h5, h6, h7, -⟩ := C24_set nrm m hm hs hf
  refine ⟨r, ν, h1, ?_⟩
  intro i f p f' hi hp hp' hne
  have him := (hm.faces.2 i).2 ⟨f, hi⟩
  have hpm := (hm.faces.2 p).2 ⟨f', hp'⟩
  refine ⟨(h7 i him p hpm).2 (Or.inr hp), γ i, (h6 i him).1, ?_⟩
  have hpair : ∀ (j : Int) (x : Face) (q : Int), m.faces.get? j = some x → m.partner j = some q → x.hasPair = true ∧ x.pairFaceId = q := by
    intro j x q hj hq
    simp only [partner, hj, Option.bind_some] at hq
    split_ifs at hq with hx
    exact ⟨hx, Option.some.inj hq⟩
  have hp2 := (partner_symm hs hp).1
  rcases (h6 i him).2 with ⟨⟨x, q1, q2, q3, -, q5, -⟩, -⟩ | ⟨p', hp'', ⟨x, q1, q2, q3, -, q5, -⟩, -⟩
  · rw [hi] at q1; cases q1
    obtain ⟨e1, e2⟩ := hpair i f p hi hp
    obtain ⟨y, y1, y2⟩ := q5 e1
    rw [e2, hp'] at y1; cases y1
    simp [FvmFace.controlVolumeId, FvmFace.neighborId, q2, e1, q3, y2, hne]
  · rw [hp] at hp''; cases hp''
    rw [hp'] at q1; cases q1
    obtain ⟨e1, e2⟩ := hpair p f' i hp' hp2
    obtain ⟨y, y1, y2⟩ := q5 e1
    rw [e2, hi] at y1; cases y1
    simp [FvmFace.controlVolumeId, FvmFace.neighborId, q2, e1, q3, y2, hne.symm]

/-- **C23 fails for boundary faces.** A boundary face is created without a neighbour, and asked for it, it answers cell 0, whether or
not there is such a cell: in every mesh, the owner of an unpaired face is told that its neighbour is cell 0. -/
theorem C23_boundary_neighbor_is_zero (nrm : Vec3 K → K) (m : Mesh K) (hm : m.WF) (hs : m.SymmetricPairs) (hf : m.FaceIdsOk) :
    ∃ (r : FvmMesh K) (ν : Int → Int), FvmMesh.set nrm m = some r ∧
      ∀ i f, m.faces.get? i = some f → f.hasPair = false →
        ∃ g, r.faces.get? (ν i) = some g ∧ g.hasPair = false ∧ g.neighborId f.elementId = 0 := by
  obtain ⟨r, ν, γ, h1, h2, h3, h4, h5, h6, h7, -⟩ := C24_set nrm m hm hs hf
  refine ⟨r, ν, h1, ?_⟩
  intro i f hi hp
  have him := (hm.faces.2 i).2 ⟨f, hi⟩
  refine ⟨γ i, (h6 i him).1, ?_⟩
  rcases (h6 i him).2 with ⟨⟨x, q1, q2, q3, -, -, q6⟩, -⟩ | ⟨p', hp'', -⟩
  · rw [hi] at q1; cases q1
    simp [FvmFace.neighborId, q2, q3, hp, q6 hp]
  · simp [partner, hi, hp] at hp''

/-- Concretely: the second tetrahedron of the pair has id 1; through its boundary face 4 it is told that cell 0 is its neighbour. -/
example : (((generateFaces smallMachine twoTets 0).bind (FvmMesh.set fun v => |v.x| + |v.y| + |v.z|)).bind fun r =>
    (r.faces.get? 4).map fun g => (g.hasPair, g.cvId, g.neighborId 1)) = some (false, 1, 0) := by decide +kernel

end ENigMA
