import Verif.Fvm.MeshSearch
import Verif.Fvm.FvmMeshProps
import Verif.Geometry.HashGridReuse

/-! # C133: searching the boundary faces near a point -/

set_option linter.unusedSectionVars false
set_option autoImplicit false

namespace ENigMA
open HashGrid

variable {K : Type} [Field K] [LinearOrder K] [IsStrictOrderedRing K] [FloorRing K]

/-- Face `id` of the mesh is on the boundary and its centre is nearer to `q` than `d`. -/
def FvmMesh.BoundaryFaceNear (M : FvmMesh K) (q : Vec3 K) (d : K) (id : Int) : Prop :=
  ∃ f, M.faces.get? id = some f ∧ f.hasPair = false ∧ 0 < d ∧ Vec3.normSq (Polygon.centroid f.vs - q) < d * d

/-- A mesh that can be searched: its face list is in order, the centres of its boundary faces are representable, and they are not all at
one place (there may be none). -/
structure FvmMesh.Searchable (m : Machine K) (M : FvmMesh K) : Prop where
  ok : M.faces.Ok
  bounded : ∀ id f, M.faces.get? id = some f → f.hasPair = false → (Polygon.centroid f.vs).Bounded m.big
  spread : m.bad ≠ none ∨ (∀ id f, M.faces.get? id = some f → f.hasPair = true) ∨
    ∃ i f j g, M.faces.get? i = some f ∧ f.hasPair = false ∧ M.faces.get? j = some g ∧ g.hasPair = false ∧
      Polygon.centroid f.vs ≠ Polygon.centroid g.vs

namespace MeshSearch

/-- The boundary faces among `ids`, with their centres. -/
def objsOf (M : FvmMesh K) (ids : List Int) : List (Int × Vec3 K) :=
  ids.filterMap fun id => (M.faces.get? id).bind fun f => if f.hasPair then none else some (id, Polygon.centroid f.vs)

theorem mem_objsOf {M : FvmMesh K} {ids : List Int} {o : Int × Vec3 K} :
    o ∈ objsOf M ids ↔ o.1 ∈ ids ∧ ∃ f, M.faces.get? o.1 = some f ∧ f.hasPair = false ∧ o.2 = Polygon.centroid f.vs := by
  unfold objsOf
  rw [List.mem_filterMap]
  constructor
  · rintro ⟨id, hid, h⟩
    cases hf : M.faces.get? id with
    | none => simp [hf] at h
    | some f =>
      cases hp : f.hasPair with
      | true => simp [hf, hp] at h
      | false =>
        simp [hf, hp] at h
        subst h
        exact ⟨hid, f, hf, hp, rfl⟩
  · rintro ⟨hid, f, hf, hp, ho⟩
    refine ⟨o.1, hid, ?_⟩
    simp [hf, hp, ← ho]

theorem nodup_objsOf {M : FvmMesh K} {ids : List Int} (h : ids.Nodup) : ((objsOf M ids).map (·.1)).Nodup := by
  have : (objsOf M ids).map (·.1) = ids.filterMap fun id => (M.faces.get? id).bind fun f => if f.hasPair then none else some id := by
    unfold objsOf
    rw [List.map_filterMap]
    congr 1
    funext id
    cases hf : M.faces.get? id with
    | none => simp
    | some f => cases hp : f.hasPair <;> simp [hp]
  rw [this]
  refine List.Nodup.filterMap ?_ h
  intro a a' b hb hb'
  simp only [Option.mem_def, Option.bind_eq_some_iff] at hb hb'
  obtain ⟨f, -, h1⟩ := hb
  obtain ⟨f', -, h2⟩ := hb'
  split_ifs at h1 h2
  simp only [Option.some.injEq] at h1 h2
  exact h1.trans h2.symm

theorem addFaces_eq (M : FvmMesh K) (ids : List Int) (h : ∀ id ∈ ids, ∃ f, M.faces.get? id = some f) (g : Grid K) :
    addFaces M ids g = some (g.addAll (objsOf M ids)) := by
  induction ids generalizing g with
  | nil => rfl
  | cons a t ih =>
    obtain ⟨f, hf⟩ := h a (by simp)
    have := ih (fun id hid => h id (by simp [hid]))
    cases hp : f.hasPair <;> simp [addFaces, hf, hp, this, objsOf, List.filterMap_cons, Grid.addAll]

theorem objsOf_searchable {m : Machine K} {M : FvmMesh K} (h : M.Searchable m) : HashGrid.Searchable m (objsOf M M.faces.ids) := by
  refine ⟨?_, ?_⟩
  · intro o ho
    obtain ⟨-, f, hf, hp, e⟩ := mem_objsOf.1 ho
    rw [e]; exact h.bounded _ f hf hp
  · rcases h.spread with h' | h' | ⟨i, f, j, g, hi, hpi, hj, hpj, hne⟩
    · exact Or.inl h'
    · right; left
      rw [List.eq_nil_iff_forall_not_mem]
      intro o ho
      obtain ⟨-, f, hf, hp, -⟩ := mem_objsOf.1 ho
      rw [h' _ f hf] at hp
      exact absurd hp (by simp)
    · right; right
      exact ⟨(i, Polygon.centroid f.vs), mem_objsOf.2 ⟨(h.ok.2 i).2 ⟨f, hi⟩, f, hi, hpi, rfl⟩,
        (j, Polygon.centroid g.vs), mem_objsOf.2 ⟨(h.ok.2 j).2 ⟨g, hj⟩, g, hj, hpj, rfl⟩, hne⟩

theorem keep_eq {M : FvmMesh K} (q : Vec3 K) (d : K) (ids : List Int) (h : ∀ id ∈ ids, ∃ f, M.faces.get? id = some f ∧ f.hasPair = false) :
    ∃ r, keep M q d ids = some r ∧ r.Sublist ids ∧ ∀ id, id ∈ r ↔ id ∈ ids ∧ M.BoundaryFaceNear q d id := by
  induction ids with
  | nil => exact ⟨[], rfl, by simp, by simp⟩
  | cons a t ih =>
    obtain ⟨r, h1, h2, h3⟩ := ih (fun id hid => h id (by simp [hid]))
    obtain ⟨f, hf, hp⟩ := h a (by simp)
    by_cases hd : 0 < d ∧ Vec3.normSq (Polygon.centroid f.vs - q) < d * d
    · refine ⟨a :: r, by simp only [keep, hf, h1, Option.bind_eq_bind, Option.bind_some, if_pos hd]; rfl, h2.cons₂ a, ?_⟩
      intro id
      simp only [List.mem_cons, h3]
      constructor
      · rintro (rfl | ⟨h5, h6⟩)
        · exact ⟨Or.inl rfl, f, hf, hp, hd⟩
        · exact ⟨Or.inr h5, h6⟩
      · rintro ⟨h5 | h5, h6⟩
        · exact Or.inl h5
        · exact Or.inr ⟨h5, h6⟩
    · refine ⟨r, by simp only [keep, hf, h1, Option.bind_eq_bind, Option.bind_some, if_neg hd]; rfl, h2.cons a, ?_⟩
      intro id
      simp only [List.mem_cons, h3]
      constructor
      · rintro ⟨h5, h6⟩
        exact ⟨Or.inr h5, h6⟩
      · rintro ⟨rfl | h5, h6⟩
        · obtain ⟨f', hf', -, h7⟩ := h6
          rw [hf] at hf'
          cases hf'
          exact absurd h7 hd
        · exact ⟨h5, h6⟩

theorem use_spec {m : Machine K} (heps : 0 < m.eps) (hbig : 0 < m.big) {s : MeshSearch K} (hs : BoxOk m s.grid.box) {M : FvmMesh K}
    (hM : M.Searchable m) :
    ∃ s', (s.set M).build m = some s' ∧ s'.mesh = some M ∧ BoxOk m s'.grid.box ∧ ∀ q tol, ∃ r, s'.grid.find m q tol = some r ∧
      r.Perm (((objsOf M M.faces.ids).filter (fun o => decide (Vec3.Within o.2 q tol))).map (·.1)) := by
  obtain ⟨g, h1, h2, h3⟩ := round_spec heps hbig hs (objsOf_searchable hM)
  have ha := addFaces_eq M M.faces.ids (fun id hid => (hM.ok.2 id).1 hid) s.grid.reset
  unfold Grid.round at h1
  exact ⟨⟨some M, g⟩, by simp [build, set, ha, h1], rfl, h2, h3⟩

end MeshSearch

open MeshSearch Mesh

/-- **C133.** One search object is used for any number of meshes in turn, each time by `set` and `build`. A search around any point with
any distance then gives every boundary face of the last mesh whose centre is nearer than the distance, exactly once, and nothing
else: no face between two cells, no face of an earlier mesh. -/
theorem C133_near (m : Machine K) (heps : 0 < m.eps) (hbig : 0 < m.big) (before : List (FvmMesh K)) (M : FvmMesh K)
    (hb : ∀ M' ∈ before, M'.Searchable m) (hM : M.Searchable m) :
    ∃ s, uses m (before ++ [M]) (MeshSearch.new m) = some s ∧ ∀ q d, ∃ r, s.find m q d = some r ∧ r.Nodup ∧
      ∀ id, id ∈ r ↔ M.BoundaryFaceNear q d id := by
  have main : ∀ (l : List (FvmMesh K)), (∀ x ∈ l, x.Searchable m) → ∀ s₀ : MeshSearch K, BoxOk m s₀.grid.box →
      ∃ s, uses m (l ++ [M]) s₀ = some s ∧ s.mesh = some M ∧ ∀ q tol, ∃ r, s.grid.find m q tol = some r ∧
      r.Perm (((objsOf M M.faces.ids).filter (fun o => decide (Vec3.Within o.2 q tol))).map (·.1)) := by
    intro l
    induction l with
    | nil =>
      intro _ s₀ hs
      obtain ⟨s, h1, h2, -, h3⟩ := use_spec heps hbig hs hM
      exact ⟨s, by simp [uses, h1], h2, h3⟩
    | cons a t ih =>
      intro hl s₀ hs
      obtain ⟨s, h1, -, h2, -⟩ := use_spec heps hbig hs (hl a (by simp))
      obtain ⟨s', h3, h4⟩ := ih (fun x hx => hl x (by simp [hx])) s h2
      exact ⟨s', by simp [uses, h1, h3], h4⟩
  obtain ⟨s, h1, h2, h3⟩ := main before hb (MeshSearch.new m) (boxOk_new m)
  refine ⟨s, h1, fun q d => ?_⟩
  obtain ⟨ids, hf, hp⟩ := h3 q (d * 2)
  have hnd : ids.Nodup := hp.nodup_iff.2 ((nodup_objsOf hM.ok.1).sublist (List.filter_sublist.map _))
  have hmem : ∀ id, id ∈ ids ↔ ∃ f, M.faces.get? id = some f ∧ f.hasPair = false ∧ Vec3.Within (Polygon.centroid f.vs) q (d * 2) := by
    intro id
    rw [hp.mem_iff, List.mem_map]
    constructor
    · rintro ⟨o, ho, rfl⟩
      rw [List.mem_filter, mem_objsOf] at ho
      obtain ⟨⟨-, f, hf, hq, e⟩, hw⟩ := ho
      rw [e] at hw
      exact ⟨f, hf, hq, by simpa using hw⟩
    · rintro ⟨f, hf, hq, hw⟩
      refine ⟨(id, Polygon.centroid f.vs), ?_, rfl⟩
      rw [List.mem_filter, mem_objsOf]
      exact ⟨⟨(hM.ok.2 id).2 ⟨f, hf⟩, f, hf, hq, rfl⟩, by simpa using hw⟩
  obtain ⟨r, h5, h6, h7⟩ := keep_eq (M := M) q d ids (fun id hid => by
    obtain ⟨f, hf, hq, -⟩ := (hmem id).1 hid
    exact ⟨f, hf, hq⟩)
  have hr : s.find m q d = some r := by
    unfold find
    rw [hf, h2]
    cases ids with
    | nil => simpa [keep] using h5
    | cons a t => simpa using h5
  refine ⟨r, hr, hnd.sublist h6, fun id => ?_⟩
  rw [h7]
  refine ⟨fun h => h.2, fun h => ⟨?_, h⟩⟩
  obtain ⟨f, hf, hq, hd, hlt⟩ := h
  refine (hmem id).2 ⟨f, hf, hq, by linarith, ?_⟩
  nlinarith

/-- **C133 (a mesh made by `set`).** For the finite-volume mesh of a consistent mesh with symmetric pairing, the search after `build`
gives exactly the boundary faces that are near, whatever the object was used for before, if the centres of the boundary faces are
representable and not all at one place. -/
theorem C133_of_mesh (m : Machine K) (heps : 0 < m.eps) (hbig : 0 < m.big) (nrm : Vec3 K → K) (mesh : Mesh K) (hm : mesh.WF)
    (hs : mesh.SymmetricPairs) (hf : mesh.FaceIdsOk) (before : List (FvmMesh K)) (hb : ∀ M' ∈ before, M'.Searchable m) :
    ∃ M, FvmMesh.set nrm mesh = some M ∧
      ((∀ id f, M.faces.get? id = some f → f.hasPair = false → (Polygon.centroid f.vs).Bounded m.big) →
        (∃ i f j g, M.faces.get? i = some f ∧ f.hasPair = false ∧ M.faces.get? j = some g ∧ g.hasPair = false ∧
          Polygon.centroid f.vs ≠ Polygon.centroid g.vs) →
        ∃ s, uses m (before ++ [M]) (MeshSearch.new m) = some s ∧ ∀ q d, ∃ r, s.find m q d = some r ∧ r.Nodup ∧
          ∀ id, id ∈ r ↔ M.BoundaryFaceNear q d id) := by
  obtain ⟨M, ν, γ, h1, h2, -⟩ := C24_set nrm mesh hm hs hf
  exact ⟨M, h1, fun h3 h4 => C133_near m heps hbig before M hb ⟨h2, h3, Or.inr (Or.inr h4)⟩⟩

/-- **C133 (forgotten `build`).** After `set` without `build` a search never gives a face: it is undefined, or empty. -/
theorem C133_unbuilt (m : Machine K) (s : MeshSearch K) (M : FvmMesh K) (q : Vec3 K) (d : K) (r : List Int)
    (h : (s.set M).find m q d = some r) : r = [] := by
  have hread : ∀ tol ie, (s.set M).grid.readCell q tol ie = none := by
    intro tol ie
    simp [Grid.readCell, MeshSearch.set, Grid.reset, Arr.empty, Arr.read]
  have hgrid : ∀ tol l, (s.set M).grid.find m q tol = some l → l = [] := by
    intro tol l hl
    unfold Grid.find at hl
    simp only [Option.bind_eq_bind, Option.bind_eq_some_iff] at hl
    obtain ⟨imin, -, jmin, -, kmin, -, imax, -, jmax, -, kmax, -, found, hfound, hl⟩ := hl
    generalize hc : (upTo imin imax).flatMap _ = cells at hfound
    cases cells with
    | nil => simp at hfound; subst hfound; simpa using hl.symm
    | cons a t => rw [List.mapM_cons, hread] at hfound; simp at hfound
  unfold find at h
  cases hg : (s.set M).grid.find m q (d * 2) with
  | none => simp [hg] at h
  | some l =>
    have := hgrid _ l hg
    subst this
    simpa [hg] using h.symm

/-- Two tetrahedra with a common face, as a finite-volume mesh. -/
def searchedMesh : Option (FvmMesh ℚ) := (generateFaces smallMachine twoTets 0).bind (FvmMesh.set fun v => |v.x| + |v.y| + |v.z|)

/-- `build` called `n` times. -/
def MeshSearch.buildTimes (m : Machine K) : Nat → MeshSearch K → Option (MeshSearch K)
  | 0, s => some s
  | n + 1, s => (s.build m).bind (buildTimes m n)

/-- The faces found around the origin at distance 1/2 after `set` and `n` calls of `build`. -/
def foundAfter (n : Nat) : Option (List Int) :=
  searchedMesh.bind fun M => (((MeshSearch.new smallMachine).set M).buildTimes smallMachine n).bind fun s => s.find smallMachine 0 (1 / 2)

/-- **C133 (build twice).** Three boundary faces are near the origin and are found. After a second `build` without `set`, faces are
found several times each. -/
theorem C133_rebuild : foundAfter 1 = some [3, 2, 0] ∧ foundAfter 2 = some [3, 0, 0, 3, 3, 2, 2, 0, 0, 0, 0, 0] := by
  decide +kernel

/-- A mesh of three faces, the second between two cells. -/
def threeFaces : FvmMesh ℚ :=
  { faces := ((Cont.empty.add 4 { vs := [⟨0, 0, 0⟩, ⟨3, 0, 0⟩, ⟨0, 3, 0⟩, ⟨0, 0, 0⟩] }).add 7
      { vs := [⟨0, 0, 1⟩, ⟨3, 0, 1⟩, ⟨0, 3, 1⟩, ⟨0, 0, 1⟩], hasPair := true }).add 9 { vs := [⟨0, 0, 2⟩, ⟨3, 0, 2⟩, ⟨0, 3, 2⟩, ⟨0, 0, 2⟩] }
    cvs := Cont.empty }

/-- `threeFaces` meets the hypotheses of `C133_near`. -/
example : threeFaces.Searchable smallMachine := by
  have hids : threeFaces.faces.ids = [4, 7, 9] := by decide +kernel
  have hok : threeFaces.faces.Ok := by
    refine Cont.add_ok (Cont.add_ok (Cont.add_ok Cont.empty_ok _ (by decide)) _ (by decide)) _ (by decide)
  have h4 : ∃ f, threeFaces.faces.get? 4 = some f ∧ f.hasPair = false ∧ Polygon.centroid f.vs = ⟨1, 1, 0⟩ :=
    ⟨{ vs := [⟨0, 0, 0⟩, ⟨3, 0, 0⟩, ⟨0, 3, 0⟩, ⟨0, 0, 0⟩] }, by decide +kernel, rfl, by decide +kernel⟩
  have h9 : ∃ f, threeFaces.faces.get? 9 = some f ∧ f.hasPair = false ∧ Polygon.centroid f.vs = ⟨1, 1, 2⟩ :=
    ⟨{ vs := [⟨0, 0, 2⟩, ⟨3, 0, 2⟩, ⟨0, 3, 2⟩, ⟨0, 0, 2⟩] }, by decide +kernel, rfl, by decide +kernel⟩
  obtain ⟨f, hf, hfp, hfc⟩ := h4
  obtain ⟨g, hg, hgp, hgc⟩ := h9
  refine ⟨hok, ?_, Or.inr (Or.inr ⟨4, f, 9, g, hf, hfp, hg, hgp, by rw [hfc, hgc]; decide⟩)⟩
  intro id k hk hp
  have hid := (hok.2 id).2 ⟨k, hk⟩
  rw [hids] at hid
  simp only [List.mem_cons, List.not_mem_nil, or_false] at hid
  rcases hid with rfl | rfl | rfl
  · rw [hf] at hk; cases hk
    rw [hfc]; simp [Vec3.Bounded, smallMachine]; norm_num
  · have h7 : (threeFaces.faces.get? 7).map (·.hasPair) = some true := by decide +kernel
    rw [hk] at h7; simp [hp] at h7
  · rw [hg] at hk; cases hk
    rw [hgc]; simp [Vec3.Bounded, smallMachine]; norm_num

/-- The mesh of the last theorem also meets the hypotheses of `C133_near`: its six boundary faces have different centres. -/
example : (searchedMesh.map fun M => (M.faces.ids, M.faces.ids.map fun i => (M.faces.get? i).map fun f => f.hasPair,
    decide (((M.faces.get? 0).map fun f => Polygon.centroid f.vs) ≠ ((M.faces.get? 2).map fun f => Polygon.centroid f.vs)))) =
    some ([0, 1, 2, 3, 4, 5, 6], [some false, some true, some false, some false, some false, some false, some false], true) := by
  decide +kernel

end ENigMA
