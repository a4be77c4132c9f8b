import Verif.Solvers.PisoReach
import Verif.Solvers.PisoExamples
import Verif.Geometry.ClipVolumeProps
import Verif.Geometry.RtreeProps

/-!
# C76: the volume of an FVM mesh is the volume enclosed by its boundary

`CFvmMesh::volume()` adds the volumes of the control volumes. Each face between two control volumes is seen from one of them with the order
of its points reversed, so its contributions cancel.
-/

set_option linter.unusedSectionVars false
set_option autoImplicit false

namespace ENigMA
open Piso Mesh FvmMesh Polyhedron
variable {K : Type} [Field K] [LinearOrder K] [IsStrictOrderedRing K]

namespace FvmMesh

/-- The polygons of a cell are planar, not degenerate, and fit together into a closed surface of at least four faces. -/
def Solid (nrm : Vec3 K → K) (eps : K) (m : FvmMesh K) (cv : Int) : Prop :=
  let vs := fun k => seenFrom cv ((m.faces.get? k).getD {})
  4 ≤ (cellFaces m cv).length ∧ (∀ k ∈ cellFaces m cv, Planar (vs k) ∧ HasCorner nrm eps (vs k)) ∧ ClosedSurface ((cellFaces m cv).map vs)

/-- The polygons of a cell are planar and fit together into a closed surface, and the volume calculated for it is the one they enclose. -/
def Exact (nrm : Vec3 K → K) (eps : K) (m : FvmMesh K) (cv : Int) : Prop :=
  let vs := fun k => seenFrom cv ((m.faces.get? k).getD {})
  (∀ k ∈ cellFaces m cv, Planar (vs k)) ∧ ClosedSurface ((cellFaces m cv).map vs) ∧
    ∃ c, m.cvs.get? cv = some c ∧ (c.poly.calculateVolume nrm eps false).m_volume = (((cellFaces m cv).map vs).map (coneVolume 0)).sum

/-- The faces that belong to one control volume only, with the order of points the control volume sees. -/
def boundaryFaces (m : FvmMesh K) : List (List (Vec3 K)) := (m.faces.ids.filterMap m.faces.get?).filterMap fun F => if F.hasPair then none else some F.vs

theorem coneVolume_reverse (o : Vec3 K) {vs : List (Vec3 K)} (h : Planar vs) : coneVolume o vs.reverse = -coneVolume o vs := by
  obtain ⟨n, d, hn, hd⟩ := h
  match vs with
  | [] => simp [coneVolume]
  | f :: l =>
    rw [Clip.coneVolume_at o f hn _ (fun v hv => hd v (List.mem_reverse.1 hv)) (hd f (by simp)), Clip.coneVolume_at o f hn _ hd (hd f (by simp)), vecArea2_reverse]
    simp only [Vec3.dot, Vec3.neg_x, Vec3.neg_y, Vec3.neg_z]; ring

/-- A sum over pairs, regrouped by the second component. -/
theorem sum_regroup (L : List (Int × Int)) (ks : List Int) (hn : ks.Nodup) (hk : ∀ v ∈ L, v.2 ∈ ks) (g : Int → Int → K) :
    (L.map fun v => g v.1 v.2).sum = (ks.map fun k => ((L.filter fun v => v.2 = k).map fun v => g v.1 v.2).sum).sum := by
  induction L with
  | nil => simp
  | cons v t ih =>
    rw [List.map_cons, List.sum_cons, ih (fun w hw => hk w (by simp [hw]))]
    have hsplit : (ks.map fun k => (((v :: t).filter fun v => v.2 = k).map fun v => g v.1 v.2).sum).sum =
        (ks.map fun k => if v.2 = k then g v.1 v.2 else 0).sum + (ks.map fun k => ((t.filter fun v => v.2 = k).map fun v => g v.1 v.2).sum).sum := by
      rw [← List.sum_map_add]
      congr 1
      apply List.map_congr_left
      intro k _
      by_cases h : v.2 = k
      · rw [List.filter_cons_of_pos (by simpa using h), if_pos h, List.map_cons, List.sum_cons]
      · rw [List.filter_cons_of_neg (by simpa using h), if_neg h, zero_add]
    rw [hsplit, sum_map_single hn (hk v (by simp)) _ (fun b _ hb => if_neg fun e => hb e.symm), if_pos rfl]

theorem volumeLoop_eq (nrm : Vec3 K → K) (eps : K) (cvs : Cont (ControlVolume K)) (vol : Int → K) (l : List Int) :
    ∀ acc, (∀ id ∈ l, ∃ c, cvs.get? id = some c ∧ (c.poly.calculateVolume nrm eps false).m_volume = vol id) →
      volumeLoop nrm eps cvs l acc = some (acc + (l.map vol).sum) := by
  induction l with
  | nil => intro acc _; simp [volumeLoop]
  | cons a t ih =>
    intro acc h
    obtain ⟨c, hc, hv⟩ := h a (by simp)
    simp only [volumeLoop, hc, List.map_cons, List.sum_cons]
    change volumeLoop nrm eps cvs t _ = _
    rw [ih _ (fun id hid => h id (by simp [hid])), hv]
    congr 1; ring

end FvmMesh

/-- **C76, the faces between cells cancel.** Make the faces of a mesh in which at most two element faces coincide, they belonging to different
elements, and set the FVM mesh from it. If the volume of each of its cells is the one its planar faces enclose, `volume()` is the signed volume
enclosed by the boundary: the sum of the cones from ANY point `o` over the faces that belong to one cell only. -/
theorem C76_cancel [FloorRing K] (nrm : Vec3 K → K) (eps : K) (mc : HashGrid.Machine K) (m : Mesh K)
    (hm : m.WF) (hf : m.FullElements) (hg : GoodFaces mc m) (tol : K) (htol : 0 ≤ tol) (m' : Mesh K) (hgen : generateFaces mc m tol = some m')
    (h2 : ∀ i j k f g h, m'.faces.get? i = some f → m'.faces.get? j = some g → m'.faces.get? k = some h →
          Coincide f g → Coincide f h → i ≠ j → i ≠ k → j = k)
    (hd : ∀ i j f g, i ≠ j → m'.faces.get? i = some f → m'.faces.get? j = some g → Coincide f g → f.elementId ≠ g.elementId) :
    ∃ r, FvmMesh.set nrm m' = some r ∧
      ((∀ cv ∈ r.cvs.ids, r.Exact nrm eps cv) → ∀ o, r.volume nrm eps = some ((r.boundaryFaces.map (coneVolume o)).sum)) ∧
      ((∀ cv ∈ r.cvs.ids, r.Solid nrm eps cv) → IsNorm nrm → 0 ≤ eps ∧ eps < 1 → ∀ cv ∈ r.cvs.ids, r.Exact nrm eps cv) := by
  obtain ⟨a1, a2, a3, -⟩ := C24_after_generateFaces mc m hm hf hg tol htol m' hgen h2
  obtain ⟨r, b1, b2, -, -, b5, b6, b7, b8⟩ := linked_of_set nrm a1 a2 a3 (listed_of_generateFaces mc m hm hf hg tol htol m' hgen hd)
  refine ⟨r, b1, fun hsolid => ?_, fun hsolid hN heps => ?_⟩
  rotate_left
  · intro id hid
    obtain ⟨c, hc, hnd⟩ := b2.cell id hid
    obtain ⟨s1, s2, s3⟩ := hsolid id hid
    have hcf : cellFaces r id = c.poly.ids := by simp [cellFaces, hc]
    refine ⟨fun k hk => (s2 k hk).1, s3, c, hc, ?_⟩
    rw [hcf] at s1 s2 s3 ⊢
    conv_lhs => rw [b5 id c hc]
    rw [C60_volume nrm hN eps heps _ (by simpa [Function.comp_def] using hnd) (by simpa using s1) (by
      intro f hf'
      obtain ⟨k, hk, rfl⟩ := List.mem_map.1 hf'
      exact s2 k hk) (by simpa [Function.comp_def] using s3) 0]
    rw [List.map_map, List.map_map]
    rfl
  have hvol : ∀ o, r.volume nrm eps = some ((r.cvs.ids.map fun cv =>
      ((cellFaces r cv).map fun k => coneVolume o (seenFrom cv ((r.faces.get? k).getD {}))).sum).sum) := by
    intro o
    unfold FvmMesh.volume
    rw [volumeLoop_eq nrm eps r.cvs (fun cv => ((cellFaces r cv).map fun k => coneVolume o (seenFrom cv ((r.faces.get? k).getD {}))).sum) _ 0 ?_, zero_add]
    intro id hid
    obtain ⟨s1, s2, c, s3, s4⟩ := hsolid id hid
    refine ⟨c, s3, ?_⟩
    rw [s4, coneVolume_sum_origin _ s2 0 o, List.map_map]
    rfl
  intro o
  rw [hvol o]
  congr 1
  have hflat : (r.cvs.ids.map fun cv => ((cellFaces r cv).map fun k => coneVolume o (seenFrom cv ((r.faces.get? k).getD {}))).sum).sum =
      ((r.cvs.ids.flatMap fun id => (cellFaces r id).map fun f => (id, f)).map fun v => coneVolume o (seenFrom v.1 ((r.faces.get? v.2).getD {}))).sum := by
    generalize r.cvs.ids = l
    induction l with
    | nil => rfl
    | cons a t ih => rw [List.map_cons, List.sum_cons, ih, List.flatMap_cons, List.map_append, List.sum_append, List.map_map]; rfl
  rw [hflat, sum_regroup _ r.faces.ids b7.1 (by
    intro v hv
    obtain ⟨h1, h2⟩ := mem_visits.1 hv
    obtain ⟨F, hF, -⟩ := b2.face v.1 h1 v.2 h2
    exact (b7.2 _).2 ⟨F, hF⟩) (fun cv k => coneVolume o (seenFrom cv ((r.faces.get? k).getD {})))]
  have hterm : ∀ k F, r.faces.get? k = some F →
      (((r.cvs.ids.flatMap fun id => (cellFaces r id).map fun f => (id, f)).filter fun v => v.2 = k).map fun v =>
        coneVolume o (seenFrom v.1 ((r.faces.get? v.2).getD {}))).sum = if F.hasPair then 0 else coneVolume o F.vs := by
    intro k F hF
    obtain ⟨c1, c2⟩ := b6 k F hF
    rw [filter_visits b2]
    by_cases hp : F.hasPair = true
    · rw [cells_of_paired b2 hF hp, if_pos hp]
      obtain ⟨hne, -⟩ := b2.pair k F hF hp
      have hpl : Planar F.vs := by
        have := (hsolid _ c1).1 k c2
        simpa [seenFrom, hF] using this
      simp [seenFrom, hF, hne, coneVolume_reverse o hpl]
    · rw [cells_of_boundary b2 c1 c2 (by simpa [paired, hF] using hp), if_neg hp]
      simp [seenFrom, hF]
  unfold boundaryFaces
  have hall : ∀ k ∈ r.faces.ids, ∃ F, r.faces.get? k = some F := fun k hk => (b7.2 k).1 hk
  revert hall
  generalize r.faces.ids = l
  intro hall
  induction l with
  | nil => rfl
  | cons a t ih =>
    obtain ⟨F, hF⟩ := hall a (by simp)
    rw [List.map_cons, List.sum_cons, ih (fun k hk => hall k (by simp [hk])), hterm a F hF, List.filterMap_cons_some hF]
    by_cases hp : F.hasPair = true
    · simp [hp]
    · simp [hp]

/-- **C76.** The same, from the shapes of the cells: at least four planar faces with a corner that fit together. -/
theorem C76_total_volume [FloorRing K] (nrm : Vec3 K → K) (hN : IsNorm nrm) (eps : K) (heps : 0 ≤ eps ∧ eps < 1) (mc : HashGrid.Machine K) (m : Mesh K)
    (hm : m.WF) (hf : m.FullElements) (hg : GoodFaces mc m) (tol : K) (htol : 0 ≤ tol) (m' : Mesh K) (hgen : generateFaces mc m tol = some m')
    (h2 : ∀ i j k f g h, m'.faces.get? i = some f → m'.faces.get? j = some g → m'.faces.get? k = some h →
          Coincide f g → Coincide f h → i ≠ j → i ≠ k → j = k)
    (hd : ∀ i j f g, i ≠ j → m'.faces.get? i = some f → m'.faces.get? j = some g → Coincide f g → f.elementId ≠ g.elementId) :
    ∃ r, FvmMesh.set nrm m' = some r ∧
      ((∀ cv ∈ r.cvs.ids, r.Solid nrm eps cv) → ∀ o, r.volume nrm eps = some ((r.boundaryFaces.map (coneVolume o)).sum)) := by
  obtain ⟨r, h1, h3, h4⟩ := C76_cancel nrm eps mc m hm hf hg tol htol m' hgen h2 hd
  exact ⟨r, h1, fun hs => h3 (h4 hs hN heps)⟩

/-! ### The hypotheses are met

Two tetrahedra with a common face, with corners chosen so that the lengths of the normals are rational. -/

namespace FvmMesh

/-- Two tetrahedra of volumes `1/3` and `2/3` that share the face `1 2 3`. -/
def volTets : Mesh ℚ :=
  { nodes := ((((Cont.empty.add 0 ⟨0, 0, 0⟩).add 1 ⟨2, 0, 0⟩).add 2 ⟨0, 1, 0⟩).add 3 ⟨0, 0, 1⟩).add 4 ⟨2, 1, 1⟩
    faces := Cont.empty
    elements := (Cont.empty.add 0 ⟨.tetrahedron, [1, 0, 2, 3], []⟩).add 1 ⟨.tetrahedron, [3, 4, 2, 1], []⟩
    nbBoundary := 0 }

/-- The same with the faces `generateFaces` makes. -/
def volTetsFaces : Mesh ℚ := (Mesh.generateFaces smallMachine volTets 0).getD volTets

/-- The square root of a square. -/
def ratNorm (v : Vec3 ℚ) : ℚ := ratSqrt v.normSq

/-- The FVM mesh. -/
def volFvm : FvmMesh ℚ := (FvmMesh.set ratNorm volTetsFaces).getD ⟨Cont.empty, Cont.empty⟩

theorem volTets_ok : volTets.WF ∧ volTets.FullElements ∧ GoodFaces smallMachine volTets := by
  refine ⟨⟨?_, Cont.empty_ok, ?_, ?_, ?_⟩, ?_, ⟨by norm_num [smallMachine], by norm_num [smallMachine], ?_, ?_⟩⟩
  · exact Cont.add_ok (Cont.add_ok (Cont.add_ok (Cont.add_ok (Cont.add_ok Cont.empty_ok _ (by decide)) _ (by decide)) _ (by decide)) _ (by decide)) _ (by decide)
  · exact Cont.add_ok (Cont.add_ok Cont.empty_ok _ (by decide)) _ (by decide)
  · intro id f h; simp [volTets, Cont.empty, Cont.get?] at h
  · intro id e h n hn
    simp only [volTets, Cont.get?_add] at h
    split_ifs at h <;> first
      | (simp only [Option.some.injEq] at h; subst h; simp at hn; rcases hn with rfl | rfl | rfl | rfl <;> decide)
      | (simp [Cont.empty, Cont.get?] at h)
  · intro id e h
    simp only [volTets, Cont.get?_add] at h
    split_ifs at h <;> first
      | (simp only [Option.some.injEq] at h; subst h; decide)
      | (simp [Cont.empty, Cont.get?] at h)
  · intro n v h
    simp only [volTets, Cont.get?_add] at h
    split_ifs at h <;> first
      | (simp only [Option.some.injEq] at h; subst h; norm_num [Vec3.Bounded, smallMachine])
      | (simp [Cont.empty, Cont.get?] at h)
  · right; right
    refine ⟨volTets.expectedFaces[0]'(by decide), List.getElem_mem _, volTets.expectedFaces[1]'(by decide), List.getElem_mem _, ?_⟩
    decide +kernel

theorem volTets_gen : generateFaces smallMachine volTets 0 = some volTetsFaces := by
  have : (generateFaces smallMachine volTets 0).isSome = true := by decide +kernel
  obtain ⟨x, hx⟩ := Option.isSome_iff_exists.1 this
  simp [volTetsFaces, hx]

theorem volTets_pair : ∀ i f, volTetsFaces.faces.get? i = some f → ∀ j g, volTetsFaces.faces.get? j = some g → i ≠ j → Coincide f g →
    f.elementId ≠ g.elementId ∧ j = f.pairFaceId := by
  obtain ⟨m, a1, -, -, -, a5, -⟩ := C07_generateFaces_faces smallMachine volTets volTets_ok.1 volTets_ok.2.1 volTets_ok.2.2 0 le_rfl
  rw [volTets_gen] at a1
  cases a1
  intro i f hi j g hj
  have h0 : volTetsFaces.faces.ids.all (fun i => volTetsFaces.faces.ids.all fun j => ((volTetsFaces.faces.get? i).map fun f =>
      ((volTetsFaces.faces.get? j).map fun g => decide (i ≠ j → Coincide f g → f.elementId ≠ g.elementId ∧ j = f.pairFaceId)).getD true).getD true) = true := by
    decide +kernel
  have := List.all_eq_true.1 (List.all_eq_true.1 h0 i ((a5.faces.2 i).2 ⟨f, hi⟩)) j ((a5.faces.2 j).2 ⟨g, hj⟩)
  rw [hi, hj] at this
  exact of_decide_eq_true this

theorem triangle_ok {nrm : Vec3 K → K} {eps : K} (hN : nrm 0 ≤ eps) {vs : List (Vec3 K)}
    (h : ∃ a ∈ vs, ∃ b ∈ vs, ∃ c ∈ vs, vs = [a, b, c, a] ∧ eps < nrm (Vec3.cross (b - a) (c - a))) : Planar vs ∧ HasCorner nrm eps vs := by
  obtain ⟨a, -, b, -, c, -, rfl, h⟩ := h
  refine ⟨⟨Vec3.cross (b - a) (c - a), (Vec3.cross (b - a) (c - a)).dot a, ?_, ?_⟩, [], a, b, c, [a], rfl, h⟩
  · intro e
    rw [e] at h
    exact absurd h (not_lt.2 hN)
  · intro v hv
    simp only [List.mem_cons, List.not_mem_nil, or_false] at hv
    rcases hv with rfl | rfl | rfl | rfl <;>
      simp only [Vec3.dot, Vec3.cross_x, Vec3.cross_y, Vec3.cross_z, Vec3.sub_x, Vec3.sub_y, Vec3.sub_z] <;> ring

end FvmMesh

/-- The example meets the hypotheses on the mesh and on the cells; the volume is `1`, the boundary consists of six triangles. -/
example : ∃ r, FvmMesh.set ratNorm volTetsFaces = some r ∧ (∀ cv ∈ r.cvs.ids, r.Exact ratNorm (1 / 1024) cv) ∧
    (∀ cv ∈ r.cvs.ids, r.Solid ratNorm (1 / 1024) cv) ∧ r.volume ratNorm (1 / 1024) = some 1 ∧ r.boundaryFaces.length = 6 := by
  obtain ⟨r, h1, h2, -⟩ := C76_cancel ratNorm (1 / 1024) smallMachine volTets volTets_ok.1 volTets_ok.2.1 volTets_ok.2.2 0 le_rfl
    volTetsFaces volTets_gen
    (fun i j k f g h hi hj hk h1 h2 hij hik => (volTets_pair i f hi j g hj hij h1).2.trans (volTets_pair i f hi k h hk hik h2).2.symm)
    (fun i j f g hij hi hj h => (volTets_pair i f hi j g hj hij h).1)
  have hr : volFvm = r := by simp [volFvm, h1]
  subst hr
  have hc : ∀ cv ∈ volFvm.cvs.ids, 4 ≤ (cellFaces volFvm cv).length ∧
      ClosedSurface ((cellFaces volFvm cv).map fun k => seenFrom cv ((volFvm.faces.get? k).getD {})) ∧
      (∀ k ∈ cellFaces volFvm cv, ∃ a ∈ seenFrom cv ((volFvm.faces.get? k).getD {}), ∃ b ∈ seenFrom cv ((volFvm.faces.get? k).getD {}),
        ∃ c ∈ seenFrom cv ((volFvm.faces.get? k).getD {}), seenFrom cv ((volFvm.faces.get? k).getD {}) = [a, b, c, a] ∧
          1 / 1024 < ratNorm (Vec3.cross (b - a) (c - a))) ∧
      (volFvm.cvs.get? cv).map (fun c => (c.poly.calculateVolume ratNorm (1 / 1024) false).m_volume) =
        some ((((cellFaces volFvm cv).map fun k => seenFrom cv ((volFvm.faces.get? k).getD {})).map (coneVolume 0)).sum) := by
    unfold ClosedSurface
    decide +kernel
  have h0 : ratNorm 0 ≤ 1 / 1024 := by decide +kernel
  have hs : ∀ cv ∈ volFvm.cvs.ids, volFvm.Solid ratNorm (1 / 1024) cv := by
    intro cv hcv
    obtain ⟨c1, c2, c3, -⟩ := hc cv hcv
    exact ⟨c1, fun k hk => triangle_ok h0 (c3 k hk), c2⟩
  have he : ∀ cv ∈ volFvm.cvs.ids, volFvm.Exact ratNorm (1 / 1024) cv := by
    intro cv hcv
    obtain ⟨c1, c2, c3, c4⟩ := hc cv hcv
    obtain ⟨c, hc1, hc2⟩ := Option.map_eq_some_iff.1 c4
    exact ⟨fun k hk => (triangle_ok h0 (c3 k hk)).1, c2, c, hc1, hc2⟩
  refine ⟨volFvm, h1, he, hs, ?_, by decide +kernel⟩
  rw [h2 he 0]
  decide +kernel

end ENigMA
