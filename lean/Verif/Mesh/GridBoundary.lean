import Verif.Mesh.HexMesherProps
import Verif.Mesh.WatertightProps

/-!
# The generated grids of solids are conforming (C159)
-/

set_option linter.unusedSectionVars false
set_option autoImplicit false

namespace ENigMA
namespace HexMesh
open BasicMesher Mesh

/-! ### Cycles of three and four nodes -/

theorem cycle_opposite {l l' : List Int} (hl : l.length = 3 ∨ l.length = 4) (h : l' ~r l.reverse) : (cycleEdges l').Perm ((cycleEdges l).map Prod.swap) := by
  obtain ⟨n, hn, rfl⟩ := List.isRotated_iff_mod.1 h.symm
  rw [List.length_reverse] at hn
  rcases hl with hl | hl
  · obtain ⟨a, b, c, rfl⟩ := List.length_eq_three.1 hl
    have : n = 0 ∨ n = 1 ∨ n = 2 ∨ n = 3 := by simp at hn; omega
    rcases this with rfl | rfl | rfl | rfl
    · exact (List.perm_iff_count.2 fun x => by simp [cycleEdges, List.count_cons]; ring)
    · exact (List.perm_iff_count.2 fun x => by simp [cycleEdges, List.count_cons]; ring)
    · exact (List.perm_iff_count.2 fun x => by simp [cycleEdges, List.count_cons]; ring)
    · exact (List.perm_iff_count.2 fun x => by simp [cycleEdges, List.count_cons]; ring)
  · match l, hl with
    | [a, b, c, d], _ =>
      have : n = 0 ∨ n = 1 ∨ n = 2 ∨ n = 3 ∨ n = 4 := by simp at hn; omega
      rcases this with rfl | rfl | rfl | rfl | rfl
      · exact (List.perm_iff_count.2 fun x => by simp [cycleEdges, List.count_cons]; ring)
      · exact (List.perm_iff_count.2 fun x => by simp [cycleEdges, List.count_cons]; ring)
      · exact (List.perm_iff_count.2 fun x => by simp [cycleEdges, List.count_cons]; ring)
      · exact (List.perm_iff_count.2 fun x => by simp [cycleEdges, List.count_cons]; ring)
      · exact (List.perm_iff_count.2 fun x => by simp [cycleEdges, List.count_cons]; ring)

/-- No two faces of a solid have the same nodes. -/
theorem facesOf_pairwise {e : Elem} (ht : e.elementType = .tetrahedron ∨ e.elementType = .triangularPrism ∨ e.elementType = .hexahedron) (hn : e.nodeIds.length = e.elementType.nbNodes) (hd : e.nodeIds.Nodup) :
    e.facesOf.Pairwise fun F G => ¬ F.nodeIds.Perm G.nodeIds := by
  have key : ∀ t : ElementType, (t = .tetrahedron ∨ t = .triangularPrism ∨ t = .hexahedron) → (Elem.faceTemplate t).Pairwise fun f g => ∃ p ∈ f.2, p ∉ g.2 := by
    intro t h
    rcases h with rfl | rfl | rfl <;> decide
  unfold Elem.facesOf
  rw [List.pairwise_map]
  refine (key _ ht).imp_of_mem fun {f g} hf hg => ?_
  rintro ⟨p, hp, hpg⟩ hperm
  have hmem : e.idAt p ∈ g.2.map e.idAt := hperm.subset (List.mem_map.2 ⟨p, hp, rfl⟩)
  obtain ⟨q, hq, hpq⟩ := List.mem_map.1 hmem
  have h1 : p < e.nodeIds.length := hn ▸ Elem.template_lt e.elementType f hf p hp
  have h2 : q < e.nodeIds.length := hn ▸ Elem.template_lt e.elementType g hg q hq
  have : q = p := by
    refine (List.Nodup.getElem_inj_iff hd (hi := h2) (hj := h1)).1 ?_
    simpa [Elem.idAt, List.getD, List.getElem?_eq_getElem h1, List.getElem?_eq_getElem h2] using hpq
  exact hpg (this ▸ hq)

/-! ### The faces of the cells of a grid -/

/-- The points of one list are those of the other, moved. -/
def moved (a b : List (Nat × Nat × Nat)) : Bool :=
  a.length == b.length && (a.zip b).all fun p => (a.zip b).all fun q =>
    p.1.1 + q.2.1 == q.1.1 + p.2.1 && p.1.2.1 + q.2.2.1 == q.1.2.1 + p.2.2.1 && p.1.2.2 + q.2.2.2 == q.1.2.2 + p.2.2.2

/-- Two faces with the same corners run through them in the same or in the opposite direction. -/
theorem face_turn (d : Bool) : ∀ c ∈ cellFaces d, ∀ c' ∈ cellFaces d, ∀ p ∈ c'.2.permutations', moved c.2 p = true → p ~r c'.2 ∨ p ~r c'.2.reverse := by
  cases d <;> decide +kernel

theorem perm_of_map {α β : Type} {l : List β} {l' : List α} (g : α → β) (h : l.Perm (l'.map g)) : ∃ p : List α, p.Perm l' ∧ l = p.map g := by
  have hf : List.Forall₂ (fun b a => b = g a) (l'.map g) l' := by
    rw [List.forall₂_map_left_iff]
    exact List.forall₂_same.2 fun _ _ => rfl
  obtain ⟨p, h1, h2⟩ := List.perm_comp_forall₂ h hf
  refine ⟨p, h2, ?_⟩
  clear h h2 hf
  induction h1 with
  | nil => rfl
  | cons h _ ih => rw [List.map_cons, h, ih]

variable {K : Type} [Field K] [LinearOrder K] [IsStrictOrderedRing K]

theorem build3_turn (origin u v w : Vec3 K) (nu nv nw : Nat) (d : Bool) (x y : Int) (e f : Elem) :
    let m := build (nodes3 origin u v w nu nv nw) (cells3 nu nv nw d)
    m.elements.get? x = some e → m.elements.get? y = some f → ∀ F ∈ e.facesOf, ∀ G ∈ f.facesOf, F.nodeIds.Perm G.nodeIds → F.nodeIds ~r G.nodeIds ∨ F.nodeIds ~r G.nodeIds.reverse := by
  intro m he hf F hF G hG hperm
  obtain ⟨-, -, -, -, -, -, hel⟩ := build3_ok origin u v w nu nv nw d
  have off : ∀ c ∈ cellFaces d, ∀ o ∈ c.2, o.1 ≤ 1 ∧ o.2.1 ≤ 1 ∧ o.2.2 ≤ 1 := by cases d <;> decide
  obtain ⟨i, hi, j, hj, k, hk, t, ht, rfl, hc⟩ := (hel x e).1 he
  obtain ⟨i', hi', j', hj', k', hk', t', ht', rfl, hc'⟩ := (hel y f).1 hf
  obtain ⟨c, hcm, rfl, hFe⟩ := (cellFaces_iff nu nv d i j k t e hc F.nodeIds).1 ⟨F, hF, rfl⟩
  obtain ⟨c', hcm', rfl, hGe⟩ := (cellFaces_iff nu nv d i' j' k' t' f hc' G.nodeIds).1 ⟨G, hG, rfl⟩
  rw [hGe] at hperm
  obtain ⟨p, hp, hFp⟩ := perm_of_map _ hperm
  have hpt : ∀ q ∈ c.2.zip p, i + q.1.1 = i' + q.2.1 ∧ j + q.1.2.1 = j' + q.2.2.1 ∧ k + q.1.2.2 = k' + q.2.2.2 := by
    rintro ⟨a, b⟩ hq
    obtain ⟨n, hn⟩ := List.mem_iff_getElem?.1 hq
    rw [List.getElem?_zip_eq_some] at hn
    have ha := off c hcm a (List.mem_of_getElem? hn.1)
    have hb := off c' hcm' b (hp.subset (List.mem_of_getElem? hn.2))
    have := congrArg (fun l => l[n]?) (hFe.symm.trans hFp)
    simp only [List.getElem?_map, hn.1, hn.2, Option.map_some, Option.some.injEq] at this
    dsimp only; exact id3_inj (by omega) (by omega) (by omega) (by omega) this
  have hmoved : moved c.2 p = true := by
    unfold moved
    simp only [Bool.and_eq_true, beq_iff_eq, List.all_eq_true]
    refine ⟨by simpa using congrArg List.length (hFe.symm.trans hFp), fun a ha b hb => ?_⟩
    have h1 := hpt a ha
    have h2 := hpt b hb
    omega
  rw [hFp, hGe]
  rcases face_turn d c hcm c' hcm' p (List.mem_permutations'.2 hp) hmoved with h | h
  · exact .inl (h.map _)
  · exact .inr (by rw [← List.map_reverse]; exact h.map _)

/-- The grid of hexahedra or tetrahedra is conforming. -/
theorem build3_good (origin u v w : Vec3 K) (nu nv nw : Nat) (d : Bool) : Conforming (build (nodes3 origin u v w nu nv nw) (cells3 nu nv nw d)) := by
  obtain ⟨hwf, -, -, -, hids, -, hel⟩ := build3_ok origin u v w nu nv nw d
  obtain ⟨hd, hone, -⟩ := build3_conforming origin u v w nu nv nw d
  have hturn := build3_turn origin u v w nu nv nw d
  generalize build (nodes3 origin u v w nu nv nw) (cells3 nu nv nw d) = m at *
  have solid : ∀ id e, m.elements.get? id = some e →
      (e.elementType = .tetrahedron ∨ e.elementType = .triangularPrism ∨ e.elementType = .hexahedron) ∧ e.nodeIds.length = e.elementType.nbNodes ∧ e.nodeIds.Nodup := by
    intro id e he
    have hnd := hd id e he
    obtain ⟨i, hi, j, hj, k, hk, t, ht, -, hc⟩ := (hel id e).1 he
    rw [hexCell_eq] at hc
    obtain ⟨os, hos, rfl⟩ := List.mem_map.1 (List.mem_of_getElem? hc)
    have hlen : ∀ os ∈ cellElem d, os.length = (if d then ElementType.tetrahedron else ElementType.hexahedron).nbNodes := by cases d <;> decide
    refine ⟨?_, by simpa using hlen os hos, hnd⟩
    cases d
    · exact .inr (.inr rfl)
    · exact .inl rfl
  have hfull : m.FullElements := fun id e he => le_of_eq (solid id e he).2.1.symm
  have hface : ∀ f ∈ m.expectedFaces, ∃ id e F, m.elements.get? id = some e ∧ F ∈ e.facesOf ∧ f.nodeIds = F.nodeIds := by
    intro f hf
    rw [expectedFaces_eq hwf.elements hfull] at hf
    obtain ⟨id, -, hf⟩ := List.mem_flatMap.1 hf
    cases he : m.elements.get? id with
    | none => rw [he] at hf; simp at hf
    | some e =>
      rw [he, Option.map_some, Option.getD_some, facesWithOwner] at hf
      obtain ⟨F, hF, rfl⟩ := List.mem_map.1 hf
      exact ⟨id, e, F, he, hF, rfl⟩
  have hpw : m.expectedFaces.Pairwise fun f g => ¬ f.nodeIds ~r g.nodeIds := by
    rw [expectedFaces_eq hwf.elements hfull, List.pairwise_flatMap]
    constructor
    · intro id hid
      cases he : m.elements.get? id with
      | none => simp
      | some e =>
        rw [Option.map_some, Option.getD_some, facesWithOwner, List.pairwise_map]
        obtain ⟨s1, s2, s3⟩ := solid id e he
        exact (facesOf_pairwise s1 s2 s3).imp fun h h' => h h'.perm
    · refine (hwf.elements.1).imp fun {a b} hab f hf g hg h => ?_
      cases he : m.elements.get? a with
      | none => rw [he] at hf; simp at hf
      | some e =>
        cases he' : m.elements.get? b with
        | none => rw [he'] at hg; simp at hg
        | some e' =>
          rw [he, Option.map_some, Option.getD_some, facesWithOwner] at hf
          rw [he', Option.map_some, Option.getD_some, facesWithOwner] at hg
          obtain ⟨F, hF, rfl⟩ := List.mem_map.1 hf
          obtain ⟨G, hG, rfl⟩ := List.mem_map.1 hg
          exact hab (hone a b e e' he he' F hF G hG h)
  have hne : ∀ (i j : Nat) f g, m.expectedFaces[i]? = some f → m.expectedFaces[j]? = some g → f.nodeIds ~r g.nodeIds → i = j := by
    intro i j f g hf hg h
    obtain ⟨hi, rfl⟩ := List.getElem?_eq_some_iff.1 hf
    obtain ⟨hj, rfl⟩ := List.getElem?_eq_some_iff.1 hg
    rcases lt_trichotomy i j with hlt | heq | hlt
    · exact absurd h (List.pairwise_iff_getElem.1 hpw i j hi hj hlt)
    · exact heq
    · exact absurd h.symm (List.pairwise_iff_getElem.1 hpw j i hj hi hlt)
  have hopp : ∀ (i j : Nat) f g, m.expectedFaces[i]? = some f → m.expectedFaces[j]? = some g → i ≠ j → Coincide f g → g.nodeIds ~r f.nodeIds.reverse := by
    intro i j f g hf hg hij hc
    obtain ⟨a, e, F, he, hF, hfF⟩ := hface f (List.mem_of_getElem? hf)
    obtain ⟨b, e', G, he', hG, hgG⟩ := hface g (List.mem_of_getElem? hg)
    have := hturn b a e' e he' he G hG F hF (by rw [← hfF, ← hgG]; exact hc.2.symm)
    rw [← hfF, ← hgG] at this
    rcases this with h | h
    · exact absurd (hne j i g f hg hf h).symm hij
    · exact h
  refine ⟨solid, fun i j k f g h hf hg hh c1 c2 hij hik => ?_, fun i j f g hf hg hij hc => ?_⟩
  · exact hne j k g h hg hh ((hopp i j f g hf hg hij c1).trans (hopp i k f h hf hh hik c2).symm)
  · refine cycle_opposite ?_ (hopp i j f g hf hg hij hc)
    obtain ⟨a, e, F, he, hF, hfF⟩ := hface f (List.mem_of_getElem? hf)
    rw [hfF]
    unfold Elem.facesOf at hF
    obtain ⟨t, ht, rfl⟩ := List.mem_map.1 hF
    have hl : ∀ ty : ElementType, (ty = .tetrahedron ∨ ty = .triangularPrism ∨ ty = .hexahedron) → ∀ t ∈ Elem.faceTemplate ty, t.2.length = 3 ∨ t.2.length = 4 := by
      intro ty h
      rcases h with rfl | rfl | rfl <;> decide
    simpa using hl _ (solid a e he).1 t ht

/-! ### The search for coinciding faces -/

/-- Every id below the number of nodes is that of a grid point. -/
theorem grid_point (nu nv nw : Nat) (n : Int) (hn : n ∈ iota ((nu + 1) * (nv + 1) * (nw + 1))) : ∃ i j k, i ≤ nu ∧ j ≤ nv ∧ k ≤ nw ∧ n = id3 nu nv i j k := by
  obtain ⟨n, hlt, rfl⟩ := List.mem_map.1 hn
  have hlt' : n < (nu + 1) * (nv + 1) * (nw + 1) := List.mem_range.1 hlt
  refine ⟨n % (nu + 1), n / (nu + 1) % (nv + 1), n / (nu + 1) / (nv + 1), Nat.le_of_lt_succ (Nat.mod_lt _ (by omega)), Nat.le_of_lt_succ (Nat.mod_lt _ (by omega)), ?_, ?_⟩
  · rw [Nat.div_div_eq_div_mul]
    exact Nat.le_of_lt_succ (Nat.div_lt_of_lt_mul hlt')
  · unfold id3
    have a1 := Nat.div_add_mod n (nu + 1)
    have a2 := Nat.div_add_mod (n / (nu + 1)) (nv + 1)
    have : n = (nu + 1) * (nv + 1) * (n / (nu + 1) / (nv + 1)) + (nu + 1) * (n / (nu + 1) % (nv + 1)) + n % (nu + 1) := by
      conv_lhs => rw [← a1, ← a2]
      ring
    show ((n : Nat) : Int) = _
    exact_mod_cast this

variable [FloorRing K]

/-- The faces of a cell that is not flat do not all have the same centre. -/
theorem build3_spread (origin u v w : Vec3 K) (nu nv nw : Nat) (d : Bool) (hu : 0 < nu) (hv : 0 < nv) (hw : 0 < nw) (hvol : w.dot (Vec3.cross v u) ≠ 0) :
    let m := build (nodes3 origin u v w nu nv nw) (cells3 nu nv nw d)
    ∃ f ∈ m.expectedFaces, ∃ g ∈ m.expectedFaces, m.meanOf f.nodeIds ≠ m.meanOf g.nodeIds := by
  intro m
  have hc := build3_good origin u v w nu nv nw d
  obtain ⟨hwf, -, -, -, -, -, hel⟩ := build3_ok origin u v w nu nv nw d
  have hlen : 0 < (hexCell nu nv d 0 0 0).length := by rw [hexCell_length]; cases d <;> decide
  obtain ⟨e, he⟩ : ∃ e, (hexCell nu nv d 0 0 0)[0]? = some e := ⟨_, List.getElem?_eq_getElem hlen⟩
  have hget := (hel _ e).2 ⟨0, hu, 0, hv, 0, hw, 0, by rw [hexCell_length] at hlen; exact hlen, rfl, he⟩
  have hfull : m.FullElements := hc.full
  have hid : ∀ F ∈ e.facesOf, ∃ f ∈ m.expectedFaces, f.nodeIds = F.nodeIds := by
    intro F hF
    refine ⟨{ F with elementId := (((nv * 0 + 0) * nu + 0) * (cellElem d).length + 0 : Nat) }, ?_, rfl⟩
    rw [expectedFaces_eq hwf.elements hfull]
    refine List.mem_flatMap.2 ⟨_, (hwf.elements.2 _).2 ⟨e, hget⟩, ?_⟩
    rw [hget, Option.map_some, Option.getD_some]
    exact List.mem_map.2 ⟨F, hF, rfl⟩
  have hmap : ∀ (l : List Int) (vs : List (Vec3 K)), l.mapM m.nodes.get? = some vs → l.map m.posOf = vs := by
    intro l
    induction l with
    | nil => intro vs h; simp at h; simp [h]
    | cons a l ih =>
      intro vs h
      simp only [List.mapM_cons, Option.bind_eq_bind, Option.pure_def, Option.bind_eq_some_iff, Option.some.injEq] at h
      obtain ⟨x, h1, ys, h2, rfl⟩ := h
      rw [List.map_cons, ih ys h2, Mesh.posOf, h1, Option.getD_some]
  by_contra hcon
  push Not at hcon
  have hall : ∀ F ∈ e.facesOf, ∀ G ∈ e.facesOf, m.meanOf F.nodeIds = m.meanOf G.nodeIds := by
    intro F hF G hG
    obtain ⟨f, hf, h1⟩ := hid F hF
    obtain ⟨g, hg, h2⟩ := hid G hG
    rw [← h1, ← h2]
    exact hcon f hf g hg
  have hlen4 := (hc.solid _ e hget).2.1
  refine hvol ?_
  cases d
  · obtain ⟨c, ht, hm, ⟨r1, r2, r3, r4, r5, r6, r7⟩, -⟩ := build3_hexes _ _ _ _ nu nv nw _ e hget
    have hp := hmap _ _ hm
    clear he hget hid hcon hm hc
    obtain ⟨ty, ids, fids⟩ := e
    dsimp only at ht hlen4 hp
    subst ht
    simp only [ElementType.nbNodes] at hlen4
    match ids, hlen4 with
    | [n0, n1, n2, n3, n4, n5, n6, n7], _ =>
      have := hall { faceType := .quadrilateral, nodeIds := [n0, n1, n2, n3] } (by simp [Elem.facesOf, Elem.faceTemplate, Elem.idAt]) { faceType := .quadrilateral, nodeIds := [n7, n6, n5, n4] } (by simp [Elem.facesOf, Elem.faceTemplate, Elem.idAt])
      simp only [List.map_cons, List.map_nil, List.cons.injEq, and_true] at hp
      obtain ⟨p0, p1, p2, p3, p4, p5, p6, p7⟩ := hp
      simp only [Mesh.meanOf, List.length_cons, List.length_nil, List.map_cons, List.map_nil, List.sum_cons, List.sum_nil, p0, p1, p2, p3, p4, p5, p6, p7, r1, r2, r3, r4, r5, r6, r7] at this
      have hx := congrArg Vec3.x this
      have hy := congrArg Vec3.y this
      have hz := congrArg Vec3.z this
      simp at hx hy hz
      have h4 : (4 : K) ≠ 0 := by norm_num
      have wx : w.x = 0 := by linarith
      have wy : w.y = 0 := by linarith
      have wz : w.z = 0 := by linarith
      simp [Vec3.dot, wx, wy, wz]
  · obtain ⟨T, ht, hm, hv⟩ := build3_tets _ _ _ _ nu nv nw _ e hget
    have hp := hmap _ _ hm
    clear he hget hid hcon hm hc
    obtain ⟨ty, ids, fids⟩ := e
    dsimp only at ht hlen4 hp
    subst ht
    simp only [ElementType.nbNodes] at hlen4
    match ids, hlen4 with
    | [n0, n1, n2, n3], _ =>
      have := hall { faceType := .triangle, nodeIds := [n0, n1, n2] } (by simp [Elem.facesOf, Elem.faceTemplate, Elem.idAt]) { faceType := .triangle, nodeIds := [n1, n3, n2] } (by simp [Elem.facesOf, Elem.faceTemplate, Elem.idAt])
      simp only [List.map_cons, List.map_nil, List.cons.injEq, and_true] at hp
      obtain ⟨p0, p1, p2, p3⟩ := hp
      simp only [Mesh.meanOf, List.length_cons, List.length_nil, List.map_cons, List.map_nil, List.sum_cons, List.sum_nil, p0, p1, p2, p3] at this
      have hx := congrArg Vec3.x this
      have hy := congrArg Vec3.y this
      have hz := congrArg Vec3.z this
      simp at hx hy hz
      have wx : T.v3.x = T.v0.x := by linarith
      have wy : T.v3.y = T.v0.y := by linarith
      have wz : T.v3.z = T.v0.z := by linarith
      rw [← hv]
      simp [Tet.volume, det4one, det4, det3, Vec3.dot, Vec3.cross, wx, wy, wz]
      ring

end HexMesh
end ENigMA
