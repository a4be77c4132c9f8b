import Verif.Mesh.Extrude
import Verif.Mesh.QueryProps
import Verif.Mesh.BasicMesherLemmas
import Verif.Geometry.SolidsProps
import Verif.Pde.FemAssemblyLemmas

/-! # C33: the extruded mesher -/

set_option linter.unusedSectionVars false

namespace ENigMA
open Mesh MeshQuery Extrude

variable {K : Type} [Field K] [LinearOrder K] [IsStrictOrderedRing K]

/-! ### Specification -/

/-- The unit normal of the triangle of the first three nodes of an element. -/
def Mesh.elemNormalOf (nrm : Vec3 K → K) (s : Mesh K) (eid : Int) : Vec3 K :=
  match (s.elements.get? eid).map fun e => e.nodeIds.map s.nodes.get? with
  | some (some a :: some b :: some c :: _) => Tri.normal nrm ⟨a, b, c⟩
  | _ => 0

/-- The direction in which a node is displaced: against the sum of the normals of the elements at this node, made a unit vector unless zero. -/
def Mesh.nodeNormalOf (nrm : Vec3 K → K) (s : Mesh K) (n : Int) : Vec3 K :=
  -(BasicMesher.unit nrm ((s.elements.ids.filter fun x => decide (HasNode s n x)).map (s.elemNormalOf nrm)).sum)

/-- The elements that are extruded: triangles and quadrilaterals. -/
def Elem.isSurface (e : Elem) : Bool := decide (e.elementType = .triangle) || decide (e.elementType = .quadrilateral)

/-- The ids of the triangles and quadrilaterals of a mesh, in the order of the mesh. -/
def Mesh.surfaceIds (s : Mesh K) : List Int := s.elements.ids.filter fun x => ((s.elements.get? x).map Elem.isSurface).getD false

/-- A surface the mesher accepts: a consistent mesh whose triangles have three nodes, whose quadrilaterals have four, and whose other elements have at least three. -/
structure Mesh.IsSurface (s : Mesh K) : Prop where
  wf : s.WF
  tri : ∀ x e, s.elements.get? x = some e → e.elementType = .triangle → e.nodeIds.length = 3
  quad : ∀ x e, s.elements.get? x = some e → e.elementType = .quadrilateral → e.nodeIds.length = 4
  three : ∀ x e, s.elements.get? x = some e → 3 ≤ e.nodeIds.length

/-- The relation between an element `e` of the surface and the solid element `E` made from it, with the nodes of the solid mesh, those of the surface before
and those of the surface after. `b` are the bottom nodes of the solid element, `t` the top nodes in the order of the bottom ones, `order` the
order in which the latter are listed in the element. -/
def ExtrudedFrom (solid before after : Cont (Vec3 K)) (e E : Elem) (ty : ElementType) (order : List Nat) : Prop :=
  ∃ b t : List Int, (b ++ t).Nodup ∧ E.elementType = ty ∧ E.nodeIds = b ++ order.map (t.getD · 0) ∧
    b.map solid.get? = e.nodeIds.map before.get? ∧ t.map solid.get? = e.nodeIds.map after.get?

/-! ### Loops -/

theorem push_spec (ps : List (Vec3 K)) : ∀ (c : Cont (Vec3 K)), c.Ok →
    (push c ps).2.Ok ∧ (push c ps).2.ids = c.ids ++ (push c ps).1 ∧ (push c ps).1.length = ps.length ∧
      (∀ x ∈ c.ids, (push c ps).2.get? x = c.get? x) ∧ (push c ps).1.map (push c ps).2.get? = ps.map some := by
  induction ps with
  | nil => intro c hc; exact ⟨hc, by simp [push], rfl, fun _ _ => rfl, rfl⟩
  | cons p t ih =>
    intro c hc
    have hn := Cont.nextId_not_mem hc
    obtain ⟨h1, h2, h3, h4, h5⟩ := ih (c.add c.nextId p) (Cont.add_ok hc p hn)
    refine ⟨h1, ?_, ?_, ?_, ?_⟩
    · simp only [push]; rw [h2]; simp [Cont.add]
    · simp only [push, List.length_cons, h3]
    · intro x hx
      simp only [push]
      rw [h4 x (by simp [Cont.add, hx]), Cont.get?_add, if_neg (by rintro rfl; exact hn hx)]
    · simp only [push, List.map_cons]
      rw [h5, h4 c.nextId (by simp [Cont.add]), Cont.get?_add, if_pos rfl]

theorem mapM_get {α : Type} (c : Cont α) (hc : c.Ok) (ids : List Int) (h : ∀ x ∈ ids, x ∈ c.ids) :
    ∃ ps, ids.mapM c.get? = some ps ∧ ids.map c.get? = ps.map some :=
  FemOp.mapM_some c.get? ids fun x hx => (hc.2 x).1 (h x hx)

theorem elemNormal_eq (nrm : Vec3 K → K) {s : Mesh K} (hs : s.IsSurface) (x : Int) (e : Elem) (he : s.elements.get? x = some e) :
    elemNormal nrm s x = some (s.elemNormalOf nrm x) := by
  obtain ⟨ps, h1, h2⟩ := mapM_get s.nodes hs.wf.nodes e.nodeIds (hs.wf.elemNodes x e he)
  have hlen : 3 ≤ ps.length := by
    have := congrArg List.length h2
    simp only [List.length_map] at this
    rw [← this]; exact hs.three x e he
  match ps, hlen with
  | a :: b :: c :: t, _ =>
    unfold elemNormal Mesh.elemNormalOf
    simp only [he, h1, h2, Option.bind_eq_bind, Option.bind_some, Option.map_some, List.map_cons, List.getElem?_cons_zero,
      List.getElem?_cons_succ, Option.pure_def]

theorem foldl_sum (l : List (Vec3 K)) : l.foldl (· + ·) 0 = l.sum := (List.sum_eq_foldl).symm

theorem nodeNormal_eq (nrm : Vec3 K → K) {s : Mesh K} (hs : s.IsSurface) (q : MeshQuery)
    (hq : ∀ k, q.at' k = s.elements.ids.filter fun x => decide (HasNode s k x)) (n : Int) :
    nodeNormal nrm s q n = some (s.nodeNormalOf nrm n) := by
  unfold nodeNormal
  have h1 : (q.sharingNode n).2 = q.at' n := (touch_at q n).1
  rw [h1, hq, mapM_option_eq (g := s.elemNormalOf nrm)]
  · simp only [Option.bind_eq_bind, Option.bind_some, Option.pure_def, Mesh.nodeNormalOf, foldl_sum]
  · intro x hx
    obtain ⟨e, he, -⟩ := of_decide_eq_true (List.mem_filter.1 hx).2
    exact elemNormal_eq nrm hs x e he

theorem normalsLoop_spec (nrm : Vec3 K → K) {s : Mesh K} (hs : s.IsSurface) (l : List Int) : ∀ (q : MeshQuery) (d : SMap Int (Vec3 K)),
    (∀ k, q.at' k = s.elements.ids.filter fun x => decide (HasNode s k x)) →
    ∃ d', normalsLoop nrm s l q d = some d' ∧ ∀ n, d'.find? n = if n ∈ l then some (s.nodeNormalOf nrm n) else d.find? n := by
  induction l with
  | nil => intro q d _; exact ⟨d, rfl, by simp⟩
  | cons a t ih =>
    intro q d hq
    obtain ⟨d', h1, h2⟩ := ih (q.sharingNode a).1 (d.insert a (s.nodeNormalOf nrm a)) (fun k => by
      rw [← hq k]; exact (touch_at q a).2 k)
    refine ⟨d', by simp [normalsLoop, nodeNormal_eq nrm hs q hq a, h1], fun n => ?_⟩
    rw [h2, SMap.find?_insert]
    by_cases h3 : n = a
    · subst h3; simp
    · simp [h3]

theorem moveLoop_spec (normals : SMap Int (Vec3 K)) (delta : K) (l : List Int) (hl : l.Nodup) : ∀ (c : Cont (Vec3 K)),
    (∀ x ∈ l, (∃ p, c.get? x = some p) ∧ ∃ v, normals.find? x = some v) →
    ∃ c', moveLoop normals delta l c = some c' ∧ c'.ids = c.ids ∧ c'.indices = c.indices ∧ c'.counter = c.counter ∧
      ∀ x, c'.get? x = if x ∈ l then (c.get? x).bind fun p => (normals.find? x).map fun v => p + delta • v else c.get? x := by
  induction l with
  | nil => intro c _; exact ⟨c, rfl, rfl, rfl, rfl, by simp⟩
  | cons a t ih =>
    intro c h
    rw [List.nodup_cons] at hl
    obtain ⟨⟨p, hp⟩, v, hv⟩ := h a (by simp)
    obtain ⟨c', h1, h2, h3, h4, h5⟩ := ih hl.2 { c with map := c.map.insert a (p + delta • v) } (fun x hx => by
      rw [Cont.get?_put, if_neg (by rintro rfl; exact hl.1 hx)]
      exact h x (by simp [hx]))
    refine ⟨c', ?_, h2, h3, h4, fun x => ?_⟩
    · simp only [moveLoop, hv, Option.bind_eq_bind, Option.bind_some]
      rw [Cont.modify_eq (a' := p + delta • v) hp rfl]
      exact h1
    · rw [h5, Cont.get?_put]
      by_cases hx : x = a
      · subst hx; simp [hl.1, hp, hv]
      · simp [hx]

/-- One element. -/
theorem element_spec (normals : SMap Int (Vec3 K)) (s : Mesh K) (hs : s.IsSurface) (delta : K) (after : Cont (Vec3 K))
    (hn : ∀ x ∈ s.nodes.ids, ∃ v, normals.find? x = some v)
    (ha : ∀ x ∈ s.nodes.ids, after.get? x = (s.nodes.get? x).bind fun p => (normals.find? x).map fun v => p + delta • v)
    (m : Mesh K) (hm : m.nodes.Ok) (hme : m.elements.Ok) (x : Int) (e : Elem) (he : s.elements.get? x = some e) :
    ∃ m', element normals s delta m x = some m' ∧ m'.nodes.Ok ∧ m'.elements.Ok ∧ m'.faces = m.faces ∧ m'.nbBoundary = m.nbBoundary ∧
      (∀ y ∈ m.nodes.ids, m'.nodes.get? y = m.nodes.get? y) ∧ (∀ y ∈ m.elements.ids, m'.elements.get? y = m.elements.get? y) ∧
      (∃ N, m'.nodes.ids = m.nodes.ids ++ N) ∧
      if e.isSurface then ∃ E, m'.elements.ids = m.elements.ids ++ [m.elements.nextId] ∧ m'.elements.get? m.elements.nextId = some E ∧
          (∀ n ∈ E.nodeIds, n ∈ m'.nodes.ids ∧ n ∉ m.nodes.ids) ∧
          ((e.elementType = .triangle → ExtrudedFrom m'.nodes s.nodes after e E .triangularPrism [0, 1, 2]) ∧
           (e.elementType = .quadrilateral → ExtrudedFrom m'.nodes s.nodes after e E .hexahedron [0, 3, 2, 1]))
        else m' = m := by
  obtain ⟨bottom, hb1, hb2⟩ := mapM_get s.nodes hs.wf.nodes e.nodeIds (hs.wf.elemNodes x e he)
  obtain ⟨d, hd1, hd2⟩ := FemOp.mapM_some normals.find? e.nodeIds fun n hx => hn n (hs.wf.elemNodes x e he n hx)
  have htop : e.nodeIds.map after.get? = ((bottom.zip d).map fun p => p.1 + delta • p.2).map some := by
    have : ∀ (l : List Int) (bs ds : List (Vec3 K)), (∀ n ∈ l, n ∈ s.nodes.ids) → l.map s.nodes.get? = bs.map some → l.map normals.find? = ds.map some →
        l.map after.get? = ((bs.zip ds).map fun p => p.1 + delta • p.2).map some := by
      intro l
      induction l with
      | nil =>
        intro bs ds _ h1 _
        have : bs = [] := by simpa using h1.symm
        subst this; rfl
      | cons a t ih =>
        intro bs ds hin h1 h2
        match bs, ds with
        | [], _ => simp at h1
        | _ :: _, [] => simp at h2
        | b :: bs, d :: ds =>
          simp only [List.map_cons, List.cons.injEq] at h1 h2
          simp only [List.map_cons, List.zip_cons_cons]
          rw [ha a (hin a (by simp)), h1.1, h2.1, ih bs ds (fun n hn => hin n (by simp [hn])) h1.2 h2.2]
          rfl
    exact this _ _ _ (hs.wf.elemNodes x e he) hb2 hd2
  have hlen : bottom.length = e.nodeIds.length := by simpa using (congrArg List.length hb2).symm
  have hlen' : d.length = e.nodeIds.length := by simpa using (congrArg List.length hd2).symm
  -- the two pushes
  obtain ⟨p1, p2, p3, p4, p5⟩ := push_spec bottom m.nodes hm
  obtain ⟨r1, r2, r3, r4, r5⟩ := push_spec ((bottom.zip d).map fun p => p.1 + delta • p.2) (push m.nodes bottom).2 p1
  set ids1 := (push m.nodes bottom).1 with hids1
  set c1 := (push m.nodes bottom).2 with hc1
  set ids2 := (push c1 ((bottom.zip d).map fun p => p.1 + delta • p.2)).1 with hids2
  set c2 := (push c1 ((bottom.zip d).map fun p => p.1 + delta • p.2)).2 with hc2
  have hids : c2.ids = m.nodes.ids ++ (ids1 ++ ids2) := by rw [r2, p2, List.append_assoc]
  have hnd : (ids1 ++ ids2).Nodup ∧ ∀ n ∈ ids1 ++ ids2, n ∉ m.nodes.ids := by
    have := r1.1
    rw [hids, List.nodup_append] at this
    exact ⟨this.2.1, fun n hn hm' => this.2.2 n hm' n hn rfl⟩
  have hb : ids1.map c2.get? = e.nodeIds.map s.nodes.get? := by
    rw [hb2, ← p5]
    apply List.map_congr_left
    intro n hn
    exact r4 n (by rw [p2]; simp [hn])
  have ht : ids2.map c2.get? = e.nodeIds.map after.get? := by rw [htop, ← r5]
  have hl2 : ids2.length = e.nodeIds.length := by rw [r3]; simp [hlen, hlen']
  have hrange : ∀ k, e.nodeIds.length = k → (List.range k).mapM (fun j => e.nodeIds[j]?) = some e.nodeIds := by
    rintro k rfl
    rw [mapM_option_eq (g := fun j => e.nodeIds.getD j 0)]
    · congr 1
      apply List.ext_getElem (by simp)
      intro i h1 h2
      simp [List.getD, List.getElem?_eq_getElem h2]
    · intro j hj
      rw [List.mem_range] at hj
      simp [List.getD, List.getElem?_eq_getElem hj]
  have main : ∀ (k : Nat) (ty : ElementType) (order : List Nat), e.nodeIds.length = k → (∀ i ∈ order, i < k) → ∀ oids, oids = order.map (ids2.getD · 0) →
      let m' : Mesh K := { m with nodes := c2, elements := m.elements.add m.elements.nextId { elementType := ty, nodeIds := ids1 ++ oids } }
      m'.nodes.Ok ∧ m'.elements.Ok ∧ m'.faces = m.faces ∧ m'.nbBoundary = m.nbBoundary ∧
      (∀ y ∈ m.nodes.ids, m'.nodes.get? y = m.nodes.get? y) ∧ (∀ y ∈ m.elements.ids, m'.elements.get? y = m.elements.get? y) ∧
      (∃ N, m'.nodes.ids = m.nodes.ids ++ N) ∧
      ∃ E, m'.elements.ids = m.elements.ids ++ [m.elements.nextId] ∧ m'.elements.get? m.elements.nextId = some E ∧
          (∀ n ∈ E.nodeIds, n ∈ m'.nodes.ids ∧ n ∉ m.nodes.ids) ∧ ExtrudedFrom m'.nodes s.nodes after e E ty order := by
    intro k ty order hk horder oids hoids m'
    have hnx := Cont.nextId_not_mem hme
    refine ⟨r1, Cont.add_ok hme _ hnx, rfl, rfl, ?_, ?_, ⟨_, hids⟩, { elementType := ty, nodeIds := ids1 ++ oids }, rfl, ?_, ?_, ?_⟩
    · intro y hy
      show c2.get? y = _
      rw [r4 y (by rw [p2]; simp [hy]), p4 y hy]
    · intro y hy
      show (m.elements.add _ _).get? y = _
      rw [Cont.get?_add, if_neg (by rintro rfl; exact hnx hy)]
    · show (m.elements.add _ _).get? _ = _
      rw [Cont.get?_add, if_pos rfl]
    · intro n hn
      have : n ∈ ids1 ++ ids2 := by
        rcases List.mem_append.1 hn with h | h
        · simp [h]
        · rw [hoids] at h
          obtain ⟨i, hi, rfl⟩ := List.mem_map.1 h
          have hi' : i < ids2.length := by rw [hl2, hk]; exact horder i hi
          refine List.mem_append.2 (Or.inr ?_)
          rw [List.getD_eq_getElem?_getD, List.getElem?_eq_getElem hi']
          exact List.getElem_mem hi'
      refine ⟨?_, hnd.2 n this⟩
      show n ∈ c2.ids
      rw [hids]; exact List.mem_append.2 (Or.inr this)
    · exact ⟨ids1, ids2, hnd.1, rfl, by rw [hoids], hb, ht⟩
  cases hty : e.elementType
  case triangle =>
    have h3 := hs.tri x e he hty
    have hoid : ids2 = [0, 1, 2].map (ids2.getD · 0) := by
      rw [h3] at hl2
      match ids2, hl2 with
      | [a, b, c], _ => rfl
    obtain ⟨q1, q2, q3, q4, q5, q6, q7, q8⟩ := main 3 .triangularPrism [0, 1, 2] h3 (by decide) ids2 hoid
    refine ⟨_, ?_, q1, q2, q3, q4, q5, q6, q7, ?_⟩
    · simp only [element, he, Option.bind_eq_bind, Option.bind_some, hty, hrange 3 h3, hb1, hd1, Option.pure_def, id]
      rfl
    · rw [if_pos (by simp [Elem.isSurface, hty])]
      obtain ⟨E, a1, a2, a3, a4⟩ := q8
      exact ⟨E, a1, a2, a3, fun _ => a4, fun h => by simp at h⟩
  case quadrilateral =>
    have h4 := hs.quad x e he hty
    have hoid : hexTop ids2 = [0, 3, 2, 1].map (ids2.getD · 0) := by
      rw [h4] at hl2
      match ids2, hl2 with
      | [a, b, c, d], _ => rfl
    obtain ⟨q1, q2, q3, q4, q5, q6, q7, q8⟩ := main 4 .hexahedron [0, 3, 2, 1] h4 (by decide) (hexTop ids2) hoid
    refine ⟨_, ?_, q1, q2, q3, q4, q5, q6, q7, ?_⟩
    · simp only [element, he, Option.bind_eq_bind, Option.bind_some, hty, hrange 4 h4, hb1, hd1, Option.pure_def]
      rfl
    · rw [if_pos (by simp [Elem.isSurface, hty])]
      obtain ⟨E, a1, a2, a3, a4⟩ := q8
      exact ⟨E, a1, a2, a3, fun h => by simp at h, fun _ => a4⟩
  all_goals
    refine ⟨m, ?_, hm, hme, rfl, rfl, fun _ _ => rfl, fun _ _ => rfl, ⟨[], by simp⟩, ?_⟩
    · simp only [element, he, Option.bind_eq_bind, Option.bind_some, hty]
    · rw [if_neg (by simp [Elem.isSurface, hty])]

/-- More nodes do not change what was extruded. -/
theorem ExtrudedFrom.mono {solid solid' before after : Cont (Vec3 K)} {e E : Elem} {ty : ElementType} {order : List Nat}
    (h : ExtrudedFrom solid before after e E ty order) (hok : solid.Ok) (hb : ∀ x ∈ e.nodeIds, ∃ p, before.get? x = some p)
    (ha : ∀ x ∈ e.nodeIds, ∃ p, after.get? x = some p) (hm : ∀ y ∈ solid.ids, solid'.get? y = solid.get? y) :
    ExtrudedFrom solid' before after e E ty order := by
  obtain ⟨b, t, h1, h2, h3, h4, h5⟩ := h
  refine ⟨b, t, h1, h2, h3, ?_, ?_⟩
  · rw [← h4]
    apply List.map_congr_left
    intro y hy
    apply hm
    have : solid.get? y ∈ e.nodeIds.map before.get? := by rw [← h4]; exact List.mem_map.2 ⟨y, hy, rfl⟩
    obtain ⟨x, hx, hxe⟩ := List.mem_map.1 this
    obtain ⟨p, hp⟩ := hb x hx
    exact (hok.2 y).2 ⟨p, by rw [← hxe, hp]⟩
  · rw [← h5]
    apply List.map_congr_left
    intro y hy
    apply hm
    have : solid.get? y ∈ e.nodeIds.map after.get? := by rw [← h5]; exact List.mem_map.2 ⟨y, hy, rfl⟩
    obtain ⟨x, hx, hxe⟩ := List.mem_map.1 this
    obtain ⟨p, hp⟩ := ha x hx
    exact (hok.2 y).2 ⟨p, by rw [← hxe, hp]⟩

theorem elementsLoop_spec (normals : SMap Int (Vec3 K)) (s : Mesh K) (hs : s.IsSurface) (delta : K) (after : Cont (Vec3 K))
    (hn : ∀ x ∈ s.nodes.ids, ∃ v, normals.find? x = some v)
    (ha : ∀ x ∈ s.nodes.ids, after.get? x = (s.nodes.get? x).bind fun p => (normals.find? x).map fun v => p + delta • v)
    (l : List Int) (hl : ∀ x ∈ l, x ∈ s.elements.ids) : ∀ (m : Mesh K), m.nodes.Ok → m.elements.Ok →
    ∃ m' new N, elementsLoop normals s delta l m = some m' ∧ m'.nodes.Ok ∧ m'.elements.Ok ∧ m'.faces = m.faces ∧ m'.nbBoundary = m.nbBoundary ∧
      (∀ y ∈ m.nodes.ids, m'.nodes.get? y = m.nodes.get? y) ∧ (∀ y ∈ m.elements.ids, m'.elements.get? y = m.elements.get? y) ∧
      m'.nodes.ids = m.nodes.ids ++ N ∧ m'.elements.ids = m.elements.ids ++ new ∧
      List.Forall₂ (fun x y => ∃ e E, s.elements.get? x = some e ∧ m'.elements.get? y = some E ∧
          (∀ n ∈ E.nodeIds, n ∈ m'.nodes.ids ∧ n ∉ m.nodes.ids) ∧
          (e.elementType = .triangle → ExtrudedFrom m'.nodes s.nodes after e E .triangularPrism [0, 1, 2]) ∧
          (e.elementType = .quadrilateral → ExtrudedFrom m'.nodes s.nodes after e E .hexahedron [0, 3, 2, 1]))
        (l.filter fun x => ((s.elements.get? x).map Elem.isSurface).getD false) new := by
  induction l with
  | nil => intro m h1 h2; exact ⟨m, [], [], rfl, h1, h2, rfl, rfl, fun _ _ => rfl, fun _ _ => rfl, by simp, by simp, List.Forall₂.nil⟩
  | cons x t ih =>
    intro m h1 h2
    obtain ⟨e, he⟩ := (hs.wf.elements.2 x).1 (hl x (by simp))
    obtain ⟨m1, a1, a2, a3, a4, a5, a6, a7, ⟨N1, a8⟩, a9⟩ := element_spec normals s hs delta after hn ha m h1 h2 x e he
    obtain ⟨m', new, N, b1, b2, b3, b4, b5, b6, b7, b8, b9, b10⟩ := ih (fun y hy => hl y (by simp [hy])) m1 a2 a3
    have hnode : ∀ n ∈ e.nodeIds, ∃ p, s.nodes.get? n = some p := fun n hn' => (hs.wf.nodes.2 n).1 (hs.wf.elemNodes x e he n hn')
    have hnode' : ∀ n ∈ e.nodeIds, ∃ p, after.get? n = some p := fun n hn' => by
      obtain ⟨p, hp⟩ := hnode n hn'
      obtain ⟨v, hv⟩ := hn n (hs.wf.elemNodes x e he n hn')
      exact ⟨_, by rw [ha n (hs.wf.elemNodes x e he n hn'), hp, hv]; rfl⟩
    have hids : m'.nodes.ids = m.nodes.ids ++ (N1 ++ N) := by rw [b8, a8, List.append_assoc]
    have hkeep : ∀ y ∈ m.nodes.ids, m'.nodes.get? y = m.nodes.get? y := fun y hy => by
      rw [b6 y (by rw [a8]; simp [hy]), a6 y hy]
    have hrest : ∀ xs ys, List.Forall₂ (fun x y => ∃ e E, s.elements.get? x = some e ∧ m'.elements.get? y = some E ∧
          (∀ n ∈ E.nodeIds, n ∈ m'.nodes.ids ∧ n ∉ m1.nodes.ids) ∧
          (e.elementType = .triangle → ExtrudedFrom m'.nodes s.nodes after e E .triangularPrism [0, 1, 2]) ∧
          (e.elementType = .quadrilateral → ExtrudedFrom m'.nodes s.nodes after e E .hexahedron [0, 3, 2, 1])) xs ys →
        List.Forall₂ (fun x y => ∃ e E, s.elements.get? x = some e ∧ m'.elements.get? y = some E ∧
          (∀ n ∈ E.nodeIds, n ∈ m'.nodes.ids ∧ n ∉ m.nodes.ids) ∧
          (e.elementType = .triangle → ExtrudedFrom m'.nodes s.nodes after e E .triangularPrism [0, 1, 2]) ∧
          (e.elementType = .quadrilateral → ExtrudedFrom m'.nodes s.nodes after e E .hexahedron [0, 3, 2, 1])) xs ys := by
      intro xs ys h
      refine h.imp ?_
      rintro x y ⟨e, E, q1, q2, q3, q4⟩
      refine ⟨e, E, q1, q2, fun n hn' => ⟨(q3 n hn').1, fun hm => (q3 n hn').2 (by rw [a8]; simp [hm])⟩, q4⟩
    by_cases hsurf : e.isSurface = true
    · rw [if_pos hsurf] at a9
      obtain ⟨E, c1, c2, c3, c4, c5⟩ := a9
      refine ⟨m', m.elements.nextId :: new, N1 ++ N, by simp [elementsLoop, a1, b1], b2, b3, b4.trans a4, b5.trans a5, hkeep, ?_, hids, ?_, ?_⟩
      · intro y hy
        rw [b7 y (by rw [c1]; simp [hy]), a7 y hy]
      · rw [b9, c1, List.append_assoc]; rfl
      · rw [List.filter_cons_of_pos (by simp [he, hsurf])]
        refine List.Forall₂.cons ⟨e, E, he, ?_, ?_, ?_, ?_⟩ (hrest _ _ b10)
        · rw [b7 _ (by rw [c1]; simp), c2]
        · intro n hn'
          refine ⟨?_, (c3 n hn').2⟩
          rw [b8]; simp [(c3 n hn').1]
        · exact fun h => (c4 h).mono a2 hnode hnode' b6
        · exact fun h => (c5 h).mono a2 hnode hnode' b6
    · rw [if_neg hsurf] at a9
      subst a9
      refine ⟨m', new, N1 ++ N, by simp [elementsLoop, a1, b1], b2, b3, b4.trans a4, b5.trans a5, hkeep, b7, hids, b9, ?_⟩
      rw [List.filter_cons_of_neg (by simp [he, hsurf])]
      exact b10

/-! ### C33 -/

/-- **C33.** For every surface mesh and every mesh of the mesher, `generate` succeeds. The surface keeps its elements and its node ids, and each of its nodes is
displaced by `delta` against the unit sum of the normals of the elements at this node. The mesh of the mesher keeps what it had and gets one new
element for every triangle and quadrilateral of the surface, in their order: a prism whose bottom nodes are where the nodes of the triangle were
and whose top nodes are where they are now, in the same order; a hexahedron in the same way, except that its top nodes are listed in the order
0, 3, 2, 1. What is missing from the property is the order of the top nodes of the hexahedra, see `C33_hexahedra_twisted`. -/
theorem C33_generate_partial (nrm : Vec3 K → K) (m s : Mesh K) (hm : m.WF) (hs : s.IsSurface) (delta : K) :
    ∃ m' s' new, generate nrm m s delta = some (m', s') ∧
      s'.elements = s.elements ∧ s'.faces = s.faces ∧ s'.nodes.ids = s.nodes.ids ∧
      (∀ x p, s.nodes.get? x = some p → s'.nodes.get? x = some (p + delta • s.nodeNormalOf nrm x)) ∧
      m'.WF ∧ (∀ x ∈ m.nodes.ids, m'.nodes.get? x = m.nodes.get? x) ∧ (∀ x ∈ m.elements.ids, m'.elements.get? x = m.elements.get? x) ∧
      m'.elements.ids = m.elements.ids ++ new ∧
      List.Forall₂ (fun x y => ∃ e E, s.elements.get? x = some e ∧ m'.elements.get? y = some E ∧
          (∀ n ∈ E.nodeIds, n ∉ m.nodes.ids) ∧
          (e.elementType = .triangle → ExtrudedFrom m'.nodes s.nodes s'.nodes e E .triangularPrism [0, 1, 2]) ∧
          (e.elementType = .quadrilateral → ExtrudedFrom m'.nodes s.nodes s'.nodes e E .hexahedron [0, 3, 2, 1]))
        s.surfaceIds new := by
  obtain ⟨q, hq1, hq2⟩ := query_at s hs.wf.elements
  obtain ⟨d, hd1, hd2⟩ := normalsLoop_spec nrm hs s.nodes.ids q SMap.empty hq2
  have hfind : ∀ x ∈ s.nodes.ids, d.find? x = some (s.nodeNormalOf nrm x) := fun x hx => by rw [hd2, if_pos hx]
  obtain ⟨c, hc1, hc2, hc3, hc4, hc5⟩ := moveLoop_spec d delta s.nodes.ids hs.wf.nodes.1 s.nodes
    (fun x hx => ⟨(hs.wf.nodes.2 x).1 hx, _, hfind x hx⟩)
  obtain ⟨m', new, N, b1, b2, b3, b4, b5, b6, b7, b8, b9, b10⟩ := elementsLoop_spec d s hs delta c (fun x hx => ⟨_, hfind x hx⟩)
    (fun x hx => by rw [hc5, if_pos hx]) s.elements.ids (fun _ h => h) m hm.nodes hm.elements
  refine ⟨m', { s with nodes := c }, new, ?_, rfl, rfl, hc2, ?_, ?_, b6, b7, b9, ?_⟩
  · simp [generate, hq1, hd1, b1, hc1]
  · intro x p hp
    have hx : x ∈ s.nodes.ids := (hs.wf.nodes.2 x).2 ⟨p, hp⟩
    show c.get? x = _
    rw [hc5, if_pos hx, hp, hfind x hx]; rfl
  · refine ⟨b2, by rw [b4]; exact hm.faces, b3, ?_, ?_⟩
    · intro id f hf n hn
      rw [b4] at hf
      rw [b8]; simp [hm.faceNodes id f hf n hn]
    · intro id e he n hn
      have hid := (b3.2 id).2 ⟨e, he⟩
      rw [b9, List.mem_append] at hid
      rcases hid with hid | hid
      · rw [b7 id hid] at he
        rw [b8]; simp [hm.elemNodes id e he n hn]
      · obtain ⟨k, hk, hk'⟩ := List.mem_iff_getElem.1 hid
        obtain ⟨hl, hf⟩ := List.forall₂_iff_get.1 b10
        obtain ⟨e', E, -, q2, q3, -⟩ := hf k (by rw [hl]; exact hk) hk
        have : new.get ⟨k, hk⟩ = id := hk'
        rw [this, he] at q2
        obtain rfl := Option.some.inj q2
        exact (q3 n hn).1
  · refine b10.imp ?_
    rintro x y ⟨e, E, q1, q2, q3, q4⟩
    exact ⟨e, E, q1, q2, fun n hn => (q3 n hn).2, q4⟩

/-- **C33 fails for quadrilaterals.** Whenever a quadrilateral `e` of the surface is extruded and its displaced second and fourth corner are at different places,
the vertical edge of the hexahedron at its second corner (between its nodes 1 and 5, see the faces of a hexahedron in C07) does not lead to the
displaced copy of this corner, but to that of the fourth. -/
theorem C33_hexahedra_twisted {solid before after : Cont (Vec3 K)} {e E : Elem} (h : ExtrudedFrom solid before after e E .hexahedron [0, 3, 2, 1])
    (a b c d : Int) (he : e.nodeIds = [a, b, c, d]) (hne : after.get? b ≠ after.get? d) :
    E.nodeIds.length = 8 ∧ (∃ x, E.nodeIds[1]? = some x ∧ solid.get? x = before.get? b) ∧
      ∃ y, E.nodeIds[5]? = some y ∧ solid.get? y = after.get? d ∧ solid.get? y ≠ after.get? b := by
  obtain ⟨bs, ts, h1, h2, h3, h4, h5⟩ := h
  rw [he] at h4 h5
  have l1 : bs.length = 4 := by simpa using congrArg List.length h4
  have l2 : ts.length = 4 := by simpa using congrArg List.length h5
  match bs, l1, ts, l2 with
  | [b0, b1, b2, b3], _, [t0, t1, t2, t3], _ =>
    simp only [List.map_cons, List.map_nil, List.cons.injEq, and_true] at h4 h5
    refine ⟨by rw [h3]; rfl, ⟨b1, by rw [h3]; rfl, h4.2.1⟩, t3, by rw [h3]; rfl, h5.2.2.2, ?_⟩
    rw [h5.2.2.2]
    exact fun h => hne h.symm

/-- **C33, plane surfaces.** If all elements have the same unit normal and every node belongs to one, all nodes are displaced by `-delta` along it. -/
theorem C33_plane {nrm : Vec3 K → K} (hn : IsNorm nrm) (s : Mesh K) (hs : s.IsSurface) (N : Vec3 K) (hN : N.normSq = 1)
    (hel : ∀ x ∈ s.elements.ids, s.elemNormalOf nrm x = N) (x : Int) (hx : ∃ y, HasNode s x y) : s.nodeNormalOf nrm x = -N := by
  unfold Mesh.nodeNormalOf
  have : ∀ l : List Int, (∀ y ∈ l, s.elemNormalOf nrm y = N) → (l.map (s.elemNormalOf nrm)).sum = (l.length : K) • N := by
    intro l
    induction l with
    | nil => intro _; simp
    | cons a t ih =>
      intro h
      rw [List.map_cons, List.sum_cons, h a (by simp), ih (fun y hy => h y (by simp [hy]))]
      ext <;> simp <;> ring
  rw [this _ (fun y hy => hel y (List.mem_filter.1 hy).1)]
  set k := (s.elements.ids.filter fun y => decide (HasNode s x y)).length with hk
  have hk0 : 0 < k := by
    obtain ⟨y, hy⟩ := hx
    obtain ⟨e, he, -⟩ := id hy
    exact List.length_pos_of_mem (List.mem_filter.2 ⟨(hs.wf.elements.2 y).2 ⟨e, he⟩, decide_eq_true hy⟩)
  have hkK : (0 : K) < k := by exact_mod_cast hk0
  have hsq : ((k : K) • N).normSq = k * k := by
    have : ((k : K) • N).normSq = k * k * N.normSq := by simp [Vec3.normSq, Vec3.dot]; ring
    rw [this, hN, mul_one]
  have hnv : nrm ((k : K) • N) = k := hn.eq_of_sq hkK.le hsq.symm
  unfold BasicMesher.unit
  rw [if_pos (by rw [hsq]; positivity), hnv]
  ext <;> simp [hkK.ne']

/-- **C33, volume.** `volume()` of the prism between a triangle of positive area and the triangle displaced by `-delta` along its normal is `delta` times the area. -/
theorem C33_prism_volume {nrm : Vec3 K → K} (hn : IsNorm nrm) (t : Tri K) (h0 : t.rawNormal ≠ 0) (delta : K) :
    Prism.volume ⟨t.v0, t.v1, t.v2, t.v0 + delta • -(t.normal nrm), t.v1 + delta • -(t.normal nrm), t.v2 + delta • -(t.normal nrm)⟩ =
      delta * (t.normalArea nrm).2 := by
  have hpos : 0 < nrm t.rawNormal := hn.pos h0
  have hN : t.normal nrm = (nrm t.rawNormal)⁻¹ • t.rawNormal := by
    simp only [Tri.normal, Tri.normalArea]
    rw [if_pos (by positivity)]
  have hA : (t.normalArea nrm).2 = nrm t.rawNormal * (1 / 2) := rfl
  have hsq : nrm t.rawNormal * nrm t.rawNormal = t.rawNormal.dot t.rawNormal := hn.sq _
  have e1 : Vec3.cross (t.v2 - t.v0) (t.v1 - t.v0) = -t.rawNormal := by
    unfold Tri.rawNormal Vec3.cross; ext <;> simp <;> ring
  rw [hN, hA]
  simp only [Prism.volume, e1]
  have e2 : (t.v0 + delta • -((nrm t.rawNormal)⁻¹ • t.rawNormal) - t.v0).dot (-t.rawNormal) =
      delta * ((nrm t.rawNormal)⁻¹ * t.rawNormal.dot t.rawNormal) := by
    simp [Vec3.dot]; ring
  rw [e2, ← hsq]
  field_simp

/-- A square of two triangles and one quadrilateral beside it: a surface that meets the hypotheses. -/
def plate : Mesh ℚ :=
  { (Mesh.empty : Mesh ℚ) with
    nodes := BasicMesher.addAll [⟨0, 0, 0⟩, ⟨1, 0, 0⟩, ⟨1, 1, 0⟩, ⟨0, 1, 0⟩, ⟨2, 0, 0⟩, ⟨2, 1, 0⟩] Cont.empty 0
    elements := BasicMesher.addAll [{ elementType := .triangle, nodeIds := [0, 1, 2] }, { elementType := .triangle, nodeIds := [0, 2, 3] },
      { elementType := .quadrilateral, nodeIds := [1, 4, 5, 2] }] Cont.empty 0 }

theorem plate_surface : plate.IsSurface := by
  have hel : ∀ x e, plate.elements.get? x = some e → e ∈ [({ elementType := .triangle, nodeIds := [0, 1, 2] } : Elem), { elementType := .triangle, nodeIds := [0, 2, 3] },
      { elementType := .quadrilateral, nodeIds := [1, 4, 5, 2] }] := by
    intro x e he
    obtain ⟨k, -, hk⟩ := (BasicMesher.build_get (K := ℚ) (ns := []) x e).1 he
    exact List.mem_of_getElem? hk
  have hok := BasicMesher.build_ok (K := ℚ) [⟨0, 0, 0⟩, ⟨1, 0, 0⟩, ⟨1, 1, 0⟩, ⟨0, 1, 0⟩, ⟨2, 0, 0⟩, ⟨2, 1, 0⟩]
    [{ elementType := .triangle, nodeIds := [0, 1, 2] }, { elementType := .triangle, nodeIds := [0, 2, 3] },
      { elementType := .quadrilateral, nodeIds := [1, 4, 5, 2] }] (by decide)
  have hall : ∀ e ∈ [({ elementType := .triangle, nodeIds := [0, 1, 2] } : Elem), { elementType := .triangle, nodeIds := [0, 2, 3] },
      { elementType := .quadrilateral, nodeIds := [1, 4, 5, 2] }], (e.elementType = .triangle → e.nodeIds.length = 3) ∧
      (e.elementType = .quadrilateral → e.nodeIds.length = 4) ∧ 3 ≤ e.nodeIds.length := by decide
  exact ⟨hok.1, fun x e he => (hall e (hel x e he)).1, fun x e he => (hall e (hel x e he)).2.1, fun x e he => (hall e (hel x e he)).2.2⟩

/-- The plate extruded into an empty mesher (with a stand-in for the length that is right for the axis-parallel vectors that occur): two prisms and one
hexahedron, with 20 nodes. -/
example : let r := generate (fun v : Vec3 ℚ => |v.x| + |v.y| + |v.z|) Mesh.empty plate (1 / 2)
    r.map (fun r => (r.1.nodes.count, r.1.elements.count)) = some (20, 3) ∧
      (r.bind fun r => r.1.elements.get? 2).map Elem.nodeIds = some [12, 13, 14, 15, 16, 19, 18, 17] ∧
      (r.bind fun r => r.1.nodes.get? 3) = some ⟨0, 0, -1 / 2⟩ ∧ (r.bind fun r => r.2.nodes.get? 0) = some ⟨0, 0, -1 / 2⟩ := by
  decide +kernel

example : (Mesh.empty : Mesh ℚ).WF ∧ plate.surfaceIds = [0, 1, 2] :=
  ⟨⟨Cont.empty_ok, Cont.empty_ok, Cont.empty_ok, by intro _ _ h; simp [Mesh.empty, Cont.empty, Cont.get?] at h,
    by intro _ _ h; simp [Mesh.empty, Cont.empty, Cont.get?] at h⟩, by decide +kernel⟩

end ENigMA
