import Verif.Mesh.Collapse
import Verif.Mesh.RemeshProps

/-!
# What collapsing short sides does

`CMshTriangleMesher::collapseEdges` keeps the nodes of the boundary up to the tolerance, makes no new positions and leaves a consistent mesh of
triangles, but it does not keep the region.
-/

set_option linter.unusedSectionVars false
set_option autoImplicit false

namespace ENigMA
namespace Collapse
variable {K : Type} [Field K] [LinearOrder K] [IsStrictOrderedRing K]

/-- What holds of the nodes while sides are collapsed: same ids, nodes that are not marked free stay, every position is an old one. -/
structure Moved (bnd : SMap Int Bool) (nodes nodes' : Cont (Vec3 K)) : Prop where
  ids : nodes'.ids = nodes.ids
  ok : nodes'.Ok
  stay : ∀ n, bnd.find? n ≠ some false → nodes'.get? n = nodes.get? n
  old : ∀ n v, nodes'.get? n = some v → ∃ n0, nodes.get? n0 = some v

theorem Moved.refl {bnd : SMap Int Bool} {nodes : Cont (Vec3 K)} (h : nodes.Ok) : Moved bnd nodes nodes := ⟨rfl, h, fun _ _ => rfl, fun n _ h => ⟨n, h⟩⟩

theorem Moved.trans {bnd : SMap Int Bool} {a b c : Cont (Vec3 K)} (h : Moved bnd a b) (h' : Moved bnd b c) : Moved bnd a c := by
  refine ⟨h'.ids.trans h.ids, h'.ok, fun n hn => (h'.stay n hn).trans (h.stay n hn), fun n v hv => ?_⟩
  obtain ⟨n0, h0⟩ := h'.old n v hv
  exact h.old n0 v h0

/-- A side that would be collapsed: its second end is free and it is short. -/
def Short (nrm : Vec3 K → K) (size : K) (bnd : SMap Int Bool) (nodes : Cont (Vec3 K)) (a b : Int) : Prop :=
  bnd.find? b = some false ∧ ∃ p q, nodes.get? a = some p ∧ nodes.get? b = some q ∧ nrm (p - q) < size * (3 / 4)

theorem sides_spec (nrm : Vec3 K → K) (size : K) (bnd : SMap Int Bool) {e : Elem} (he : e.nodeIds.length = 3) {nodes : Cont (Vec3 K)} (hn : nodes.Ok)
    (hin : ∀ n ∈ e.nodeIds, n ∈ nodes.ids) (hb : ∀ n ∈ nodes.ids, ∃ b, bnd.find? n = some b) (l : List Nat) :
    ∃ nodes' b, sides nrm size bnd e l nodes = some (nodes', b) ∧ Moved bnd nodes nodes' ∧
      (b = false → nodes' = nodes) ∧
      (b = true → ∃ j ∈ l, ∃ a c, e.nodeIds[j % 3]? = some a ∧ e.nodeIds[(j + 1) % 3]? = some c ∧ Short nrm size bnd nodes a c) := by
  induction l with
  | nil => exact ⟨nodes, false, rfl, Moved.refl hn, fun _ => rfl, by simp⟩
  | cons j t ih =>
    have hget : ∀ k : Nat, ∃ n p, e.nodeIds[k % 3]? = some n ∧ nodes.get? n = some p ∧ n ∈ nodes.ids := by
      intro k
      have hk : k % 3 < e.nodeIds.length := by rw [he]; exact Nat.mod_lt _ (by norm_num)
      have hm := hin _ (List.getElem_mem hk)
      obtain ⟨p, hp⟩ := (hn.2 _).1 hm
      exact ⟨_, p, List.getElem?_eq_getElem hk, hp, hm⟩
    obtain ⟨a, p, h1, h2, -⟩ := hget j
    obtain ⟨c, q, h3, h4, h5⟩ := hget (j + 1)
    obtain ⟨b, hbb⟩ := hb c h5
    obtain ⟨nodes', b', r1, r2, r3, r4⟩ := ih
    have rest : b = true ∨ ¬ nrm (p - q) < size * (3 / 4) → sides nrm size bnd e (j :: t) nodes = sides nrm size bnd e t nodes := by
      intro h
      simp only [sides, h1, h2, h3, h4, hbb, Option.bind_eq_bind, Option.bind_some]
      rcases h with h | h
      · rw [if_pos h]
      · by_cases hb : b = true
        · rw [if_pos hb]
        · rw [if_neg hb, if_neg h]
    by_cases hc : b = true ∨ ¬ nrm (p - q) < size * (3 / 4)
    · refine ⟨nodes', b', (rest hc).trans r1, r2, r3, fun h => ?_⟩
      obtain ⟨j', hj, r⟩ := r4 h
      exact ⟨j', List.mem_cons_of_mem _ hj, r⟩
    · push Not at hc
      have hbf : b = false := by simpa using hc.1
      refine ⟨{ nodes with map := nodes.map.insert c p }, true, ?_, ⟨rfl, Cont.put_ok hn h4, ?_, ?_⟩, by simp, fun _ => ⟨j, by simp, a, c, h1, h3, hbf ▸ hbb, p, q, h2, h4, hc.2⟩⟩
      · simp only [sides, h1, h2, h3, h4, hbb, Option.bind_eq_bind, Option.bind_some]
        rw [if_neg hc.1, if_pos hc.2, Cont.modify_eq (a' := p) h4 rfl]
        rfl
      · intro n hne
        rw [Cont.get?_put, if_neg]
        rintro rfl
        exact hne (hbf ▸ hbb)
      · intro n v hv
        rw [Cont.get?_put] at hv
        split_ifs at hv with h
        · simp only [Option.some.injEq] at hv; subst hv; exact ⟨a, h2⟩
        · exact ⟨n, hv⟩

/-- What holds of the elements: same ids, same data apart from the type, which may have become `ET_NONE`. -/
structure Dropped (els els' : Cont Elem) : Prop where
  ids : els'.ids = els.ids
  ok : els'.Ok
  same : ∀ id e', els'.get? id = some e' → ∃ e, els.get? id = some e ∧ (e' = e ∨ e' = { e with elementType := .none })

theorem elements_spec (nrm : Vec3 K → K) (size : K) (bnd : SMap Int Bool) (ids : List Int) (hb : ∀ n ∈ ids, ∃ b, bnd.find? n = some b) (l : List Int) :
    ∀ s : Cont (Vec3 K) × Cont Elem, s.1.Ok → s.1.ids = ids → s.2.Ok → (∀ id e, s.2.get? id = some e → e.nodeIds.length = 3 ∧ ∀ n ∈ e.nodeIds, n ∈ ids) →
      (∀ id ∈ l, id ∈ s.2.ids) →
      ∃ s', elements nrm size bnd l s = some s' ∧ Moved bnd s.1 s'.1 ∧ Dropped s.2 s'.2 ∧
        ((∀ id e, s.2.get? id = some e → ∀ j a c, e.nodeIds[j % 3]? = some a → e.nodeIds[(j + 1) % 3]? = some c → ¬ Short nrm size bnd s.1 a c) →
          s'.1 = s.1 ∧ ∀ id, s'.2.get? id = s.2.get? id) := by
  induction l with
  | nil => intro s h1 _ h2 _ _; exact ⟨s, rfl, Moved.refl h1, ⟨rfl, h2, fun id e h => ⟨e, h, Or.inl rfl⟩⟩, fun _ => ⟨rfl, fun _ => rfl⟩⟩
  | cons id t ih =>
    intro s h1 hi h2 h3 hl
    obtain ⟨e, he⟩ := (h2.2 id).1 (hl id (by simp))
    by_cases hty : e.elementType ≠ .triangle
    · obtain ⟨s', r⟩ := ih s h1 hi h2 h3 fun i hi => hl i (List.mem_cons_of_mem _ hi)
      refine ⟨s', ?_, r.2⟩
      simp only [elements, he, Option.bind_eq_bind, Option.bind_some]
      rw [if_pos hty, r.1]
    · obtain ⟨hlen, hmem⟩ := h3 id e he
      obtain ⟨nodes', b, r1, r2, r3, r4⟩ := sides_spec nrm size bnd hlen h1 (fun n hn => hi ▸ hmem n hn) (fun n hn => hb n (hi ▸ hn)) (List.range e.nodeIds.length)
      have hmod : s.2.modify id (fun e => some (if b then { e with elementType := .none } else e)) =
          some { s.2 with map := s.2.map.insert id (if b then { e with elementType := .none } else e) } := Cont.modify_eq he rfl
      have hget : ∀ k, (Cont.mk (s.2.map.insert id (if b then { e with elementType := .none } else e)) s.2.ids s.2.indices s.2.counter).get? k =
          if k = id then some (if b then { e with elementType := .none } else e) else s.2.get? k := fun k => Cont.get?_put _ _ _ _
      have hok := Cont.put_ok h2 (a' := if b then { e with elementType := .none } else e) he
      generalize hE : (Cont.mk (s.2.map.insert id (if b then { e with elementType := .none } else e)) s.2.ids s.2.indices s.2.counter) = E at hget hok hmod
      have hEi : E.ids = s.2.ids := by rw [← hE]
      have hE3 : ∀ k e', E.get? k = some e' → ∃ e, s.2.get? k = some e ∧ (e' = e ∨ e' = { e with elementType := .none }) := by
        intro k e' hk
        rw [hget] at hk
        split_ifs at hk with hk1 hk2
        · simp only [Option.some.injEq] at hk; exact ⟨e, hk1 ▸ he, Or.inr hk.symm⟩
        · simp only [Option.some.injEq] at hk; exact ⟨e, hk1 ▸ he, Or.inl hk.symm⟩
        · exact ⟨e', hk, Or.inl rfl⟩
      obtain ⟨s', q1, q2, q3, q4⟩ := ih (nodes', E) r2.ok (r2.ids.trans hi) hok (fun k e' hk => by
        obtain ⟨e0, h0, h | h⟩ := hE3 k e' hk
        · rw [h]; exact h3 k e0 h0
        · rw [h]; exact h3 k e0 h0) (fun i hi => hEi ▸ hl i (List.mem_cons_of_mem _ hi))
      refine ⟨s', ?_, r2.trans q2, ⟨q3.ids.trans hEi, q3.ok, ?_⟩, ?_⟩
      · simp only [elements, he, Option.bind_eq_bind, Option.bind_some]
        rw [if_neg hty, r1]
        simp only [Option.bind_some]
        rw [hmod]
        exact q1
      · intro k e' hk
        obtain ⟨e1, h5, h6⟩ := q3.same k e' hk
        obtain ⟨e0, h7, h8⟩ := hE3 k e1 h5
        refine ⟨e0, h7, ?_⟩
        rcases h6 with h6 | h6 <;> rcases h8 with h8 | h8 <;> rw [h6, h8] <;> simp
      · intro hns
        have hbf : b = false := by
          cases b with
          | false => rfl
          | true =>
            obtain ⟨j, -, a, c, g1, g2, g3⟩ := r4 rfl
            exact absurd g3 (hns id e he j a c g1 g2)
        have hn := r3 hbf
        have hEs : ∀ k, E.get? k = s.2.get? k := by
          intro k
          rw [hget, hbf]
          simp only [Bool.false_eq_true, if_false]
          split_ifs with hk1
          · exact hk1 ▸ he.symm
          · rfl
        obtain ⟨g1, g2⟩ := q4 (fun k e' hk => by rw [hEs] at hk; simp only [hn]; exact hns k e' hk)
        exact ⟨g1.trans hn, fun k => (g2 k).trans (hEs k)⟩

/-- What holds of the elements while elements are deleted. -/
theorem delete_spec : ∀ (fuel i : Nat) (els : Cont Elem), els.Ok → ∃ els', delete fuel i els = some els' ∧ els'.Ok ∧ els'.ids.Sublist els.ids ∧
    (∀ id e, els'.get? id = some e → els.get? id = some e) ∧
    (∀ id e, els.get? id = some e → e.elementType ≠ .none → els'.get? id = some e) ∧
    ((∀ id e, els.get? id = some e → e.elementType ≠ .none) → els' = els) := by
  intro fuel
  induction fuel with
  | zero => intro i els h; exact ⟨els, rfl, h, List.Sublist.refl _, fun _ _ h => h, fun _ _ h _ => h, fun _ => rfl⟩
  | succ fuel ih =>
    intro i els h
    cases hi : els.ids[i]? with
    | none => exact ⟨els, by simp only [delete, hi], h, List.Sublist.refl _, fun _ _ h => h, fun _ _ h _ => h, fun _ => rfl⟩
    | some id =>
      have hmem : id ∈ els.ids := List.mem_of_getElem? hi
      obtain ⟨e, he⟩ := (h.2 id).1 hmem
      by_cases hty : e.elementType = .none
      · have hrem : els.remove id = some (Cont.mk (els.map.erase id) (els.ids.erase id) (els.indices.erase id) els.counter) := by
          unfold Cont.remove; rw [if_pos hmem]
        have hok := Cont.remove_ok h hrem
        obtain ⟨els', r1, r2, r3, r4, r5, r6⟩ := ih (i + 1) _ hok
        have hg : ∀ k, (Cont.mk (els.map.erase id) (els.ids.erase id) (els.indices.erase id) els.counter).get? k = if k = id then none else els.get? k := by
          intro k; simp only [Cont.get?]; rw [SMap.find?_erase]
        refine ⟨els', ?_, r2, r3.trans List.erase_sublist, fun k e' hk => ?_, fun k e' hk hne => ?_, fun hall => absurd hty (hall id e he)⟩
        · simp only [delete, hi, he, Option.bind_eq_bind, Option.bind_some]
          rw [if_pos hty, hrem]
          exact r1
        · have := r4 k e' hk
          rw [hg] at this
          split_ifs at this
          exact this
        · apply r5 k e' _ hne
          rw [hg, if_neg]
          · exact hk
          · rintro rfl
            rw [he] at hk
            simp only [Option.some.injEq] at hk
            exact hne (hk ▸ hty)
      · obtain ⟨els', r1, r⟩ := ih (i + 1) els h
        refine ⟨els', ?_, r⟩
        simp only [delete, hi, he, Option.bind_eq_bind, Option.bind_some]
        rw [if_neg hty]
        exact r1

/-- An element whose type, if it was `ET_NONE`, is a triangle. -/
def fix (e : Elem) : Elem := if e.elementType = .none then { e with elementType := .triangle } else e

theorem restore_spec (l : List Int) : l.Nodup → ∀ els : Cont Elem, els.Ok → (∀ id ∈ l, id ∈ els.ids) → ∃ els', restore l els = some els' ∧ els'.Ok ∧ els'.ids = els.ids ∧
    ∀ id, els'.get? id = if id ∈ l then (els.get? id).map fix else els.get? id := by
  induction l with
  | nil => intro _ els h _; exact ⟨els, rfl, h, rfl, by simp⟩
  | cons a t ih =>
    intro hnd els h hl
    rw [List.nodup_cons] at hnd
    obtain ⟨e, he⟩ := (h.2 a).1 (hl a (by simp))
    have hmod : els.modify a (fun e => some (if e.elementType = .none then { e with elementType := .triangle } else e)) =
        some { els with map := els.map.insert a (fix e) } := Cont.modify_eq he rfl
    obtain ⟨els', r1, r2, r3, r4⟩ := ih hnd.2 { els with map := els.map.insert a (fix e) } (Cont.put_ok h he) fun i hi => hl i (List.mem_cons_of_mem _ hi)
    refine ⟨els', ?_, r2, r3, fun id => ?_⟩
    · simp only [restore, hmod, Option.bind_eq_bind, Option.bind_some]
      exact r1
    · rw [r4, Cont.get?_put]
      by_cases h1 : id = a
      · subst h1; simp [hnd.1, he]
      · simp [h1]

variable [FloorRing K]

/-- The hash grid of the face centres of triangles with three different corners can be built. -/
theorem goodFaces_of {mc : HashGrid.Machine K} {m : Mesh K} (hm : m.WF) (hall : m.AllTriangles) (hc : Smooth.Machine mc m)
    (hne : ∀ id e, m.elements.get? id = some e → ∀ a b c, e.nodeIds = [a, b, c] → m.nodes.get? a ≠ m.nodes.get? c) : Mesh.GoodFaces mc m := by
  refine ⟨hc.eps, hc.big, hc.bounded, ?_⟩
  right
  have hfull : m.FullElements := fun id e he => by
    obtain ⟨h1, h2⟩ := hall id e he
    rw [h1, h2]; exact le_refl 3
  cases hl : m.elements.ids with
  | nil => left; unfold Mesh.expectedFaces; rw [hl]; rfl
  | cons id t =>
    right
    have hid : id ∈ m.elements.ids := by rw [hl]; simp
    obtain ⟨e, he⟩ := (hm.elements.2 id).1 hid
    obtain ⟨h1, h2⟩ := hall id e he
    obtain ⟨ty, ns, fs⟩ := e
    simp only at h1 h2
    subst h1
    obtain ⟨a, b, c, rfl⟩ := List.length_eq_three.1 h2
    have hn := fun n hn => (hm.nodes.2 n).1 (hm.elemNodes id _ he n hn)
    obtain ⟨p, hp⟩ := hn a (by simp)
    obtain ⟨q, hq⟩ := hn b (by simp)
    obtain ⟨r, hr⟩ := hn c (by simp)
    have h3 : p ≠ r := by
      have := hne id _ he a b c rfl
      rw [hp, hr] at this
      exact fun h => this (by rw [h])
    have hmem : ∀ s ∈ [(a, b), (b, c), (c, a)], ∃ f ∈ m.expectedFaces, f.nodeIds = [s.1, s.2] := by
      intro s hs
      rw [Mesh.expectedFaces_eq hm.elements hfull]
      refine ⟨{ faceType := .line, nodeIds := [s.1, s.2], elementId := id }, List.mem_flatMap.2 ⟨id, hid, ?_⟩, rfl⟩
      rw [he]
      simp only [Option.map_some, Option.getD_some]
      rw [Smooth.triSides_faces id _ rfl rfl]
      exact List.mem_map.2 ⟨s, hs, rfl⟩
    obtain ⟨f, hf, hf2⟩ := hmem (a, b) (by simp)
    obtain ⟨g, hg, hg2⟩ := hmem (b, c) (by simp)
    refine ⟨f, hf, g, hg, ?_⟩
    rw [hf2, hg2]
    intro h
    apply h3
    simp only [Mesh.meanOf, Mesh.posOf, hp, hq, hr, List.map_cons, List.map_nil, List.sum_cons, List.sum_nil, Option.getD_some, List.length_cons, List.length_nil] at h
    have hx := congrArg Vec3.x h
    have hy := congrArg Vec3.y h
    have hz := congrArg Vec3.z h
    norm_num [Vec3.smul_x, Vec3.smul_y, Vec3.smul_z, Vec3.add_x, Vec3.add_y, Vec3.add_z] at hx hy hz
    ext
    · linear_combination 2 * hx
    · linear_combination 2 * hy
    · linear_combination 2 * hz

theorem filterMap_iota {A : Type} (l : List Int) (F G : Int → Option A) (h : ∀ (k : Nat) id, l[k]? = some id → F k = G id) :
    (Mesh.iota l.length).filterMap F = l.filterMap G := by
  have hmap : (Mesh.iota l.length).map F = l.map G := by
    apply List.ext_getElem?
    intro k
    rw [List.getElem?_map, List.getElem?_map, Mesh.iota_get]
    by_cases hk : k < l.length
    · rw [if_pos hk, List.getElem?_eq_getElem hk]
      simp only [Option.map_some, Option.some.injEq]
      exact h k _ (List.getElem?_eq_getElem hk)
    · rw [if_neg hk, List.getElem?_eq_none (by omega)]
      rfl
  have key : ∀ (l : List Int) (F : Int → Option A), l.filterMap F = (l.map F).filterMap id := by
    intro l F; rw [List.filterMap_map]; rfl
  rw [key, hmap, ← key]

end Collapse

open Collapse
variable {K : Type} [Field K] [LinearOrder K] [IsStrictOrderedRing K] [FloorRing K]

/-- A mesh of triangles that `collapseEdges` can work on: consistent, ids of the nodes in ascending order, elements that list faces of the mesh, and two
nodes of the boundary at different positions. -/
structure Mesh.Collapsible (m : Mesh K) : Prop where
  wf : m.WF
  all : m.AllTriangles
  listed : ∀ id e, m.elements.get? id = some e → ∀ f ∈ e.faceIds, f ∈ m.faces.ids
  sorted : m.nodes.ids.Pairwise (· < ·)
  wide : ∃ a b p q, m.OnBoundary a ∧ m.OnBoundary b ∧ m.nodes.get? a = some p ∧ m.nodes.get? b = some q ∧ p ≠ q

/-- Every side that ends in a node inside the mesh is at least three quarters of the collapse size long. -/
def Mesh.NoShortSide (nrm : Vec3 K → K) (size : K) (m : Mesh K) : Prop :=
  ∀ s ∈ m.sideIds, ¬ m.OnBoundary s.2 → ∀ p q, m.nodes.get? s.1 = some p → m.nodes.get? s.2 = some q → size * (3 / 4) ≤ nrm (p - q)

namespace Collapse

theorem collapse_core (nrm : Vec3 K → K) (mc : HashGrid.Machine K) (size tol : K) (htol : 0 ≤ tol) (m : Mesh K) (hm : m.Collapsible) (hc : Smooth.Machine mc m) :
    ∃ m', collapseEdges nrm mc m size tol = some m' ∧ m'.WF ∧ m'.AllTriangles ∧ (∀ id e, m'.elements.get? id = some e → e.nodeIds.Nodup) ∧
      m'.elements.ids.length ≤ m.elements.ids.length ∧
      (∀ a b p q, m'.nodes.get? a = some p → m'.nodes.get? b = some q → a ≠ b → ¬ Vec3.Within p q tol) ∧
      (∀ n v, m'.nodes.get? n = some v → ∃ n0, m.nodes.get? n0 = some v) ∧
      (∀ n v, m.OnBoundary n → m.nodes.get? n = some v → ∃ n' v', m'.nodes.get? n' = some v' ∧ (v' = v ∨ Vec3.Within v v' tol)) ∧
      (m.NoShortSide nrm size → (∀ a b p q, m.nodes.get? a = some p → m.nodes.get? b = some q → a ≠ b → ¬ Vec3.Within p q tol) →
        (∀ id e, m.elements.get? id = some e → e.nodeIds.Nodup) → m'.triangles = m.triangles) := by
  obtain ⟨b, hb1, hb2⟩ := Smooth.markBoundary_def hm.wf m.faces.ids (fun _ h => h) (Mesh.setAll false m.nodes.ids SMap.empty) (fun k hk => ⟨false, by
    rw [Mesh.setAll_find, if_pos hk]⟩)
  have hbf : ∀ n, m.OnBoundary n → b.find? n ≠ some false := by
    rintro n ⟨i, f, h1, h2, h3⟩ h
    exact (Smooth.markBoundary_spec _ _ _ _ hb1 n h).2 i ((hm.wf.faces.2 i).2 ⟨f, h1⟩) f h1 h2 h3
  obtain ⟨⟨N, E⟩, s1, s2, s3, s4⟩ := elements_spec nrm size b m.nodes.ids hb2 m.elements.ids (m.nodes, m.elements) hm.wf.nodes rfl hm.wf.elements
    (fun id e he => ⟨(hm.all id e he).2, hm.wf.elemNodes id e he⟩) (fun _ h => h)
  simp only at s1 s2 s3 s4
  obtain ⟨D, d1, d2, d3, d4, d5, d6⟩ := delete_spec E.ids.length 0 E s3.ok
  have hD : ∀ id e', D.get? id = some e' → ∃ e, m.elements.get? id = some e ∧ e'.nodeIds = e.nodeIds ∧ e'.faceIds = e.faceIds ∧ (e'.elementType = .triangle ∨ e'.elementType = .none) := by
    intro id e' h
    obtain ⟨e, he, h | h⟩ := s3.same id e' (d4 id e' h)
    · exact ⟨e, he, by rw [h], by rw [h], Or.inl (by rw [h]; exact (hm.all id e he).1)⟩
    · exact ⟨e, he, by rw [h], by rw [h], Or.inr (by rw [h])⟩
  have hm1 : Mesh.WF { m with nodes := N, elements := D } := by
    refine ⟨s2.ok, hm.wf.faces, d2, ?_, ?_⟩
    · intro id f hf n hn
      show n ∈ N.ids
      rw [s2.ids]; exact hm.wf.faceNodes id f hf n hn
    · intro id f hf n hn
      show n ∈ N.ids
      obtain ⟨e, he, h, -⟩ := hD id f hf
      rw [s2.ids]; exact hm.wf.elemNodes id e he n (h ▸ hn)
  have hg : Mesh.GoodNodes mc { m with nodes := N, elements := D } := by
    refine ⟨hc.eps, hc.big, ?_, Or.inr (Or.inr ?_)⟩
    · intro n v hv
      obtain ⟨n0, h0⟩ := s2.old n v hv
      exact hc.bounded n0 v h0
    · obtain ⟨x, y, p, q, h1, h2, h3, h4, h5⟩ := hm.wide
      exact ⟨x, p, y, q, (s2.stay x (hbf x h1)).trans h3, (s2.stay y (hbf y h2)).trans h4, h5⟩
  obtain ⟨m2, φ, e1, e2, e3, e4, e5, -, -, -⟩ := C08_mergeNodes_partial mc _ hm1 hg tol (by show N.ids.Pairwise (· < ·); rw [s2.ids]; exact hm.sorted)
  have hE2 : ∀ id e', m2.elements.get? id = some e' → ∃ e, m.elements.get? id = some e ∧ e'.nodeIds = e.nodeIds.map φ ∧ e'.faceIds = e.faceIds ∧ (e'.elementType = .triangle ∨ e'.elementType = .none) := by
    intro id e' h
    obtain ⟨e, h1, h2, -⟩ := (e2.elements id e').1 h
    obtain ⟨e0, h3, h4, h5, h6⟩ := hD id e h1
    exact ⟨e0, h3, by rw [h2, ← h4], by rw [h2, ← h5], by rw [h2]; exact h6⟩
  obtain ⟨m3, r1, r2, r3, r4, -, -, -, r5, χ, ψ, r6, -, r8⟩ := C12_renumber_partial m2 e3 (fun id e' he f hf => by
    obtain ⟨e, h1, -, h2, -⟩ := hE2 id e' he
    rw [e2.faceOrder]
    exact hm.listed id e h1 f (h2 ▸ hf))
  have hN3 : ∀ n v, m3.nodes.get? n = some v → ∃ k n2, n = (k : Nat) ∧ m2.nodes.ids[k]? = some n2 ∧ m2.nodes.get? n2 = some v := by
    intro n v hv
    have := (r5.nodes.2 n).2 ⟨v, hv⟩
    rw [r2, Mesh.mem_iota] at this
    obtain ⟨k, rfl⟩ := Int.eq_ofNat_of_zero_le this.1
    have hk : k < m2.nodes.ids.length := by have := this.2; simp only [Cont.count] at this; exact_mod_cast this
    refine ⟨k, _, rfl, List.getElem?_eq_getElem hk, ?_⟩
    rw [← (r6 k _ (List.getElem?_eq_getElem hk)).2]
    exact hv
  have hE3 : ∀ id e', m3.elements.get? id = some e' → ∃ (k : Nat) (id2 : Int) (e : Elem), id = k ∧ m2.elements.ids[k]? = some id2 ∧ m2.elements.get? id2 = some e ∧
      e' = { e with nodeIds := e.nodeIds.map χ, faceIds := e.faceIds.map ψ } ∧ m3.coords e'.nodeIds = m2.coords e.nodeIds := by
    intro id e' he
    have := (r5.elements.2 id).2 ⟨e', he⟩
    rw [r4, Mesh.mem_iota] at this
    obtain ⟨k, rfl⟩ := Int.eq_ofNat_of_zero_le this.1
    have hk : k < m2.elements.ids.length := by have := this.2; simp only [Cont.count] at this; exact_mod_cast this
    obtain ⟨e, h1⟩ := (e3.elements.2 _).1 (List.getElem_mem hk)
    obtain ⟨h2, h3⟩ := r8 k _ e (List.getElem?_eq_getElem hk) h1
    rw [he] at h2
    simp only [Option.some.injEq] at h2
    exact ⟨k, _, e, rfl, List.getElem?_eq_getElem hk, h1, h2, by rw [h2]; exact h3⟩
  obtain ⟨R, q1, q2, q3, q4⟩ := restore_spec m3.elements.ids r5.elements.1 m3.elements r5.elements (fun _ h => h)
  have hR : ∀ id e', R.get? id = some e' → ∃ e, m3.elements.get? id = some e ∧ e' = fix e := by
    intro id e' h
    have hid : id ∈ m3.elements.ids := q3 ▸ (q2.2 id).2 ⟨e', h⟩
    rw [q4, if_pos hid, Option.map_eq_some_iff] at h
    obtain ⟨e, h1, h2⟩ := h
    exact ⟨e, h1, h2.symm⟩
  have hfixn : ∀ e : Elem, (fix e).nodeIds = e.nodeIds := by intro e; unfold fix; split_ifs <;> rfl
  have hfixt : ∀ e : Elem, e.elementType = .triangle ∨ e.elementType = .none → (fix e).elementType = .triangle := by
    intro e h; unfold fix; split_ifs with h1
    · rfl
    · exact h.resolve_right h1
  have hm4 : Mesh.WF { m3 with elements := R } := by
    refine ⟨r5.nodes, r5.faces, q2, r5.faceNodes, ?_⟩
    intro id e' he n hn
    obtain ⟨e, h1, h2⟩ := hR id e' he
    rw [h2, hfixn] at hn
    exact r5.elemNodes id e h1 n hn
  have hall : Mesh.AllTriangles { m3 with elements := R } := by
    intro id e' he
    obtain ⟨e, h1, h2⟩ := hR id e' he
    obtain ⟨k, id2, e0, -, -, h3, h4, -⟩ := hE3 id e h1
    obtain ⟨em, h5, h6, -, h7⟩ := hE2 id2 e0 h3
    refine ⟨by rw [h2]; exact hfixt e (by rw [h4]; exact h7), ?_⟩
    rw [h2, hfixn, h4, List.length_map, h6, List.length_map]
    exact (hm.all id2 em h5).2
  have hnd : ∀ id e', R.get? id = some e' → e'.nodeIds.Nodup := by
    intro id e' he
    obtain ⟨e, h1, h2⟩ := hR id e' he
    obtain ⟨k, id2, e0, -, -, h3, h4, -⟩ := hE3 id e h1
    have hn0 := e4 id2 e0 h3
    rw [h2, hfixn, h4]
    apply List.Nodup.map_on _ hn0
    intro x hx y hy hxy
    obtain ⟨i, hi⟩ := List.mem_iff_getElem?.1 (e3.elemNodes id2 e0 h3 x hx)
    obtain ⟨j, hj⟩ := List.mem_iff_getElem?.1 (e3.elemNodes id2 e0 h3 y hy)
    rw [(r6 i x hi).1, (r6 j y hj).1] at hxy
    have : i = j := by exact_mod_cast hxy
    subst this
    rw [hi] at hj
    simpa using hj
  have hap : ∀ a b p q, m3.nodes.get? a = some p → m3.nodes.get? b = some q → a ≠ b → ¬ Vec3.Within p q tol := by
    intro x y p q hx hy hxy
    obtain ⟨i, n, rfl, h1, h2⟩ := hN3 x p hx
    obtain ⟨j, n', rfl, h3, h4⟩ := hN3 y q hy
    apply e2.apart n n' p q h2 h4
    rintro rfl
    apply hxy
    rw [← (r6 i n h1).1, ← (r6 j n h3).1]
  have hold : ∀ n v, m3.nodes.get? n = some v → ∃ n0, m.nodes.get? n0 = some v := by
    intro n v hv
    obtain ⟨k, n2, -, -, h⟩ := hN3 n v hv
    exact s2.old n2 v ((e2.nodes n2 v).1 h).1
  have hgf : Mesh.GoodFaces mc { m3 with elements := R } := by
    apply goodFaces_of hm4 hall ⟨hc.eps, hc.big, fun n v hv => ?_⟩
    · intro id e he x y z hxyz h
      have h1 := hnd id e he
      rw [hxyz] at h1
      simp only [List.nodup_cons, List.mem_cons, List.not_mem_nil, or_false, not_or] at h1
      obtain ⟨p, hp⟩ := (hm4.nodes.2 x).1 (hm4.elemNodes id e he x (by rw [hxyz]; simp))
      rw [hp] at h
      refine hap x z p p hp h.symm h1.1.2 ?_
      simpa [Vec3.Within, Vec3.normSq, Vec3.dot] using ⟨htol, mul_nonneg htol htol⟩
    · obtain ⟨n0, h0⟩ := hold n v hv
      exact hc.bounded n0 v h0
  have hfull : Mesh.FullElements { m3 with elements := R } := fun id e he => by
    obtain ⟨h1, h2⟩ := hall id e he
    rw [h1, h2]; exact le_refl 3
  obtain ⟨m', g1, g2, -, -, g3, -, g4, g5, -⟩ := C07_generateFaces_faces mc _ hm4 hfull hgf tol htol
  simp only at g2 g5
  refine ⟨m', ?_, g3, ?_, ?_, ?_, ?_, ?_, ?_, ?_⟩
  · unfold collapseEdges
    simp only [hb1, s1, d1, e1, r1, q1, Option.bind_eq_bind, Option.bind_some]
    exact g1
  · intro id e' he
    obtain ⟨e, h1, h2, h3⟩ := g4 id e' he
    rw [h2, h3]; exact hall id e h1
  · intro id e' he
    obtain ⟨e, h1, h2, h3⟩ := g4 id e' he
    rw [h3]; exact hnd id e h1
  · rw [g5, q3, r4]
    simp only [Mesh.iota, List.length_map, List.length_range, Cont.count]
    exact (e2.elementOrder.length_le).trans (d3.length_le.trans (by rw [s3.ids]))
  · intro x y p q; rw [g2]; exact hap x y p q
  · intro n v; rw [g2]; exact hold n v
  · intro n v hn hv
    obtain ⟨v', h1, h2⟩ := e5 n v ((s2.stay n (hbf n hn)).trans hv)
    obtain ⟨k, hk⟩ := List.mem_iff_getElem?.1 ((e3.nodes.2 _).2 ⟨v', h1⟩)
    refine ⟨k, v', ?_, h2⟩
    rw [g2, (r6 k _ hk).2, h1]
  · intro hlong hapart hdis
    obtain ⟨t1, t2⟩ := s4 (by
      intro id e he j x y hx hy hs
      obtain ⟨h1, p, q, h2, h3, h4⟩ := hs
      obtain ⟨hty, hlen⟩ := hm.all id e he
      refine absurd h4 (not_lt.2 (hlong (x, y) ?_ (fun h => hbf y h h1) p q h2 h3))
      refine List.mem_flatMap.2 ⟨id, (hm.wf.elements.2 id).2 ⟨e, he⟩, ?_⟩
      rw [he]
      obtain ⟨ty, ns, fs⟩ := e
      simp only at hty hlen
      subst hty
      obtain ⟨a', b', c', rfl⟩ := List.length_eq_three.1 hlen
      simp only [Option.map_some, Option.getD_some, Elem.triSides]
      have hj : j % 3 = 0 ∨ j % 3 = 1 ∨ j % 3 = 2 := by omega
      rcases hj with hj | hj | hj
      · have hj' : (j + 1) % 3 = 1 := by omega
        simp only [hj, hj'] at hx hy; simp at hx hy; simp [hx, hy]
      · have hj' : (j + 1) % 3 = 2 := by omega
        simp only [hj, hj'] at hx hy; simp at hx hy; simp [hx, hy]
      · have hj' : (j + 1) % 3 = 0 := by omega
        simp only [hj, hj'] at hx hy; simp at hx hy; simp [hx, hy])
    have hDE : D = E := d6 (fun id e he h => by
      rw [t2] at he
      rw [(hm.all id e he).1] at h
      cases h)
    have hφ : ∀ n ∈ m.nodes.ids, φ n = n := by
      intro n hn
      obtain ⟨v, hv⟩ := (hm.wf.nodes.2 n).1 hn
      rcases e2.close n v (by show N.get? n = some v; rw [t1]; exact hv) with h | ⟨h1, v', h2, h3⟩
      · exact h
      · refine absurd h3 (hapart n (φ n) v v' hv ?_ (by omega))
        have : N.get? (φ n) = some v' := h2
        rw [t1] at this; exact this
    have hnodes : ∀ n, m2.nodes.get? n = m.nodes.get? n := by
      intro n
      apply Option.ext
      intro v
      rw [e2.nodes]
      show N.get? n = some v ∧ _ ↔ _
      rw [t1]
      exact ⟨fun h => h.1, fun h => ⟨h, hφ n ((hm.wf.nodes.2 n).2 ⟨v, h⟩)⟩⟩
    have hels : ∀ id e, m.elements.get? id = some e → m2.elements.get? id = some e := by
      intro id e he
      have hmap : e.nodeIds.map φ = e.nodeIds := by
        conv_rhs => rw [← List.map_id e.nodeIds]
        exact List.map_congr_left fun n hn => hφ n (hm.wf.elemNodes id e he n hn)
      refine (e2.elements id e).2 ⟨e, ?_, ?_, ?_⟩
      · show D.get? id = some e
        rw [hDE, t2]; exact he
      · rw [hmap]
      · rw [hmap]; exact hdis id e he
    have hids : m2.elements.ids = m.elements.ids := by
      have hsub : m2.elements.ids.Sublist m.elements.ids := by
        have h := e2.elementOrder
        have h' : m2.elements.ids.Sublist D.ids := h
        rw [hDE, s3.ids] at h'; exact h'
      apply hsub.eq_of_length_le
      apply List.Subperm.length_le
      refine (hm.wf.elements.1.subperm fun id hid => ?_)
      obtain ⟨e, he⟩ := (hm.wf.elements.2 id).1 hid
      exact (e3.elements.2 id).2 ⟨e, hels id e he⟩
    unfold Mesh.triangles
    rw [g5, q3, r4]
    simp only [Cont.count]
    rw [hids]
    apply filterMap_iota
    intro k id hk
    have hmem := List.mem_of_getElem? hk
    obtain ⟨e, he⟩ := (hm.wf.elements.2 id).1 hmem
    obtain ⟨h1, h2⟩ := r8 k id e (by rw [Cont.idAt?, hids]; exact hk) (hels id e he)
    have hid3 : (k : Int) ∈ m3.elements.ids := (r5.elements.2 _).2 ⟨_, h1⟩
    have h4 : R.get? k = some (fix { e with nodeIds := e.nodeIds.map χ, faceIds := e.faceIds.map ψ }) := by
      rw [q4, if_pos hid3, h1]; rfl
    obtain ⟨e', h5⟩ := (g3.elements.2 (k : Int)).1 (by rw [g5, q3]; exact hid3)
    obtain ⟨e'', h6, h7, h8⟩ := g4 k e' h5
    have h9 : R.get? (k : Int) = some e'' := h6
    rw [h4] at h9
    simp only [Option.some.injEq] at h9
    obtain ⟨hty, hlen⟩ := hm.all id e he
    have h10 : e'.nodeIds = e.nodeIds.map χ := by rw [h8, ← h9, hfixn]
    have h11 : e'.elementType = .triangle := by rw [h7, ← h9]; exact hfixt _ (Or.inl hty)
    obtain ⟨ty, ns, fs⟩ := e
    obtain ⟨ty', ns', fs'⟩ := e'
    simp only at hty hlen h10 h11
    subst hty h11
    obtain ⟨a, b, c, rfl⟩ := List.length_eq_three.1 hlen
    have hn := fun n hn => (hm.wf.nodes.2 n).1 (hm.wf.elemNodes id _ he n hn)
    obtain ⟨p, hp⟩ := hn a (by simp)
    obtain ⟨q, hq⟩ := hn b (by simp)
    obtain ⟨r, hr⟩ := hn c (by simp)
    simp only [Mesh.coords, List.map_cons, List.map_nil, List.cons.injEq, and_true, hnodes, hp, hq, hr] at h2
    simp only [List.map_cons, List.map_nil] at h10
    subst h10
    rw [Smooth.triAt_mk he hp hq hr]
    exact Smooth.triAt_mk h5 (by rw [g2]; exact h2.1) (by rw [g2]; exact h2.2.1) (by rw [g2]; exact h2.2.2)

end Collapse

/-- **C94 (partial).** On every consistent mesh of triangles with its nodes in ascending order, `collapseEdges(size, tol)` is defined. The result is a
consistent mesh of triangles, each with three different nodes, and no two nodes are within the tolerance. There are no more elements than before. Every node of the
result is at the place of a node of the given mesh, and every node of the boundary has a node of the result within the tolerance. Missing from the
full property: that the triangles still cover the same region without overlap, which fails, see `C94_turns_over` and `C94_area`. -/
theorem C94_collapse_partial (nrm : Vec3 K → K) (mc : HashGrid.Machine K) (size tol : K) (htol : 0 ≤ tol) (m : Mesh K) (hm : m.Collapsible)
    (hc : Smooth.Machine mc m) :
    ∃ m', collapseEdges nrm mc m size tol = some m' ∧ m'.WF ∧ m'.AllTriangles ∧ (∀ id e, m'.elements.get? id = some e → e.nodeIds.Nodup) ∧
      m'.elements.ids.length ≤ m.elements.ids.length ∧
      (∀ a b p q, m'.nodes.get? a = some p → m'.nodes.get? b = some q → a ≠ b → ¬ Vec3.Within p q tol) ∧
      (∀ n v, m'.nodes.get? n = some v → ∃ n0, m.nodes.get? n0 = some v) ∧
      (∀ n v, m.OnBoundary n → m.nodes.get? n = some v → ∃ n' v', m'.nodes.get? n' = some v' ∧ (v' = v ∨ Vec3.Within v v' tol)) := by
  obtain ⟨m', h1, h2, h3, h4, h5, h6, h7, h8, -⟩ := collapse_core nrm mc size tol htol m hm hc
  exact ⟨m', h1, h2, h3, h4, h5, h6, h7, h8⟩

/-- **C94 (nothing to collapse).** If every side that ends in a node inside the mesh is at least three quarters of the collapse size long, no two nodes are within the
tolerance and every triangle has three different nodes, the triangles stay what they are, in the same order. -/
theorem C94_long_sides (nrm : Vec3 K → K) (mc : HashGrid.Machine K) (size tol : K) (htol : 0 ≤ tol) (m : Mesh K) (hm : m.Collapsible) (hc : Smooth.Machine mc m)
    (hl : m.NoShortSide nrm size) (hap : ∀ a b p q, m.nodes.get? a = some p → m.nodes.get? b = some q → a ≠ b → ¬ Vec3.Within p q tol)
    (hn : ∀ id e, m.elements.get? id = some e → e.nodeIds.Nodup) :
    ∃ m', collapseEdges nrm mc m size tol = some m' ∧ m'.triangles = m.triangles := by
  obtain ⟨m', h1, -, -, -, -, -, -, -, h⟩ := collapse_core nrm mc size tol htol m hm hc
  exact ⟨m', h1, h hl hap hn⟩

/-! ### The region is not kept -/

/-- A quadrilateral with a dent and a node inside, the triangles around it in an order that starts at the dent. -/
def dent : Mesh ℚ :=
  { nodes := ((((Cont.empty.add 0 ⟨0, 0, 0⟩).add 1 ⟨10, 0, 0⟩).add 2 ⟨10, 10, 0⟩).add 3 ⟨8, 3, 0⟩).add 4 ⟨15 / 2, 1, 0⟩
    faces := Cont.empty
    elements := (((Cont.empty.add 0 ⟨.triangle, [3, 0, 4], []⟩).add 1 ⟨.triangle, [0, 1, 4], []⟩).add 2 ⟨.triangle, [1, 2, 4], []⟩).add 3 ⟨.triangle, [2, 3, 4], []⟩
    nbBoundary := 0 }

/-- A square with two nodes inside. -/
def room : Mesh ℚ :=
  { nodes := (((((Cont.empty.add 0 ⟨0, 0, 0⟩).add 1 ⟨12, 0, 0⟩).add 2 ⟨12, 12, 0⟩).add 3 ⟨0, 12, 0⟩).add 4 ⟨4, 6, 0⟩).add 5 ⟨8, 6, 0⟩
    faces := Cont.empty
    elements := (((((Cont.empty.add 0 ⟨.triangle, [2, 4, 5], []⟩).add 1 ⟨.triangle, [1, 5, 4], []⟩).add 2 ⟨.triangle, [3, 0, 4], []⟩).add 3 ⟨.triangle, [0, 1, 4], []⟩).add 4 ⟨.triangle, [1, 2, 5], []⟩).add 5 ⟨.triangle, [2, 3, 4], []⟩
    nbBoundary := 0 }

instance (v : Vec3 ℚ) (b : ℚ) : Decidable (v.Bounded b) := by unfold Vec3.Bounded; infer_instance

/-- A test of `Collapsible`. -/
def Mesh.checkCollapsible (m : Mesh ℚ) : Bool :=
  m.check && m.elements.map.entries.all (fun p => decide (p.2.elementType = .triangle ∧ p.2.nodeIds.length = 3 ∧ ∀ f ∈ p.2.faceIds, f ∈ m.faces.ids)) &&
  decide (m.nodes.ids.Pairwise (· < ·)) &&
  m.faces.map.entries.any fun p => !p.2.hasPair && match p.2.nodeIds with
    | [a, b] => decide ((m.nodes.get? a).isSome ∧ (m.nodes.get? b).isSome ∧ m.nodes.get? a ≠ m.nodes.get? b)
    | _ => false

theorem Mesh.collapsible_of_check {m : Mesh ℚ} (h : m.checkCollapsible = true) : m.Collapsible := by
  simp only [Mesh.checkCollapsible, Bool.and_eq_true, List.all_eq_true, decide_eq_true_iff, List.any_eq_true] at h
  obtain ⟨⟨⟨h1, h2⟩, h3⟩, ⟨i, f⟩, h4, h5⟩ := h
  have hf : m.faces.get? i = some f := (SMap.find?_eq_some_iff _ _ _).2 h4
  refine ⟨Mesh.wf_of_check h1, fun id e he => ?_, fun id e he => ?_, h3, ?_⟩
  · have := h2 _ ((SMap.find?_eq_some_iff _ _ _).1 he)
    exact ⟨this.1, this.2.1⟩
  · have := h2 _ ((SMap.find?_eq_some_iff _ _ _).1 he)
    exact this.2.2
  · simp only [Bool.not_eq_true'] at h5
    obtain ⟨h5, h6⟩ := h5
    match hn : f.nodeIds with
    | [a, b] =>
      rw [hn] at h6
      simp only [decide_eq_true_iff] at h6
      obtain ⟨h6, h7, h8⟩ := h6
      obtain ⟨p, hp⟩ := Option.isSome_iff_exists.1 h6
      obtain ⟨q, hq⟩ := Option.isSome_iff_exists.1 h7
      rw [hp, hq] at h8
      exact ⟨a, b, p, q, ⟨i, f, hf, h5, by rw [hn]; simp⟩, ⟨i, f, hf, h5, by rw [hn]; simp⟩, hp, hq, fun h => h8 (by rw [h])⟩
    | [] => rw [hn] at h6; simp at h6
    | [_] => rw [hn] at h6; simp at h6
    | _ :: _ :: _ :: _ => rw [hn] at h6; simp at h6

/-- **C94 (a triangle turns over).** A counter-clockwise triangulation of a quadrilateral whose result has a triangle that is traversed clockwise. -/
theorem C94_turns_over : ∃ m m' : Mesh ℚ, m.Triangulation ∧ m.Collapsible ∧ Smooth.Machine smallMachine m ∧
    collapseEdges supNorm smallMachine m (31 / 3) 0 = some m' ∧ ∃ t ∈ m'.triangles, orient t.v0 t.v1 t.v2 < 0 := by
  obtain ⟨m, hm⟩ : ∃ m, dent.generateFaces smallMachine 0 = some m := Option.isSome_iff_exists.1 (by decide +kernel)
  have hf : ∀ P : Mesh ℚ → Bool, ((dent.generateFaces smallMachine 0).map P) = some true → P m = true := by
    intro P h; rw [hm] at h; simpa using h
  obtain ⟨m', hm'⟩ : ∃ m', collapseEdges supNorm smallMachine m (31 / 3) 0 = some m' :=
    Option.isSome_iff_exists.1 (hf (fun m => (collapseEdges supNorm smallMachine m (31 / 3) 0).isSome) (by decide +kernel))
  refine ⟨m, m', Smooth.triangulation_of_check (hf _ (by decide +kernel)), Mesh.collapsible_of_check (hf _ (by decide +kernel)), ?_, hm', ?_⟩
  · refine ⟨by norm_num [smallMachine], by norm_num [smallMachine], fun n v hv => ?_⟩
    have := hf (fun m => m.nodes.map.entries.all fun p => decide (p.2.Bounded smallMachine.big)) (by decide +kernel)
    rw [List.all_eq_true] at this
    simpa using this _ ((SMap.find?_eq_some_iff _ _ _).1 hv)
  · have := hf (fun m => ((collapseEdges supNorm smallMachine m (31 / 3) 0).map fun m => m.triangles.any fun t => decide (orient t.v0 t.v1 t.v2 < 0)) = some true) (by decide +kernel)
    simp only [hm', Option.map_some, Option.some.injEq, decide_eq_true_iff, List.any_eq_true] at this
    exact this

/-- **C94 (the area changes).** A triangulation of a square whose result has counter-clockwise triangles only, but a different total area: they overlap. -/
theorem C94_area : ∃ m m' : Mesh ℚ, m.Triangulation ∧ m.Collapsible ∧ Smooth.Machine smallMachine m ∧
    collapseEdges supNorm smallMachine m (28 / 3) 0 = some m' ∧ (∀ t ∈ m'.triangles, 0 < orient t.v0 t.v1 t.v2) ∧
    (m.triangles.map fun t => orient t.v0 t.v1 t.v2).sum < (m'.triangles.map fun t => orient t.v0 t.v1 t.v2).sum := by
  obtain ⟨m, hm⟩ : ∃ m, room.generateFaces smallMachine 0 = some m := Option.isSome_iff_exists.1 (by decide +kernel)
  have hf : ∀ P : Mesh ℚ → Bool, ((room.generateFaces smallMachine 0).map P) = some true → P m = true := by
    intro P h; rw [hm] at h; simpa using h
  obtain ⟨m', hm'⟩ : ∃ m', collapseEdges supNorm smallMachine m (28 / 3) 0 = some m' :=
    Option.isSome_iff_exists.1 (hf (fun m => (collapseEdges supNorm smallMachine m (28 / 3) 0).isSome) (by decide +kernel))
  have hf' := hf (fun m => ((collapseEdges supNorm smallMachine m (28 / 3) 0).map fun m' => decide ((∀ t ∈ m'.triangles, 0 < orient t.v0 t.v1 t.v2) ∧
    (m.triangles.map fun t => orient t.v0 t.v1 t.v2).sum < (m'.triangles.map fun t => orient t.v0 t.v1 t.v2).sum)) = some true) (by decide +kernel)
  simp only [hm', Option.map_some, Option.some.injEq, decide_eq_true_iff] at hf'
  refine ⟨m, m', Smooth.triangulation_of_check (hf _ (by decide +kernel)), Mesh.collapsible_of_check (hf _ (by decide +kernel)), ?_, hm', hf'⟩
  refine ⟨by norm_num [smallMachine], by norm_num [smallMachine], fun n v hv => ?_⟩
  have := hf (fun m => m.nodes.map.entries.all fun p => decide (p.2.Bounded smallMachine.big)) (by decide +kernel)
  rw [List.all_eq_true] at this
  simpa using this _ ((SMap.find?_eq_some_iff _ _ _).1 hv)

/-- With a smaller size nothing is collapsed: `room` also meets the hypotheses of `C94_long_sides`. -/
example : ((room.generateFaces smallMachine 0).map fun m => decide ((∀ s ∈ m.sideIds, ∀ p ∈ m.nodes.get? s.1, ∀ q ∈ m.nodes.get? s.2, (5 : ℚ) * (3 / 4) ≤ supNorm (p - q)) ∧
    (m.nodes.ids.all fun a => m.nodes.ids.all fun b => decide (a = b) || decide (m.nodes.get? a ≠ m.nodes.get? b)) = true ∧ m.elements.ids.all (fun i => ((m.elements.get? i).map fun e => decide e.nodeIds.Nodup) = some true) = true)) = some true := by
  decide +kernel

example : ((room.generateFaces smallMachine 0).bind fun m => collapseEdges supNorm smallMachine m 5 0).map
      (fun m => m.elements.ids.filterMap fun i => (m.elements.get? i).map Elem.nodeIds) =
    some [[2, 4, 5], [1, 5, 4], [3, 0, 4], [0, 1, 4], [1, 2, 5], [2, 3, 4]] := by decide +kernel

/-! ### Fixed edges -/

namespace Collapse

theorem unpair_spec (l : List Int) : ∀ faces : Cont Face, faces.Ok → (∀ i ∈ l, i ∈ faces.ids) → ∃ faces', unpair l faces = some faces' ∧ faces'.Ok ∧ faces'.ids = faces.ids ∧
    ∀ i, faces'.get? i = (faces.get? i).map fun f => if i ∈ l then { f with hasPair := false } else f := by
  induction l with
  | nil => intro faces h _; exact ⟨faces, rfl, h, rfl, by simp⟩
  | cons a t ih =>
    intro faces h hl
    obtain ⟨f, hf⟩ := (h.2 a).1 (hl a (by simp))
    obtain ⟨faces', h1, h2, h3, h4⟩ := ih { faces with map := faces.map.insert a { f with hasPair := false } } (Cont.put_ok h hf) fun i hi => hl i (List.mem_cons_of_mem _ hi)
    refine ⟨faces', ?_, h2, h3, fun i => ?_⟩
    · simp only [unpair, Cont.modify_eq (f := fun f => some { f with hasPair := false }) hf rfl, Option.bind_eq_bind, Option.bind_some]
      exact h1
    · rw [h4, Cont.get?_put]
      by_cases hi : i = a
      · subst hi; simp [hf]
      · simp [hi]

theorem fixLoop_spec {m : Mesh K} {objs : List (Int × Vec3 K)} {tol : K} {find : Vec3 K → Option (List Int)} (hfind : Mesh.ExactFind objs tol find) {edge : Mesh K}
    (he : edge.WF) (l : List Int) : (∀ i ∈ l, i ∈ edge.elements.ids) → ∀ faces : Cont Face, faces.Ok → (∀ o ∈ objs, o.1 ∈ faces.ids) →
    ∃ faces', fixLoop find edge l faces = some faces' ∧ faces'.Ok ∧ faces'.ids = faces.ids ∧
      ∀ i f, faces.get? i = some f → ∃ b, faces'.get? i = some { f with hasPair := b } ∧
        (b = true ↔ f.hasPair = true ∧ ¬ ∃ id ∈ l, ∃ e p, edge.elements.get? id = some e ∧ (i, p) ∈ objs ∧ Vec3.Within p (edge.meanOf e.nodeIds) tol) := by
  induction l with
  | nil => intro _ faces h _; exact ⟨faces, rfl, h, rfl, fun i f hf => ⟨f.hasPair, hf, by simp⟩⟩
  | cons a t ih =>
    intro hl faces h ho
    obtain ⟨e, hea⟩ := (he.elements.2 a).1 (hl a (by simp))
    obtain ⟨r, h1, h2, -⟩ := hfind (edge.meanOf e.nodeIds)
    obtain ⟨F, u1, u2, u3, u4⟩ := unpair_spec r faces h (fun i hi => by
      obtain ⟨p, hp, -⟩ := (h2 i).1 hi
      exact ho _ hp)
    obtain ⟨F', v1, v2, v3, v4⟩ := ih (fun i hi => hl i (List.mem_cons_of_mem _ hi)) F u2 (fun o h => by rw [u3]; exact ho o h)
    refine ⟨F', ?_, v2, v3.trans u3, fun i f hf => ?_⟩
    · simp only [fixLoop, hea, Mesh.centroid_eq he.nodes (he.elemNodes a e hea), h1, u1, Option.bind_eq_bind, Option.bind_some]
      exact v1
    · have h5 := u4 i
      rw [hf, Option.map_some] at h5
      obtain ⟨b, h6, h7⟩ := v4 i _ h5
      refine ⟨b, ?_, ?_⟩
      · rw [h6]; split_ifs <;> rfl
      · rw [h7]
        by_cases hi : i ∈ r
        · simp only [if_pos hi, Bool.false_eq_true, false_and, false_iff, not_and, not_not]
          intro _
          obtain ⟨p, hp, hp2⟩ := (h2 i).1 hi
          exact ⟨a, by simp, e, p, hea, hp, hp2⟩
        · simp only [if_neg hi]
          apply and_congr_right
          intro _
          apply not_congr
          constructor
          · rintro ⟨id, hid, r⟩; exact ⟨id, List.mem_cons_of_mem _ hid, r⟩
          · rintro ⟨id, hid, e', p, q1, q2, q3⟩
            rcases List.mem_cons.1 hid with rfl | hid
            · rw [hea] at q1
              simp only [Option.some.injEq] at q1
              subst q1
              exact absurd ((h2 i).2 ⟨p, q2, q3⟩) hi
            · exact ⟨id, hid, e', p, q1, q2, q3⟩

end Collapse

/-- **C95.** On every consistent surface mesh whose faces do not all have the same centre, and every consistent edge mesh, `applyFixedBoundary(tol)` is defined and
changes nothing but the pair marks of faces: afterwards a face has a pair exactly if it had one before and the centre of no element of
the edge mesh is within the tolerance of its centre. -/
theorem C95_applyFixedBoundary (mc : HashGrid.Machine K) (m edge : Mesh K) (tol : K) (hm : m.WF) (he : edge.WF) (hc : Smooth.Machine mc m)
    (hs : m.faces.ids = [] ∨ ∃ i j f g, m.faces.get? i = some f ∧ m.faces.get? j = some g ∧ m.meanOf f.nodeIds ≠ m.meanOf g.nodeIds) :
    ∃ m', applyFixedBoundary mc m edge tol = some m' ∧ m'.WF ∧ m'.nodes = m.nodes ∧ m'.elements = m.elements ∧ m'.faces.ids = m.faces.ids ∧
      ∀ i f, m.faces.get? i = some f → ∃ b, m'.faces.get? i = some { f with hasPair := b } ∧
        (b = true ↔ f.hasPair = true ∧ ∀ id e, edge.elements.get? id = some e → ¬ Vec3.Within (m.meanOf f.nodeIds) (edge.meanOf e.nodeIds) tol) := by
  let c : Int → Vec3 K := fun i => m.meanOf (((m.faces.get? i).map Face.nodeIds).getD [])
  have hci : ∀ i f, m.faces.get? i = some f → c i = m.meanOf f.nodeIds := by intro i f h; simp only [c, h, Option.map_some, Option.getD_some]
  have hobjs : (m.faces.ids.mapM fun id => do
      let f ← m.faces.get? id
      let c ← Mesh.centroid m.nodes f.nodeIds
      return (id, c)) = some (m.faces.ids.map fun i => (i, c i)) := by
    apply mapM_option_eq
    intro i hi
    obtain ⟨f, hf⟩ := (hm.faces.2 i).1 hi
    simp [hf, Mesh.centroid_eq hm.nodes (hm.faceNodes i f hf), hci i f hf]
  obtain ⟨g, hg, hfind⟩ := Mesh.grid_exact (mc := mc) (objs := m.faces.ids.map fun i => (i, c i)) ⟨hc.eps, hc.big, by
    intro o ho
    obtain ⟨i, hi, rfl⟩ := List.mem_map.1 ho
    obtain ⟨f, hf⟩ := (hm.faces.2 i).1 hi
    show (c i).Bounded mc.big
    rw [hci i f hf]
    exact Mesh.meanOf_bounded m hc.big _ fun n hn => hc.bounded n _ (Mesh.posOf_get hm.nodes (hm.faceNodes i f hf n hn)), by
    rcases hs with h | ⟨i, j, f, g, h1, h2, h3⟩
    · right; left; rw [h]; rfl
    · right; right
      refine ⟨_, List.mem_map.2 ⟨i, (hm.faces.2 i).2 ⟨f, h1⟩, rfl⟩, _, List.mem_map.2 ⟨j, (hm.faces.2 j).2 ⟨g, h2⟩, rfl⟩, ?_⟩
      simp only [hci i f h1, hci j g h2]
      exact h3⟩ tol
  obtain ⟨F, f1, f2, f3, f4⟩ := fixLoop_spec (m := m) hfind he edge.elements.ids (fun _ h => h) m.faces hm.faces (fun o ho => by
    obtain ⟨i, hi, rfl⟩ := List.mem_map.1 ho; exact hi)
  refine ⟨{ m with faces := F }, ?_, ⟨hm.nodes, f2, hm.elements, ?_, hm.elemNodes⟩, rfl, rfl, f3, ?_⟩
  · unfold applyFixedBoundary
    rw [hobjs]
    simp only [hg, f1, Option.bind_eq_bind, Option.bind_some]
  · intro i f' hf' n hn
    have hi : i ∈ m.faces.ids := f3 ▸ (f2.2 i).2 ⟨f', hf'⟩
    obtain ⟨f, hf⟩ := (hm.faces.2 i).1 hi
    obtain ⟨b, h1, -⟩ := f4 i f hf
    have h1' : F.get? i = some f' := hf'
    rw [h1] at h1'
    simp only [Option.some.injEq] at h1'
    rw [← h1'] at hn
    exact hm.faceNodes i f hf n hn
  · intro i f hf
    obtain ⟨b, h1, h2⟩ := f4 i f hf
    refine ⟨b, h1, h2.trans (and_congr_right fun _ => ?_)⟩
    constructor
    · intro h id e hid hw
      exact h ⟨id, (he.elements.2 id).2 ⟨e, hid⟩, e, c i, hid, List.mem_map.2 ⟨i, (hm.faces.2 i).2 ⟨f, hf⟩, rfl⟩, by rw [hci i f hf]; exact hw⟩
    · rintro h ⟨id, -, e, p, h3, h4, h5⟩
      obtain ⟨j, -, hj⟩ := List.mem_map.1 h4
      simp only [Prod.mk.injEq] at hj
      obtain ⟨rfl, rfl⟩ := hj
      rw [hci _ f hf] at h5
      exact h id e h3 h5

/-- The line between the nodes inside `room`. -/
def wall : Mesh ℚ :=
  { nodes := (Cont.empty.add 7 ⟨4, 6, 0⟩).add 9 ⟨8, 6, 0⟩
    faces := Cont.empty
    elements := Cont.empty.add 0 ⟨.beam, [7, 9], []⟩
    nbBoundary := 0 }

theorem wall_wf : wall.WF := Mesh.wf_of_check (by decide +kernel)

/-- The hypotheses are met by `room` with its faces, and the faces on the line between the nodes inside lose their pairs. -/
example : ((room.generateFaces smallMachine 0).bind fun m => applyFixedBoundary smallMachine m wall (1 / 8)).map
      (fun m => m.faces.ids.filterMap fun i => (m.faces.get? i).bind fun f => if f.hasPair then none else some f.nodeIds) =
    some [[4, 5], [5, 4], [3, 0], [0, 1], [1, 2], [2, 3]] := by decide +kernel

example : ((room.generateFaces smallMachine 0).map fun m => (m.check, decide (m.meanOf [4, 5] ≠ m.meanOf [0, 1]))) = some (true, true) := by decide +kernel

end ENigMA
