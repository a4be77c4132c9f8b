import Verif.Mesh.BasicMesherLemmas
import Verif.Geometry.LineProps

/-!
# Properties of the structured meshers: C29, C30

`iota n` is `[0, 1, …, n-1]`; `Mesh.WF` (every element names existing nodes) and `RoundTrip` (ids and indices are inverse) are the
consistency conditions of `Verif/Mesh/MeshSpec.lean`.
-/

set_option linter.unusedSectionVars false

namespace ENigMA
open BasicMesher Mesh

variable {K : Type} [Field K] [LinearOrder K] [IsStrictOrderedRing K]

/-! ### Line -/

/-- **C29.** For every line and every `nu > 0`: `nu + 1` nodes with ids `0 … nu` that divide the line evenly, the first at its start and the last
at its end, and `nu` beams with ids `0 … nu-1` between consecutive nodes, all of the length `|line| / nu` that is reported as `dx`. -/
theorem C29_line {nrm : Vec3 K → K} (hn : IsNorm nrm) (l : GLine K) (hl : l.Ok) (nu : Nat) (hnu : 0 < nu) :
    let g := generateLine nrm l nu
    g.mesh.WF ∧ g.mesh.nodes.RoundTrip ∧ g.mesh.elements.RoundTrip ∧
    g.mesh.nodes.ids = iota (nu + 1) ∧ g.mesh.elements.ids = iota nu ∧
    (∀ i : Nat, i ≤ nu → g.mesh.nodes.get? i = some (l.startP + ((i : K) / nu) • (l.endP - l.startP))) ∧
    g.mesh.nodes.get? 0 = some l.startP ∧ g.mesh.nodes.get? nu = some l.endP ∧
    (∀ i : Nat, i < nu → g.mesh.elements.get? i = some { elementType := .beam, nodeIds := [(i : Int), i + 1] } ∧
      ∃ p q, g.mesh.nodes.get? i = some p ∧ g.mesh.nodes.get? (i + 1) = some q ∧ nrm (q - p) = g.dx) ∧
    g.dx = nrm (l.endP - l.startP) / nu := by
  intro g
  have hvec : l.vec = l.endP - l.startP := hl
  have hnu0 : (nu : K) ≠ 0 := by exact_mod_cast hnu.ne'
  have hnup : (0 : K) < nu := by exact_mod_cast hnu
  set ns : List (Vec3 K) := loop ((nu : Int) + 1) fun i => [l.startP + (i : K) • (spacing nrm l.vec nu • unit nrm l.vec)] with hns
  set es : List Elem := loop (nu : Int) fun i => [{ elementType := .beam, nodeIds := [(i : Int), i + 1] }] with hes
  have hmesh : g.mesh = build ns es := rfl
  have hnl : ns.length = nu + 1 := by
    have := loop_length (nu + 1) (fun i => [l.startP + (i : K) • (spacing nrm l.vec nu • unit nrm l.vec)]) 1 (fun _ _ => rfl)
    simpa [hns] using this
  have hel : es.length = nu := by
    have := loop_length nu (fun i => [({ elementType := .beam, nodeIds := [(i : Int), i + 1] } : Elem)]) 1 (fun _ _ => rfl)
    simpa [hes] using this
  have hok := build_ok ns es (by
    intro e he x hx
    obtain ⟨i, hi, he⟩ := (mem_loop _ _ _).1 he
    simp only [List.mem_singleton] at he
    subst he
    simp only [List.mem_cons, List.not_mem_nil, or_false] at hx
    rw [hnl]
    rcases hx with rfl | rfl <;> push_cast <;> omega)
  rw [hnl, hel, ← hmesh] at hok
  have hnode : ∀ i : Nat, i ≤ nu → g.mesh.nodes.get? i = some (l.startP + ((i : K) / nu) • (l.endP - l.startP)) := by
    intro i hi
    rw [hmesh, (build_filled ns es).1.get i]
    have := loop_get (nu + 1) (fun i => [l.startP + (i : K) • (spacing nrm l.vec nu • unit nrm l.vec)]) 1 (fun _ _ => rfl) i (by omega) 0 (by omega)
    simp only [Nat.one_mul, Nat.add_zero, List.getElem?_cons_zero] at this
    push_cast at this
    rw [hns, this, step_eq hn _ nu hnu, hvec]
    congr 2
    ext <;> simp <;> field_simp
  refine ⟨hok.1, hok.2.1, hok.2.2.1, hok.2.2.2.1, hok.2.2.2.2, hnode, ?_, ?_, ?_, ?_⟩
  · have := hnode 0 (by omega)
    simpa using this
  · rw [hnode nu le_rfl, div_self hnu0]
    simp
  · intro i hi
    constructor
    · rw [hmesh, (build_filled ns es).2.get i]
      have := loop_get nu (fun i => [({ elementType := .beam, nodeIds := [(i : Int), i + 1] } : Elem)]) 1 (fun _ _ => rfl) i hi 0 (by omega)
      simpa using this
    · refine ⟨_, _, hnode i (by omega), by simpa using hnode (i + 1) (by omega), ?_⟩
      have : l.startP + (((i + 1 : Nat) : K) / nu) • (l.endP - l.startP) - (l.startP + ((i : K) / nu) • (l.endP - l.startP)) =
          (1 / (nu : K)) • (l.endP - l.startP) := by
        ext <;> simp <;> field_simp <;> ring
      push_cast at this
      rw [this, hn.smul, abs_of_pos (by positivity)]
      show _ = spacing nrm l.vec nu
      rw [spacing, if_pos (by exact_mod_cast hnu), hvec]
      push_cast
      field_simp
  · show spacing nrm l.vec nu = _
    rw [spacing, if_pos (by exact_mod_cast hnu), hvec]
    push_cast; rfl

/-- Without elements (`nu ≤ 0`) there is at most the node at the start. -/
theorem C29_no_elements (nrm : Vec3 K → K) (l : GLine K) (nu : Int) (h : nu ≤ 0) :
    (generateLine nrm l nu).mesh.elements.ids = [] ∧
      (nu = 0 → (generateLine nrm l nu).mesh.nodes.ids = [0] ∧ (generateLine nrm l nu).mesh.nodes.get? 0 = some l.startP) ∧
      (nu < 0 → (generateLine nrm l nu).mesh.nodes.ids = []) := by
  refine ⟨?_, ?_, ?_⟩
  · have : nu.toNat = 0 := Int.toNat_of_nonpos h
    simp [generateLine, build, loop, this, addAll, Cont.empty]
  · rintro rfl
    constructor
    · rfl
    · show some (l.startP + ((0 : Nat) : K) • _) = _
      simp
  · intro hlt
    have : (nu + 1).toNat = 0 := Int.toNat_of_nonpos (by omega)
    simp [generateLine, build, loop, this, addAll, Cont.empty]

/-- A line that meets the hypotheses: from `(1, 2, 3)` to `(4, 6, 3)`. -/
example : IsNorm realNorm ∧ (GLine.mk2 ⟨1, 2, 3⟩ ⟨4, 6, 3⟩ : GLine ℝ).Ok ∧ 0 < 5 := ⟨isNorm_real, rfl, by norm_num⟩

/-! ### Quadrilateral -/

/-- The id of the grid node `(i, j)`. -/
def id2 (nu i j : Nat) : Int := ((nu : Int) + 1) * j + i

theorem quadCell_eq (nu : Nat) (d : Bool) (i j : Nat) : quadCell nu d i j =
    if d then [{ elementType := .triangle, nodeIds := [id2 nu i j, id2 nu (i + 1) j, id2 nu (i + 1) (j + 1)] },
      { elementType := .triangle, nodeIds := [id2 nu i j, id2 nu (i + 1) (j + 1), id2 nu i (j + 1)] }]
    else [{ elementType := .quadrilateral, nodeIds := [id2 nu i j, id2 nu (i + 1) j, id2 nu (i + 1) (j + 1), id2 nu i (j + 1)] }] := by
  unfold quadCell id2
  push_cast
  simp only [add_assoc]

/-- The vector area of a polygon: half the sum of the cross products of consecutive corners. Its length is the area and its direction the
normal when the polygon is plane. -/
def vectorArea (ps : List (Vec3 K)) : Vec3 K := (1 / 2 : K) • ((cycleEdges ps).map fun e => Vec3.cross e.1 e.2).sum

/-- The vector area of an element of a mesh. -/
def Mesh.vectorAreaOf (m : Mesh K) (e : Elem) : Vec3 K := vectorArea ((e.nodeIds.mapM m.nodes.get?).getD [])

section Quad
variable {nrm : Vec3 K → K} (hn : IsNorm nrm) (q : Quad K) (nu nv : Nat) (hu : 0 < nu) (hv : 0 < nv) (d : Bool)

/-- Elements per cell. -/
private def per (d : Bool) : Nat := if d then 2 else 1

theorem quadCell_length (nu : Nat) (d : Bool) (i j : Nat) : (quadCell nu d i j).length = per d := by
  cases d <;> rfl

theorem quad_inner_length (nu : Nat) (d : Bool) (j : Nat) : (loop (nu : Int) fun i => quadCell nu d i j).length = nu * per d :=
  loop_length nu _ _ fun i _ => quadCell_length nu d i j

theorem quad_es_length (nu nv : Nat) (d : Bool) : (loop (nv : Int) fun j => loop (nu : Int) fun i => quadCell nu d i j).length = nv * (nu * per d) :=
  loop_length nv _ _ fun j _ => quad_inner_length nu d j

/-- The elements of the mesh, by id. -/
theorem quad_elem_iff (x : Int) (e : Elem) : (generateQuad nrm q nu nv d).mesh.elements.get? x = some e ↔
    ∃ i < nu, ∃ j < nv, ∃ t < per d, x = (((nu * j + i) * per d + t : Nat) : Int) ∧ (quadCell nu d i j)[t]? = some e := by
  show (build _ _).elements.get? x = some e ↔ _
  rw [build_get]
  constructor
  · rintro ⟨k, rfl, h⟩
    obtain ⟨j, hj, r, hr, rfl, h1⟩ := (loop_get_iff nv _ _ (fun j _ => quad_inner_length nu d j) k e).1 h
    obtain ⟨i, hi, t, ht, rfl, h2⟩ := (loop_get_iff nu _ _ (fun i _ => quadCell_length nu d i j) r e).1 h1
    exact ⟨i, hi, j, hj, t, ht, by push_cast; ring, h2⟩
  · rintro ⟨i, hi, j, hj, t, ht, rfl, h⟩
    refine ⟨_, rfl, ?_⟩
    apply (loop_get_iff nv _ _ (fun j _ => quad_inner_length nu d j) _ e).2
    refine ⟨j, hj, per d * i + t, ?_, by ring, (loop_get_iff nu _ _ (fun i _ => quadCell_length nu d i j) _ e).2 ⟨i, hi, t, ht, rfl, h⟩⟩
    calc per d * i + t < per d * i + per d := by omega
      _ = (i + 1) * per d := by ring
      _ ≤ nu * per d := Nat.mul_le_mul_right _ hi

theorem quadCell_ids (nu : Nat) (d : Bool) (i j : Nat) (e : Elem) (he : e ∈ quadCell nu d i j) : ∀ x ∈ e.nodeIds,
    x = id2 nu i j ∨ x = id2 nu (i + 1) j ∨ x = id2 nu (i + 1) (j + 1) ∨ x = id2 nu i (j + 1) := by
  rw [quadCell_eq] at he
  intro x hx
  cases d <;> simp at he
  · subst he; simpa using hx
  · rcases he with rfl | rfl <;> simp at hx <;> tauto

include hn hu hv in
/-- **C30, nodes.** `generate(quadrilateral, nu, nv)` yields a consistent mesh with `(nu+1)(nv+1)` nodes; the node with id `(nu+1) j + i` divides
the sides from the first corner evenly. -/
theorem C30_nodes :
    let m := (generateQuad nrm q nu nv d).mesh
    m.WF ∧ m.nodes.RoundTrip ∧ m.elements.RoundTrip ∧ m.nodes.ids = iota ((nu + 1) * (nv + 1)) ∧
    m.elements.ids = iota (nu * nv * if d then 2 else 1) ∧
    ∀ i j : Nat, i ≤ nu → j ≤ nv →
      m.nodes.get? (id2 nu i j) = some (q.v0 + ((i : K) / nu) • (q.v1 - q.v0) + ((j : K) / nv) • (q.v3 - q.v0)) := by
  intro m
  have hu0 : (nu : K) ≠ 0 := by exact_mod_cast hu.ne'
  have hv0 : (nv : K) ≠ 0 := by exact_mod_cast hv.ne'
  let fn : Nat → Nat → Vec3 K := fun i j => q.v0 + (i : K) • (spacing nrm (q.v1 - q.v0) nu • unit nrm (q.v1 - q.v0)) +
    (j : K) • (spacing nrm (q.v3 - q.v0) nv • unit nrm (q.v3 - q.v0))
  set ns : List (Vec3 K) := loop (((nv + 1 : Nat)) : Int) fun j => loop ((nu + 1 : Nat) : Int) fun i => [fn i j] with hns
  set es : List Elem := loop (nv : Int) fun j => loop (nu : Int) fun i => quadCell nu d i j with hes
  have hmesh : m = build ns es := rfl
  have hin : ∀ j, (loop ((nu + 1 : Nat) : Int) fun i => [fn i j]).length = nu + 1 := fun j => by
    rw [loop_length (nu + 1) _ 1 (fun _ _ => rfl), Nat.mul_one]
  have hnl : ns.length = (nv + 1) * (nu + 1) := loop_length (nv + 1) _ _ (fun j _ => hin j)
  have hok := build_ok ns es (by
    intro e he x hx
    obtain ⟨j, hj, he⟩ := (mem_loop _ _ _).1 he
    obtain ⟨i, hi, he⟩ := (mem_loop _ _ _).1 he
    rw [hnl]
    have := quadCell_ids nu d i j e he x hx
    have a1 := id2_lt (nu := nu) (nv := nv) (i := i) (j := j) (by omega) (by omega)
    have a2 := id2_lt (nu := nu) (nv := nv) (i := i + 1) (j := j) (by omega) (by omega)
    have a3 := id2_lt (nu := nu) (nv := nv) (i := i + 1) (j := j + 1) (by omega) (by omega)
    have a4 := id2_lt (nu := nu) (nv := nv) (i := i) (j := j + 1) (by omega) (by omega)
    unfold id2 at this
    rcases this with rfl | rfl | rfl | rfl <;> (refine ⟨by positivity, ?_⟩) <;> exact_mod_cast ‹_›)
  rw [hnl, hes, quad_es_length, ← hes, ← hmesh] at hok
  refine ⟨hok.1, hok.2.1, hok.2.2.1, by rw [hok.2.2.2.1, Nat.mul_comm], ?_, ?_⟩
  · rw [hok.2.2.2.2]; congr 1; unfold per; ring
  · intro i j hi hj
    have e1 : id2 nu i j = (((nu + 1) * j + i : Nat) : Int) := by unfold id2; push_cast; ring
    rw [e1, hmesh, (build_filled ns es).1.get, hns, loop_get (nv + 1) _ (nu + 1) (fun j _ => hin j) j (by omega) i (by omega)]
    have := loop_get (nu + 1) (fun i => [fn i j]) 1 (fun _ _ => rfl) i (by omega) 0 (by omega)
    simp only [Nat.one_mul, Nat.add_zero, List.getElem?_cons_zero] at this
    rw [this]
    simp only [fn]
    rw [step_eq hn _ nu hu, step_eq hn _ nv hv]
    congr 1
    ext <;> simp <;> field_simp

/-- **C30, elements.** Cell `(i, j)` holds the quadrilateral with id `nu j + i` on the four grid nodes around it, or the two triangles with ids
`2 (nu j + i)` and `2 (nu j + i) + 1` that share its diagonal. -/
theorem C30_elements (i j : Nat) (hi : i < nu) (hj : j < nv) :
    ((generateQuad nrm q nu nv false).mesh.elements.get? ((nu * j + i : Nat) : Int) = some
      { elementType := .quadrilateral, nodeIds := [id2 nu i j, id2 nu (i + 1) j, id2 nu (i + 1) (j + 1), id2 nu i (j + 1)] }) ∧
    ((generateQuad nrm q nu nv true).mesh.elements.get? ((2 * (nu * j + i) : Nat) : Int) = some
      { elementType := .triangle, nodeIds := [id2 nu i j, id2 nu (i + 1) j, id2 nu (i + 1) (j + 1)] }) ∧
    ((generateQuad nrm q nu nv true).mesh.elements.get? ((2 * (nu * j + i) + 1 : Nat) : Int) = some
      { elementType := .triangle, nodeIds := [id2 nu i j, id2 nu (i + 1) (j + 1), id2 nu i (j + 1)] }) := by
  refine ⟨?_, ?_, ?_⟩ <;> rw [quad_elem_iff]
  · exact ⟨i, hi, j, hj, 0, by decide, by simp [per], by rw [quadCell_eq]; rfl⟩
  · exact ⟨i, hi, j, hj, 0, by decide, by simp [per]; ring, by rw [quadCell_eq]; rfl⟩
  · exact ⟨i, hi, j, hj, 1, by decide, by simp [per]; ring, by rw [quadCell_eq]; rfl⟩

include hn hu hv in
/-- **C30, areas.** Every element has the same vector area, the parallelogram's divided by the number of elements: all have the same orientation
and their areas sum to the parallelogram's. -/
theorem C30_areas (x : Int) (e : Elem) (he : (generateQuad nrm q nu nv d).mesh.elements.get? x = some e) :
    let m := (generateQuad nrm q nu nv d).mesh
    (m.elements.count : K) • m.vectorAreaOf e = Vec3.cross (q.v1 - q.v0) (q.v3 - q.v0) := by
  intro m
  obtain ⟨-, -, -, -, hids, hget⟩ := C30_nodes hn q nu nv hu hv d
  obtain ⟨i, hi, j, hj, t, ht, -, hc⟩ := (quad_elem_iff q nu nv d x e).1 he
  have hu0 : (nu : K) ≠ 0 := by exact_mod_cast hu.ne'
  have hv0 : (nv : K) ≠ 0 := by exact_mod_cast hv.ne'
  have hcnt : m.elements.count = nu * nv * if d then 2 else 1 := by
    show m.elements.ids.length = _
    rw [hids]; simp [iota]
  have g00 := hget i j (by omega) (by omega)
  have g10 := hget (i + 1) j (by omega) (by omega)
  have g11 := hget (i + 1) (j + 1) (by omega) (by omega)
  have g01 := hget i (j + 1) (by omega) (by omega)
  rw [hcnt]
  rw [quadCell_eq] at hc
  unfold Mesh.vectorAreaOf
  cases d
  · have : t = 0 := by simp [per] at ht; omega
    subst this
    simp only [Bool.false_eq_true, if_false, List.getElem?_cons_zero, Option.some.injEq] at hc
    subst hc
    simp only [List.mapM_cons, List.mapM_nil, g00, g10, g11, g01, m, Option.bind_eq_bind, Option.bind_some, Option.pure_def, Option.getD_some]
    ext <;> simp [vectorArea, cycleEdges, Vec3.cross] <;> field_simp <;> ring
  · have : t = 0 ∨ t = 1 := by simp [per] at ht; omega
    rcases this with rfl | rfl <;>
      simp only [if_true, List.getElem?_cons_zero, List.getElem?_cons_succ, Option.some.injEq] at hc <;>
      subst hc <;>
      simp only [List.mapM_cons, List.mapM_nil, g00, g10, g11, g01, m, Option.bind_eq_bind, Option.bind_some, Option.pure_def, Option.getD_some] <;>
      ext <;> simp [vectorArea, cycleEdges, Vec3.cross] <;> field_simp <;> ring

/-- Two grid nodes on the same side of the grid. -/
def OnSide (nu nv : Nat) (a b : Int) : Prop :=
  ∃ i j i' j' : Nat, i ≤ nu ∧ j ≤ nv ∧ i' ≤ nu ∧ j' ≤ nv ∧ a = id2 nu i j ∧ b = id2 nu i' j' ∧ ((i = 0 ∧ i' = 0) ∨ (i = nu ∧ i' = nu) ∨ (j = 0 ∧ j' = 0) ∨ (j = nv ∧ j' = nv))

/-- The directed edges of one cell: number of the element in the cell, offsets of the start and of the end. -/
private def cellEdges (d : Bool) : List (Nat × (Nat × Nat) × (Nat × Nat)) :=
  if d then [(0, (0, 0), (1, 0)), (0, (1, 0), (1, 1)), (0, (1, 1), (0, 0)), (1, (0, 0), (1, 1)), (1, (1, 1), (0, 1)), (1, (0, 1), (0, 0))]
  else [(0, (0, 0), (1, 0)), (0, (1, 0), (1, 1)), (0, (1, 1), (0, 1)), (0, (0, 1), (0, 0))]

theorem cellEdges_iff (i j t : Nat) (e : Elem) (h : (quadCell nu d i j)[t]? = some e) (a b : Int) :
    (a, b) ∈ cycleEdges e.nodeIds ↔ ∃ c ∈ cellEdges d, c.1 = t ∧ a = id2 nu (i + c.2.1.1) (j + c.2.1.2) ∧ b = id2 nu (i + c.2.2.1) (j + c.2.2.2) := by
  rw [quadCell_eq] at h
  have ht : t < per d := by
    have := (List.getElem?_eq_some_iff.1 h).1
    cases d <;> simpa [per] using this
  cases d
  · have : t = 0 := by simp [per] at ht; omega
    subst this
    simp only [Bool.false_eq_true, if_false, List.getElem?_cons_zero, Option.some.injEq] at h
    subst h
    simp [cycleEdges, cellEdges]
  · have : t = 0 ∨ t = 1 := by simp [per] at ht; omega
    rcases this with rfl | rfl <;>
      simp only [if_true, List.getElem?_cons_zero, List.getElem?_cons_succ, Option.some.injEq] at h <;>
      subst h <;> simp [cycleEdges, cellEdges]

/-- **C30, conformity.** The nodes of an element are distinct; a directed edge belongs to one element only; and the reverse of an edge is an edge
of an element too, unless the edge is on a side of the grid. -/
theorem C30_conforming :
    let m := (generateQuad nrm q nu nv d).mesh
    (∀ x e, m.elements.get? x = some e → e.nodeIds.Nodup) ∧
    (∀ x y e f, m.elements.get? x = some e → m.elements.get? y = some f →
      ∀ p ∈ cycleEdges e.nodeIds, p ∈ cycleEdges f.nodeIds → x = y) ∧
    (∀ x e, m.elements.get? x = some e → ∀ a b, (a, b) ∈ cycleEdges e.nodeIds →
      (∃ y f, m.elements.get? y = some f ∧ (b, a) ∈ cycleEdges f.nodeIds) ∨ OnSide nu nv a b) := by
  intro m
  have inj : ∀ {i j i' j' : Nat}, i ≤ nu → i' ≤ nu → id2 nu i j = id2 nu i' j' → i = i' ∧ j = j' := fun h1 h2 h => id2_inj h1 h2 h
  have off : ∀ c ∈ cellEdges d, c.2.1.1 ≤ 1 ∧ c.2.1.2 ≤ 1 ∧ c.2.2.1 ≤ 1 ∧ c.2.2.2 ≤ 1 ∧ c.1 < per d := by cases d <;> decide
  refine ⟨?_, ?_, ?_⟩
  · intro x e he
    obtain ⟨i, hi, j, hj, t, ht, -, hc⟩ := (quad_elem_iff q nu nv d x e).1 he
    rw [quadCell_eq] at hc
    have n1 : id2 nu i j ≠ id2 nu (i + 1) j := fun h => by have := inj (by omega) (by omega) h; omega
    have n2 : id2 nu i j ≠ id2 nu (i + 1) (j + 1) := fun h => by have := inj (by omega) (by omega) h; omega
    have n3 : id2 nu i j ≠ id2 nu i (j + 1) := fun h => by have := inj (by omega) (by omega) h; omega
    have n4 : id2 nu (i + 1) j ≠ id2 nu (i + 1) (j + 1) := fun h => by have := inj (by omega) (by omega) h; omega
    have n5 : id2 nu (i + 1) j ≠ id2 nu i (j + 1) := fun h => by have := inj (by omega) (by omega) h; omega
    have n6 : id2 nu (i + 1) (j + 1) ≠ id2 nu i (j + 1) := fun h => by have := inj (by omega) (by omega) h; omega
    cases d
    · have : t = 0 := by simp [per] at ht; omega
      subst this
      simp only [Bool.false_eq_true, if_false, List.getElem?_cons_zero, Option.some.injEq] at hc
      subst hc
      simp [n1, n2, n3, n4, n5, n6]
    · have : t = 0 ∨ t = 1 := by simp [per] at ht; omega
      rcases this with rfl | rfl <;>
        simp only [if_true, List.getElem?_cons_zero, List.getElem?_cons_succ, Option.some.injEq] at hc <;>
        subst hc <;> simp [n1, n2, n3, n4, n5, n6]
  · rintro x y e f he hf ⟨a, b⟩ h1 h2
    obtain ⟨i, hi, j, hj, t, ht, rfl, hc⟩ := (quad_elem_iff q nu nv d x e).1 he
    obtain ⟨i', hi', j', hj', t', ht', rfl, hc'⟩ := (quad_elem_iff q nu nv d y f).1 hf
    obtain ⟨c, hcm, rfl, ha, hb⟩ := (cellEdges_iff nu d i j t e hc a b).1 h1
    obtain ⟨c', hcm', rfl, ha', hb'⟩ := (cellEdges_iff nu d i' j' t' f hc' a b).1 h2
    have o := off c hcm
    have o' := off c' hcm'
    obtain ⟨p1, p2⟩ := inj (by omega) (by omega) (ha.symm.trans ha')
    obtain ⟨p3, p4⟩ := inj (by omega) (by omega) (hb.symm.trans hb')
    have key : ∀ c ∈ cellEdges d, ∀ c' ∈ cellEdges d, c.2.1.1 + c'.2.2.1 = c'.2.1.1 + c.2.2.1 → c.2.1.2 + c'.2.2.2 = c'.2.1.2 + c.2.2.2 → c = c' := by
      cases d <;> decide
    obtain rfl := key c hcm c' hcm' (by omega) (by omega)
    have : i = i' := by omega
    have : j = j' := by omega
    subst_vars
    rfl
  · intro x e he a b hab
    obtain ⟨i, hi, j, hj, t, ht, rfl, hc⟩ := (quad_elem_iff q nu nv d x e).1 he
    obtain ⟨c, hcm, rfl, ha, hb⟩ := (cellEdges_iff nu d i j t e hc a b).1 hab
    -- the reverse edge in the cell displaced by `(di, dj)`
    have reach : ∀ c' ∈ cellEdges d, ∀ i' j', i' < nu → j' < nv → i' + c'.2.1.1 = i + c.2.2.1 → j' + c'.2.1.2 = j + c.2.2.2 →
        i' + c'.2.2.1 = i + c.2.1.1 → j' + c'.2.2.2 = j + c.2.1.2 →
        ∃ y f, m.elements.get? y = some f ∧ (b, a) ∈ cycleEdges f.nodeIds := by
      intro c' hc' i' j' h1 h2 h3 h4 h5 h6
      have hl : c'.1 < (quadCell nu d i' j').length := by rw [quadCell_length]; exact (off c' hc').2.2.2.2
      have hg := List.getElem?_eq_getElem hl
      refine ⟨_, _, (quad_elem_iff q nu nv d _ _).2 ⟨i', h1, j', h2, c'.1, (off c' hc').2.2.2.2, rfl, hg⟩, ?_⟩
      refine (cellEdges_iff nu d i' j' c'.1 _ hg b a).2 ⟨c', hc', rfl, ?_, ?_⟩
      · rw [hb, h3, h4]
      · rw [ha, h5, h6]
    have side : ∀ (h : (i + c.2.1.1 = 0 ∧ i + c.2.2.1 = 0) ∨ (i + c.2.1.1 = nu ∧ i + c.2.2.1 = nu) ∨ (j + c.2.1.2 = 0 ∧ j + c.2.2.2 = 0) ∨
        (j + c.2.1.2 = nv ∧ j + c.2.2.2 = nv)), OnSide nu nv a b := fun h => by
      have o := off c hcm
      exact ⟨_, _, _, _, by omega, by omega, by omega, by omega, ha, hb, h⟩
    have bottom : ∀ s s', (∃ t', (t', (1, 1), (0, 1)) ∈ cellEdges d) → c = (s, (0, 0), (1, 0)) → s = s' →
        (∃ y f, m.elements.get? y = some f ∧ (b, a) ∈ cycleEdges f.nodeIds) ∨ OnSide nu nv a b := by
      rintro s s' ⟨t', h'⟩ rfl -
      rcases Nat.eq_zero_or_pos j with rfl | hp
      · exact Or.inr (side (by simp))
      · exact Or.inl (reach _ h' i (j - 1) hi (by omega) (by simp) (by simp; omega) (by simp) (by simp; omega))
    have right : ∀ s s', (∃ t', (t', (0, 1), (0, 0)) ∈ cellEdges d) → c = (s, (1, 0), (1, 1)) → s = s' →
        (∃ y f, m.elements.get? y = some f ∧ (b, a) ∈ cycleEdges f.nodeIds) ∨ OnSide nu nv a b := by
      rintro s s' ⟨t', h'⟩ rfl -
      rcases Nat.lt_or_ge (i + 1) nu with hp | hp
      · exact Or.inl (reach _ h' (i + 1) j hp hj (by simp) (by simp) (by simp) (by simp))
      · exact Or.inr (side (by simp; omega))
    have top : ∀ s s', (∃ t', (t', (0, 0), (1, 0)) ∈ cellEdges d) → c = (s, (1, 1), (0, 1)) → s = s' →
        (∃ y f, m.elements.get? y = some f ∧ (b, a) ∈ cycleEdges f.nodeIds) ∨ OnSide nu nv a b := by
      rintro s s' ⟨t', h'⟩ rfl -
      rcases Nat.lt_or_ge (j + 1) nv with hp | hp
      · exact Or.inl (reach _ h' i (j + 1) hi hp (by simp) (by simp) (by simp) (by simp))
      · exact Or.inr (side (by simp; omega))
    have left : ∀ s s', (∃ t', (t', (1, 0), (1, 1)) ∈ cellEdges d) → c = (s, (0, 1), (0, 0)) → s = s' →
        (∃ y f, m.elements.get? y = some f ∧ (b, a) ∈ cycleEdges f.nodeIds) ∨ OnSide nu nv a b := by
      rintro s s' ⟨t', h'⟩ rfl -
      rcases Nat.eq_zero_or_pos i with rfl | hp
      · exact Or.inr (side (by simp))
      · exact Or.inl (reach _ h' (i - 1) j (by omega) hj (by simp; omega) (by simp) (by simp; omega) (by simp))
    cases d
    · simp only [cellEdges, Bool.false_eq_true, if_false, List.mem_cons, List.not_mem_nil, or_false] at hcm
      rcases hcm with h | h | h | h
      · exact bottom _ _ ⟨0, by simp [cellEdges]⟩ h rfl
      · exact right _ _ ⟨0, by simp [cellEdges]⟩ h rfl
      · exact top _ _ ⟨0, by simp [cellEdges]⟩ h rfl
      · exact left _ _ ⟨0, by simp [cellEdges]⟩ h rfl
    · simp only [cellEdges, if_true, List.mem_cons, List.not_mem_nil, or_false] at hcm
      rcases hcm with h | h | h | h | h | h
      · exact bottom _ _ ⟨1, by simp [cellEdges]⟩ h rfl
      · exact right _ _ ⟨1, by simp [cellEdges]⟩ h rfl
      · subst h; exact Or.inl (reach (1, (0, 0), (1, 1)) (by simp [cellEdges]) i j hi hj rfl rfl rfl rfl)
      · subst h; exact Or.inl (reach (0, (1, 1), (0, 0)) (by simp [cellEdges]) i j hi hj rfl rfl rfl rfl)
      · exact top _ _ ⟨0, by simp [cellEdges]⟩ h rfl
      · exact left _ _ ⟨0, by simp [cellEdges]⟩ h rfl

/-- The corners of a parallelogram are grid nodes. -/
theorem C30_corners {nrm : Vec3 K → K} (hn : IsNorm nrm) (q : Quad K) (nu nv : Nat) (hu : 0 < nu) (hv : 0 < nv) (d : Bool)
    (hq : q.v2 = q.v1 + q.v3 - q.v0) :
    let m := (generateQuad nrm q nu nv d).mesh
    m.nodes.get? (id2 nu 0 0) = some q.v0 ∧ m.nodes.get? (id2 nu nu 0) = some q.v1 ∧ m.nodes.get? (id2 nu nu nv) = some q.v2 ∧
      m.nodes.get? (id2 nu 0 nv) = some q.v3 := by
  have h := (C30_nodes hn q nu nv hu hv d).2.2.2.2.2
  have hu0 : (nu : K) ≠ 0 := by exact_mod_cast hu.ne'
  have hv0 : (nv : K) ≠ 0 := by exact_mod_cast hv.ne'
  refine ⟨?_, ?_, ?_, ?_⟩ <;> rw [h _ _ (by omega) (by omega)] <;> simp [hu0, hv0, div_self]
  rw [hq]; abel

end Quad

/-- A quadrilateral for which nothing is degenerate. -/
example : IsNorm realNorm ∧ 0 < 3 ∧ 0 < 2 ∧
    Vec3.cross ((⟨2, 0, 0⟩ : Vec3 ℝ) - ⟨0, 0, 0⟩) (⟨1, 3, 0⟩ - ⟨0, 0, 0⟩) = ⟨0, 0, 6⟩ := by
  refine ⟨isNorm_real, by norm_num, by norm_num, ?_⟩
  ext <;> simp [Vec3.cross] <;> norm_num

end ENigMA
