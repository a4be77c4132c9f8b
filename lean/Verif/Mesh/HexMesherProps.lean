import Verif.Mesh.BasicMesherLemmas
import Verif.Mesh.ElementProps
import Verif.Geometry.SolidsProps
import Mathlib.Data.List.Rotate

/-!
# Properties of the hexahedron and bounding box meshers: C31, C32
-/

set_option linter.unusedSectionVars false

namespace ENigMA
open BasicMesher Mesh

variable {K : Type} [Field K] [LinearOrder K] [IsStrictOrderedRing K]

/-- The id of the grid node `(i, j, k)`. -/
def id3 (nu nv i j k : Nat) : Int := ((nu : Int) + 1) * (nv + 1) * k + ((nu : Int) + 1) * j + i

/-- The eight corners of a cell, relative to its first. -/
def cornerList : List (Nat × Nat × Nat) := [(0, 0, 0), (1, 0, 0), (1, 1, 0), (0, 1, 0), (0, 0, 1), (1, 0, 1), (1, 1, 1), (0, 1, 1)]

/-- The node at an offset from the first corner of the cell `(i, j, k)`. -/
def cellNode (nu nv i j k : Nat) (o : Nat × Nat × Nat) : Int := id3 nu nv (i + o.1) (j + o.2.1) (k + o.2.2)

theorem id3_inj {nu nv : Nat} {i j k i' j' k' : Nat} (hi : i ≤ nu) (hi' : i' ≤ nu) (hj : j ≤ nv) (hj' : j' ≤ nv)
    (h : id3 nu nv i j k = id3 nu nv i' j' k') : i = i' ∧ j = j' ∧ k = k' := by
  have h' : ((nu : Int) + 1) * ((nv + 1) * k + j : Nat) + i = ((nu : Int) + 1) * ((nv + 1) * k' + j' : Nat) + i' := by
    unfold id3 at h; push_cast; linarith
  obtain ⟨h1, h2⟩ := id2_inj hi hi' h'
  obtain ⟨h3, h4⟩ := id2_inj (nu := nv) (i := j) (j := k) (i' := j') (j' := k') hj hj' (by exact_mod_cast h2)
  exact ⟨h1, h3, h4⟩

theorem hexIds_eq (nu nv i j k : Nat) : hexIds nu nv i j k = cornerList.map (cellNode nu nv i j k) := by
  simp only [hexIds, cornerList, cellNode, id3, List.map_cons, List.map_nil]
  push_cast
  simp only [add_zero, add_assoc]

/-- The corners of the element number `t` of a cell. -/
def cellElem (d : Bool) : List (List (Nat × Nat × Nat)) :=
  if d then tetPositions.map fun t => t.map fun p => cornerList.getD p (0, 0, 0) else [cornerList]

theorem hexCell_eq (nu nv : Nat) (d : Bool) (i j k : Nat) : hexCell nu nv d i j k =
    (cellElem d).map fun os => { elementType := if d then .tetrahedron else .hexahedron, nodeIds := os.map (cellNode nu nv i j k) } := by
  unfold hexCell
  rw [hexIds_eq]
  cases d
  · rfl
  · rfl

theorem hexCell_length (nu nv : Nat) (d : Bool) (i j k : Nat) : (hexCell nu nv d i j k).length = (cellElem d).length := by
  rw [hexCell_eq, List.length_map]

theorem cells3_get (nu nv nw : Nat) (d : Bool) (x : Nat) (e : Elem) : (cells3 nu nv nw d)[x]? = some e ↔
    ∃ i < nu, ∃ j < nv, ∃ k < nw, ∃ t < (cellElem d).length, x = ((nv * k + j) * nu + i) * (cellElem d).length + t ∧
      (hexCell nu nv d i j k)[t]? = some e := by
  have l1 : ∀ j k, (loop (nu : Int) fun i => hexCell nu nv d i j k).length = nu * (cellElem d).length := fun j k =>
    loop_length nu _ _ fun i _ => hexCell_length nu nv d i j k
  have l2 : ∀ k, (loop (nv : Int) fun j => loop (nu : Int) fun i => hexCell nu nv d i j k).length = nv * (nu * (cellElem d).length) := fun k =>
    loop_length nv _ _ fun j _ => l1 j k
  unfold cells3
  constructor
  · intro h
    obtain ⟨k, hk, r, hr, rfl, h1⟩ := (loop_get_iff nw _ _ (fun k _ => l2 k) x e).1 h
    obtain ⟨j, hj, r, hr, rfl, h2⟩ := (loop_get_iff nv _ _ (fun j _ => l1 j k) r e).1 h1
    obtain ⟨i, hi, t, ht, rfl, h3⟩ := (loop_get_iff nu _ _ (fun i _ => hexCell_length nu nv d i j k) r e).1 h2
    exact ⟨i, hi, j, hj, k, hk, t, ht, by ring, h3⟩
  · rintro ⟨i, hi, j, hj, k, hk, t, ht, rfl, h⟩
    have b1 : (cellElem d).length * i + t < nu * (cellElem d).length := by
      calc _ < (cellElem d).length * i + (cellElem d).length := by omega
        _ = (i + 1) * (cellElem d).length := by ring
        _ ≤ _ := Nat.mul_le_mul_right _ hi
    have b2 : nu * (cellElem d).length * j + ((cellElem d).length * i + t) < nv * (nu * (cellElem d).length) := by
      calc _ < nu * (cellElem d).length * j + nu * (cellElem d).length := by omega
        _ = (j + 1) * (nu * (cellElem d).length) := by ring
        _ ≤ _ := Nat.mul_le_mul_right _ hj
    refine (loop_get_iff nw _ _ (fun k _ => l2 k) _ e).2 ⟨k, hk, nu * (cellElem d).length * j + ((cellElem d).length * i + t), b2, by ring, ?_⟩
    refine (loop_get_iff nv _ _ (fun j _ => l1 j k) _ e).2 ⟨j, hj, (cellElem d).length * i + t, b1, rfl, ?_⟩
    exact (loop_get_iff nu _ _ (fun i _ => hexCell_length nu nv d i j k) _ e).2 ⟨i, hi, t, ht, rfl, h⟩

theorem cells3_length (nu nv nw : Nat) (d : Bool) : (cells3 nu nv nw d).length = nw * (nv * (nu * (cellElem d).length)) :=
  loop_length nw _ _ fun k _ => loop_length nv _ _ fun j _ => loop_length nu _ _ fun i _ => hexCell_length nu nv d i j k

/-- What the two three-dimensional functions build, with the displacements per step. -/
theorem build3_ok (origin u v w : Vec3 K) (nu nv nw : Nat) (d : Bool) :
    let m := build (nodes3 origin u v w nu nv nw) (cells3 nu nv nw d)
    m.WF ∧ m.nodes.RoundTrip ∧ m.elements.RoundTrip ∧ m.nodes.ids = iota ((nu + 1) * (nv + 1) * (nw + 1)) ∧
    m.elements.ids = iota (nu * nv * nw * if d then 6 else 1) ∧
    (∀ i j k : Nat, i ≤ nu → j ≤ nv → k ≤ nw → m.nodes.get? (id3 nu nv i j k) = some (origin + (i : K) • u + (j : K) • v + (k : K) • w)) ∧
    ∀ x e, m.elements.get? x = some e ↔
      ∃ i < nu, ∃ j < nv, ∃ k < nw, ∃ t < (cellElem d).length, x = (((nv * k + j) * nu + i) * (cellElem d).length + t : Nat) ∧
        (hexCell nu nv d i j k)[t]? = some e := by
  intro m
  let fn : Nat → Nat → Nat → Vec3 K := fun i j k => origin + (i : K) • u + (j : K) • v + (k : K) • w
  have l1 : ∀ j k, (loop ((nu + 1 : Nat) : Int) fun i => [fn i j k]).length = nu + 1 := fun j k => by
    rw [loop_length (nu + 1) _ 1 (fun _ _ => rfl), Nat.mul_one]
  have l2 : ∀ k, (loop ((nv + 1 : Nat) : Int) fun j => loop ((nu + 1 : Nat) : Int) fun i => [fn i j k]).length = (nv + 1) * (nu + 1) := fun k =>
    loop_length (nv + 1) _ _ fun j _ => l1 j k
  have hns : nodes3 origin u v w nu nv nw =
      loop ((nw + 1 : Nat) : Int) fun k => loop ((nv + 1 : Nat) : Int) fun j => loop ((nu + 1 : Nat) : Int) fun i => [fn i j k] := rfl
  have hnl : (nodes3 origin u v w nu nv nw).length = (nw + 1) * ((nv + 1) * (nu + 1)) := by
    rw [hns]; exact loop_length (nw + 1) _ _ fun k _ => l2 k
  have hok := build_ok (nodes3 origin u v w nu nv nw) (cells3 nu nv nw d) (by
    intro e he x hx
    obtain ⟨n, hn⟩ := List.mem_iff_getElem?.1 he
    obtain ⟨i, hi, j, hj, k, hk, t, ht, -, he⟩ := (cells3_get nu nv nw d n e).1 hn
    rw [hexCell_eq] at he
    obtain ⟨os, hos, rfl⟩ := List.mem_map.1 (List.mem_of_getElem? he)
    obtain ⟨o, ho, rfl⟩ := List.mem_map.1 hx
    have hb : ∀ os ∈ cellElem d, ∀ o ∈ os, o.1 ≤ 1 ∧ o.2.1 ≤ 1 ∧ o.2.2 ≤ 1 := by cases d <;> decide
    obtain ⟨h1, h2, h3⟩ := hb os hos o ho
    rw [hnl]
    refine ⟨by unfold cellNode id3; positivity, ?_⟩
    have a1 := id2_lt (nu := nu) (nv := nv) (i := i + o.1) (j := j + o.2.1) (by omega) (by omega)
    have : (nu + 1) * (nv + 1) * (k + o.2.2) + (nu + 1) * (j + o.2.1) + (i + o.1) < (nw + 1) * ((nv + 1) * (nu + 1)) := by
      calc _ = (nv + 1) * (nu + 1) * (k + o.2.2) + ((nu + 1) * (j + o.2.1) + (i + o.1)) := by ring
        _ < (nv + 1) * (nu + 1) * (k + o.2.2) + (nv + 1) * (nu + 1) := by omega
        _ = (k + o.2.2 + 1) * ((nv + 1) * (nu + 1)) := by ring
        _ ≤ _ := Nat.mul_le_mul_right _ (by omega)
    unfold cellNode id3
    exact_mod_cast this)
  rw [hnl, cells3_length] at hok
  refine ⟨hok.1, hok.2.1, hok.2.2.1, ?_, ?_, ?_, ?_⟩
  · rw [hok.2.2.2.1]; congr 1; ring
  · rw [hok.2.2.2.2]; congr 1; cases d <;> simp [cellElem, tetPositions] <;> ring
  · intro i j k hi hj hk
    have e1 : id3 nu nv i j k = (((nv + 1) * (nu + 1) * k + ((nu + 1) * j + i) : Nat) : Int) := by unfold id3; push_cast; ring
    have b1 := id2_lt (nu := nu) (nv := nv) hi hj
    rw [e1, (build_filled _ _).1.get, hns, loop_get (nw + 1) _ _ (fun k _ => l2 k) k (by omega) _ b1,
      loop_get (nv + 1) _ _ (fun j _ => l1 j k) j (by omega) i (by omega)]
    have := loop_get (nu + 1) (fun i => [fn i j k]) 1 (fun _ _ => rfl) i (by omega) 0 (by omega)
    simp only [Nat.one_mul, Nat.add_zero, List.getElem?_cons_zero] at this
    exact this
  · intro x e
    rw [build_get]
    constructor
    · rintro ⟨n, rfl, h⟩
      obtain ⟨i, hi, j, hj, k, hk, t, ht, rfl, h⟩ := (cells3_get nu nv nw d n e).1 h
      exact ⟨i, hi, j, hj, k, hk, t, ht, rfl, by assumption⟩
    · rintro ⟨i, hi, j, hj, k, hk, t, ht, rfl, h⟩
      exact ⟨_, rfl, (cells3_get nu nv nw d _ e).2 ⟨i, hi, j, hj, k, hk, t, ht, rfl, h⟩⟩

/-! ### Faces -/

/-- The faces of the elements of a cell: number of the element, offsets of the corners in order. -/
def cellFaces (d : Bool) : List (Nat × List (Nat × Nat × Nat)) :=
  (cellElem d).zipIdx.flatMap fun (os, n) =>
    (Elem.faceTemplate (if d then .tetrahedron else .hexahedron)).map fun f => (n, f.2.map fun p => os.getD p (0, 0, 0))

theorem cellFaces_iff (nu nv : Nat) (d : Bool) (i j k t : Nat) (e : Elem) (h : (hexCell nu nv d i j k)[t]? = some e) (l : List Int) :
    (∃ F ∈ e.facesOf, F.nodeIds = l) ↔ ∃ c ∈ cellFaces d, c.1 = t ∧ l = c.2.map (cellNode nu nv i j k) := by
  rw [hexCell_eq, List.getElem?_map] at h
  obtain ⟨os, hos, rfl⟩ := Option.map_eq_some_iff.1 h
  have hlen : ∀ os ∈ cellElem d, ∀ f ∈ Elem.faceTemplate (if d then .tetrahedron else .hexahedron), ∀ p ∈ f.2, p < os.length := by
    cases d <;> decide
  have hid : ∀ f ∈ Elem.faceTemplate (if d then .tetrahedron else .hexahedron),
      f.2.map (Elem.idAt { elementType := if d then .tetrahedron else .hexahedron, nodeIds := os.map (cellNode nu nv i j k) }) =
        (f.2.map fun p => os.getD p (0, 0, 0)).map (cellNode nu nv i j k) := by
    intro f hf
    rw [List.map_map]
    apply List.map_congr_left
    intro p hp
    have := hlen os (List.mem_of_getElem? hos) f hf p hp
    simp [Elem.idAt, List.getD, List.getElem?_eq_getElem this]
  constructor
  · rintro ⟨F, hF, rfl⟩
    obtain ⟨f, hf, rfl⟩ := List.mem_map.1 hF
    refine ⟨(t, f.2.map fun p => os.getD p (0, 0, 0)), ?_, rfl, hid f hf⟩
    exact List.mem_flatMap.2 ⟨(os, t), List.mk_mem_zipIdx_iff_getElem?.2 hos, List.mem_map.2 ⟨f, hf, rfl⟩⟩
  · rintro ⟨c, hc, rfl, rfl⟩
    obtain ⟨⟨os', n⟩, hos', hc⟩ := List.mem_flatMap.1 hc
    obtain ⟨f, hf, rfl⟩ := List.mem_map.1 hc
    have := List.mk_mem_zipIdx_iff_getElem?.1 hos'
    simp only at hos
    rw [this] at hos
    obtain rfl := Option.some.inj hos
    exact ⟨_, List.mem_map.2 ⟨f, hf, rfl⟩, hid f hf⟩

/-- A list of grid nodes on one side of the grid. -/
def OnSide3 (nu nv nw : Nat) (l : List Int) : Prop :=
  ∃ P : Nat → Nat → Nat → Prop, (∀ x ∈ l, ∃ i j k, x = id3 nu nv i j k ∧ i ≤ nu ∧ j ≤ nv ∧ k ≤ nw ∧ P i j k) ∧
    ((∀ i j k, P i j k ↔ i = 0) ∨ (∀ i j k, P i j k ↔ i = nu) ∨ (∀ i j k, P i j k ↔ j = 0) ∨ (∀ i j k, P i j k ↔ j = nv) ∨
      (∀ i j k, P i j k ↔ k = 0) ∨ (∀ i j k, P i j k ↔ k = nw))

/-- The elements fit together: the nodes of an element are distinct, an oriented face (up to the choice of its first node) belongs to one element
only, and the same face with the other orientation is a face of an element too, unless the face is on a side of the grid. -/
def Conforming3 (nu nv nw : Nat) (m : Mesh K) : Prop :=
  (∀ x e, m.elements.get? x = some e → e.nodeIds.Nodup) ∧
  (∀ x y e f, m.elements.get? x = some e → m.elements.get? y = some f →
    ∀ F ∈ e.facesOf, ∀ G ∈ f.facesOf, F.nodeIds ~r G.nodeIds → x = y) ∧
  (∀ x e, m.elements.get? x = some e → ∀ F ∈ e.facesOf,
    (∃ y f, m.elements.get? y = some f ∧ ∃ G ∈ f.facesOf, G.nodeIds ~r F.nodeIds.reverse) ∨ OnSide3 nu nv nw F.nodeIds)

/-- Offsets of two faces that differ by a translation. -/
private def diffEq (a b : List (Nat × Nat × Nat)) : Bool :=
  a.length == b.length && (a.zip b).all fun p => (a.zip b).all fun q =>
    p.1.1 + q.2.1 == q.1.1 + p.2.1 && p.1.2.1 + q.2.2.1 == q.1.2.1 + p.2.2.1 && p.1.2.2 + q.2.2.2 == q.1.2.2 + p.2.2.2

theorem face_unique (d : Bool) : ∀ c ∈ cellFaces d, ∀ c' ∈ cellFaces d, ∀ r < 4, diffEq c.2 (c'.2.rotate r) = true → c = c' := by
  cases d <;> decide +kernel

theorem build3_conforming (origin u v w : Vec3 K) (nu nv nw : Nat) (d : Bool) :
    Conforming3 nu nv nw (build (nodes3 origin u v w nu nv nw) (cells3 nu nv nw d)) := by
  obtain ⟨-, -, -, -, -, -, hel⟩ := build3_ok origin u v w nu nv nw d
  have off : ∀ c ∈ cellFaces d, c.1 < (cellElem d).length ∧ c.2.length ≤ 4 ∧ 0 < c.2.length ∧ ∀ o ∈ c.2, o.1 ≤ 1 ∧ o.2.1 ≤ 1 ∧ o.2.2 ≤ 1 := by
    cases d <;> decide
  have inj : ∀ {i j k i' j' k'}, i < nu → j < nv → i' < nu → j' < nv → ∀ o o' : Nat × Nat × Nat, o.1 ≤ 1 ∧ o.2.1 ≤ 1 ∧ o.2.2 ≤ 1 →
      o'.1 ≤ 1 ∧ o'.2.1 ≤ 1 ∧ o'.2.2 ≤ 1 → cellNode nu nv i j k o = cellNode nu nv i' j' k' o' →
      i + o.1 = i' + o'.1 ∧ j + o.2.1 = j' + o'.2.1 ∧ k + o.2.2 = k' + o'.2.2 := by
    intro i j k i' j' k' h1 h2 h3 h4 o o' h5 h6 h
    exact id3_inj (by omega) (by omega) (by omega) (by omega) h
  refine ⟨?_, ?_, ?_⟩
  · intro x e he
    obtain ⟨i, hi, j, hj, k, hk, t, ht, rfl, hc⟩ := (hel x e).1 he
    rw [hexCell_eq] at hc
    obtain ⟨os, hos, rfl⟩ := List.mem_map.1 (List.mem_of_getElem? hc)
    have hb : ∀ os ∈ cellElem d, os.Nodup ∧ ∀ o ∈ os, o.1 ≤ 1 ∧ o.2.1 ≤ 1 ∧ o.2.2 ≤ 1 := by cases d <;> decide
    refine List.Nodup.map_on ?_ (hb os hos).1
    intro o ho o' ho' h
    have := inj hi hj hi hj o o' ((hb os hos).2 o ho) ((hb os hos).2 o' ho') h
    refine Prod.ext (by omega) (Prod.ext (by omega) (by omega))
  · intro x y e f he hf F hF G hG hrot
    obtain ⟨i, hi, j, hj, k, hk, t, ht, rfl, hc⟩ := (hel x e).1 he
    obtain ⟨i', hi', j', hj', k', hk', t', ht', rfl, hc'⟩ := (hel y f).1 hf
    obtain ⟨c, hcm, rfl, hFe⟩ := (cellFaces_iff nu nv d i j k t e hc F.nodeIds).1 ⟨F, hF, rfl⟩
    obtain ⟨c', hcm', rfl, hGe⟩ := (cellFaces_iff nu nv d i' j' k' t' f hc' G.nodeIds).1 ⟨G, hG, rfl⟩
    rw [hFe, hGe] at hrot
    obtain ⟨r, hr, hrot⟩ := List.isRotated_iff_mod.1 hrot.symm
    have oc := off c hcm
    have oc' := off c' hcm'
    rw [← List.map_rotate] at hrot
    have hlen : c.2.length = (c'.2.rotate r).length := by simpa using congrArg List.length hrot.symm
    -- pointwise equality of the grid points
    have hpt : ∀ p ∈ c.2.zip (c'.2.rotate r), i + p.1.1 = i' + p.2.1 ∧ j + p.1.2.1 = j' + p.2.2.1 ∧ k + p.1.2.2 = k' + p.2.2.2 := by
      rintro ⟨a, b⟩ hp
      obtain ⟨n, hn⟩ := List.mem_iff_getElem?.1 hp
      rw [List.getElem?_zip_eq_some] at hn
      have ha := oc.2.2.2 a (List.mem_of_getElem? hn.1)
      have hb := oc'.2.2.2 b (List.mem_rotate.1 (List.mem_of_getElem? hn.2))
      have := congrArg (fun l => l[n]?) hrot
      simp only [List.getElem?_map, hn.1, hn.2, Option.map_some, Option.some.injEq] at this
      exact inj hi hj hi' hj' a b ha hb this.symm
    have hkey : c = c' := by
      have hr4 : r < 4 ∨ r = c'.2.length := by
        rw [List.length_map] at hr; omega
      have hdiff : diffEq c.2 (c'.2.rotate r) = true := by
        unfold diffEq
        simp only [Bool.and_eq_true, beq_iff_eq, List.all_eq_true]
        refine ⟨hlen, fun p hp q hq => ?_⟩
        have h1 := hpt p hp
        have h2 := hpt q hq
        omega
      rcases hr4 with hr4 | rfl
      · exact face_unique d c hcm c' hcm' r hr4 hdiff
      · rw [List.rotate_length] at hdiff
        exact face_unique d c hcm c' hcm' 0 (by omega) (by simpa using hdiff)
    subst hkey
    -- the first corner gives the same cell
    obtain ⟨p, hp⟩ : ∃ p, p ∈ c.2.zip (c.2.rotate r) := by
      have : 0 < (c.2.zip (c.2.rotate r)).length := by simp; omega
      exact List.exists_mem_of_length_pos this
    -- sums of the coordinates over the face are preserved by the rotation
    have sums : ∀ (g : Nat × Nat × Nat → Nat) (a b : Nat), (∀ p ∈ c.2.zip (c.2.rotate r), a + g p.1 = b + g p.2) → a = b := by
      intro g a b h
      have h1 : ∀ (l l' : List (Nat × Nat × Nat)), l.length = l'.length → (∀ p ∈ l.zip l', a + g p.1 = b + g p.2) →
          l.length * a + (l.map g).sum = l.length * b + (l'.map g).sum := by
        intro l
        induction l with
        | nil => intro l' hl _; cases l' with
          | nil => simp
          | cons _ _ => simp at hl
        | cons x t ih =>
          intro l' hl h
          cases l' with
          | nil => simp at hl
          | cons x' t' =>
            have i1 := ih t' (by simpa using hl) (fun p hp => h p (by simp [hp]))
            have i2 := h (x, x') (by simp)
            simp only [List.length_cons, List.map_cons, List.sum_cons]
            simp only at i2
            have e1 : (t.length + 1) * a = t.length * a + a := by ring
            have e2 : (t.length + 1) * b = t.length * b + b := by ring
            omega
      have h2 := h1 c.2 (c.2.rotate r) hlen h
      have h3 : ((c.2.rotate r).map g).sum = (c.2.map g).sum := ((List.rotate_perm c.2 r).map g).sum_eq
      rw [h3] at h2
      exact Nat.eq_of_mul_eq_mul_left oc.2.2.1 (Nat.add_right_cancel h2)
    have e1 : i = i' := sums (fun o => o.1) i i' fun p hp => (hpt p hp).1
    have e2 : j = j' := sums (fun o => o.2.1) j j' fun p hp => (hpt p hp).2.1
    have e3 : k = k' := sums (fun o => o.2.2) k k' fun p hp => (hpt p hp).2.2
    subst_vars
    rfl
  · intro x e he F hF
    obtain ⟨i, hi, j, hj, k, hk, t, ht, rfl, hc⟩ := (hel x e).1 he
    obtain ⟨c, hcm, rfl, hFe⟩ := (cellFaces_iff nu nv d i j k t e hc F.nodeIds).1 ⟨F, hF, rfl⟩
    have reach : ∀ c' ∈ cellFaces d, ∀ i' j' k', i' < nu → j' < nv → k' < nw →
        (c'.2.map (cellNode nu nv i' j' k')) ~r (c.2.map (cellNode nu nv i j k)).reverse →
        ∃ y f, (build (nodes3 origin u v w nu nv nw) (cells3 nu nv nw d)).elements.get? y = some f ∧
          ∃ G ∈ f.facesOf, G.nodeIds ~r F.nodeIds.reverse := by
      intro c' hc' i' j' k' h1 h2 h3 h4
      have hl : c'.1 < (hexCell nu nv d i' j' k').length := by rw [hexCell_length]; exact (off c' hc').1
      have hg := List.getElem?_eq_getElem hl
      obtain ⟨G, hG, hGe⟩ := (cellFaces_iff nu nv d i' j' k' c'.1 _ hg _).2 ⟨c', hc', rfl, rfl⟩
      exact ⟨_, _, (hel _ _).2 ⟨i', h1, j', h2, k', h3, c'.1, (off c' hc').1, rfl, hg⟩, G, hG, by rw [hGe, hFe]; exact h4⟩
    have oc := (off c hcm).2.2.2
    -- the templates: the opposite face is in the cell itself, or on the other side of a neighbour
    have tmpl : ∀ c ∈ cellFaces d,
        (∃ c' ∈ cellFaces d, c'.2 ~r c.2.reverse) ∨
        ((∀ o ∈ c.2, o.1 = 0) ∧ ∃ c' ∈ cellFaces d, c'.2 ~r (c.2.map fun o => (1, o.2)).reverse) ∨
        ((∀ o ∈ c.2, o.1 = 1) ∧ ∃ c' ∈ cellFaces d, c'.2 ~r (c.2.map fun o => (0, o.2)).reverse) ∨
        ((∀ o ∈ c.2, o.2.1 = 0) ∧ ∃ c' ∈ cellFaces d, c'.2 ~r (c.2.map fun o => (o.1, 1, o.2.2)).reverse) ∨
        ((∀ o ∈ c.2, o.2.1 = 1) ∧ ∃ c' ∈ cellFaces d, c'.2 ~r (c.2.map fun o => (o.1, 0, o.2.2)).reverse) ∨
        ((∀ o ∈ c.2, o.2.2 = 0) ∧ ∃ c' ∈ cellFaces d, c'.2 ~r (c.2.map fun o => (o.1, o.2.1, 1)).reverse) ∨
        ((∀ o ∈ c.2, o.2.2 = 1) ∧ ∃ c' ∈ cellFaces d, c'.2 ~r (c.2.map fun o => (o.1, o.2.1, 0)).reverse) := by
      cases d <;> decide +kernel
    -- moving the face and the cell together
    have move : ∀ (g : Nat × Nat × Nat → Nat × Nat × Nat) (i' j' k' : Nat) (c' : Nat × List (Nat × Nat × Nat)),
        c'.2 ~r (c.2.map g).reverse → (∀ o ∈ c.2, cellNode nu nv i' j' k' (g o) = cellNode nu nv i j k o) →
        (c'.2.map (cellNode nu nv i' j' k')) ~r (c.2.map (cellNode nu nv i j k)).reverse := by
      intro g i' j' k' c' h1 h2
      have h3 := h1.map (cellNode nu nv i' j' k')
      rw [List.map_reverse, List.map_map] at h3
      have h4 : c.2.map (cellNode nu nv i' j' k' ∘ g) = c.2.map (cellNode nu nv i j k) := List.map_congr_left h2
      rwa [h4] at h3
    have side : ∀ P : Nat → Nat → Nat → Prop, (∀ o ∈ c.2, P (i + o.1) (j + o.2.1) (k + o.2.2)) →
        ((∀ i j k, P i j k ↔ i = 0) ∨ (∀ i j k, P i j k ↔ i = nu) ∨ (∀ i j k, P i j k ↔ j = 0) ∨ (∀ i j k, P i j k ↔ j = nv) ∨
          (∀ i j k, P i j k ↔ k = 0) ∨ (∀ i j k, P i j k ↔ k = nw)) → OnSide3 nu nv nw F.nodeIds := by
      intro P h1 h2
      refine ⟨P, ?_, h2⟩
      intro x hx
      rw [hFe] at hx
      obtain ⟨o, ho, rfl⟩ := List.mem_map.1 hx
      have := oc o ho
      exact ⟨_, _, _, rfl, by omega, by omega, by omega, h1 o ho⟩
    rcases tmpl c hcm with ⟨c', hc', h⟩ | ⟨h0, c', hc', h⟩ | ⟨h0, c', hc', h⟩ | ⟨h0, c', hc', h⟩ | ⟨h0, c', hc', h⟩ | ⟨h0, c', hc', h⟩ | ⟨h0, c', hc', h⟩
    · refine Or.inl (reach c' hc' i j k hi hj hk (move id i j k c' ?_ fun o _ => rfl))
      simpa using h
    · rcases Nat.eq_zero_or_pos i with rfl | hp
      · exact Or.inr (side (fun i _ _ => i = 0) (fun o ho => by have := h0 o ho; omega) (Or.inl fun _ _ _ => Iff.rfl))
      · refine Or.inl (reach c' hc' (i - 1) j k (by omega) hj hk (move _ (i - 1) j k c' h fun o ho => ?_))
        have := h0 o ho
        unfold cellNode
        congr 1; simp only; omega
    · rcases Nat.lt_or_ge (i + 1) nu with hp | hp
      · refine Or.inl (reach c' hc' (i + 1) j k hp hj hk (move _ (i + 1) j k c' h fun o ho => ?_))
        have := h0 o ho
        unfold cellNode
        congr 1; simp only; omega
      · exact Or.inr (side (fun i _ _ => i = nu) (fun o ho => by have := h0 o ho; omega) (Or.inr (Or.inl fun _ _ _ => Iff.rfl)))
    · rcases Nat.eq_zero_or_pos j with rfl | hp
      · exact Or.inr (side (fun _ j _ => j = 0) (fun o ho => by have := h0 o ho; omega) (Or.inr (Or.inr (Or.inl fun _ _ _ => Iff.rfl))))
      · refine Or.inl (reach c' hc' i (j - 1) k hi (by omega) hk (move _ i (j - 1) k c' h fun o ho => ?_))
        have := h0 o ho
        unfold cellNode
        congr 1; simp only; omega
    · rcases Nat.lt_or_ge (j + 1) nv with hp | hp
      · refine Or.inl (reach c' hc' i (j + 1) k hi hp hk (move _ i (j + 1) k c' h fun o ho => ?_))
        have := h0 o ho
        unfold cellNode
        congr 1; simp only; omega
      · exact Or.inr (side (fun _ j _ => j = nv) (fun o ho => by have := h0 o ho; omega) (Or.inr (Or.inr (Or.inr (Or.inl fun _ _ _ => Iff.rfl)))))
    · rcases Nat.eq_zero_or_pos k with rfl | hp
      · exact Or.inr (side (fun _ _ k => k = 0) (fun o ho => by have := h0 o ho; omega)
          (Or.inr (Or.inr (Or.inr (Or.inr (Or.inl fun _ _ _ => Iff.rfl))))))
      · refine Or.inl (reach c' hc' i j (k - 1) hi hj (by omega) (move _ i j (k - 1) c' h fun o ho => ?_))
        have := h0 o ho
        unfold cellNode
        congr 1; simp only; omega
    · rcases Nat.lt_or_ge (k + 1) nw with hp | hp
      · refine Or.inl (reach c' hc' i j (k + 1) hi hj hp (move _ i j (k + 1) c' h fun o ho => ?_))
        have := h0 o ho
        unfold cellNode
        congr 1; simp only; omega
      · exact Or.inr (side (fun _ _ k => k = nw) (fun o ho => by have := h0 o ho; omega)
          (Or.inr (Or.inr (Or.inr (Or.inr (Or.inr fun _ _ _ => Iff.rfl))))))

/-! ### Volumes -/

/-- The six tetrahedra of a cell are explicit. -/
theorem hexCell_tets (nu nv i j k t : Nat) (e : Elem) (h : (hexCell nu nv true i j k)[t]? = some e) :
    ∃ a b c d : Nat × Nat × Nat, [a, b, c, d] ∈ cellElem true ∧
      e = { elementType := .tetrahedron, nodeIds := [cellNode nu nv i j k a, cellNode nu nv i j k b, cellNode nu nv i j k c, cellNode nu nv i j k d] } := by
  rw [hexCell_eq] at h
  obtain ⟨os, hos, rfl⟩ := List.mem_map.1 (List.mem_of_getElem? h)
  have h4 : ∀ os ∈ cellElem true, os = [os.getD 0 (0, 0, 0), os.getD 1 (0, 0, 0), os.getD 2 (0, 0, 0), os.getD 3 (0, 0, 0)] := by decide
  refine ⟨_, _, _, _, h4 os hos ▸ hos, ?_⟩
  conv_lhs => rw [h4 os hos]
  rfl

/-- Every tetrahedron of the built mesh has the sixth of the volume of a cell. -/
theorem build3_tets (origin u v w : Vec3 K) (nu nv nw : Nat) (x : Int) (e : Elem)
    (he : (build (nodes3 origin u v w nu nv nw) (cells3 nu nv nw true)).elements.get? x = some e) :
    ∃ T : Tet K, e.elementType = .tetrahedron ∧
      e.nodeIds.mapM (build (nodes3 origin u v w nu nv nw) (cells3 nu nv nw true)).nodes.get? = some [T.v0, T.v1, T.v2, T.v3] ∧
      6 * T.volume = w.dot (Vec3.cross v u) := by
  obtain ⟨-, -, -, -, -, hget, hel⟩ := build3_ok origin u v w nu nv nw true
  obtain ⟨i, hi, j, hj, k, hk, t, ht, rfl, hc⟩ := (hel x e).1 he
  obtain ⟨a, b, c, d, hm, rfl⟩ := hexCell_tets nu nv i j k t e hc
  have hb : ∀ os ∈ cellElem true, ∀ o ∈ os, o.1 ≤ 1 ∧ o.2.1 ≤ 1 ∧ o.2.2 ≤ 1 := by decide
  have hb := hb _ hm
  let P : Nat × Nat × Nat → Vec3 K := fun o => origin + ((i + o.1 : Nat) : K) • u + ((j + o.2.1 : Nat) : K) • v + ((k + o.2.2 : Nat) : K) • w
  have ga : ∀ o : Nat × Nat × Nat, o.1 ≤ 1 ∧ o.2.1 ≤ 1 ∧ o.2.2 ≤ 1 →
      (build (nodes3 origin u v w nu nv nw) (cells3 nu nv nw true)).nodes.get? (cellNode nu nv i j k o) = some (P o) :=
    fun o ho => hget (i + o.1) (j + o.2.1) (k + o.2.2) (by omega) (by omega) (by omega)
  refine ⟨⟨P a, P b, P c, P d⟩, rfl, ?_, ?_⟩
  · simp only [List.mapM_cons, List.mapM_nil, ga a (hb a (by simp)), ga b (hb b (by simp)), ga c (hb c (by simp)), ga d (hb d (by simp)),
      Option.bind_eq_bind, Option.bind_some, Option.pure_def]
  · simp only [cellElem, if_true, tetPositions, cornerList, List.map_cons, List.map_nil, List.mem_cons, List.not_mem_nil, or_false,
      List.getD_cons_zero, List.getD_cons_succ, List.cons.injEq, and_true] at hm
    rcases hm with ⟨rfl, rfl, rfl, rfl⟩ | ⟨rfl, rfl, rfl, rfl⟩ | ⟨rfl, rfl, rfl, rfl⟩ | ⟨rfl, rfl, rfl, rfl⟩ | ⟨rfl, rfl, rfl, rfl⟩ | ⟨rfl, rfl, rfl, rfl⟩ <;>
      simp [P, Tet.volume, det4one, det4, det3, Vec3.dot, Vec3.cross] <;> ring

/-- Every hexahedron of the built mesh has the volume of a cell. -/
theorem build3_hexes (origin u v w : Vec3 K) (nu nv nw : Nat) (x : Int) (e : Elem)
    (he : (build (nodes3 origin u v w nu nv nw) (cells3 nu nv nw false)).elements.get? x = some e) :
    ∃ c : Hex K, e.elementType = .hexahedron ∧
      e.nodeIds.mapM (build (nodes3 origin u v w nu nv nw) (cells3 nu nv nw false)).nodes.get? =
        some [c.v0, c.v1, c.v2, c.v3, c.v4, c.v5, c.v6, c.v7] ∧
      (c.v1 = c.v0 + u ∧ c.v2 = c.v0 + u + v ∧ c.v3 = c.v0 + v ∧ c.v4 = c.v0 + w ∧ c.v5 = c.v0 + u + w ∧ c.v6 = c.v0 + u + v + w ∧ c.v7 = c.v0 + v + w) ∧
      c.volume = w.dot (Vec3.cross v u) := by
  obtain ⟨-, -, -, -, -, hget, hel⟩ := build3_ok origin u v w nu nv nw false
  obtain ⟨i, hi, j, hj, k, hk, t, ht, rfl, hc⟩ := (hel x e).1 he
  rw [hexCell_eq] at hc
  have : t = 0 := by simp [cellElem] at ht; omega
  subst this
  simp only [cellElem, Bool.false_eq_true, if_false, List.map_cons, List.map_nil, List.getElem?_cons_zero, Option.some.injEq] at hc
  subst hc
  let P : Nat × Nat × Nat → Vec3 K := fun o => origin + ((i + o.1 : Nat) : K) • u + ((j + o.2.1 : Nat) : K) • v + ((k + o.2.2 : Nat) : K) • w
  have ga : ∀ o : Nat × Nat × Nat, o.1 ≤ 1 ∧ o.2.1 ≤ 1 ∧ o.2.2 ≤ 1 →
      (build (nodes3 origin u v w nu nv nw) (cells3 nu nv nw false)).nodes.get? (cellNode nu nv i j k o) = some (P o) :=
    fun o ho => hget (i + o.1) (j + o.2.1) (k + o.2.2) (by omega) (by omega) (by omega)
  refine ⟨⟨P (0, 0, 0), P (1, 0, 0), P (1, 1, 0), P (0, 1, 0), P (0, 0, 1), P (1, 0, 1), P (1, 1, 1), P (0, 1, 1)⟩, rfl, ?_, ?_, ?_⟩
  · simp only [cornerList, List.map_cons, List.map_nil, List.mapM_cons, List.mapM_nil, ga (0, 0, 0) (by simp), ga (1, 0, 0) (by simp),
      ga (1, 1, 0) (by simp), ga (0, 1, 0) (by simp), ga (0, 0, 1) (by simp), ga (1, 0, 1) (by simp), ga (1, 1, 1) (by simp), ga (0, 1, 1) (by simp),
      Option.bind_eq_bind, Option.bind_some, Option.pure_def]
  · refine ⟨?_, ?_, ?_, ?_, ?_, ?_, ?_⟩ <;> ext <;> simp [P] <;> ring
  · simp [P, Hex.volume, Vec3.dot, Vec3.cross]; ring

/-! ### C31 -/

section Hexahedron
variable {nrm : Vec3 K → K} (hn : IsNorm nrm) (h : Hex K) (nu nv nw : Nat) (hu : 0 < nu) (hv : 0 < nv) (hw : 0 < nw) (d : Bool)

include hn hu hv hw in
theorem generateHex_mesh : (generateHex nrm h nu nv nw d).mesh =
    build (nodes3 h.v0 ((1 / (nu : K)) • (h.v1 - h.v0)) ((1 / (nv : K)) • (h.v3 - h.v0)) ((1 / (nw : K)) • (h.v4 - h.v0)) nu nv nw)
      (cells3 nu nv nw d) := by
  show build (nodes3 h.v0 _ _ _ nu nv nw) _ = _
  rw [step_eq hn _ nu hu, step_eq hn _ nv hv, step_eq hn _ nw hw]

include hn hu hv hw in
/-- **C31, nodes.** `generate(hexahedron, nu, nv, nw)` yields a consistent mesh with `(nu+1)(nv+1)(nw+1)` nodes and `nu nv nw` hexahedra, or six
times as many tetrahedra; the node with id `(nu+1)(nv+1) k + (nu+1) j + i` divides the three sides from the first corner evenly. -/
theorem C31_nodes :
    let m := (generateHex nrm h nu nv nw d).mesh
    m.WF ∧ m.nodes.RoundTrip ∧ m.elements.RoundTrip ∧ m.nodes.ids = iota ((nu + 1) * (nv + 1) * (nw + 1)) ∧
    m.elements.ids = iota (nu * nv * nw * if d then 6 else 1) ∧
    ∀ i j k : Nat, i ≤ nu → j ≤ nv → k ≤ nw → m.nodes.get? (id3 nu nv i j k) =
      some (h.v0 + ((i : K) / nu) • (h.v1 - h.v0) + ((j : K) / nv) • (h.v3 - h.v0) + ((k : K) / nw) • (h.v4 - h.v0)) := by
  intro m
  have hm : m = _ := generateHex_mesh hn h nu nv nw hu hv hw d
  obtain ⟨h1, h2, h3, h4, h5, h6, -⟩ := build3_ok h.v0 ((1 / (nu : K)) • (h.v1 - h.v0)) ((1 / (nv : K)) • (h.v3 - h.v0))
    ((1 / (nw : K)) • (h.v4 - h.v0)) nu nv nw d
  rw [hm]
  refine ⟨h1, h2, h3, h4, h5, fun i j k hi hj hk => ?_⟩
  rw [h6 i j k hi hj hk]
  congr 1
  ext <;> simp <;> ring

include hn hu hv hw in
/-- **C31, elements.** Cell `(i, j, k)` holds the hexahedron with id `nu (nv k + j) + i` on the eight grid nodes around it, the four of the lower
layer first. -/
theorem C31_hexahedra (i j k : Nat) (hi : i < nu) (hj : j < nv) (hk : k < nw) :
    (generateHex nrm h nu nv nw false).mesh.elements.get? ((nv * k + j) * nu + i : Nat) = some
      { elementType := .hexahedron
        nodeIds := [id3 nu nv i j k, id3 nu nv (i + 1) j k, id3 nu nv (i + 1) (j + 1) k, id3 nu nv i (j + 1) k,
          id3 nu nv i j (k + 1), id3 nu nv (i + 1) j (k + 1), id3 nu nv (i + 1) (j + 1) (k + 1), id3 nu nv i (j + 1) (k + 1)] } := by
  obtain ⟨-, -, -, -, -, -, h7⟩ := build3_ok h.v0 ((1 / (nu : K)) • (h.v1 - h.v0)) ((1 / (nv : K)) • (h.v3 - h.v0))
    ((1 / (nw : K)) • (h.v4 - h.v0)) nu nv nw false
  rw [generateHex_mesh hn h nu nv nw hu hv hw false]
  refine (h7 _ _).2 ⟨i, hi, j, hj, k, hk, 0, by decide, by simp [cellElem], ?_⟩
  rw [hexCell_eq]
  rfl

include hn hu hv hw in
/-- **C31, the tetrahedra of a cell.** With `decimate`, the tetrahedra `6 c … 6 c + 5` of the cell `c = nu (nv k + j) + i` have their corners among
the eight grid nodes around the cell. -/
theorem C31_tetrahedra (i j k : Nat) (hi : i < nu) (hj : j < nv) (hk : k < nw) (t : Nat) (ht : t < 6) :
    ∃ e, (generateHex nrm h nu nv nw true).mesh.elements.get? (((nv * k + j) * nu + i) * 6 + t : Nat) = some e ∧
      e.elementType = .tetrahedron ∧ e.nodeIds.length = 4 ∧ e.nodeIds.Nodup ∧
      ∀ x ∈ e.nodeIds, ∃ a b c : Nat, a ≤ 1 ∧ b ≤ 1 ∧ c ≤ 1 ∧ x = id3 nu nv (i + a) (j + b) (k + c) := by
  obtain ⟨-, -, -, -, -, -, h7⟩ := build3_ok h.v0 ((1 / (nu : K)) • (h.v1 - h.v0)) ((1 / (nv : K)) • (h.v3 - h.v0))
    ((1 / (nw : K)) • (h.v4 - h.v0)) nu nv nw true
  have hc := build3_conforming h.v0 ((1 / (nu : K)) • (h.v1 - h.v0)) ((1 / (nv : K)) • (h.v3 - h.v0))
    ((1 / (nw : K)) • (h.v4 - h.v0)) nu nv nw true
  rw [generateHex_mesh hn h nu nv nw hu hv hw true]
  have hlen : t < (hexCell nu nv true i j k).length := by rw [hexCell_length]; exact ht
  have he := (h7 ((((nv * k + j) * nu + i) * 6 + t : Nat)) _).2
    ⟨i, hi, j, hj, k, hk, t, ht, rfl, List.getElem?_eq_getElem hlen⟩
  obtain ⟨a, b, c, e, hm, heq⟩ := hexCell_tets nu nv i j k t _ (List.getElem?_eq_getElem hlen)
  refine ⟨_, he, by rw [heq], by rw [heq]; rfl, hc.1 _ _ he, ?_⟩
  have hb : ∀ os ∈ cellElem true, ∀ o ∈ os, o.1 ≤ 1 ∧ o.2.1 ≤ 1 ∧ o.2.2 ≤ 1 := by decide
  intro x hx
  rw [heq] at hx
  have hx' : x ∈ [a, b, c, e].map (cellNode nu nv i j k) := hx
  obtain ⟨o, ho, rfl⟩ := List.mem_map.1 hx'
  exact ⟨o.1, o.2.1, o.2.2, (hb _ hm o ho).1, (hb _ hm o ho).2.1, (hb _ hm o ho).2.2, rfl⟩

/-- The value `volume()` of the tetrahedron or the hexahedron on the nodes of an element. -/
def Mesh.volumeOf (m : Mesh K) (e : Elem) : Option K :=
  match e.elementType, e.nodeIds.mapM m.nodes.get? with
  | .tetrahedron, some [a, b, c, d] => some (Tet.volume ⟨a, b, c, d⟩)
  | .hexahedron, some [a, b, c, d, e, f, g, h] => some (Hex.volume ⟨a, b, c, d, e, f, g, h⟩)
  | _, _ => none

include hn hu hv hw in
/-- **C31, volumes.** Every element has the same value of `volume()`, sign included, and their number times it is `volume()` of the given
hexahedron: all have the same orientation and their volumes sum to the parallelepiped's. -/
theorem C31_volumes (x : Int) (e : Elem) (he : (generateHex nrm h nu nv nw d).mesh.elements.get? x = some e) :
    ∃ V, (generateHex nrm h nu nv nw d).mesh.volumeOf e = some V ∧
      ((generateHex nrm h nu nv nw d).mesh.elements.count : K) * V = h.volume := by
  have hcnt : (generateHex nrm h nu nv nw d).mesh.elements.count = nu * nv * nw * if d then 6 else 1 := by
    show (generateHex nrm h nu nv nw d).mesh.elements.ids.length = _
    rw [(C31_nodes hn h nu nv nw hu hv hw d).2.2.2.2.1]; simp [iota]
  have hu0 : (nu : K) ≠ 0 := by exact_mod_cast hu.ne'
  have hv0 : (nv : K) ≠ 0 := by exact_mod_cast hv.ne'
  have hw0 : (nw : K) ≠ 0 := by exact_mod_cast hw.ne'
  rw [hcnt]
  rw [generateHex_mesh hn h nu nv nw hu hv hw d] at he ⊢
  have key : ((nu : K) * nv * nw) * ((1 / (nw : K)) • (h.v4 - h.v0)).dot
      (Vec3.cross ((1 / (nv : K)) • (h.v3 - h.v0)) ((1 / (nu : K)) • (h.v1 - h.v0))) = h.volume := by
    simp [Hex.volume, Vec3.dot, Vec3.cross]; field_simp
  cases d
  · obtain ⟨c, hty, hm, -, hvol⟩ := build3_hexes _ _ _ _ nu nv nw x e he
    refine ⟨c.volume, by simp only [Mesh.volumeOf, hty, hm], ?_⟩
    rw [hvol, ← key]; push_cast; simp
  · obtain ⟨c, hty, hm, hvol⟩ := build3_tets _ _ _ _ nu nv nw x e he
    refine ⟨c.volume, by simp only [Mesh.volumeOf, hty, hm], ?_⟩
    rw [← key, ← hvol]; push_cast; simp; ring

include hn hu hv hw in
/-- **C31, conformity.** The nodes of an element are distinct; an oriented face belongs to one element only; and a face that is not on a side of the
grid is also, with the other orientation, a face of an element. -/
theorem C31_conforming : Conforming3 nu nv nw (generateHex nrm h nu nv nw d).mesh := by
  rw [generateHex_mesh hn h nu nv nw hu hv hw d]
  exact build3_conforming _ _ _ _ nu nv nw d

include hn hu hv hw in
/-- **C31, corners.** The eight corners of a parallelepiped are nodes of its mesh. -/
theorem C31_corners (h2 : h.v2 = h.v1 + h.v3 - h.v0) (h5 : h.v5 = h.v1 + h.v4 - h.v0) (h6 : h.v6 = h.v1 + h.v3 + h.v4 - h.v0 - h.v0)
    (h7 : h.v7 = h.v3 + h.v4 - h.v0) :
    let m := (generateHex nrm h nu nv nw d).mesh
    [id3 nu nv 0 0 0, id3 nu nv nu 0 0, id3 nu nv nu nv 0, id3 nu nv 0 nv 0, id3 nu nv 0 0 nw, id3 nu nv nu 0 nw, id3 nu nv nu nv nw,
      id3 nu nv 0 nv nw].mapM m.nodes.get? = some [h.v0, h.v1, h.v2, h.v3, h.v4, h.v5, h.v6, h.v7] := by
  intro m
  have hu0 : (nu : K) ≠ 0 := by exact_mod_cast hu.ne'
  have hv0 : (nv : K) ≠ 0 := by exact_mod_cast hv.ne'
  have hw0 : (nw : K) ≠ 0 := by exact_mod_cast hw.ne'
  have hg := (C31_nodes hn h nu nv nw hu hv hw d).2.2.2.2.2
  have e0 := hg 0 0 0 (by omega) (by omega) (by omega)
  have e1 := hg nu 0 0 (by omega) (by omega) (by omega)
  have e2 := hg nu nv 0 (by omega) (by omega) (by omega)
  have e3 := hg 0 nv 0 (by omega) (by omega) (by omega)
  have e4 := hg 0 0 nw (by omega) (by omega) (by omega)
  have e5 := hg nu 0 nw (by omega) (by omega) (by omega)
  have e6 := hg nu nv nw (by omega) (by omega) (by omega)
  have e7 := hg 0 nv nw (by omega) (by omega) (by omega)
  simp only [div_self hu0, div_self hv0, div_self hw0, Nat.cast_zero, zero_div] at e0 e1 e2 e3 e4 e5 e6 e7
  simp only [m, List.mapM_cons, List.mapM_nil, e0, e1, e2, e3, e4, e5, e6, e7, Option.bind_eq_bind, Option.bind_some, Option.pure_def, Option.some.injEq]
  rw [h2, h5, h6, h7]
  simp only [List.cons.injEq, and_true]
  refine ⟨?_, ?_, ?_, ?_, ?_, ?_, ?_, ?_⟩ <;> ext <;> simp <;> ring

end Hexahedron

/-- A parallelepiped that meets the hypotheses of `C31_corners`, and its volume. -/
example : IsNorm realNorm ∧ 0 < 3 ∧
    (let h : Hex ℚ := ⟨⟨1, 0, 0⟩, ⟨3, 0, 0⟩, ⟨4, 2, 0⟩, ⟨2, 2, 0⟩, ⟨1, 1, 5⟩, ⟨3, 1, 5⟩, ⟨4, 3, 5⟩, ⟨2, 3, 5⟩⟩
     h.v2 = h.v1 + h.v3 - h.v0 ∧ h.v5 = h.v1 + h.v4 - h.v0 ∧ h.v6 = h.v1 + h.v3 + h.v4 - h.v0 - h.v0 ∧ h.v7 = h.v3 + h.v4 - h.v0 ∧
      h.volume = -20) := ⟨isNorm_real, by norm_num, by decide +kernel⟩

/-! ### C32 -/

section Box
variable [FloorRing K] {nrm : Vec3 K → K} (hn : IsNorm nrm) (b : BBox K) (size : K)
  (hx : b.min.x ≤ b.max.x) (hy : b.min.y ≤ b.max.y) (hz : b.min.z ≤ b.max.z) (hs : 0 < size) (d : Bool)

/-- The number of divisions along one side, and the step, of the box mesher. -/
theorem box_axis (hn : IsNorm nrm) (v : Vec3 K) (l : K) (hl : 0 ≤ l) (hv : v.normSq = l * l) (hs : 0 < size) :
    ∃ n : Nat, HashGrid.trunc (nrm v / size) = n ∧ (n : K) * size ≤ l ∧ l < (n + 1 : K) * size ∧ (n ≠ 0 → size • unit nrm v = (size / l) • v) := by
  have hnv : nrm v = l := hn.eq_of_sq hl hv.symm
  have hq : 0 ≤ l / size := div_nonneg hl hs.le
  refine ⟨⌊l / size⌋.toNat, ?_, ?_, ?_, ?_⟩
  · rw [hnv, HashGrid.trunc, if_pos hq, Int.toNat_of_nonneg (Int.floor_nonneg.2 hq)]
  · have : ((⌊l / size⌋.toNat : Nat) : K) = ((⌊l / size⌋ : Int) : K) := by
      rw [← Int.cast_natCast, Int.toNat_of_nonneg (Int.floor_nonneg.2 hq)]
    rw [this]
    exact (le_div_iff₀ hs).1 (Int.floor_le _)
  · have : ((⌊l / size⌋.toNat : Nat) : K) = ((⌊l / size⌋ : Int) : K) := by
      rw [← Int.cast_natCast, Int.toNat_of_nonneg (Int.floor_nonneg.2 hq)]
    rw [this]
    exact (div_lt_iff₀ hs).1 (Int.lt_floor_add_one _)
  · intro h0
    have hl0 : l ≠ 0 := by
      rintro rfl
      simp at h0
    have : 0 < v.normSq := by rw [hv]; positivity
    rw [unit, if_pos this, hnv]
    ext <;> simp <;> field_simp

include hn hx hy hz hs in
/-- What the box mesher builds. -/
theorem generateBox_mesh : ∃ nu nv nw : Nat,
    ((nu : K) * size ≤ b.max.x - b.min.x ∧ b.max.x - b.min.x < (nu + 1 : K) * size) ∧
    ((nv : K) * size ≤ b.max.y - b.min.y ∧ b.max.y - b.min.y < (nv + 1 : K) * size) ∧
    ((nw : K) * size ≤ b.max.z - b.min.z ∧ b.max.z - b.min.z < (nw + 1 : K) * size) ∧
    ∃ u v w, generateBox nrm b size d = some { mesh := build (nodes3 b.min u v w nu nv nw) (cells3 nu nv nw d), dx := size, dy := size, dz := size } ∧
      (nu ≠ 0 → u = ⟨size, 0, 0⟩) ∧ (nv ≠ 0 → v = ⟨0, size, 0⟩) ∧ (nw ≠ 0 → w = ⟨0, 0, size⟩) := by
  obtain ⟨nu, eu, lu, gu, hu⟩ := box_axis size hn ⟨(b.max - b.min).x, 0, 0⟩ (b.max.x - b.min.x) (by linarith) (by simp [Vec3.normSq, Vec3.dot]) hs
  obtain ⟨nv, ev, lv, gv, hv⟩ := box_axis size hn ⟨0, (b.max - b.min).y, 0⟩ (b.max.y - b.min.y) (by linarith) (by simp [Vec3.normSq, Vec3.dot]) hs
  obtain ⟨nw, ew, lw, gw, hw⟩ := box_axis size hn ⟨0, 0, (b.max - b.min).z⟩ (b.max.z - b.min.z) (by linarith) (by simp [Vec3.normSq, Vec3.dot]) hs
  refine ⟨nu, nv, nw, ⟨lu, gu⟩, ⟨lv, gv⟩, ⟨lw, gw⟩, size • unit nrm ⟨(b.max - b.min).x, 0, 0⟩,
    size • unit nrm ⟨0, (b.max - b.min).y, 0⟩, size • unit nrm ⟨0, 0, (b.max - b.min).z⟩, ?_, ?_, ?_, ?_⟩
  · unfold generateBox
    rw [if_neg hs.ne']
    simp only [eu, ev, ew]
  · intro h0
    rw [hu h0]
    have : b.max.x - b.min.x ≠ 0 := fun h => by
      have : (0 : K) < nu := by exact_mod_cast Nat.pos_of_ne_zero h0
      nlinarith [mul_pos this hs]
    ext <;> simp [this]
  · intro h0
    rw [hv h0]
    have : b.max.y - b.min.y ≠ 0 := fun h => by
      have : (0 : K) < nv := by exact_mod_cast Nat.pos_of_ne_zero h0
      nlinarith [mul_pos this hs]
    ext <;> simp [this]
  · intro h0
    rw [hw h0]
    have : b.max.z - b.min.z ≠ 0 := fun h => by
      have : (0 : K) < nw := by exact_mod_cast Nat.pos_of_ne_zero h0
      nlinarith [mul_pos this hs]
    ext <;> simp [this]

/-- A closed box holds a point. -/
def BBox.Holds (b : BBox K) (p : Vec3 K) : Prop :=
  b.min.x ≤ p.x ∧ p.x ≤ b.max.x ∧ b.min.y ≤ p.y ∧ p.y ≤ b.max.y ∧ b.min.z ≤ p.z ∧ p.z ≤ b.max.z

include hn hx hy hz hs in
/-- **C32.** For every box and every mesh size there are `nu`, `nv`, `nw` such that the mesh is a conforming grid of `nu × nv × nw` cells, whose nodes are
`size` apart along the axes from the lower corner of the box and all inside it; what remains between the grid and the upper sides of the box is
thinner than `size` on every axis; and each cell is a cube of edge `size`, or one of the six tetrahedra of equal size that it is divided into. -/
theorem C32_box : ∃ g, generateBox nrm b size d = some g ∧ ∃ nu nv nw : Nat,
    (0 ≤ b.max.x - (b.min.x + nu * size) ∧ b.max.x - (b.min.x + nu * size) < size) ∧
    (0 ≤ b.max.y - (b.min.y + nv * size) ∧ b.max.y - (b.min.y + nv * size) < size) ∧
    (0 ≤ b.max.z - (b.min.z + nw * size) ∧ b.max.z - (b.min.z + nw * size) < size) ∧
    g.mesh.WF ∧ g.mesh.nodes.RoundTrip ∧ g.mesh.elements.RoundTrip ∧
    g.mesh.nodes.ids = iota ((nu + 1) * (nv + 1) * (nw + 1)) ∧ g.mesh.elements.ids = iota (nu * nv * nw * if d then 6 else 1) ∧
    (∀ i j k : Nat, i ≤ nu → j ≤ nv → k ≤ nw →
      g.mesh.nodes.get? (id3 nu nv i j k) = some ⟨b.min.x + i * size, b.min.y + j * size, b.min.z + k * size⟩) ∧
    (∀ x p, g.mesh.nodes.get? x = some p → b.Holds p) ∧
    Conforming3 nu nv nw g.mesh ∧
    ∀ x e, g.mesh.elements.get? x = some e →
      if d then e.elementType = .tetrahedron ∧ (g.mesh.volumeOf e).map abs = some (size ^ 3 / 6)
      else e.elementType = .hexahedron ∧ ∃ p : Vec3 K, e.nodeIds.mapM g.mesh.nodes.get? = some [p, p + ⟨size, 0, 0⟩, p + ⟨size, size, 0⟩, p + ⟨0, size, 0⟩,
        p + ⟨0, 0, size⟩, p + ⟨size, 0, size⟩, p + ⟨size, size, size⟩, p + ⟨0, size, size⟩] := by
  obtain ⟨nu, nv, nw, bu, bv, bw, u, v, w, hg, hu, hv, hw⟩ := generateBox_mesh hn b size hx hy hz hs d
  refine ⟨_, hg, nu, nv, nw, ⟨by linarith, by linarith⟩, ⟨by linarith, by linarith⟩, ⟨by linarith, by linarith⟩, ?_⟩
  obtain ⟨h1, h2, h3, h4, h5, h6, h7⟩ := build3_ok b.min u v w nu nv nw d
  have hnode : ∀ i j k : Nat, i ≤ nu → j ≤ nv → k ≤ nw →
      (build (nodes3 b.min u v w nu nv nw) (cells3 nu nv nw d)).nodes.get? (id3 nu nv i j k) =
        some ⟨b.min.x + i * size, b.min.y + j * size, b.min.z + k * size⟩ := by
    intro i j k hi hj hk
    rw [h6 i j k hi hj hk]
    have e1 : (i : K) • u = ⟨i * size, 0, 0⟩ := by
      rcases Nat.eq_zero_or_pos nu with h | h
      · have : i = 0 := by omega
        subst this; ext <;> simp
      · rw [hu h.ne']; ext <;> simp
    have e2 : (j : K) • v = ⟨0, j * size, 0⟩ := by
      rcases Nat.eq_zero_or_pos nv with h | h
      · have : j = 0 := by omega
        subst this; ext <;> simp
      · rw [hv h.ne']; ext <;> simp
    have e3 : (k : K) • w = ⟨0, 0, k * size⟩ := by
      rcases Nat.eq_zero_or_pos nw with h | h
      · have : k = 0 := by omega
        subst this; ext <;> simp
      · rw [hw h.ne']; ext <;> simp
    rw [e1, e2, e3]
    congr 1
    ext <;> simp
  refine ⟨h1, h2, h3, h4, h5, hnode, ?_, build3_conforming _ _ _ _ nu nv nw d, ?_⟩
  · intro x p hp
    have hmem : x ∈ (build (nodes3 b.min u v w nu nv nw) (cells3 nu nv nw d)).nodes.ids := (h1.nodes.2 x).2 ⟨p, hp⟩
    rw [h4, mem_iota] at hmem
    obtain ⟨h0, hlt⟩ := hmem
    obtain ⟨n, rfl⟩ := Int.eq_ofNat_of_zero_le h0
    have hlt' : n < (nu + 1) * (nv + 1) * (nw + 1) := by exact_mod_cast hlt
    have e0 : (n : Int) = id3 nu nv (n % (nu + 1)) (n / (nu + 1) % (nv + 1)) (n / (nu + 1) / (nv + 1)) := by
      unfold id3
      have a1 := Nat.div_add_mod n (nu + 1)
      have a2 := Nat.div_add_mod (n / (nu + 1)) (nv + 1)
      have : n = (nu + 1) * (nv + 1) * (n / (nu + 1) / (nv + 1)) + (nu + 1) * (n / (nu + 1) % (nv + 1)) + n % (nu + 1) := by
        conv_lhs => rw [← a1, ← a2]
        ring
      exact_mod_cast this
    have i1 : n % (nu + 1) ≤ nu := Nat.le_of_lt_succ (Nat.mod_lt _ (by omega))
    have i2 : n / (nu + 1) % (nv + 1) ≤ nv := Nat.le_of_lt_succ (Nat.mod_lt _ (by omega))
    have i3 : n / (nu + 1) / (nv + 1) ≤ nw := by
      rw [Nat.div_div_eq_div_mul]
      exact Nat.le_of_lt_succ (Nat.div_lt_of_lt_mul hlt')
    have := hnode _ _ _ i1 i2 i3
    rw [← e0, hp, Option.some.injEq] at this
    subst this
    have c1 : ((n % (nu + 1) : Nat) : K) ≤ nu := by exact_mod_cast i1
    have c2 : ((n / (nu + 1) % (nv + 1) : Nat) : K) ≤ nv := by exact_mod_cast i2
    have c3 : ((n / (nu + 1) / (nv + 1) : Nat) : K) ≤ nw := by exact_mod_cast i3
    have p1 := mul_nonneg (Nat.cast_nonneg (α := K) (n % (nu + 1))) hs.le
    have p2 := mul_nonneg (Nat.cast_nonneg (α := K) (n / (nu + 1) % (nv + 1))) hs.le
    have p3 := mul_nonneg (Nat.cast_nonneg (α := K) (n / (nu + 1) / (nv + 1))) hs.le
    have q1 := mul_le_mul_of_nonneg_right c1 hs.le
    have q2 := mul_le_mul_of_nonneg_right c2 hs.le
    have q3 := mul_le_mul_of_nonneg_right c3 hs.le
    refine ⟨?_, ?_, ?_, ?_, ?_, ?_⟩ <;> simp only <;> linarith [bu.1, bv.1, bw.1]
  · intro x e he
    have hne : nu ≠ 0 ∧ nv ≠ 0 ∧ nw ≠ 0 := by
      obtain ⟨i, hi, j, hj, k, hk, -⟩ := (h7 x e).1 he
      omega
    obtain rfl := hu hne.1
    obtain rfl := hv hne.2.1
    obtain rfl := hw hne.2.2
    cases d
    · rw [if_neg (by simp)]
      obtain ⟨c, hty, hm, hc, -⟩ := build3_hexes _ _ _ _ nu nv nw x e he
      refine ⟨hty, c.v0, ?_⟩
      rw [hm]
      obtain ⟨r1, r2, r3, r4, r5, r6, r7⟩ := hc
      rw [r1, r2, r3, r4, r5, r6, r7]
      simp only [Option.some.injEq, List.cons.injEq, and_true, true_and]
      refine ⟨?_, ?_, ?_, ?_⟩ <;> ext <;> simp
    · rw [if_pos rfl]
      obtain ⟨c, hty, hm, hvol⟩ := build3_tets _ _ _ _ nu nv nw x e he
      refine ⟨hty, ?_⟩
      have : (build (nodes3 b.min (⟨size, 0, 0⟩ : Vec3 K) ⟨0, size, 0⟩ ⟨0, 0, size⟩ nu nv nw) (cells3 nu nv nw true)).volumeOf e = some c.volume := by
        simp only [Mesh.volumeOf, hty, hm]
      show Option.map abs (Mesh.volumeOf _ e) = _
      rw [this]
      have hv6 : c.volume = -(size ^ 3 / 6) := by
        simp [Vec3.dot, Vec3.cross] at hvol
        linarith
      rw [hv6, Option.map_some, abs_neg, abs_of_pos (by positivity)]

include hn hx hy hz hs in
/-- **C32, orientation.** `volume()` of every element of a box mesh is negative: the cells are right-handed, and `volume()` of a right-handed hexahedron or
tetrahedron is negative (`C25_tetrahedron_negative_volume` shows what the finite elements then do). -/
theorem C32_negative_volumes (g : Gen K) (hg : generateBox nrm b size d = some g) (x : Int) (e : Elem) (he : g.mesh.elements.get? x = some e) :
    ∃ V, g.mesh.volumeOf e = some V ∧ V < 0 := by
  obtain ⟨nu, nv, nw, bu, bv, bw, u, v, w, hg', hu, hv, hw⟩ := generateBox_mesh hn b size hx hy hz hs d
  rw [hg] at hg'
  obtain rfl := Option.some.inj hg'
  obtain ⟨-, -, -, -, -, -, h7⟩ := build3_ok b.min u v w nu nv nw d
  have hne : nu ≠ 0 ∧ nv ≠ 0 ∧ nw ≠ 0 := by
    obtain ⟨i, hi, j, hj, k, hk, -⟩ := (h7 x e).1 he
    omega
  obtain rfl := hu hne.1
  obtain rfl := hv hne.2.1
  obtain rfl := hw hne.2.2
  have p : 0 < size * size * size := by positivity
  cases d
  · obtain ⟨c, hty, hm, -, hvol⟩ := build3_hexes _ _ _ _ nu nv nw x e he
    refine ⟨c.volume, by simp only [Mesh.volumeOf, hty, hm], ?_⟩
    rw [hvol]; simp [Vec3.dot, Vec3.cross]; nlinarith
  · obtain ⟨c, hty, hm, hvol⟩ := build3_tets _ _ _ _ nu nv nw x e he
    refine ⟨c.volume, by simp only [Mesh.volumeOf, hty, hm], ?_⟩
    simp [Vec3.dot, Vec3.cross] at hvol
    nlinarith

end Box

/-- A mesh size of zero is a division by zero. -/
theorem C32_zero_size [FloorRing K] (nrm : Vec3 K → K) (b : BBox K) (d : Bool) : generateBox nrm b 0 d = none := by
  simp [generateBox]

/-- A box and a size that meet the hypotheses; the sides are not multiples of the size. -/
example : IsNorm realNorm ∧ (let b : BBox ℝ := ⟨⟨0, 0, 0⟩, ⟨3, 4, 5⟩⟩; b.min.x ≤ b.max.x ∧ b.min.y ≤ b.max.y ∧ b.min.z ≤ b.max.z ∧ (0 : ℝ) < 2) :=
  ⟨isNorm_real, by norm_num, by norm_num, by norm_num, by norm_num⟩

end ENigMA
