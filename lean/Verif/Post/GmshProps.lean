import Verif.Post.Gmsh
import Verif.Mesh.MeshLemmas
import Verif.Mesh.MeshSpec
import Verif.Mesh.ContainerLemmas
import Mathlib.Data.List.Range
import Mathlib.Data.Rat.Defs

/-!
# C83: a mesh saved to a Gmsh file and loaded again
-/

set_option linter.unusedSectionVars false
set_option autoImplicit false

namespace ENigMA

namespace Gmsh
variable {K : Type} [DecidableEq K]

/-! ### Specification -/

/-- The number of nodes of an element of the types that Gmsh files can hold here. -/
def nbNodes? : ElementType → Option Nat
  | .beam => some 2
  | .triangle => some 3
  | .quadrilateral => some 4
  | .tetrahedron => some 4
  | .triangularPrism => some 6
  | .hexahedron => some 8
  | _ => none

/-- A mesh that can be written: consistent, with the indices in step with the ids, and every element has the nodes of its type. -/
structure Writable (m : Mesh K) : Prop where
  wf : m.WF
  nodeIndex : m.nodes.RoundTrip
  elemIndex : m.elements.RoundTrip
  nodes : ∀ id e k, m.elements.get? id = some e → nbNodes? e.elementType = some k → e.nodeIds.length = k

/-- The element at position `i` of the mesh is of a type that is read back. -/
def Kept (m : Mesh K) (i : Nat) : Prop := ∃ id e, m.elements.idAt? i = some id ∧ m.elements.get? id = some e ∧ nbNodes? e.elementType ≠ none

/-- `m'` is the mesh `m` without the elements that are not kept, every id replaced by its position and every coordinate by what is printed. -/
structure Copy (prt : K → K) (m m' : Mesh K) : Prop where
  writable : Writable m'
  nodeIds : m'.nodes.ids = (List.range m.nodes.count).map Int.ofNat
  node : ∀ i id v, m.nodes.idAt? i = some id → m.nodes.get? id = some v → m'.nodes.get? i = some ⟨prt v.x, prt v.y, prt v.z⟩
  increasing : m'.elements.ids.Pairwise (· < ·)
  kept : ∀ i : Int, i ∈ m'.elements.ids ↔ ∃ k : Nat, i = k ∧ Kept m k
  element : ∀ i id e, m.elements.idAt? i = some id → m.elements.get? id = some e → nbNodes? e.elementType ≠ none →
    ∃ ps : List Nat, ps.map m.nodes.idAt? = e.nodeIds.map some ∧ m'.elements.get? i = some { elementType := e.elementType, nodeIds := ps.map Int.ofNat }
  noFaces : m'.faces.ids = []

/-! ### Reading what was written -/

theorem mapM_idx {α β : Type} (f : α → Option β) : ∀ (l : List α) (g : Nat → β), (∀ i a, l[i]? = some a → f a = some (g i)) → l.mapM f = some ((List.range l.length).map g)
  | [], _, _ => by simp
  | a :: l, g, h => by
    rw [List.mapM_cons, h 0 a rfl, mapM_idx f l (fun i => g (i + 1)) fun i b hb => h (i + 1) b (by simpa using hb)]
    simp only [Option.bind_eq_bind, Option.bind_some, Option.pure_def, List.length_cons, List.range_succ_eq_map, List.map_cons, List.map_map]
    rfl

/-- Additions one after the other. -/
def addAll {α : Type} (c : Cont α) (l : List (Int × α)) : Cont α := l.foldl (fun c p => c.add p.1 p.2) c

theorem addAll_spec {α : Type} : ∀ (l : List (Int × α)) (c : Cont α), (c.ids ++ l.map (·.1)).Nodup → c.Ok →
    (addAll c l).ids = c.ids ++ l.map (·.1) ∧ (addAll c l).Ok ∧ (∀ p ∈ l, (addAll c l).get? p.1 = some p.2) ∧ ∀ j, j ∉ l.map (·.1) → (addAll c l).get? j = c.get? j
  | [], c, _, hc => by simp [addAll, hc]
  | (i, a) :: l, c, hn, hc => by
    have hi : i ∉ c.ids := fun h => by
      have := List.disjoint_of_nodup_append hn h; simp at this
    have hn' : ((c.add i a).ids ++ l.map (·.1)).Nodup := by
      simpa [Cont.add] using hn
    obtain ⟨h1, h2, h3, h4⟩ := addAll_spec l (c.add i a) hn' (Cont.add_ok hc a hi)
    have hil : i ∉ l.map (·.1) := fun h => by
      have := (List.nodup_append.1 hn).2.1
      rw [List.map_cons, List.nodup_cons] at this
      exact this.1 h
    refine ⟨by change (addAll (c.add i a) l).ids = _; rw [h1]; simp [Cont.add], h2, fun p hp => ?_, fun j hj => ?_⟩
    · change (addAll (c.add i a) l).get? p.1 = _
      rcases List.mem_cons.1 hp with rfl | hp
      · rw [h4 _ hil, Cont.get?_add, if_pos rfl]
      · exact h3 p hp
    · change (addAll (c.add i a) l).get? j = _
      rw [List.map_cons, List.mem_cons, not_or] at hj
      rw [h4 j hj.2, Cont.get?_add, if_neg hj.1]

theorem addAll_roundTrip {α : Type} (l : List (Int × α)) (h : (l.map (·.1)).Nodup) : (addAll Cont.empty l).RoundTrip := by
  have key : ∀ (l : List (Int × α)) (c : Cont α), (c.ids ++ l.map (·.1)).Nodup → c.Synced → c.counter = c.ids.length → (addAll c l).Synced := by
    intro l
    induction l with
    | nil => exact fun c _ h _ => h
    | cons p l ih =>
      intro c hn hs hc
      have hi : p.1 ∉ c.ids := fun h => by
        have := List.disjoint_of_nodup_append hn h; simp at this
      exact ih (c.add p.1 p.2) (by simpa [Cont.add] using hn) (Cont.add_synced c p.2 hs hc hi) (by simp [Cont.add, hc])
  exact (key l Cont.empty (by simpa [Cont.empty] using h) Cont.empty_synced rfl).roundTrip

theorem readNodes_lines (v : Nat → Vec3 K) (rest : Stream K) : ∀ (n k : Nat) (c : Cont (Vec3 K)),
    readNodes n ([] :: ((List.range' k n).map fun i => [.int ((i : Int) + 1), .real (v i).x, .real (v i).y, .real (v i).z]) ++ rest) c =
      some ([] :: rest, addAll c ((List.range' k n).map fun i : Nat => ((i : Int), v i)))
  | 0, _, _ => by simp [readNodes, addAll]
  | n + 1, k, c => by
    have := readNodes_lines v rest n (k + 1) (c.add k (v k))
    simp only [List.range'_succ, List.map_cons, List.cons_append, readNodes, readInt, readReal, next, Option.bind_eq_bind, Option.bind_some, add_sub_cancel_right] at this ⊢
    rw [this]; rfl

theorem readInts_line (rest : Stream K) : ∀ (l : List Int), readInts l.length (l.map Tok.int :: rest) = some (l, [] :: rest)
  | [] => rfl
  | i :: l => by
    simp only [List.length_cons, List.map_cons, readInts, readInt, next, Option.bind_eq_bind, Option.bind_some]
    rw [readInts_line rest l]; rfl

theorem code_kept {t : ElementType} {k : Nat} (h : nbNodes? t = some k) : ¬ (code t < 1 ∨ code t > 6) ∧ ofCode (code t) = (t, k) := by
  cases t <;> simp [nbNodes?] at h <;> subst h <;> decide

theorem code_not_kept {t : ElementType} (h : nbNodes? t = none) : code t < 1 ∨ code t > 6 := by
  cases t <;> simp [nbNodes?] at h <;> decide

/-- The lines of the elements: type and positions of the nodes. -/
def elemTokens (e : Nat → ElementType × List Int) (i : Nat) : List (Tok K) := [.int ((i : Int) + 1), .int (code (e i).1), .int 0] ++ (e i).2.map fun n => .int (n + 1)

theorem readElems_lines (e : Nat → ElementType × List Int) (rest : Stream K) : ∀ (n k : Nat) (c : Cont Elem) (s : Stream K),
    (∀ i, k ≤ i → i < k + n → ∀ j, nbNodes? (e i).1 = some j → (e i).2.length = j) →
    (s = (List.range' k n).map (elemTokens e) ++ rest ∨ s = [] :: (List.range' k n).map (elemTokens e) ++ rest) →
    ∃ s', readElems n s c = some (s', addAll c (((List.range' k n).filter fun i => (nbNodes? (e i).1).isSome).map fun i : Nat => ((i : Int), { elementType := (e i).1, nodeIds := (e i).2 })))
  | 0, _, c, s, _, _ => ⟨s, by simp [readElems, addAll]⟩
  | n + 1, k, c, s, hl, hs => by
    have hs' : readInt s = some ((k : Int) + 1, ([.int (code (e k).1), .int 0] ++ (e k).2.map fun n => .int (n + 1)) :: ((List.range' (k + 1) n).map (elemTokens e) ++ rest)) := by
      rcases hs with rfl | rfl <;> simp [List.range'_succ, elemTokens, readInt, next]
    simp only [readElems, hs', Option.bind_eq_bind, Option.bind_some]
    simp only [readInt, next, Option.bind_some, List.cons_append, List.nil_append, List.tail_cons, List.range'_succ]
    have hl' : ∀ i, k + 1 ≤ i → i < k + 1 + n → ∀ j, nbNodes? (e i).1 = some j → (e i).2.length = j := fun i h1 h2 => hl i (by omega) (by omega)
    cases hk : nbNodes? (e k).1 with
    | none =>
      rw [if_pos (code_not_kept hk), List.filter_cons_of_neg (by simp [hk])]
      exact readElems_lines e rest n (k + 1) c _ hl' (Or.inl rfl)
    | some j =>
      obtain ⟨h1, h2⟩ := code_kept hk
      rw [if_neg h1, List.filter_cons_of_pos (by simp [hk])]
      simp only [h2, Int.toNat_zero, readInts, Option.bind_some]
      have hj := hl k le_rfl (by omega) j hk
      have h3 := readInts_line ((List.range' (k + 1) n).map (elemTokens e) ++ rest) ((e k).2.map (· + 1))
      rw [List.length_map, hj, List.map_map] at h3
      have h4 : ((Tok.int : Int → Tok K) ∘ fun x => x + 1) = fun n => Tok.int (n + 1) := rfl
      rw [h4] at h3
      rw [h3]
      simp only [Option.bind_some, List.map_map, add_sub_cancel_right]
      have h5 : ((fun x : Int => x - 1) ∘ fun x => x + 1) = id := by funext x; simp
      rw [h5, List.map_id]
      exact readElems_lines e rest n (k + 1) _ _ hl' (Or.inr rfl)

end Gmsh

open Gmsh

/-- **C83.** Writing a consistent mesh and loading the file gives the mesh again, with every id replaced by its position; elements that are points or polyhedra, or have no type, are lost. -/
theorem C83_round_trip_partial {K : Type} [DecidableEq K] [Inhabited K] (prt : K → K) (m : Mesh K) (hm : Writable m) (u : List K) (loc : Location) (nbDofs : Nat) (name : String)
    (hu : values prt m u loc nbDofs name ≠ none) : ∃ f m', save prt m u loc nbDofs name = some f ∧ load f = some m' ∧ Copy prt m m' := by
  obtain ⟨vs, hvs⟩ := Option.ne_none_iff_exists'.1 hu
  -- nodes
  let v : Nat → Vec3 K := fun i => ((m.nodes.ids[i]?).bind m.nodes.get?).getD ⟨default, default, default⟩
  have hv : ∀ i id w, m.nodes.ids[i]? = some id → m.nodes.get? id = some w → v i = w := fun i id w h1 h2 => by simp [v, h1, h2]
  let pv : Nat → Vec3 K := fun i => ⟨prt (v i).x, prt (v i).y, prt (v i).z⟩
  have hns : m.nodes.ids.mapM (nodeLine prt m) =
      some ((List.range' 0 m.nodes.ids.length).map fun i => [.int ((i : Int) + 1), .real (pv i).x, .real (pv i).y, .real (pv i).z]) := by
    rw [← List.range_eq_range']
    refine mapM_idx _ _ _ fun i id h => ?_
    obtain ⟨w, hw⟩ := (hm.wf.nodes.2 id).1 (List.mem_of_getElem? h)
    simp [nodeLine, hm.nodeIndex.1 i id h, hw, pv, hv i id w h hw]
  -- elements
  let e : Nat → ElementType × List Int := fun i => match (m.elements.ids[i]?).bind m.elements.get? with
    | some e => (e.elementType, e.nodeIds.map fun n => (m.nodes.ids.idxOf n : Int))
    | none => (.none, [])
  have he : ∀ i id x, m.elements.ids[i]? = some id → m.elements.get? id = some x → e i = (x.elementType, x.nodeIds.map fun n => (m.nodes.ids.idxOf n : Int)) :=
    fun i id x h1 h2 => by simp [e, h1, h2]
  have hix : ∀ n, n ∈ m.nodes.ids → m.nodes.indexOf? n = some (m.nodes.ids.idxOf n : Int) := fun n hn =>
    hm.nodeIndex.1 _ n (by unfold Cont.idAt?; rw [List.getElem?_eq_getElem (List.idxOf_lt_length_of_mem hn), List.getElem_idxOf])
  have hes : m.elements.ids.mapM (elemLine m) = some ((List.range' 0 m.elements.ids.length).map (elemTokens e)) := by
    rw [← List.range_eq_range']
    refine mapM_idx _ _ _ fun i id h => ?_
    obtain ⟨x, hx⟩ := (hm.wf.elements.2 id).1 (List.mem_of_getElem? h)
    have h2 : x.nodeIds.mapM m.nodes.indexOf? = some (x.nodeIds.map fun n => (m.nodes.ids.idxOf n : Int)) := by
      have := hm.wf.elemNodes id x hx
      generalize x.nodeIds = l at this
      induction l with
      | nil => rfl
      | cons a l ih => rw [List.mapM_cons, hix a (this a List.mem_cons_self), ih fun n hn => this n (List.mem_cons_of_mem _ hn)]; rfl
    simp [elemLine, hm.elemIndex.1 i id h, hx, h2, elemTokens, he i id x h hx]
  have hlen : ∀ i, 0 ≤ i → i < 0 + m.elements.ids.length → ∀ j, nbNodes? (e i).1 = some j → (e i).2.length = j := fun i _ hi j hj => by
    rw [zero_add] at hi
    obtain ⟨x, hx⟩ := (hm.wf.elements.2 _).1 (List.getElem_mem hi)
    rw [he i _ x (List.getElem?_eq_getElem hi) hx] at hj ⊢
    rw [List.length_map]; exact hm.nodes _ x j hx hj
  have hsave : save prt m u loc nbDofs name = some ([[.mark .meshFormat], [.text "2.2 0 8"], [.mark .endMeshFormat], [.mark .nodes], [.int m.nodes.count]] ++
      ((List.range' 0 m.nodes.ids.length).map fun i => [.int ((i : Int) + 1), .real (pv i).x, .real (pv i).y, .real (pv i).z]) ++
      [[.mark .endNodes], [.mark .elements], [.int m.elements.count]] ++ (List.range' 0 m.elements.ids.length).map (elemTokens e) ++ [[.mark .endElements]] ++ vs) := by
    unfold save; rw [hns, hes, hvs]; rfl
  obtain ⟨s', hre⟩ := readElems_lines e ([[Tok.mark .endElements]] ++ vs) m.elements.ids.length 0 Cont.empty ([] :: (List.range' 0 m.elements.ids.length).map (elemTokens e) ++ ([[.mark .endElements]] ++ vs))
    hlen (Or.inr rfl)
  have hrn := readNodes_lines pv ([[.mark .endNodes], [.mark .elements], [.int m.elements.count]] ++ ((List.range' 0 m.elements.ids.length).map (elemTokens e) ++ ([[.mark .endElements]] ++ vs)))
    m.nodes.ids.length 0 Cont.empty
  refine ⟨_, { (Mesh.empty : Mesh K) with
      nodes := addAll Cont.empty ((List.range' 0 m.nodes.ids.length).map fun i : Nat => ((i : Int), pv i))
      elements := addAll Cont.empty (((List.range' 0 m.elements.ids.length).filter fun i => (nbNodes? (e i).1).isSome).map fun i : Nat =>
        ((i : Int), { elementType := (e i).1, nodeIds := (e i).2 })) }, hsave, ?_, ?_⟩
  · simp only [load, findSection, List.cons_append, List.nil_append, List.append_assoc, List.mem_singleton, Tok.mark.injEq, reduceCtorEq, if_true, if_false, readInt, next, Option.bind_eq_bind,
      Option.bind_some, Cont.count, Int.toNat_natCast, Mesh.empty] at hrn hre ⊢
    rw [hrn]
    simp only [Option.bind_some, findSection, List.not_mem_nil, List.mem_singleton, Tok.mark.injEq, reduceCtorEq, if_true, if_false, next, Int.toNat_natCast]
    rw [hre]
    rfl
  · have inj : Function.Injective (Int.ofNat : Nat → Int) := fun a b h => Int.ofNat.inj h
    have nn : (((List.range' 0 m.nodes.ids.length).map fun i : Nat => ((i : Int), pv i)).map (·.1)).Nodup := by
      rw [List.map_map]
      exact List.Nodup.map inj (List.Pairwise.imp (fun h => ne_of_lt h) (List.pairwise_lt_range' (s := 0) (n := _)))
    have en : ((((List.range' 0 m.elements.ids.length).filter fun i => (nbNodes? (e i).1).isSome).map fun i : Nat =>
        ((i : Int), ({ elementType := (e i).1, nodeIds := (e i).2 } : Elem))).map (·.1)).Nodup := by
      rw [List.map_map]
      exact List.Nodup.map inj (List.Nodup.filter _ (List.Pairwise.imp (fun h => ne_of_lt h) (List.pairwise_lt_range' (s := 0) (n := _))))
    have hN := addAll_spec ((List.range' 0 m.nodes.ids.length).map fun i : Nat => ((i : Int), pv i)) Cont.empty (by simpa [Cont.empty] using nn) Cont.empty_ok
    have hE := addAll_spec (((List.range' 0 m.elements.ids.length).filter fun i => (nbNodes? (e i).1).isSome).map fun i : Nat =>
        ((i : Int), ({ elementType := (e i).1, nodeIds := (e i).2 } : Elem))) Cont.empty (by simpa [Cont.empty] using en) Cont.empty_ok
    obtain ⟨n1, n2, n3, -⟩ := hN
    obtain ⟨e1, e2, e3, e4⟩ := hE
    have hkept : ∀ i, i < m.elements.ids.length → ∀ id x, m.elements.ids[i]? = some id → m.elements.get? id = some x →
        ((nbNodes? (e i).1).isSome ↔ nbNodes? x.elementType ≠ none) := fun i hi id x h1 h2 => by
      rw [he i id x h1 h2, Option.isSome_iff_ne_none]
    have emem : ∀ i : Nat, (i : Int) ∈ (addAll Cont.empty (((List.range' 0 m.elements.ids.length).filter fun i => (nbNodes? (e i).1).isSome).map fun i : Nat =>
        ((i : Int), ({ elementType := (e i).1, nodeIds := (e i).2 } : Elem)))).ids ↔ Kept m i := fun i => by
      rw [e1]
      simp only [Cont.empty, List.nil_append, List.map_map, List.mem_map, List.mem_filter, List.mem_range'_1, Function.comp, Nat.cast_inj, Nat.zero_le, true_and, zero_add]
      constructor
      · rintro ⟨j, ⟨hj, hk⟩, rfl⟩
        obtain ⟨x, hx⟩ := (hm.wf.elements.2 _).1 (List.getElem_mem hj)
        exact ⟨_, x, List.getElem?_eq_getElem hj, hx, (hkept j hj _ x (List.getElem?_eq_getElem hj) hx).1 hk⟩
      · rintro ⟨id, x, h1, h2, h3⟩
        have hi := (List.getElem?_eq_some_iff.1 h1).1
        exact ⟨i, ⟨hi, (hkept i hi id x h1 h2).2 h3⟩, rfl⟩
    have nmem : ∀ n, n ∈ m.nodes.ids → (m.nodes.ids.idxOf n : Int) ∈ (addAll Cont.empty ((List.range' 0 m.nodes.ids.length).map fun i : Nat => ((i : Int), pv i))).ids := fun n hn => by
      rw [n1]
      simp only [Cont.empty, List.nil_append, List.map_map, List.mem_map, List.mem_range'_1, Function.comp, Nat.cast_inj, Nat.zero_le, true_and, zero_add]
      exact ⟨_, List.idxOf_lt_length_of_mem hn, rfl⟩
    have back : ∀ id x, (addAll Cont.empty (((List.range' 0 m.elements.ids.length).filter fun i => (nbNodes? (e i).1).isSome).map fun i : Nat =>
        ((i : Int), ({ elementType := (e i).1, nodeIds := (e i).2 } : Elem)))).get? id = some x →
        ∃ id' y, m.elements.get? id' = some y ∧ x.elementType = y.elementType ∧ x.nodeIds = y.nodeIds.map fun n => (m.nodes.ids.idxOf n : Int) := fun id x h => by
      have hid := (e2.2 id).2 ⟨x, h⟩
      rw [e1] at hid
      simp only [Cont.empty, List.nil_append, List.map_map, List.mem_map, List.mem_filter, List.mem_range'_1, Function.comp, Nat.zero_le, true_and, zero_add] at hid
      obtain ⟨i, ⟨hi, hk⟩, rfl⟩ := hid
      have h5 := e3 ((i : Int), { elementType := (e i).1, nodeIds := (e i).2 }) (by
        simp only [List.mem_map, List.mem_filter, List.mem_range'_1]; exact ⟨i, ⟨by omega, hk⟩, rfl⟩)
      have h6 := h.symm.trans h5
      simp only [Option.some.injEq] at h6
      obtain ⟨y, hy⟩ := (hm.wf.elements.2 _).1 (List.getElem_mem hi)
      refine ⟨_, y, hy, ?_, ?_⟩ <;> rw [h6, he i _ y (List.getElem?_eq_getElem hi) hy]
    refine ⟨⟨⟨n2, Cont.empty_ok, e2, fun id f h => ?_, fun id x h n hn => ?_⟩, addAll_roundTrip _ nn, addAll_roundTrip _ en, fun id x k h hk => ?_⟩, ?_, fun i id w h1 h2 => ?_, ?_, fun i => ?_, fun i id x h1 h2 h3 => ?_, rfl⟩
    · simp [Mesh.empty, Cont.empty, Cont.get?] at h
    · obtain ⟨_, y, hy, -, h6⟩ := back id x h
      rw [h6, List.mem_map] at hn
      obtain ⟨a, ha, rfl⟩ := hn
      exact nmem a (hm.wf.elemNodes _ y hy a ha)
    · obtain ⟨_, y, hy, h6⟩ := back id x h
      rw [h6.1] at hk
      rw [h6.2, List.length_map]
      exact hm.nodes _ y k hy hk
    · change (addAll Cont.empty _).ids = _
      rw [n1, List.range_eq_range', List.map_map]; rfl
    · have hi := (List.getElem?_eq_some_iff.1 h1).1
      have := n3 ((i : Int), pv i) (by simp only [List.mem_map, List.mem_range'_1]; exact ⟨i, by omega, rfl⟩)
      change (addAll Cont.empty _).get? _ = _
      rw [this]
      simp only [pv, hv i id w h1 h2]
    · change (addAll Cont.empty _).ids.Pairwise _
      rw [e1]
      simp only [Cont.empty, List.nil_append, List.map_map]
      rw [List.pairwise_map]
      have : (List.range' 0 m.elements.ids.length).Pairwise (· < ·) := List.pairwise_lt_range'
      exact (this.filter _).imp fun h => by simpa using h
    · constructor
      · intro hi
        have hi' := hi
        change i ∈ (addAll Cont.empty _).ids at hi'
        rw [e1] at hi'
        simp only [Cont.empty, List.nil_append, List.map_map, List.mem_map, Function.comp] at hi'
        obtain ⟨k, -, rfl⟩ := hi'
        exact ⟨k, rfl, (emem k).1 hi⟩
      · rintro ⟨k, rfl, hk⟩
        exact (emem k).2 hk
    · have hi := (List.getElem?_eq_some_iff.1 h1).1
      refine ⟨x.nodeIds.map m.nodes.ids.idxOf, ?_, ?_⟩
      · rw [List.map_map]
        refine List.map_congr_left fun n hn => ?_
        have hn' := hm.wf.elemNodes id x h2 n hn
        simp only [Function.comp, Cont.idAt?]
        rw [List.getElem?_eq_getElem (List.idxOf_lt_length_of_mem hn'), List.getElem_idxOf]
      · have := e3 ((i : Int), { elementType := (e i).1, nodeIds := (e i).2 }) (by
          simp only [List.mem_map, List.mem_filter, List.mem_range'_1]; exact ⟨i, ⟨by omega, (hkept i hi id x h1 h2).2 h3⟩, rfl⟩)
        change (addAll Cont.empty _).get? _ = _
        rw [this, he i id x h1 h2, List.map_map]
        rfl


/-- **C83, complete for meshes without point elements.** If every element is a beam, triangle, quadrilateral, tetrahedron, prism or hexahedron, then no element is lost and the element at
position `i` becomes element `i`. -/
theorem C83_all_elements {K : Type} [DecidableEq K] {prt : K → K} {m m' : Mesh K} (hm : m.WF) (h : Copy prt m m') (hk : ∀ id e, m.elements.get? id = some e → nbNodes? e.elementType ≠ none) :
    m'.elements.ids = (List.range m.elements.count).map Int.ofNat := by
  have hs : ((List.range m.elements.count).map Int.ofNat).Pairwise (· < ·) := by
    rw [List.pairwise_map]
    exact List.pairwise_lt_range.imp fun h => by simpa using h
  refine List.Perm.eq_of_pairwise (fun a b _ _ h1 h2 => absurd h1 (not_lt.2 h2.le)) h.increasing hs ?_
  refine (List.perm_ext_iff_of_nodup (h.increasing.imp fun h => ne_of_lt h) (hs.imp fun h => ne_of_lt h)).2 fun i => ?_
  rw [h.kept, List.mem_map]
  constructor
  · rintro ⟨k, rfl, id, e, h1, -, -⟩
    exact ⟨k, List.mem_range.2 (List.getElem?_eq_some_iff.1 h1).1, rfl⟩
  · rintro ⟨k, hk', rfl⟩
    have hlt := List.mem_range.1 hk'
    obtain ⟨x, hx⟩ := (hm.elements.2 _).1 (List.getElem_mem hlt)
    exact ⟨k, rfl, _, x, List.getElem?_eq_getElem hlt, hx, hk _ x hx⟩

/-- **C83, a second time.** Once a mesh has been saved and loaded, saving and loading it again changes nothing. -/
theorem C83_again {K : Type} [DecidableEq K] {prt : K → K} (hp : ∀ x, prt (prt x) = prt x) {m m' m'' : Mesh K} (hm : m.WF) (h : Copy prt m m') (h' : Copy prt m' m'')
    (hk : ∀ id e, m.elements.get? id = some e → nbNodes? e.elementType ≠ none) :
    (∀ id, m''.nodes.get? id = m'.nodes.get? id) ∧ ∀ id, m''.elements.get? id = m'.elements.get? id := by
  have hE := C83_all_elements hm h hk
  have nat : ∀ i, m'.nodes.idAt? i = if i < m.nodes.count then some (i : Int) else none := fun i => by
    unfold Cont.idAt?; rw [h.nodeIds]; split_ifs with hi <;> simp [hi]
  have eat : ∀ i, m'.elements.idAt? i = if i < m.elements.count then some (i : Int) else none := fun i => by
    unfold Cont.idAt?; rw [hE]; split_ifs with hi <;> simp [hi]
  have hk' : ∀ id e, m'.elements.get? id = some e → nbNodes? e.elementType ≠ none := fun id e he => by
    obtain ⟨k, rfl, id', x, h1, h2, h3⟩ := (h.kept id).1 ((h.writable.wf.elements.2 id).2 ⟨e, he⟩)
    obtain ⟨ps, -, h4⟩ := h.element k id' x h1 h2 h3
    rw [h4] at he
    rw [← Option.some.inj he]; exact h3
  have hE' := C83_all_elements h.writable.wf h' hk'
  have none_of : ∀ {α : Type} {c : Cont α}, c.Ok → ∀ id, id ∉ c.ids → c.get? id = none := fun {_ c} hc id hid => by
    cases hg : c.get? id with
    | none => rfl
    | some a => exact absurd ((hc.2 id).2 ⟨a, hg⟩) hid
  have c1 : m'.nodes.count = m.nodes.count := by unfold Cont.count; rw [h.nodeIds]; simp [Cont.count]
  have c2 : m'.elements.count = m.elements.count := by unfold Cont.count; rw [hE]; simp [Cont.count]
  constructor
  · intro id
    by_cases hid : id ∈ m'.nodes.ids
    · have hid' := hid
      rw [h.nodeIds, List.mem_map] at hid'
      obtain ⟨i, hi, rfl⟩ := hid'
      have hi := List.mem_range.1 hi
      obtain ⟨w, hw⟩ := (hm.nodes.2 _).1 (List.getElem_mem hi)
      have e1 := h.node i _ w (List.getElem?_eq_getElem hi) hw
      have e2 := h'.node i (i : Int) _ (by rw [nat, if_pos hi]) e1
      change m''.nodes.get? (i : Int) = m'.nodes.get? (i : Int)
      rw [e1, e2]; simp only [hp]
    · rw [none_of h.writable.wf.nodes id hid, none_of h'.writable.wf.nodes id (by rw [h'.nodeIds, c1, ← h.nodeIds]; exact hid)]
  · intro id
    by_cases hid : id ∈ m'.elements.ids
    · have hid' := hid
      rw [hE, List.mem_map] at hid'
      obtain ⟨i, hi, rfl⟩ := hid'
      have hi := List.mem_range.1 hi
      obtain ⟨x, hx⟩ := (hm.elements.2 _).1 (List.getElem_mem hi)
      obtain ⟨ps, p1, e1⟩ := h.element i _ x (List.getElem?_eq_getElem hi) hx (hk _ x hx)
      obtain ⟨qs, q1, e2⟩ := h'.element i (i : Int) _ (by rw [eat, if_pos hi]) e1 (hk _ x hx)
      change m''.elements.get? (i : Int) = m'.elements.get? (i : Int)
      rw [e1, e2]
      congr 2
      simp only at q1
      rw [List.map_map] at q1
      refine List.ext_getElem? fun j => ?_
      have q2 := congrArg (fun l => l[j]?) q1
      simp only [List.getElem?_map] at q2 ⊢
      cases hq : qs[j]? with
      | none => rw [hq] at q2; cases hp : ps[j]? with
        | none => rfl
        | some p => rw [hp] at q2; simp at q2
      | some q =>
        rw [hq] at q2
        cases hp : ps[j]? with
        | none => rw [hp] at q2; simp at q2
        | some p =>
          rw [hp] at q2
          simp only [Option.map_some, Option.some.injEq, Function.comp, nat] at q2
          split_ifs at q2
          simpa using q2
    · rw [none_of h.writable.wf.elements id hid, none_of h'.writable.wf.elements id (by rw [hE', c2, ← hE]; exact hid)]

/-- **C83, values.** If the ids of the nodes are their positions, the value of every node is written beside the number under which the node itself was written. -/
theorem C83_values_partial {K : Type} [DecidableEq K] (prt : K → K) (m : Mesh K) (hr : m.nodes.RoundTrip) (hid : ∀ i, i < m.nodes.count → m.nodes.idAt? i = some (i : Int))
    (d : Nat) (hd : d = 1 ∨ d = 2 ∨ d = 3) (u : List K) (hu : u.length = m.nodes.count * d) (hne : u ≠ []) (name : String) :
    ∃ head lines, values prt m u .node d name = some ([[.mark .nodeData]] ++ head ++ lines ++ [[.mark .endNodeData]]) ∧ head.length = 8 ∧ lines.length = m.nodes.count ∧
      ∀ i, i < m.nodes.count → lines[i]? = some (.int ((i : Int) + 1) :: ((u.drop (i * d)).take d).map fun x => .real (prt x)) := by
  have key : (List.range m.nodes.count).mapM (valueLine prt m.nodes d u) =
      some ((List.range m.nodes.count).map fun i => [.int ((i : Int) + 1) :: ((u.drop (i * d)).take d).map fun x => .real (prt x)]) := by
    have := mapM_idx (valueLine prt m.nodes d u) (List.range m.nodes.count) (fun i => [.int ((i : Int) + 1) :: ((u.drop (i * d)).take d).map fun x => .real (prt x)])
    rw [List.length_range] at this
    refine this fun i a ha => ?_
    obtain ⟨h1, h2⟩ := List.getElem?_eq_some_iff.1 ha
    rw [List.length_range] at h1
    simp only [List.getElem_range] at h2
    subst h2
    have hle : (i + 1) * d ≤ u.length := by rw [hu]; exact Nat.mul_le_mul_right d h1
    have h3 : (List.range d).mapM (fun k => u[i * d + k]?) = some ((u.drop (i * d)).take d) := by
      have h4 : ∀ k, k ≤ d → (List.range k).mapM (fun k => u[i * d + k]?) = some ((u.drop (i * d)).take k) := by
        intro k
        induction k with
        | zero => simp
        | succ k ih =>
          intro hk
          have hlt : i * d + k < u.length := by rw [Nat.succ_mul] at hle; omega
          rw [List.range_succ, List.mapM_append, ih (by omega)]
          simp [List.getElem?_eq_getElem hlt, List.take_add_one, hlt]
      exact h4 d le_rfl
    unfold valueLine
    rw [hr.1 i _ (hid i h1)]
    simp only [Option.bind_eq_bind, Option.bind_some]
    rw [if_pos hd, h3]
    rfl
  refine ⟨[[.int 1], [.text name], [.int 1], [.text "0.0"], [.int 3], [.int 0], [.int d], [.int m.nodes.count]],
    (List.range m.nodes.count).map fun i : Nat => .int ((i : Int) + 1) :: ((u.drop (i * d)).take d).map fun x => .real (prt x), ?_, rfl, by simp, fun i hi => by simp [hi]⟩
  unfold values
  rw [if_neg hne]
  simp only [key, Option.bind_eq_bind, Option.bind_some, Option.pure_def]
  congr 3
  generalize List.range m.nodes.count = l
  induction l with
  | nil => rfl
  | cons a l ih => rw [List.map_cons, List.map_cons, List.flatten_cons, ih]; rfl

namespace Gmsh

/-- A triangle on the nodes 7, 3, 5, and the same nodes with an element that is a point. -/
def sample : Mesh ℚ :=
  { (Mesh.empty : Mesh ℚ) with
    nodes := ((Cont.empty.add 7 ⟨0, 0, 0⟩).add 3 ⟨1, 0, 0⟩).add 5 ⟨0, 1 / 2, 0⟩
    elements := (Cont.empty.add 4 { elementType := .node, nodeIds := [5] }).add 9 { elementType := .triangle, nodeIds := [3, 5, 7] } }

/-- Saving and loading it: the triangle is there, with the positions of its nodes. -/
example : ((save id sample [] .node 1 "u").bind load).map (fun m => (m.nodes.ids, m.elements.ids, m.elements.get? 1, m.nodes.get? 2)) =
    some ([0, 1, 2], [1], some { elementType := .triangle, nodeIds := [1, 2, 0] }, some ⟨0, 1 / 2, 0⟩) := by decide +kernel

end Gmsh

/-- **C83 fails for point elements.** A mesh whose only element is a point is loaded without elements. -/
theorem C83_point_lost : let m : Mesh ℚ := { (Mesh.empty : Mesh ℚ) with nodes := Cont.empty.add 0 ⟨1, 2, 3⟩, elements := Cont.empty.add 0 { elementType := .node, nodeIds := [0] } }
    ((save id m [] .node 1 "u").bind load).map (fun m' => (m.elements.count, m'.elements.count, m'.nodes.get? 0)) = some (1, 0, some ⟨1, 2, 3⟩) := by decide +kernel

/-- **C83 fails for values of nodes whose ids are not their positions.** Nodes 1 and 0, in this order: the value 10 of the first one is written beside the number 2 of the second one. -/
theorem C83_values_swapped : let m : Mesh ℚ := { (Mesh.empty : Mesh ℚ) with nodes := (Cont.empty.add 1 ⟨0, 0, 0⟩).add 0 ⟨1, 0, 0⟩ }
    (values id m [10, 20] .node 1 "T").map (fun l => (l.drop 9).take 2) = some [[.int 2, .real 10], [.int 1, .real 20]] ∧
      (nodeLine id m 1, nodeLine id m 0) = (some [.int 1, .real 0, .real 0, .real 0], some [.int 2, .real 1, .real 0, .real 0]) := by decide +kernel

/-- **C83 fails for values of nodes whose ids are beyond their number**: saving throws. -/
theorem C83_values_exception : let m : Mesh ℚ := { (Mesh.empty : Mesh ℚ) with nodes := Cont.empty.add 1 ⟨0, 0, 0⟩ }
    save id m [] .node 1 "T" ≠ none ∧ save id m [10] .node 1 "T" = none := by decide +kernel

namespace Gmsh

/-- The mesh of the example is `Writable`. -/
example : Writable sample := by
  have hn : sample.nodes.RoundTrip := addAll_roundTrip [((7 : Int), (⟨0, 0, 0⟩ : Vec3 ℚ)), (3, ⟨1, 0, 0⟩), (5, ⟨0, 1 / 2, 0⟩)] (by decide)
  have he : sample.elements.RoundTrip :=
    addAll_roundTrip [((4 : Int), ({ elementType := .node, nodeIds := [5] } : Elem)), (9, { elementType := .triangle, nodeIds := [3, 5, 7] })] (by decide)
  have on : sample.nodes.Ok := (addAll_spec [((7 : Int), (⟨0, 0, 0⟩ : Vec3 ℚ)), (3, ⟨1, 0, 0⟩), (5, ⟨0, 1 / 2, 0⟩)] Cont.empty (by decide) Cont.empty_ok).2.1
  have oe : sample.elements.Ok := (addAll_spec [((4 : Int), ({ elementType := .node, nodeIds := [5] } : Elem)), (9, { elementType := .triangle, nodeIds := [3, 5, 7] })]
    Cont.empty (by decide) Cont.empty_ok).2.1
  have all : ∀ id e, sample.elements.get? id = some e → e = { elementType := .node, nodeIds := [5] } ∨ e = { elementType := .triangle, nodeIds := [3, 5, 7] } := fun id e h => by
    have hid := (oe.2 id).2 ⟨e, h⟩
    have : id = 4 ∨ id = 9 := by simpa [sample, Cont.add, Cont.empty] using hid
    rcases this with rfl | rfl
    · left; have h5 : sample.elements.get? 4 = some { elementType := .node, nodeIds := [5] } := by decide +kernel
      rw [h5] at h; exact (Option.some.inj h).symm
    · right; have h5 : sample.elements.get? 9 = some { elementType := .triangle, nodeIds := [3, 5, 7] } := by decide +kernel
      rw [h5] at h; exact (Option.some.inj h).symm
  refine ⟨⟨on, Cont.empty_ok, oe, fun id f h => ?_, fun id e h n hn => ?_⟩, hn, he, fun id e k h hk => ?_⟩
  · simp [sample, Mesh.empty, Cont.empty, Cont.get?] at h
  · rcases all id e h with rfl | rfl <;> simp [sample, Cont.add, Cont.empty] at hn ⊢ <;> omega
  · rcases all id e h with rfl | rfl <;> simp [nbNodes?] at hk ⊢ <;> omega

end Gmsh

end ENigMA
