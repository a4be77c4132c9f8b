import Verif.Post.VtkSpec
import Verif.Post.GmshProps
import Verif.Geometry.Solids

/-!
# C129, C130: what the VTK and Gnuplot files say
-/

set_option linter.unusedSectionVars false
set_option autoImplicit false

namespace ENigMA

namespace Vtk
variable {K : Type}

theorem mapM_range {β : Type} (f : Nat → Option β) (n : Nat) (g : Nat → β) (h : ∀ i, i < n → f i = some (g i)) : (List.range n).mapM f = some ((List.range n).map g) := by
  have := Gmsh.mapM_idx f (List.range n) g fun i a ha => by
    obtain ⟨hi, rfl⟩ := List.getElem?_eq_some_iff.1 ha
    rw [List.getElem_range]; exact h i (by simpa using hi)
  simpa using this

theorem mapM_inv {α β : Type} {f : α → Option β} : ∀ {l : List α} {bs : List β}, l.mapM f = some bs → ∀ a ∈ l, ∃ b, f a = some b
  | [], _, _ => by simp
  | a :: l, bs, h => by
    rw [List.mapM_cons] at h
    cases hf : f a with
    | none => simp [hf] at h
    | some b =>
      cases hl : l.mapM f with
      | none => simp [hf, hl] at h
      | some cs => intro x hx; rcases List.mem_cons.1 hx with rfl | hx
                   · exact ⟨b, hf⟩
                   · exact mapM_inv hl x hx

theorem takeReals_append (t : List (Tok K)) : ∀ l : List K, takeReals l.length (l.map Tok.real ++ t) = some (l, t)
  | [] => rfl
  | x :: l => by simp [takeReals, takeReals_append t l]

theorem takeInts_append (t : List (Tok K)) : ∀ l : List Int, takeInts l.length (l.map Tok.int ++ t) = some (l, t)
  | [] => rfl
  | x :: l => by simp [takeInts, takeInts_append t l]

/-- Fewer integers than announced before the next word. -/
theorem takeInts_short (w : String) (t : List (Tok K)) : ∀ (l : List Int) (n : Nat), l.length < n → takeInts n (l.map Tok.int ++ .word w :: t) = none
  | [], n + 1, _ => rfl
  | x :: l, n + 1, h => by simp [takeInts, takeInts_short w t l n (by simpa using h)]

theorem triples_flatMap : ∀ l : List (Vec3 K), triples (l.flatMap fun v => [v.x, v.y, v.z]) = l
  | [] => rfl
  | v :: l => by simp [triples, triples_flatMap l]

theorem flatMap_length3 (l : List (Vec3 K)) : (l.flatMap fun v => [v.x, v.y, v.z]).length = 3 * l.length := by
  induction l with
  | nil => rfl
  | cons v l ih => rw [List.flatMap_cons, List.length_append, ih]; simp; omega

theorem splitCells_flatMap : ∀ cs : List (List Int), splitCells cs.length (cs.flatMap fun c => (c.length : Int) :: c) = some cs
  | [] => rfl
  | c :: cs => by
    rw [List.flatMap_cons, List.length_cons, List.cons_append, splitCells, if_pos ⟨by omega, by rw [List.length_append]; push_cast; omega⟩]
    simp [splitCells_flatMap cs]

/-- The tokens of a file with these parts. -/
def compose (n : Nat) (vs : List (Vec3 K)) (k size : Nat) (is ts : List Int) (ds : List (Tok K)) : List (Tok K) :=
  [.word "DATASET", .word "UNSTRUCTURED_GRID", .word "POINTS", .int n, .word "float"] ++ (vs.flatMap fun v => [v.x, v.y, v.z]).map Tok.real ++
    [.word "CELLS", .int k, .int size] ++ is.map Tok.int ++ [.word "CELL_TYPES", .int k] ++ ts.map Tok.int ++ ds

theorem read_compose (n : Nat) (vs : List (Vec3 K)) (hv : vs.length = n) (k size : Nat) (is ts : List Int) (ds : List (Tok K)) :
    read (compose n vs k size is ts ds) = readCells n (vs.flatMap fun v => [v.x, v.y, v.z]) ([.word "CELLS", .int k, .int size] ++ is.map Tok.int ++ [.word "CELL_TYPES", .int k] ++ ts.map Tok.int ++ ds) := by
  have := takeReals_append ([.word "CELLS", .int k, .int size] ++ is.map Tok.int ++ [.word "CELL_TYPES", .int k] ++ ts.map Tok.int ++ ds) (vs.flatMap fun v => [v.x, v.y, v.z])
  rw [flatMap_length3, hv] at this
  simp only [List.append_assoc, List.cons_append, List.nil_append] at this
  simp only [compose, List.append_assoc, List.cons_append, List.nil_append, read, Int.toNat_natCast, this]

theorem read_short (n : Nat) (vs : List (Vec3 K)) (hv : vs.length = n) (k size : Nat) (is ts : List Int) (ds : List (Tok K)) (h : is.length < size) :
    read (compose n vs k size is ts ds) = none := by
  rw [read_compose n vs hv]
  have := takeInts_short "CELL_TYPES" (.int k :: (ts.map Tok.int ++ ds)) is size h
  simp only [List.append_assoc, List.cons_append, List.nil_append, readCells, Int.toNat_natCast, this]

theorem read_full (n : Nat) (vs : List (Vec3 K)) (hv : vs.length = n) (k : Nat) (is ts : List Int) (ht : ts.length = k) (ds : List (Tok K)) :
    read (compose n vs k is.length is ts ds) = (splitCells k is).bind fun cs =>
      if (ts.zip cs).all (cellOk n) then (readData n ds).map fun d => ⟨vs, ts.zip cs, d⟩ else none := by
  rw [read_compose n vs hv]
  have h1 := takeInts_append (.word "CELL_TYPES" :: .int k :: (ts.map Tok.int ++ ds)) is
  have h2 := takeInts_append ds ts
  simp only [List.append_assoc, List.cons_append, List.nil_append, readCells, Int.toNat_natCast, h1]
  cases splitCells k is with
  | none => rfl
  | some cs => simp only [readTypes, if_true, Int.toNat_natCast, ← ht, h2, triples_flatMap, Option.bind_some]

/-! ### The parts of a file -/

variable [DecidableEq K] [Inhabited K]

/-- A point as it is printed. -/
def printed (prt0 prt : K → K) (i : Nat) (v : Vec3 K) : Vec3 K := ⟨(if i = 0 then prt0 else prt) v.x, prt v.y, prt v.z⟩

/-- The nodes and elements by position. -/
structure ByPos (m : Mesh K) (V : Nat → Vec3 K) (E : Nat → Elem) : Prop where
  node : ∀ i, i < m.nodes.count → ∃ id, m.nodes.idAt? i = some id ∧ m.nodes.get? id = some (V i)
  elem : ∀ i, i < m.elements.count → ∃ id, m.elements.idAt? i = some id ∧ m.elements.get? id = some (E i)

/-- The size announced. -/
def announced (m : Mesh K) (E : Nat → Elem) : Nat := ((List.range m.elements.count).map fun i => cellSize (E i).elementType + 1).sum

/-- The file, from its parts. -/
def fileOf (prt0 prt : K → K) (m : Mesh K) (V : Nat → Vec3 K) (E : Nat → Elem) (C : Nat → List Int) (ds : List (Tok K)) : List (Tok K) :=
  compose m.nodes.count ((List.range m.nodes.count).map fun i => printed prt0 prt i (V i)) m.elements.count (announced m E)
    ((List.range m.elements.count).map C).flatten ((List.range m.elements.count).map fun i => typeCode (E i).elementType) ds

theorem save_eq (prt0 prt : K → K) {m : Mesh K} {V : Nat → Vec3 K} {E : Nat → Elem} (h : ByPos m V E) {C : Nat → List Int} (hC : ∀ i, i < m.elements.count → cellLine m i = some (C i))
    {u : List K} {loc : Location} {nbDofs : Nat} {ds : List (Tok K)} (hd : dataPart prt m u loc nbDofs = some ds) :
    save prt0 prt m u loc nbDofs = some (fileOf prt0 prt m V E C ds) := by
  have h1 := mapM_range (pointLine prt0 prt m) m.nodes.count (fun i => [(printed prt0 prt i (V i)).x, (printed prt0 prt i (V i)).y, (printed prt0 prt i (V i)).z].map Tok.real) fun i hi => by
    obtain ⟨id, h1, h2⟩ := h.node i hi
    simp [pointLine, h1, h2, printed]
  have h2 : cellsSize m = some (announced m E) := by
    have := mapM_range (fun i => do
        let id ← m.elements.idAt? i
        let e ← m.elements.get? id
        return cellSize e.elementType + 1) m.elements.count (fun i => cellSize (E i).elementType + 1) fun i hi => by
      obtain ⟨id, h1, h2⟩ := h.elem i hi
      simp [h1, h2]
    simp only [cellsSize, this, announced]; rfl
  have h3 := mapM_range (typeLine m) m.elements.count (fun i => typeCode (E i).elementType) fun i hi => by
    obtain ⟨id, h1, h2⟩ := h.elem i hi
    simp [typeLine, h1, h2]
  have h4 := mapM_range (cellLine m) m.elements.count C hC
  simp only [save, h1, h2, h3, h4, hd, fileOf, compose, Option.bind_eq_bind, Option.bind_some, Option.pure_def, List.map_flatten, List.map_flatMap, List.flatMap_map, ← List.flatMap_def]

theorem save_inv {prt0 prt : K → K} {m : Mesh K} {u : List K} {loc : Location} {nbDofs : Nat} {file : List (Tok K)} (h : save prt0 prt m u loc nbDofs = some file) :
    ∃ V E C ds, ByPos m V E ∧ (∀ i, i < m.elements.count → cellLine m i = some (C i)) ∧ dataPart prt m u loc nbDofs = some ds ∧ file = fileOf prt0 prt m V E C ds := by
  have hs := h
  simp only [save, Option.bind_eq_bind, Option.bind_eq_some_iff] at h
  obtain ⟨ps, hp, sz, hz, cs, hc, ts, ht, ds, hd, -⟩ := h
  have h1 : ∀ i, i < m.nodes.count → ∃ v id, m.nodes.idAt? i = some id ∧ m.nodes.get? id = some v := fun i hi => by
    obtain ⟨b, hb⟩ := mapM_inv hp i (List.mem_range.2 hi)
    simp only [pointLine, Option.bind_eq_bind, Option.bind_eq_some_iff] at hb
    obtain ⟨id, h1, v, h2, -⟩ := hb
    exact ⟨v, id, h1, h2⟩
  have h2 : ∀ i, i < m.elements.count → ∃ e id, m.elements.idAt? i = some id ∧ m.elements.get? id = some e := fun i hi => by
    obtain ⟨b, hb⟩ := mapM_inv ht i (List.mem_range.2 hi)
    simp only [typeLine, Option.bind_eq_bind, Option.bind_eq_some_iff] at hb
    obtain ⟨id, h1, v, h2, -⟩ := hb
    exact ⟨v, id, h1, h2⟩
  have h3 : ∀ i, i < m.elements.count → ∃ c, cellLine m i = some c := fun i hi => mapM_inv hc i (List.mem_range.2 hi)
  have v0 : ∀ i, ∃ v : Vec3 K, i < m.nodes.count → ∃ id, m.nodes.idAt? i = some id ∧ m.nodes.get? id = some v := fun i => by
    by_cases hi : i < m.nodes.count
    · obtain ⟨v, hv⟩ := h1 i hi; exact ⟨v, fun _ => hv⟩
    · exact ⟨⟨default, default, default⟩, fun h => absurd h hi⟩
  have e0 : ∀ i, ∃ v : Elem, i < m.elements.count → ∃ id, m.elements.idAt? i = some id ∧ m.elements.get? id = some v := fun i => by
    by_cases hi : i < m.elements.count
    · obtain ⟨v, hv⟩ := h2 i hi; exact ⟨v, fun _ => hv⟩
    · exact ⟨{}, fun h => absurd h hi⟩
  have c0 : ∀ i, ∃ c : List Int, i < m.elements.count → cellLine m i = some c := fun i => by
    by_cases hi : i < m.elements.count
    · obtain ⟨v, hv⟩ := h3 i hi; exact ⟨v, fun _ => hv⟩
    · exact ⟨[], fun h => absurd h hi⟩
  choose V hV using v0
  choose E hE using e0
  choose C hC using c0
  refine ⟨V, E, C, ds, ⟨hV, hE⟩, hC, hd, ?_⟩
  have := save_eq prt0 prt ⟨hV, hE⟩ hC hd
  rw [hs] at this
  exact Option.some.inj this

theorem flatten_length (m : Mesh K) (E : Nat → Elem) (C : Nat → List Int) (hle : ∀ i, i < m.elements.count → (C i).length ≤ cellSize (E i).elementType + 1) :
    ((List.range m.elements.count).map C).flatten.length ≤ announced m E ∧
      ((∃ i, i < m.elements.count ∧ (C i).length < cellSize (E i).elementType + 1) → ((List.range m.elements.count).map C).flatten.length < announced m E) ∧
      ((∀ i, i < m.elements.count → (C i).length = cellSize (E i).elementType + 1) → ((List.range m.elements.count).map C).flatten.length = announced m E) := by
  unfold announced
  generalize m.elements.count = n at hle
  induction n with
  | zero => simp
  | succ n ih =>
    obtain ⟨h1, h2, h3⟩ := ih fun i hi => hle i (by omega)
    have hn := hle n (by omega)
    simp only [List.range_succ, List.map_append, List.map_cons, List.map_nil, List.flatten_append, List.flatten_cons, List.flatten_nil, List.append_nil, List.length_append, List.sum_append,
      List.sum_cons, List.sum_nil, Nat.add_zero]
    refine ⟨by omega, ?_, fun h => ?_⟩
    · rintro ⟨i, hi, h⟩
      rcases Nat.lt_succ_iff_lt_or_eq.1 hi with hi | rfl
      · have := h2 ⟨i, hi, h⟩; omega
      · omega
    · have := h3 fun i hi => h i (by omega)
      have := h n (by omega)
      omega

/-- What is written for an element, whatever it is. -/
theorem cellLine_length {m : Mesh K} {V : Nat → Vec3 K} {E : Nat → Elem} (h : ByPos m V E) {i : Nat} (hi : i < m.elements.count) {c : List Int} (hc : cellLine m i = some c) :
    c.length ≤ cellSize (E i).elementType + 1 ∧ (cellOrder (E i).elementType = none → c.length < cellSize (E i).elementType + 1) := by
  obtain ⟨id, h1, h2⟩ := h.elem i hi
  simp only [cellLine, h1, h2, Option.bind_eq_bind, Option.bind_some] at hc
  cases ho : cellOrder (E i).elementType with
  | none => simp only [ho, Option.pure_def, Option.some.injEq] at hc; subst hc; simp
  | some js =>
    simp only [ho, Option.bind_eq_some_iff, Option.pure_def, Option.some.injEq] at hc
    obtain ⟨l, hl, rfl⟩ := hc
    have hlen : l.length = js.length := by
      have key : ∀ (js : List Nat) (l : List Int), (js.mapM fun j => ((E i).nodeIds[j]?).bind m.nodes.indexOf?) = some l → l.length = js.length := by
        intro js
        induction js with
        | nil => intro l h; simp at h; subst h; rfl
        | cons j js ih =>
          intro l h
          rw [List.mapM_cons] at h
          simp only [Option.bind_eq_bind, Option.bind_eq_some_iff, Option.pure_def, Option.some.injEq] at h
          obtain ⟨x, -, l', h', rfl⟩ := h
          simp [ih l' h']
      exact key js l hl
    have : js.length = cellSize (E i).elementType := by
      revert ho; cases (E i).elementType <;> simp [cellOrder, cellSize] <;> (rintro rfl; rfl)
    simp [hlen, this]

/-- What is written for an element with the nodes of its type. -/
theorem cellLine_writable {m : Mesh K} {i : Nat} {id : Int} {e : Elem} (h1 : m.elements.idAt? i = some id) (h2 : m.elements.get? id = some e) (hw : Writable e)
    (hix : ∀ n ∈ e.nodeIds, m.nodes.indexOf? n = some (m.nodes.ids.idxOf n : Int)) :
    cellLine m i = some (((vtkOrder e.elementType e.nodeIds).length : Int) :: (vtkOrder e.elementType e.nodeIds).map fun n => (m.nodes.ids.idxOf n : Int)) ∧
      vtkPoints (typeCode e.elementType) = some (vtkOrder e.elementType e.nodeIds).length ∧ (vtkOrder e.elementType e.nodeIds).length = cellSize e.elementType ∧
      kind (typeCode e.elementType) = some e.elementType ∧ ∀ n ∈ vtkOrder e.elementType e.nodeIds, n ∈ e.nodeIds := by
  simp only [cellLine, h1, h2, Option.bind_eq_bind, Option.bind_some]
  rcases hw with ⟨ht, hl⟩ | ⟨ht, hl⟩ | ⟨ht, hl⟩ | ⟨ht, hl⟩ | ⟨ht, hl⟩ <;> rw [ht]
  · match e.nodeIds, hl, hix with
    | [a, b], _, hix => simp at hix; simp [cellOrder, hix, vtkOrder, typeCode, vtkPoints, cellSize, kind]
  · match e.nodeIds, hl, hix with
    | [a, b, c], _, hix => simp at hix; simp [cellOrder, hix, vtkOrder, typeCode, vtkPoints, cellSize, kind]
  · match e.nodeIds, hl, hix with
    | [a, b, c, d], _, hix => simp at hix; simp [cellOrder, hix, vtkOrder, typeCode, vtkPoints, cellSize, kind]
  · match e.nodeIds, hl, hix with
    | [a, b, c, d, x, f, g, h], _, hix => simp at hix; simp [cellOrder, hix, vtkOrder, typeCode, vtkPoints, cellSize, kind]
  · match e.nodeIds, hl, hix with
    | [a, b, c, d, x, f], _, hix => simp at hix; simp [cellOrder, hix, vtkOrder, typeCode, vtkPoints, cellSize, kind]

theorem data_some (prt : K → K) (m : Mesh K) (hix : ∀ n ∈ m.nodes.ids, m.nodes.indexOf? n ≠ none) {u : List K} (hu : u ≠ []) (hl : m.nodes.count ≤ u.length)
    (hid : ∀ i : Nat, i < m.nodes.count → (i : Int) ∈ m.nodes.ids) :
    ∃ ds, dataPart prt m u .node 1 = some ds ∧ readData m.nodes.count ds = some (some ((u.take m.nodes.count).map prt)) := by
  have h1 := mapM_range (fun i : Nat => do
      let _ ← m.nodes.indexOf? (i : Int)
      let x ← u[i]?
      return [Tok.real (prt x)]) m.nodes.count (fun i => [Tok.real (prt (u.getD i default))]) fun i hi => by
    obtain ⟨k, hk⟩ := Option.ne_none_iff_exists'.1 (hix _ (hid i hi))
    have : u[i]? = some (u.getD i default) := by
      rw [List.getD_eq_getElem?_getD, List.getElem?_eq_getElem (by omega)]; rfl
    simp only [hk, Option.bind_eq_bind, Option.bind_some]; rw [this]; rfl
  refine ⟨_, by simp only [dataPart, ne_eq, hu, not_false_eq_true, and_self, if_true]; rw [h1]; rfl, ?_⟩
  have h2 : ((List.range m.nodes.count).map fun i => [Tok.real (prt (u.getD i default))]).flatten = ((u.take m.nodes.count).map prt).map Tok.real := by
    have key : ∀ (l : List Nat) (f : Nat → Tok K), (l.map fun i => [f i]).flatten = l.map f := fun l f => by
      induction l with
      | nil => rfl
      | cons a l ih => simp [ih]
    rw [key]
    refine List.ext_getElem? fun i => ?_
    by_cases hi : i < m.nodes.count
    · have : u[i]? = some u[i] := List.getElem?_eq_getElem (by omega)
      simp [hi, this, List.getElem?_take]
    · simp [hi, List.getElem?_take]
  have h3 := takeReals_append ([] : List (Tok K)) ((u.take m.nodes.count).map prt)
  rw [List.length_map, List.length_take, min_eq_left hl, List.append_nil] at h3
  rw [h2]
  simp only [List.cons_append, List.nil_append, readData, if_true, Int.toNat_natCast, h3]

end Vtk

open Vtk

/-- **C129, meshes of lines, triangles, tetrahedra, hexahedra and prisms.** Saving a consistent mesh whose elements have the nodes of their types gives a file that can be read as a VTK grid: the points are the
nodes in their order, the cells the elements in their order, with the positions of their nodes, the base of a tetrahedron turned round, and the data are the values of the
field, if it has one value per node and the ids of the nodes are the numbers below the number of nodes. The first coordinate of the first node is printed with fewer digits.
Missing: quadrilaterals, point elements and polyhedra (`C129_quadrilateral`), fields with several values per node (`C129_dofs`), other ids (`C129_ids`). -/
theorem C129_vtk_partial {K : Type} [DecidableEq K] [Inhabited K] (prt0 prt : K → K) (m : Mesh K) (hm : m.WF) (hr : m.nodes.RoundTrip) (hw : ∀ id e, m.elements.get? id = some e → Writable e)
    (u : List K) (loc : Location) (nbDofs : Nat)
    (hu : u ≠ [] → loc = .node → nbDofs = 1 ∧ m.nodes.count ≤ u.length ∧ ∀ i : Nat, i < m.nodes.count → (i : Int) ∈ m.nodes.ids) :
    ∃ file g, save prt0 prt m u loc nbDofs = some file ∧ read file = some g ∧
      Describes prt0 prt m (if u ≠ [] ∧ loc = .node then some ((u.take m.nodes.count).map prt) else none) g := by
  have hix : ∀ n, n ∈ m.nodes.ids → m.nodes.indexOf? n = some (m.nodes.ids.idxOf n : Int) := fun n hn =>
    hr.1 _ n (by unfold Cont.idAt?; rw [List.getElem?_eq_getElem (List.idxOf_lt_length_of_mem hn), List.getElem_idxOf])
  let V : Nat → Vec3 K := fun i => ((m.nodes.ids[i]?).bind m.nodes.get?).getD ⟨default, default, default⟩
  let E : Nat → Elem := fun i => ((m.elements.ids[i]?).bind m.elements.get?).getD {}
  have hV : ∀ i id w, m.nodes.idAt? i = some id → m.nodes.get? id = some w → V i = w := fun i id w h1 h2 => by
    have h1 : m.nodes.ids[i]? = some id := h1
    simp [V, h1, h2]
  have hE : ∀ i id w, m.elements.idAt? i = some id → m.elements.get? id = some w → E i = w := fun i id w h1 h2 => by
    have h1 : m.elements.ids[i]? = some id := h1
    simp [E, h1, h2]
  have hb : ByPos m V E := by
    constructor
    · intro i hi
      obtain ⟨w, hw⟩ := (hm.nodes.2 _).1 (List.getElem_mem hi)
      exact ⟨_, List.getElem?_eq_getElem hi, by rw [hV i _ w (List.getElem?_eq_getElem hi) hw]; exact hw⟩
    · intro i hi
      obtain ⟨w, hw⟩ := (hm.elements.2 _).1 (List.getElem_mem hi)
      exact ⟨_, List.getElem?_eq_getElem hi, by rw [hE i _ w (List.getElem?_eq_getElem hi) hw]; exact hw⟩
  let c : Nat → List Int := fun i => (vtkOrder (E i).elementType (E i).nodeIds).map fun n => (m.nodes.ids.idxOf n : Int)
  have hc : ∀ i, i < m.elements.count → cellLine m i = some (((c i).length : Int) :: c i) ∧ vtkPoints (typeCode (E i).elementType) = some (c i).length ∧
      (c i).length = cellSize (E i).elementType ∧ kind (typeCode (E i).elementType) = some (E i).elementType ∧ ∀ n ∈ vtkOrder (E i).elementType (E i).nodeIds, n ∈ m.nodes.ids := fun i hi => by
    obtain ⟨id, h1, h2⟩ := hb.elem i hi
    obtain ⟨a1, a2, a3, a4, a5⟩ := cellLine_writable h1 h2 (hw _ _ h2) fun n hn => hix n (hm.elemNodes _ _ h2 n hn)
    simp only [c, List.length_map]
    exact ⟨a1, a2, a3, a4, fun n hn => hm.elemNodes _ _ h2 n (a5 n hn)⟩
  -- the data
  obtain ⟨ds, hds, hrd⟩ : ∃ ds, dataPart prt m u loc nbDofs = some ds ∧
      readData m.nodes.count ds = some (if u ≠ [] ∧ loc = .node then some ((u.take m.nodes.count).map prt) else none) := by
    by_cases h : u ≠ [] ∧ loc = .node
    · obtain ⟨rfl, h2, h3⟩ := hu h.1 h.2
      rw [if_pos h, h.2]
      exact data_some prt m (fun n hn => by rw [hix n hn]; simp) h.1 h2 h3
    · exact ⟨[], by rw [dataPart, if_neg h], by rw [if_neg h]; rfl⟩
  have hsave := save_eq prt0 prt hb (fun i hi => (hc i hi).1) hds
  have hlen : announced m E = ((List.range m.elements.count).map fun i => ((c i).length : Int) :: c i).flatten.length :=
    ((flatten_length m E (fun i => ((c i).length : Int) :: c i) fun i hi => by simp [(hc i hi).2.2.1]).2.2 fun i hi => by simp [(hc i hi).2.2.1]).symm
  have hsplit : splitCells m.elements.count ((List.range m.elements.count).map fun i => ((c i).length : Int) :: c i).flatten = some ((List.range m.elements.count).map c) := by
    have := splitCells_flatMap ((List.range m.elements.count).map c)
    rw [List.length_map, List.length_range, List.flatMap_map, List.flatMap_def] at this
    exact this
  have hzip : ((List.range m.elements.count).map fun i => typeCode (E i).elementType).zip ((List.range m.elements.count).map c) =
      (List.range m.elements.count).map fun i => (typeCode (E i).elementType, c i) := by
    rw [List.zip_map']
  have hok : (((List.range m.elements.count).map fun i => (typeCode (E i).elementType, c i)).all (cellOk m.nodes.count)) = true := by
    rw [List.all_eq_true]
    intro p hp
    obtain ⟨i, hi, rfl⟩ := List.mem_map.1 hp
    obtain ⟨-, h2, -, -, h5⟩ := hc i (List.mem_range.1 hi)
    simp only [cellOk, h2, decide_true, Bool.true_and, List.all_eq_true, Bool.and_eq_true, decide_eq_true_eq]
    intro x hx
    obtain ⟨n, hn, rfl⟩ := List.mem_map.1 hx
    have := List.idxOf_lt_length_of_mem (h5 n hn)
    exact ⟨by omega, by unfold Cont.count; omega⟩
  refine ⟨_, ⟨(List.range m.nodes.count).map fun i => printed prt0 prt i (V i), (List.range m.elements.count).map fun i => (typeCode (E i).elementType, c i),
    if u ≠ [] ∧ loc = .node then some ((u.take m.nodes.count).map prt) else none⟩, hsave, ?_, ?_⟩
  · unfold fileOf
    rw [hlen, read_full _ _ (by simp) _ _ _ (by simp), hsplit, Option.bind_some, hzip, if_pos hok, hrd]
    rfl
  · refine ⟨by simp, fun i id v h1 h2 => ?_, by simp, fun i id e h1 h2 => ?_, rfl⟩
    · have hi : i < m.nodes.count := (List.getElem?_eq_some_iff.1 h1).1
      simp [hi, printed, hV i id v h1 h2]
    · have hi : i < m.elements.count := (List.getElem?_eq_some_iff.1 h1).1
      obtain ⟨-, -, -, h4, h5⟩ := hc i hi
      have hEe := hE i id e h1 h2
      rw [hEe] at h4 h5
      refine ⟨typeCode e.elementType, (vtkOrder e.elementType e.nodeIds).map m.nodes.ids.idxOf, h4, ?_, ?_⟩
      · rw [List.map_map]
        refine List.map_congr_left fun n hn => ?_
        simp only [Function.comp, Cont.idAt?]
        rw [List.getElem?_eq_getElem (List.idxOf_lt_length_of_mem (h5 n hn)), List.getElem_idxOf]
      · simp [hi, hEe, c]

/-- **C129 fails for other elements.** A file with a quadrilateral, a point element, a polyhedron or an element without a type cannot be read: the size that is announced for the cells counts entries that are not written. -/
theorem C129_quadrilateral {K : Type} [DecidableEq K] [Inhabited K] (prt0 prt : K → K) (m : Mesh K) (u : List K) (loc : Location) (nbDofs : Nat) (file : List (Tok K))
    (hs : save prt0 prt m u loc nbDofs = some file) (i : Nat) (id : Int) (e : Elem) (h1 : m.elements.idAt? i = some id) (h2 : m.elements.get? id = some e)
    (h3 : e.elementType ∉ [ElementType.beam, .triangle, .tetrahedron, .hexahedron, .triangularPrism]) : read file = none := by
  obtain ⟨V, E, C, ds, hb, hC, -, rfl⟩ := save_inv hs
  have hi : i < m.elements.count := (List.getElem?_eq_some_iff.1 h1).1
  have hE : E i = e := by
    obtain ⟨id', h4, h5⟩ := hb.elem i hi
    rw [h1] at h4; obtain rfl := Option.some.inj h4
    rw [h2] at h5; exact (Option.some.inj h5).symm
  have ho : cellOrder (E i).elementType = none := by
    rw [hE]; revert h3; cases e.elementType <;> simp [cellOrder]
  refine read_short _ _ (by simp) _ _ _ _ _ ?_
  exact (flatten_length m E C fun i hi => (cellLine_length hb hi (hC i hi)).1).2.1 ⟨i, hi, (cellLine_length hb hi (hC i hi)).2 ho⟩

/-- **C129 fails for several values per node.** The file announces one scalar per point and has none. -/
theorem C129_dofs {K : Type} [DecidableEq K] [Inhabited K] (prt0 prt : K → K) (m : Mesh K) (u : List K) (nbDofs : Nat) (file : List (Tok K))
    (hs : save prt0 prt m u .node nbDofs = some file) (hu : u ≠ []) (hn : nbDofs ≠ 1) (hm : m.nodes.count ≠ 0) : read file = none := by
  obtain ⟨V, E, C, ds, hb, hC, hd, rfl⟩ := save_inv hs
  have hle := flatten_length m E C fun i hi => (cellLine_length hb hi (hC i hi)).1
  rcases hle.1.lt_or_eq with h | h
  · exact read_short _ _ (by simp) _ _ _ _ _ h
  · have hdata : readData m.nodes.count ds = none := by
      simp only [dataPart, ne_eq, hu, not_false_eq_true, and_self, if_true, hn, if_false, Option.bind_eq_bind, Option.bind_eq_some_iff, Option.pure_def, Option.some.injEq] at hd
      obtain ⟨ls, hl, rfl⟩ := hd
      have hls : ls = (List.range m.nodes.count).map fun _ => [] := by
        have := mapM_range (fun i : Nat => (m.nodes.indexOf? (i : Int)).bind fun _ => some ([] : List (Tok K))) m.nodes.count (fun _ => []) fun i hi => by
          obtain ⟨b, hb⟩ := mapM_inv hl i (List.mem_range.2 hi)
          cases h : m.nodes.indexOf? (i : Int) <;> simp [h] at hb ⊢
        rw [this] at hl; exact (Option.some.inj hl).symm
      obtain ⟨n, hn'⟩ := Nat.exists_eq_succ_of_ne_zero hm
      subst hls
      simp [readData, hn', takeReals]
    unfold fileOf
    rw [← h, read_full _ _ (by simp) _ _ _ (by simp), hdata]
    cases splitCells m.elements.count ((List.range m.elements.count).map C).flatten with
    | none => rfl
    | some cs => simp

/-- **C129 fails for other ids.** A field with values at the nodes is not saved, but an exception is thrown, as soon as one of the numbers below the number of nodes is not the id of a node. -/
theorem C129_ids {K : Type} [DecidableEq K] [Inhabited K] (prt0 prt : K → K) (m : Mesh K) (u : List K) (nbDofs : Nat) (hu : u ≠ []) (i : Nat) (hi : i < m.nodes.count)
    (h : m.nodes.indexOf? (i : Int) = none) : save prt0 prt m u .node nbDofs = none := by
  cases hs : save prt0 prt m u .node nbDofs with
  | none => rfl
  | some file =>
    obtain ⟨V, E, C, ds, hb, hC, hd, rfl⟩ := save_inv hs
    simp only [dataPart, ne_eq, hu, not_false_eq_true, and_self, if_true, Option.bind_eq_bind, Option.bind_eq_some_iff] at hd
    obtain ⟨ls, hl, -⟩ := hd
    obtain ⟨b, hb⟩ := mapM_inv hl i (List.mem_range.2 hi)
    simp [h] at hb

/-- **C129, tetrahedra.** In a file that was read, the cell of a tetrahedron is oriented as VTK wants it exactly if the volume of the element is positive: the triple product of its edges is six times the volume that ENigMA computes. -/
theorem C129_tetrahedron {K : Type} [Field K] [LinearOrder K] [IsStrictOrderedRing K] (m : Mesh K) (d : Option (List K)) (g : Grid K) (hg : Describes id id m d g) (hm : m.WF)
    (i : Nat) (id : Int) (e : Elem) (a b c d : Int) (h1 : m.elements.idAt? i = some id) (h2 : m.elements.get? id = some e) (ht : e.elementType = .tetrahedron) (hn : e.nodeIds = [a, b, c, d])
    (t : Tet K) (ha : m.nodes.get? a = some t.v0) (hb : m.nodes.get? b = some t.v1) (hc : m.nodes.get? c = some t.v2) (hd : m.nodes.get? d = some t.v3) :
    ∃ (p q r s : Nat) (P Q R S : Vec3 K), g.cells[i]? = some (10, [(p : Int), (q : Int), (r : Int), (s : Int)]) ∧ g.points[p]? = some P ∧ g.points[q]? = some Q ∧ g.points[r]? = some R ∧ g.points[s]? = some S ∧
      Vec3.dot (Vec3.cross (Q - P) (R - P)) (S - P) = 6 * t.volume := by
  obtain ⟨ty, ps, hk, hps, hcell⟩ := hg.cell i id e h1 h2
  have hty : ty = 10 := by
    rw [ht] at hk; unfold kind at hk
    split_ifs at hk with q1 q2 q3 q4 q5 q6 <;> simp_all
  rw [ht, hn] at hps
  simp only [vtkOrder, List.map_cons, List.map_nil] at hps
  have hl : ps.length = 4 := by simpa using congrArg List.length hps
  match ps, hl, hps with
  | [p, q, r, s], _, hps =>
    simp only [List.map_cons, List.map_nil, List.cons.injEq, and_true] at hps
    obtain ⟨q1, q2, q3, q4⟩ := hps
    have pt : ∀ (k : Nat) (n : Int) (v : Vec3 K), m.nodes.idAt? k = some n → m.nodes.get? n = some v → g.points[k]? = some v := fun k n v w1 w2 => by
      rw [hg.point k n v w1 w2]; simp
    refine ⟨p, q, r, s, _, _, _, _, by rw [hcell, hty]; rfl, pt p a _ q1 ha, pt q c _ q2 hc, pt r b _ q3 hb, pt s d _ q4 hd, ?_⟩
    simp only [Tet.volume, det4one, det4, det3, Vec3.dot, Vec3.cross, Vec3.sub_x, Vec3.sub_y, Vec3.sub_z]
    ring

/-! ### Examples -/

namespace Vtk

/-- A tetrahedron and a triangle on nodes with the ids 2, 0, 1, 3. -/
def shuffled : Mesh ℚ :=
  { (Mesh.empty : Mesh ℚ) with
    nodes := Gmsh.addAll Cont.empty [((2 : Int), (⟨1 / 3, 0, 0⟩ : Vec3 ℚ)), (0, ⟨1, 0, 0⟩), (1, ⟨0, 1, 0⟩), (3, ⟨0, 0, 1⟩)]
    elements := Gmsh.addAll Cont.empty [((5 : Int), ({ elementType := .tetrahedron, nodeIds := [2, 1, 0, 3] } : Elem)), (4, { elementType := .triangle, nodeIds := [0, 1, 3] })] }

/-- The file of the example is read as the grid one expects. -/
example : (save (fun _ => 7) id shuffled [10, 20, 30, 40] .node 1).bind read =
    some ⟨[⟨7, 0, 0⟩, ⟨1, 0, 0⟩, ⟨0, 1, 0⟩, ⟨0, 0, 1⟩], [(10, [0, 1, 2, 3]), (5, [1, 2, 3])], some [10, 20, 30, 40]⟩ := by decide +kernel

/-- The hypotheses of `C129_vtk_partial` hold for it. -/
example : shuffled.WF ∧ shuffled.nodes.RoundTrip ∧ (∀ id e, shuffled.elements.get? id = some e → Writable e) ∧ ∀ i : Nat, i < shuffled.nodes.count → (i : Int) ∈ shuffled.nodes.ids := by
  have hn : shuffled.nodes.RoundTrip := Gmsh.addAll_roundTrip [((2 : Int), (⟨1 / 3, 0, 0⟩ : Vec3 ℚ)), (0, ⟨1, 0, 0⟩), (1, ⟨0, 1, 0⟩), (3, ⟨0, 0, 1⟩)] (by decide)
  have on : shuffled.nodes.Ok := (Gmsh.addAll_spec [((2 : Int), (⟨1 / 3, 0, 0⟩ : Vec3 ℚ)), (0, ⟨1, 0, 0⟩), (1, ⟨0, 1, 0⟩), (3, ⟨0, 0, 1⟩)] Cont.empty (by decide) Cont.empty_ok).2.1
  have oe : shuffled.elements.Ok := (Gmsh.addAll_spec [((5 : Int), ({ elementType := .tetrahedron, nodeIds := [2, 1, 0, 3] } : Elem)), (4, { elementType := .triangle, nodeIds := [0, 1, 3] })]
    Cont.empty (by decide) Cont.empty_ok).2.1
  have all : ∀ id e, shuffled.elements.get? id = some e → e = { elementType := .tetrahedron, nodeIds := [2, 1, 0, 3] } ∨ e = { elementType := .triangle, nodeIds := [0, 1, 3] } := fun id e h => by
    have hid := (oe.2 id).2 ⟨e, h⟩
    have hids : shuffled.elements.ids = [5, 4] := by decide +kernel
    rw [hids] at hid
    have : id = 5 ∨ id = 4 := by simpa using hid
    rcases this with rfl | rfl
    · left; have h5 : shuffled.elements.get? 5 = some { elementType := .tetrahedron, nodeIds := [2, 1, 0, 3] } := by decide +kernel
      rw [h5] at h; exact (Option.some.inj h).symm
    · right; have h5 : shuffled.elements.get? 4 = some { elementType := .triangle, nodeIds := [0, 1, 3] } := by decide +kernel
      rw [h5] at h; exact (Option.some.inj h).symm
  have ids : shuffled.nodes.ids = [2, 0, 1, 3] := by decide +kernel
  refine ⟨⟨on, Cont.empty_ok, oe, fun id f h => by simp [shuffled, Mesh.empty, Cont.empty, Cont.get?] at h, fun id e h n hn => ?_⟩, hn, fun id e h => ?_, fun i hi => ?_⟩
  · rw [ids]; rcases all id e h with rfl | rfl <;> revert n <;> decide
  · rcases all id e h with rfl | rfl <;> simp [Writable]
  · rw [Cont.count, ids] at hi; rw [ids]
    have : i = 0 ∨ i = 1 ∨ i = 2 ∨ i = 3 := by simp at hi; omega
    rcases this with rfl | rfl | rfl | rfl <;> decide

/-- A mesh with a quadrilateral is saved, and the file is of no use. -/
def withQuad : Mesh ℚ :=
  { shuffled with elements := Gmsh.addAll Cont.empty [((0 : Int), ({ elementType := .quadrilateral, nodeIds := [0, 1, 2, 3] } : Elem))] }

example : (save id id withQuad [] .node 1).isSome ∧ (save id id withQuad [] .node 1).bind read = none := by decide +kernel

/-- Two values per node: saved, and the file is of no use. -/
example : (save id id shuffled [1, 2, 3, 4, 5, 6, 7, 8] .node 2).isSome ∧ (save id id shuffled [1, 2, 3, 4, 5, 6, 7, 8] .node 2).bind read = none := by decide +kernel

/-- The ids 1, 2, 3: an exception, although the same mesh without values is saved. -/
def fromOne : Mesh ℚ :=
  { (Mesh.empty : Mesh ℚ) with
    nodes := Gmsh.addAll Cont.empty [((1 : Int), (⟨0, 0, 0⟩ : Vec3 ℚ)), (2, ⟨1, 0, 0⟩), (3, ⟨0, 1, 0⟩)]
    elements := Gmsh.addAll Cont.empty [((1 : Int), ({ elementType := .triangle, nodeIds := [1, 2, 3] } : Elem))] }

example : fromOne.nodes.indexOf? ((0 : Nat) : Int) = none ∧ save id id fromOne [5, 6, 7] .node 1 = none ∧ (save id id fromOne [] .node 1).isSome := by decide +kernel

end Vtk

/-! ### Gnuplot -/

/-- **C130, the ids are positions, or swapped in pairs.** The rows of the file are the nodes in their order, each with its number, its coordinates and the value that belongs to its position. -/
theorem C130_gnuplot_partial {K : Type} [DecidableEq K] [Inhabited K] (prt : K → K) (m : Mesh K) (hm : m.nodes.Ok) (u : List K) (hu : m.nodes.count ≤ u.length)
    (hid : ∀ i : Nat, i < m.nodes.count → m.nodes.indexOf? (i : Int) = m.nodes.idAt? i) :
    ∃ rows, gnuplot prt m u = some rows ∧ rows.length = m.nodes.count ∧
      ∀ i id v x, m.nodes.idAt? i = some id → m.nodes.get? id = some v → u[i]? = some x → rows[i]? = some ⟨id + 1, ⟨prt v.x, prt v.y, prt v.z⟩, prt x⟩ := by
  have h : ∀ i, ∃ r : Row K, i < m.nodes.count → nodeRow prt m u i = some r := fun i => by
    by_cases hi : i < m.nodes.count
    · obtain ⟨v, hv⟩ := (hm.2 _).1 (List.getElem_mem hi)
      have h1 : m.nodes.idAt? i = some (m.nodes.ids[i]'hi) := List.getElem?_eq_getElem hi
      exact ⟨_, fun _ => by rw [nodeRow, hid i hi, h1]; simp only [Option.bind_eq_bind, Option.bind_some, hv]; rw [List.getElem?_eq_getElem (by omega)]; rfl⟩
    · exact ⟨⟨0, ⟨default, default, default⟩, default⟩, fun h => absurd h hi⟩
  choose R hR using h
  refine ⟨_, mapM_range (nodeRow prt m u) m.nodes.count R hR, by simp, fun i id v x h1 h2 h3 => ?_⟩
  have hi : i < m.nodes.count := (List.getElem?_eq_some_iff.1 h1).1
  have := hR i hi
  rw [nodeRow, hid i hi, h1] at this
  simp only [Option.bind_eq_bind, Option.bind_some, h2, h3, Option.pure_def, Option.some.injEq] at this
  simp [hi, ← this]

/-- **C130, exactly when.** The condition of `C130_gnuplot_partial` is necessary: if the numbers in the rows are those of the nodes, then position and id can be exchanged. -/
theorem C130_exactly {K : Type} [DecidableEq K] [Inhabited K] (prt : K → K) (m : Mesh K) (u : List K) (rows : List (Row K)) (h : gnuplot prt m u = some rows)
    (hrow : ∀ i id, m.nodes.idAt? i = some id → ∃ v x, rows[i]? = some ⟨id + 1, v, x⟩) :
    ∀ i : Nat, i < m.nodes.count → m.nodes.indexOf? (i : Int) = m.nodes.idAt? i := fun i hi => by
  have h0 : ∀ i, ∃ r : Row K, i < m.nodes.count → nodeRow prt m u i = some r := fun i => by
    by_cases hi : i < m.nodes.count
    · obtain ⟨b, hb⟩ := mapM_inv h i (List.mem_range.2 hi); exact ⟨b, fun _ => hb⟩
    · exact ⟨⟨0, ⟨default, default, default⟩, default⟩, fun h => absurd h hi⟩
  choose R hR using h0
  have h1 := mapM_range (nodeRow prt m u) m.nodes.count R hR
  have h2 : rows = (List.range m.nodes.count).map R := by rw [gnuplot, h1] at h; exact (Option.some.inj h).symm
  have h3 : m.nodes.idAt? i = some (m.nodes.ids[i]'hi) := List.getElem?_eq_getElem hi
  obtain ⟨v, x, h4⟩ := hrow i _ h3
  rw [h2] at h4
  simp only [List.getElem?_map, List.getElem?_range hi, Option.map_some, Option.some.injEq] at h4
  have h5 := hR i hi
  rw [h4, nodeRow] at h5
  simp only [Option.bind_eq_bind, Option.bind_eq_some_iff, Option.pure_def, Option.some.injEq, Row.mk.injEq] at h5
  obtain ⟨id, h6, _, _, _, _, h7, -⟩ := h5
  rw [h6, h3]
  have : id = m.nodes.ids[i] := by omega
  rw [this]

/-- **C130 fails.** On a consistent mesh whose ids 1, 2, 0 are the positions shifted, every row has the number and the coordinates of one node and the value of another. -/
theorem C130_wrong_rows : ∃ m : Mesh ℚ, m.nodes.Ok ∧ m.nodes.RoundTrip ∧
    (gnuplot id m [10, 20, 30]).map (fun rows => rows.map fun r => (r.point.x, r.value)) = some [(1, 10), (2, 20), (0, 30)] ∧
    (List.range 3).map (fun i => ((m.nodes.idAt? i).bind m.nodes.get?).map (·.x)) = [some 0, some 1, some 2] := by
  refine ⟨{ (Mesh.empty : Mesh ℚ) with nodes := Gmsh.addAll Cont.empty [((1 : Int), (⟨0, 0, 0⟩ : Vec3 ℚ)), (2, ⟨1, 0, 0⟩), (0, ⟨2, 0, 0⟩)] }, ?_, ?_, ?_, ?_⟩
  · exact (Gmsh.addAll_spec _ Cont.empty (by decide) Cont.empty_ok).2.1
  · exact Gmsh.addAll_roundTrip _ (by decide)
  · decide +kernel
  · decide +kernel

/-- **C130, values at the elements.** The same for the centroids of the elements: with ids that are positions every row has the centroid and the value of its element. -/
theorem C130_elements_partial {K : Type} [DecidableEq K] [Inhabited K] (prt : K → K) (m : Mesh K) (centroid : Int → Option (Vec3 K)) (hc : ∀ id ∈ m.elements.ids, centroid id ≠ none)
    (u : List K) (hu : m.elements.count ≤ u.length) (hid : ∀ i : Nat, i < m.elements.count → m.elements.indexOf? (i : Int) = m.elements.idAt? i) :
    ∃ rows, gnuplotElements prt m centroid u = some rows ∧ rows.length = m.elements.count ∧
      ∀ i id v x, m.elements.idAt? i = some id → centroid id = some v → u[i]? = some x → rows[i]? = some ⟨id + 1, ⟨prt v.x, prt v.y, prt v.z⟩, prt x⟩ := by
  have h : ∀ i, ∃ r : Row K, i < m.elements.count → elementRow prt m centroid u i = some r := fun i => by
    by_cases hi : i < m.elements.count
    · obtain ⟨v, hv⟩ := Option.ne_none_iff_exists'.1 (hc _ (List.getElem_mem hi))
      have h1 : m.elements.idAt? i = some (m.elements.ids[i]'hi) := List.getElem?_eq_getElem hi
      exact ⟨_, fun _ => by rw [elementRow, hid i hi, h1]; simp only [Option.bind_eq_bind, Option.bind_some, hv]; rw [List.getElem?_eq_getElem (by omega)]; rfl⟩
    · exact ⟨⟨0, ⟨default, default, default⟩, default⟩, fun h => absurd h hi⟩
  choose R hR using h
  refine ⟨_, mapM_range (elementRow prt m centroid u) m.elements.count R hR, by simp, fun i id v x h1 h2 h3 => ?_⟩
  have hi : i < m.elements.count := (List.getElem?_eq_some_iff.1 h1).1
  have := hR i hi
  rw [elementRow, hid i hi, h1] at this
  simp only [Option.bind_eq_bind, Option.bind_some, h2, h3, Option.pure_def, Option.some.injEq] at this
  simp [hi, ← this]

namespace Vtk

/-- Ids 1, 0, 2, swapped in a pair, meet the hypotheses of `C130_gnuplot_partial`. -/
example : ∃ m : Mesh ℚ, m.nodes.Ok ∧ m.nodes.ids = [1, 0, 2] ∧ (∀ i : Nat, i < m.nodes.count → m.nodes.indexOf? (i : Int) = m.nodes.idAt? i) ∧
    (gnuplot id m [10, 20, 30]).map (fun rows => rows.map fun r => (r.label, r.point.x, r.value)) = some [(2, 0, 10), (1, 1, 20), (3, 2, 30)] := by
  refine ⟨{ (Mesh.empty : Mesh ℚ) with nodes := Gmsh.addAll Cont.empty [((1 : Int), (⟨0, 0, 0⟩ : Vec3 ℚ)), (0, ⟨1, 0, 0⟩), (2, ⟨2, 0, 0⟩)] }, ?_, ?_, ?_, ?_⟩
  · exact (Gmsh.addAll_spec _ Cont.empty (by decide) Cont.empty_ok).2.1
  · decide +kernel
  · have : ∀ i : Nat, i < 3 → (Gmsh.addAll Cont.empty [((1 : Int), (⟨0, 0, 0⟩ : Vec3 ℚ)), (0, ⟨1, 0, 0⟩), (2, ⟨2, 0, 0⟩)]).indexOf? (i : Int) =
        (Gmsh.addAll Cont.empty [((1 : Int), (⟨0, 0, 0⟩ : Vec3 ℚ)), (0, ⟨1, 0, 0⟩), (2, ⟨2, 0, 0⟩)]).idAt? i := by decide +kernel
    intro i hi
    exact this i hi
  · decide +kernel

end Vtk
end ENigMA
