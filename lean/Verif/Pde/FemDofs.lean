import Verif.Pde.FemAssemblyProps

/-!
# Assembly with several degrees of freedom per node

Degree of freedom `k` of the node with index `i` is row `i * d + k`.
-/

set_option linter.unusedSectionVars false
set_option autoImplicit false

namespace ENigMA
open Matrix

variable {K : Type} [Field K] [LinearOrder K] [IsStrictOrderedRing K]

namespace FemOp

/-- The vector with one value per row of the field that has, at the node `id`, the values `φ id 0, φ id 1, …`. -/
def nodalD (m : Mesh K) (d : Nat) (φ : Int → Nat → K) (i : Nat) : K := ((m.nodes.idAt? (i / d)).map fun id => φ id (i % d)).getD 0

/-- The values of a field at the nodes of an element, node by node. -/
def dofs (d : Nat) (φ : Int → Nat → K) (ids : List Int) : List K := ids.flatMap fun x => (List.range d).map (φ x)

/-- What an element contributes to `vᵀ A w`. -/
def elementTermD (mat : ElementType → List (Vec3 K) → Option (Option (EMat K))) (d : Nat) (m : Mesh K) (φ ψ : Int → Nat → K) (e : Elem) : K :=
  match (e.nodeIds.mapM m.nodes.get?).bind (mat e.elementType) with
  | some (some M) => elementForm M (dofs d φ e.nodeIds) (dofs d ψ e.nodeIds)
  | _ => 0

/-- The rows of the nodes `idx`. -/
def rows (d : Nat) (idx : List Int) : List Int := idx.flatMap fun I => (List.range d).map fun k => I * (d : Int) + (k : Nat)

theorem zipIdx_flatMap {α β : Type} (d : Nat) (f : α → Nat → β) (l : List α) : ∀ s : Nat,
    (l.flatMap fun a => (List.range d).map (f a)).zipIdx (s * d) =
      (l.zipIdx s).flatMap fun p => (List.range d).map fun k => (f p.1 k, p.2 * d + k) := by
  induction l with
  | nil => intro s; rfl
  | cons a t ih =>
    intro s
    rw [List.flatMap_cons, List.zipIdx_append, List.zipIdx_cons, List.flatMap_cons]
    congr 1
    · apply List.ext_getElem (by simp)
      intro i h1 h2
      simp
    · have := ih (s + 1)
      rw [Nat.add_mul, Nat.one_mul] at this
      simpa using this

/-- `scatter` when nothing is out of range. -/
def pureScatterD (d : Nat) (idx : List Int) (m : EMat K) : List (Stamp K) :=
  idx.zipIdx.flatMap fun p => ((List.range d).flatMap fun k => idx.zipIdx.flatMap fun q => (List.range d).flatMap fun l =>
    [Stamp.addA (p.1 * (d : Int) + (k : Nat)) (q.1 * (d : Int) + (l : Nat)) (m.at_ (p.2 * d + k) (q.2 * d + l))]) ++ [Stamp.addB p.1 0]

theorem mul_add_lt {i n d k : Nat} (hi : i < n) (hk : k < d) : i * d + k < n * d := by
  have : (i + 1) * d ≤ n * d := Nat.mul_le_mul_right d hi
  rw [Nat.add_mul, Nat.one_mul] at this
  omega

theorem scatter_dofs (d : Nat) (idx : List Int) (m : EMat K) (h : m.n = idx.length * d) :
    scatter d idx idx m = some (pureScatterD d idx m) := by
  unfold scatter pureScatterD
  apply collect_map
  rintro ⟨I, i⟩ hi
  have hil := zipIdx_lt hi
  have h1 : collect ((List.range d).map fun k => collect (idx.zipIdx.map fun (J, j) => collect ((List.range d).map fun l => do
      let v ← m.get? (i * d + k) (j * d + l)
      return [Stamp.addA (I * (d : Int) + (k : Nat)) (J * (d : Int) + (l : Nat)) v]))) =
      some ((List.range d).flatMap fun k => idx.zipIdx.flatMap fun q => (List.range d).flatMap fun l =>
        [Stamp.addA (I * (d : Int) + (k : Nat)) (q.1 * (d : Int) + (l : Nat)) (m.at_ (i * d + k) (q.2 * d + l))]) := by
    apply collect_map
    intro k hk
    apply collect_map
    rintro ⟨J, j⟩ hj
    have hjl := zipIdx_lt hj
    apply collect_map
    intro l hl
    have a1 := mul_add_lt hil (List.mem_range.1 hk)
    have a2 := mul_add_lt hjl (List.mem_range.1 hl)
    simp [EMat.get?, h, a1, a2]
  simp only [Option.bind_eq_bind] at h1 ⊢
  rw [h1, Option.bind_some, zipIdx_get hi]
  rfl

theorem pureScatterD_isAdd (d : Nat) (idx : List Int) (m : EMat K) : ∀ st ∈ pureScatterD d idx m, st.IsAdd := by
  intro st hst
  simp only [pureScatterD, List.mem_flatMap, List.mem_append, List.mem_singleton] at hst
  obtain ⟨p, -, h | rfl⟩ := hst
  · obtain ⟨k, -, q, -, l, -, rfl⟩ := h
    trivial
  · trivial

theorem row_inRange {I : Int} {n d k : Nat} (h : Equation.InRange I n) (hk : k < d) : Equation.InRange (I * (d : Int) + (k : Nat)) (n * d) := by
  obtain ⟨h1, h2⟩ := h
  obtain ⟨i, rfl⟩ := Int.eq_ofNat_of_zero_le h1
  have hi : i < n := by omega
  have := mul_add_lt hi hk
  constructor
  · positivity
  · have : ((i * d + k : Nat) : Int) < ((n * d : Nat) : Int) := by exact_mod_cast this
    push_cast at this ⊢
    exact this

theorem pureScatterD_ok (d : Nat) (hd : 0 < d) (idx : List Int) (m : EMat K) (n : Nat) (h1 : ∀ I ∈ idx, Equation.InRange I n) :
    ∀ st ∈ pureScatterD d idx m, st.Ok (n * d) := by
  intro st hst
  simp only [pureScatterD, List.mem_flatMap, List.mem_append, List.mem_singleton] at hst
  have hm : ∀ p : Int × Nat, p ∈ idx.zipIdx → p.1 ∈ idx := fun p hp => List.mem_of_getElem? (zipIdx_get (a := p.1) (i := p.2) hp)
  obtain ⟨p, hp, h | rfl⟩ := hst
  · obtain ⟨k, hk, q, hq, l, hl, rfl⟩ := h
    exact ⟨row_inRange (h1 _ (hm p hp)) (List.mem_range.1 hk), row_inRange (h1 _ (hm q hq)) (List.mem_range.1 hl)⟩
  · obtain ⟨a, b⟩ := h1 _ (hm p hp)
    refine ⟨a, lt_of_lt_of_le b ?_⟩
    have : n * 1 ≤ n * d := Nat.mul_le_mul_left n hd
    push_cast
    exact_mod_cast (by omega : n ≤ n * d)

theorem sum_map_flatMap {α β : Type} (l : List α) (f : α → List β) (g : β → K) :
    ((l.flatMap f).map g).sum = (l.map fun a => ((f a).map g).sum).sum := by
  induction l with
  | nil => rfl
  | cons a t ih => simp [ih]

theorem pureScatterD_val (d : Nat) (idx : List Int) (m : EMat K) (h : m.n = idx.length * d) (v w : Nat → K) :
    ((pureScatterD d idx m).map (Stamp.val v w)).sum =
      elementForm m ((rows d idx).map fun I => v I.toNat) ((rows d idx).map fun I => w I.toNat) := by
  have hlen : (rows d idx).length = m.n := by
    rw [h]; simp [rows, List.length_flatMap]
  rw [← pureScatter_val (rows d idx) (rows d idx) m hlen v w]
  have hz : (rows d idx).zipIdx = idx.zipIdx.flatMap fun p => (List.range d).map fun k => (p.1 * (d : Int) + (k : Nat), p.2 * d + k) := by
    have := zipIdx_flatMap d (fun (I : Int) (k : Nat) => I * (d : Int) + (k : Nat)) idx 0
    simpa [rows] using this
  unfold pureScatterD pureScatter
  rw [hz]
  simp only [sum_map_flatMap, List.map_append, List.sum_append, List.map_map, List.map_cons, List.map_nil, List.sum_cons, List.sum_nil,
    Stamp.val, add_zero, Function.comp_def]

theorem pureScatterD_valB (d : Nat) (idx : List Int) (m : EMat K) (v : Nat → K) : ((pureScatterD d idx m).map (Stamp.valB v)).sum = 0 := by
  apply List.sum_eq_zero
  intro x hx
  obtain ⟨st, hst, rfl⟩ := List.mem_map.1 hx
  simp only [pureScatterD, List.mem_flatMap, List.mem_append, List.mem_singleton] at hst
  obtain ⟨p, -, h | rfl⟩ := hst
  · obtain ⟨k, -, q, -, l, -, rfl⟩ := h
    rfl
  · simp [Stamp.valB]

theorem mapM_length {α β : Type} (f : α → Option β) (l : List α) : ∀ bs, l.mapM f = some bs → bs.length = l.length ∧ l.map f = bs.map some := by
  induction l with
  | nil => intro bs h; simp at h; subst h; simp
  | cons a t ih =>
    intro bs h
    rw [List.mapM_cons] at h
    obtain ⟨b, hb, h⟩ := Option.bind_eq_some_iff.1 h
    obtain ⟨bs', hbs, h⟩ := Option.bind_eq_some_iff.1 h
    cases h
    obtain ⟨h1, h2⟩ := ih bs' hbs
    exact ⟨by simp [h1], by simp [hb, h2]⟩

/-- The matrix of the element has a row for every degree of freedom of its nodes. -/
def Fits (mat : ElementType → List (Vec3 K) → Option (Option (EMat K))) (d : Nat) (m : Mesh K) (e : Elem) : Prop :=
  ∀ ps M, e.nodeIds.mapM m.nodes.get? = some ps → mat e.elementType ps = some (some M) → M.n = e.nodeIds.length * d

theorem nodalD_rows (m : Mesh K) (hrt : m.nodes.RoundTrip) (d : Nat) (ids idx : List Int) (hn : ∀ x ∈ ids, x ∈ m.nodes.ids)
    (h : ids.mapM m.nodes.indexOf? = some idx) (φ : Int → Nat → K) :
    ((rows d idx).map fun I => nodalD m d φ I.toNat) = dofs d φ ids := by
  obtain ⟨-, e2⟩ := mapM_length _ _ _ h
  clear h
  induction ids generalizing idx with
  | nil => cases idx with
    | nil => rfl
    | cons => simp at e2
  | cons x t ih => cases idx with
    | nil => simp at e2
    | cons I r =>
      simp only [List.map_cons, List.cons.injEq] at e2
      have ih := ih r (fun y hy => hn y (by simp [hy])) e2.2
      obtain ⟨i, hi, hid⟩ := hrt.2 x (hn x (by simp))
      rw [e2.1] at hi
      cases hi
      simp only [rows, dofs] at ih ⊢
      rw [List.flatMap_cons, List.flatMap_cons, List.map_append, ih, List.map_map]
      congr 1
      apply List.map_congr_left
      intro k hk
      have hk := List.mem_range.1 hk
      have e : ((i : Int) * (d : Int) + (k : Nat)).toNat = i * d + k := by
        have : ((i : Int) * (d : Int) + (k : Nat)) = ((i * d + k : Nat) : Int) := by push_cast; rfl
        rw [this, Int.toNat_natCast]
      have hd : 0 < d := by omega
      have e1 : (i * d + k) / d = i := by
        rw [Nat.mul_comm, Nat.mul_add_div hd, Nat.div_eq_of_lt hk, Nat.add_zero]
      have e2 : (i * d + k) % d = k := by
        rw [Nat.mul_comm, Nat.mul_add_mod, Nat.mod_eq_of_lt hk]
      simp only [Function.comp, Int.ofNat_eq_natCast, e, nodalD, e1, e2]
      simp [Cont.idAt?] at hid ⊢
      simp [hid]

/-- The statements of one element, and their effect. -/
theorem elementStampsD_spec (mat : ElementType → List (Vec3 K) → Option (Option (EMat K))) (d : Nat) (m : Mesh K) (e : Elem)
    (hf : Fits mat d m e) (hrt : m.nodes.RoundTrip) (l : List (Stamp K)) (h : elementStamps mat d true m e = some l)
    (hn : ∀ x ∈ e.nodeIds, x ∈ m.nodes.ids) (φ ψ : Int → Nat → K) :
    (∀ st ∈ l, st.IsAdd) ∧ (l.map (Stamp.val (nodalD m d φ) (nodalD m d ψ))).sum = elementTermD mat d m φ ψ e ∧
      ∀ v : Nat → K, (l.map (Stamp.valB v)).sum = 0 := by
  unfold elementStamps at h
  obtain ⟨ps, hps, h⟩ := Option.bind_eq_some_iff.1 h
  obtain ⟨o, ho, h⟩ := Option.bind_eq_some_iff.1 h
  have hterm : elementTermD mat d m φ ψ e = match (some o : Option (Option (EMat K))) with
      | some (some M) => elementForm M (dofs d φ e.nodeIds) (dofs d ψ e.nodeIds)
      | _ => 0 := by
    unfold elementTermD
    rw [hps, Option.bind_some, ho]
  cases o with
  | none =>
    cases h
    rw [hterm]
    simp
  | some M =>
    obtain ⟨idx, hidx, h⟩ := Option.bind_eq_some_iff.1 h
    have hM := hf _ _ hps ho
    obtain ⟨l2, e2⟩ := mapM_length _ _ _ hidx
    rw [if_pos rfl, scatter_dofs d idx M (by rw [hM, l2])] at h
    cases h
    refine ⟨pureScatterD_isAdd _ _ _, ?_, fun v => pureScatterD_valB _ _ _ v⟩
    rw [pureScatterD_val _ _ _ (by rw [hM, l2]), hterm, nodalD_rows m hrt d _ _ hn hidx, nodalD_rows m hrt d _ _ hn hidx]

theorem elementStampsD_defined (mat : ElementType → List (Vec3 K) → Option (Option (EMat K))) (d : Nat) (hd : 0 < d) (m : Mesh K) (e : Elem)
    (hf : Fits mat d m e) (hwf : m.WF) (hrt : m.nodes.RoundTrip) (hn : ∀ x ∈ e.nodeIds, x ∈ m.nodes.ids)
    (hdef : ∀ ps, e.nodeIds.mapM m.nodes.get? = some ps → ∃ o, mat e.elementType ps = some o) :
    ∃ l, elementStamps mat d true m e = some l ∧ ∀ st ∈ l, st.Ok (m.nodes.count * d) := by
  obtain ⟨ps, hps, eps⟩ := mapM_some m.nodes.get? e.nodeIds fun x hx => (hwf.nodes.2 x).1 (hn x hx)
  obtain ⟨idx, hidx, eidx⟩ := mapM_some m.nodes.indexOf? e.nodeIds fun x hx => by
    obtain ⟨i, hi, -⟩ := hrt.2 x (hn x hx); exact ⟨i, hi⟩
  obtain ⟨o, ho⟩ := hdef ps hps
  cases o with
  | none => exact ⟨[], by simp [elementStamps, hps, ho], by simp⟩
  | some M =>
    have hM := hf _ _ hps ho
    have l2 : idx.length = e.nodeIds.length := by simpa using (congrArg List.length eidx).symm
    have hin : ∀ I ∈ idx, Equation.InRange I m.nodes.count := by
      intro I hI
      have : some I ∈ e.nodeIds.map m.nodes.indexOf? := by rw [eidx]; exact List.mem_map_of_mem hI
      obtain ⟨x, hx, hxI⟩ := List.mem_map.1 this
      obtain ⟨i, hi, hid⟩ := hrt.2 x (hn x hx)
      rw [hi] at hxI
      cases hxI
      have : i < m.nodes.ids.length := (List.getElem?_eq_some_iff.1 hid).1
      exact ⟨by omega, by simpa [Cont.count] using this⟩
    refine ⟨pureScatterD d idx M, ?_, pureScatterD_ok d hd _ _ _ hin⟩
    simp only [elementStamps, hps, ho, hidx, Option.bind_eq_bind, Option.bind_some, if_true]
    exact scatter_dofs d idx M (by rw [hM, l2])

/-- The elements of a mesh with their ids, in the order of their indices. -/
def elemsId (m : Mesh K) : List (Int × Elem) := m.elements.ids.filterMap fun id => (m.elements.get? id).map fun e => (id, e)

theorem mem_elemsId {m : Mesh K} {p : Int × Elem} : p ∈ elemsId m ↔ p.1 ∈ m.elements.ids ∧ m.elements.get? p.1 = some p.2 := by
  obtain ⟨id, e⟩ := p
  simp [elemsId]

theorem loop_elemsId (m : Mesh K) (hok : m.elements.Ok) {β : Type} (f : Int → Elem → Option (List β)) :
    collect ((List.range m.elements.count).map fun el => do
      let id ← m.elements.idAt? el
      let e ← m.elements.get? id
      f id e) = collect ((elemsId m).map fun p => f p.1 p.2) := by
  have h1 : ((List.range m.elements.count).map fun el => do
      let id ← m.elements.idAt? el
      let e ← m.elements.get? id
      f id e) = m.elements.ids.map fun id => (m.elements.get? id).bind (f id) := by
    apply List.ext_getElem (by simp [Cont.count])
    intro i h1 h2
    have hi : i < m.elements.ids.length := by simpa using h2
    simp [Cont.idAt?, hi]
  have h2 : ∀ l : List Int, (∀ id ∈ l, ∃ e, m.elements.get? id = some e) →
      (l.map fun id => (m.elements.get? id).bind (f id)) =
        (l.filterMap fun id => (m.elements.get? id).map fun e => (id, e)).map fun p => f p.1 p.2 := by
    intro l hl
    induction l with
    | nil => rfl
    | cons a t ih =>
      obtain ⟨e, he⟩ := hl a (by simp)
      rw [List.map_cons, List.filterMap_cons_some (b := (a, e)) (by rw [he]; rfl), List.map_cons, ih (fun x hx => hl x (by simp [hx])), he]
      rfl
  rw [h1, h2 _ (fun id hid => (hok.2 id).1 hid)]
  rfl

/-- The loop over the elements, with a matrix for every element. -/
def assembleD (mat : Int → ElementType → List (Vec3 K) → Option (Option (EMat K))) (d : Nat) (kind : MatrixType) (m : Mesh K) : Option (Sys K) := do
  let stamps ← collect <| (List.range m.elements.count).map fun el => do
    let id ← m.elements.idAt? el
    let e ← m.elements.get? id
    elementStamps (mat id) d true m e
  (Sys.zero kind (m.nodes.count * d)).assemble stamps

/-- **The assembled system.** -/
theorem assembleD_spec (mat : Int → ElementType → List (Vec3 K) → Option (Option (EMat K))) (d : Nat) (hd : 0 < d) (kind : MatrixType) (m : Mesh K)
    (hwf : m.WF) (hrt : m.nodes.RoundTrip) (hf : ∀ id e, m.elements.get? id = some e → Fits (mat id) d m e)
    (hdef : ∀ id e, m.elements.get? id = some e → ∀ ps, e.nodeIds.mapM m.nodes.get? = some ps → ∃ o, mat id e.elementType ps = some o) :
    ∃ s, assembleD mat d kind m = some s ∧ s.n = m.nodes.count * d ∧ s.kind = kind ∧ (∀ i < s.n, s.b i = 0) ∧
      ∀ φ ψ : Int → Nat → K, s.form (nodalD m d φ) (nodalD m d ψ) =
        ((elemsId m).map fun p => elementTermD (mat p.1) d m φ ψ p.2).sum := by
  unfold assembleD
  rw [loop_elemsId m hwf.elements (fun id e => elementStamps (mat id) d true m e)]
  have hnodes : ∀ p ∈ elemsId m, ∀ x ∈ p.2.nodeIds, x ∈ m.nodes.ids := fun p hp => hwf.elemNodes p.1 p.2 (mem_elemsId.1 hp).2
  have key := fun p (hp : p ∈ elemsId m) => elementStampsD_defined (mat p.1) d hd m p.2 (hf _ _ (mem_elemsId.1 hp).2) hwf hrt (hnodes p hp)
    (hdef _ _ (mem_elemsId.1 hp).2)
  have hc : collect ((elemsId m).map fun p => elementStamps (mat p.1) d true m p.2) =
      some ((elemsId m).flatMap fun p => (elementStamps (mat p.1) d true m p.2).getD []) :=
    collect_map _ _ _ fun p hp => by obtain ⟨l, hl, -⟩ := key p hp; rw [hl]; rfl
  simp only [Option.bind_eq_bind]
  rw [hc, Option.bind_some]
  obtain ⟨s, h, -⟩ := Sys.assemble_spec ((elemsId m).flatMap fun p => (elementStamps (mat p.1) d true m p.2).getD [])
    (Sys.zero kind (m.nodes.count * d)) (by
    intro st hst
    obtain ⟨p, hp, hst⟩ := List.mem_flatMap.1 hst
    obtain ⟨l, hl, hok⟩ := key p hp
    rw [hl] at hst
    exact hok st hst)
  have spec : ∀ p ∈ elemsId m, ∀ φ ψ : Int → Nat → K, (∀ st ∈ (elementStamps (mat p.1) d true m p.2).getD [], st.IsAdd) ∧
      (((elementStamps (mat p.1) d true m p.2).getD []).map (Stamp.val (nodalD m d φ) (nodalD m d ψ))).sum = elementTermD (mat p.1) d m φ ψ p.2 ∧
      ∀ v : Nat → K, (((elementStamps (mat p.1) d true m p.2).getD []).map (Stamp.valB v)).sum = 0 := by
    intro p hp φ ψ
    obtain ⟨l, hl, -⟩ := key p hp
    have := elementStampsD_spec (mat p.1) d m p.2 (hf _ _ (mem_elemsId.1 hp).2) hrt l hl (hnodes p hp) φ ψ
    have e : (elementStamps (mat p.1) d true m p.2).getD [] = l := by rw [hl]; rfl
    rw [← e] at this
    exact this
  have hadd : ∀ st ∈ (elemsId m).flatMap fun p => (elementStamps (mat p.1) d true m p.2).getD [], st.IsAdd := by
    intro st hst
    obtain ⟨p, hp, hst⟩ := List.mem_flatMap.1 hst
    exact (spec p hp (fun _ _ => 0) (fun _ _ => 0)).1 st hst
  obtain ⟨a1, a2, -, -⟩ := Sys.assemble_form _ _ _ h hadd (fun _ => 0) (fun _ => 0)
  refine ⟨s, h, a1, a2, fun i hi => ?_, fun φ ψ => ?_⟩
  · rw [← Sys.load_single s i hi]
    obtain ⟨-, -, -, a4⟩ := Sys.assemble_form _ _ _ h hadd (fun r => if r = i then 1 else 0) (fun _ => 0)
    rw [a4, Sys.zero_load, zero_add, sum_map_flatMap]
    apply List.sum_eq_zero
    intro x hx
    obtain ⟨p, hp, rfl⟩ := List.mem_map.1 hx
    exact (spec p hp (fun _ _ => 0) (fun _ _ => 0)).2.2 _
  · obtain ⟨-, -, a3, -⟩ := Sys.assemble_form _ _ _ h hadd (nodalD m d φ) (nodalD m d ψ)
    rw [a3, Sys.zero_form, zero_add, sum_map_flatMap]
    congr 1
    apply List.map_congr_left
    intro p hp
    exact (spec p hp φ ψ).2.1

/-- The field that is one at degree of freedom `k` of the node `x` and zero elsewhere. -/
def oneAt (x : Int) (k : Nat) : Int → Nat → K := fun z l => if z = x ∧ l = k then 1 else 0

theorem nodalD_single (m : Mesh K) (hwf : m.WF) (d : Nat) (hd : 0 < d) (i : Nat) (x : Int) (hx : m.nodes.idAt? (i / d) = some x) (j : Nat)
    (hj : j < m.nodes.count * d) : nodalD m d (oneAt x (i % d)) j = if j = i then 1 else 0 := by
  have hjd : j / d < m.nodes.count := Nat.div_lt_of_lt_mul (by rwa [Nat.mul_comm])
  have h1 : m.nodes.ids[j / d]? = some (m.nodes.ids[j / d]'hjd) := List.getElem?_eq_getElem hjd
  have hk' : m.nodes.ids[i / d]? = some x := hx
  simp only [nodalD, Cont.idAt?, h1, Option.map_some, Option.getD_some, oneAt]
  refine if_congr ?_ rfl rfl
  constructor
  · rintro ⟨h, h'⟩
    have hkl := (List.getElem?_eq_some_iff.1 hk').1
    have e : m.nodes.ids[j / d]'hjd = m.nodes.ids[i / d]'hkl := by rw [h]; exact (List.getElem?_eq_some_iff.1 hk').2.symm
    have := (hwf.nodes.1.getElem_inj_iff).1 e
    rw [← Nat.div_add_mod j d, ← Nat.div_add_mod i d, this, h']
  · rintro rfl
    rw [h1] at hk'
    exact ⟨Option.some.inj hk', rfl⟩

/-- Every row belongs to a degree of freedom of a node. -/
theorem row_of_lt (m : Mesh K) (d i : Nat) (hi : i < m.nodes.count * d) : ∃ x, m.nodes.idAt? (i / d) = some x :=
  idAt_of_lt m (i / d) (Nat.div_lt_of_lt_mul (by rwa [Nat.mul_comm]))

theorem entryD_eq (m : Mesh K) (hwf : m.WF) (d : Nat) (hd : 0 < d) (s : Sys K) (hn : s.n = m.nodes.count * d)
    (i j : Nat) (x y : Int) (hi : i < s.n) (hj : j < s.n) (hx : m.nodes.idAt? (i / d) = some x) (hy : m.nodes.idAt? (j / d) = some y) :
    s.A i j = s.form (nodalD m d (oneAt x (i % d))) (nodalD m d (oneAt y (j % d))) := by
  rw [← Sys.form_single s i j hi hj]
  exact Sys.form_congr s _ _ _ _ (fun k hk => (nodalD_single m hwf d hd i x hx k (hn ▸ hk)).symm)
    (fun k hk => (nodalD_single m hwf d hd j y hy k (hn ▸ hk)).symm)

theorem rowD_eq (m : Mesh K) (hwf : m.WF) (d : Nat) (hd : 0 < d) (s : Sys K) (hn : s.n = m.nodes.count * d)
    (i : Nat) (x : Int) (hi : i < s.n) (hx : m.nodes.idAt? (i / d) = some x) (w : Nat → K) :
    s.row w i = s.form (nodalD m d (oneAt x (i % d))) w := by
  rw [← Sys.form_row s i hi]
  exact Sys.form_congr s _ _ _ _ (fun k hk => (nodalD_single m hwf d hd i x hx k (hn ▸ hk)).symm) (fun _ _ => rfl)

end FemOp
end ENigMA
