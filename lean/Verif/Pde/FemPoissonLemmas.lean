import Verif.Pde.FemPoisson

/-! # Lemmas on Poisson's equation with finite elements -/

set_option linter.unusedSectionVars false
set_option autoImplicit false

namespace ENigMA
open FemOp FemThermalOp FemHeat BasicMesher
open FdmHeat (Sound)
variable {K : Type} [Field K] [LinearOrder K] [IsStrictOrderedRing K]

namespace FemPoisson

/-- Prepared meshes. -/
structure Fine (nrm : Vec3 K → K) (m : Mesh K) : Prop where
  wf : m.WF
  trip : m.nodes.RoundTrip
  simplex : SimplexMesh nrm m

theorem simplex_source {nrm : Vec3 K → K} {t : ElementType} {ps : List (Vec3 K)} (h : Simplex nrm t ps) : hasSource t ps.length = true := by
  cases h <;> rfl

theorem sum_count (n : Nat) (idAt : Nat → Option Int) (hinj : ∀ i j x, idAt i = some x → idAt j = some x → i = j) (hall : ∀ i < n, ∃ x, idAt i = some x) (hsome : ∀ i x, idAt i = some x → i < n)
    (φ : Int → K) (l : List Int) (hl : ∀ x ∈ l, ∃ i, idAt i = some x) :
    ∑ i ∈ Finset.range n, ((idAt i).map φ).getD 0 * (((idAt i).map fun x => (l.count x : K)).getD 0) = (l.map φ).sum := by
  induction l with
  | nil => exact Finset.sum_eq_zero fun i _ => by cases idAt i <;> simp
  | cons y t ih =>
    rw [List.map_cons, List.sum_cons, ← ih fun x hx => hl x (List.mem_cons_of_mem _ hx)]
    obtain ⟨j, hj⟩ := hl y (List.mem_cons_self ..)
    have : φ y = ∑ i ∈ Finset.range n, if i = j then φ y else 0 := by
      rw [Finset.sum_ite_eq', if_pos (Finset.mem_range.2 (hsome j y hj))]
    rw [this, ← Finset.sum_add_distrib]
    refine Finset.sum_congr rfl fun i hi => ?_
    obtain ⟨x, hx⟩ := hall i (Finset.mem_range.1 hi)
    rw [hx]
    simp only [Option.map_some, Option.getD_some, List.count_cons]
    by_cases hij : i = j
    · subst hij
      rw [hj, Option.some.injEq] at hx
      subst hx
      simp
      ring
    · have : y ≠ x := fun h => hij (hinj i j x hx (h ▸ hj))
      simp [hij, this]

theorem corners_eq {nrm : Vec3 K → K} {m : Mesh K} (g : Fine nrm m) (x : Int) :
    (corners m x : K) = overElements m fun _ e => (e.nodeIds.count x : K) := by
  rw [← elems_over m fun e => (e.nodeIds.count x : K)]
  unfold corners
  rw [Nat.cast_list_sum, List.map_map]
  congr 1
  refine List.map_congr_left fun e he => ?_
  obtain ⟨id, -, hid⟩ := mem_elems.1 he
  obtain ⟨ps, h1, h2⟩ := g.simplex id e hid
  have := simplex_source h2
  rw [FemHeat.mapM_length _ _ _ h1] at this
  simp [this]

/-- The load of a field. -/
theorem load_corners {nrm : Vec3 K → K} {m : Mesh K} (g : Fine nrm m) (φ : Int → K) :
    ∑ i ∈ Finset.range m.nodes.count, nodal m φ i * ((m.nodes.idAt? i).map fun x => (corners m x : K)).getD 0 = cornerSum m φ := by
  have hinj : ∀ i j x, m.nodes.idAt? i = some x → m.nodes.idAt? j = some x → i = j := fun i j id hi hj => by
    have hi' := List.getElem?_eq_some_iff.1 hi
    have hj' := List.getElem?_eq_some_iff.1 hj
    exact (g.wf.nodes.1.getElem_inj_iff).1 (hi'.2.trans hj'.2.symm)
  have hterm : ∀ e id, m.elements.get? id = some e →
      ∑ i ∈ Finset.range m.nodes.count, nodal m φ i * (((m.nodes.idAt? i).map fun x => (e.nodeIds.count x : K)).getD 0) = (e.nodeIds.map φ).sum := fun e id he =>
    sum_count m.nodes.count m.nodes.idAt? hinj (fun i hi => idAt_of_lt m i hi) (fun i x h => (List.getElem?_eq_some_iff.1 h).1) φ e.nodeIds fun x hx => by
      exact List.mem_iff_getElem?.1 (elems_nodes g.wf e (mem_elems.2 ⟨id, (g.wf.elements.2 id).2 ⟨e, he⟩, he⟩) x hx)
  have h1 : ∀ i ∈ Finset.range m.nodes.count, nodal m φ i * ((m.nodes.idAt? i).map fun x => (corners m x : K)).getD 0 =
      (m.elements.ids.map fun id => nodal m φ i * ((m.elements.get? id).map fun e => ((m.nodes.idAt? i).map fun x => (e.nodeIds.count x : K)).getD 0).getD 0).sum := fun i hi => by
    obtain ⟨x, hx⟩ := idAt_of_lt m i (Finset.mem_range.1 hi)
    rw [List.sum_map_mul_left, hx, Option.map_some, Option.getD_some, corners_eq g]
    rfl
  rw [Finset.sum_congr rfl h1]
  have hall : ∀ id ∈ m.elements.ids, ∃ e, m.elements.get? id = some e := fun id hid => (g.wf.elements.2 id).1 hid
  unfold cornerSum
  generalize m.elements.ids = l at hall
  induction l with
  | nil => simp
  | cons a t ih =>
    obtain ⟨e, he⟩ := hall a (List.mem_cons_self ..)
    simp only [List.map_cons, List.sum_cons, Finset.sum_add_distrib]
    rw [ih fun id hid => hall id (List.mem_cons_of_mem _ hid), he, Option.map_some, Option.getD_some, ← hterm e a he]
    rfl

/-- The system. -/
theorem assembled {nrm : Vec3 K → K} (r : K) {m : Mesh K} (g : Fine nrm m) (a : K) (solver : Sys K → Nat → K) (junk junk' : Nat → K) (f : EqField K) :
    ∃ s : Sys K, run nrm r solver junk junk' m a f = (do let e ← (Equation.new s).setElimination junk f; e.solve solver junk' f) ∧ s.n = m.nodes.count ∧ s.kind = .sparseSymmetric ∧
      (∀ i < s.n, ∀ j < s.n, s.A i j = s.A j i) ∧ (∀ φ ψ : Int → K, s.form (nodal m φ) (nodal m ψ) = -stiff nrm r m φ ψ) ∧ ∀ φ : Int → K, s.load (nodal m φ) = a * cornerSum m φ := by
  have hreg := regular r g.simplex
  obtain ⟨s, h1, h2, h3, h4, h5⟩ := C28_laplacian nrm r m g.wf g.trip hreg
  obtain ⟨b, b1, b2⟩ := C63_source m g.wf g.trip a
  refine ⟨s.assignVec b, ?_, h2, h3, (C28_laplacian_symmetric nrm r m g.wf g.trip hreg s h1).1, fun φ ψ => ?_, fun φ => ?_⟩
  · unfold run
    rw [h1, Option.bind_eq_bind, Option.bind_some, b1]
    rfl
  · show s.form _ _ = _
    rw [h5, elems_over, stiff, neg_neg]
  · rw [← load_corners g, Finset.mul_sum]
    show ∑ i ∈ Finset.range s.n, nodal m φ i * (s.b i + b i) = _
    rw [h2]
    refine Finset.sum_congr rfl fun i hi => ?_
    have hi := Finset.mem_range.1 hi
    obtain ⟨x, hx⟩ := idAt_of_lt m i hi
    rw [h4 i (h2 ▸ hi), zero_add, b2 i x hx, hx, Option.map_some, Option.getD_some]
    ring

theorem row_opposite (s : Sys K) (w : Nat → K) (i : Nat) : (opposite s).row w i = -s.row w i := by
  simp [Sys.row, opposite, Finset.sum_neg_distrib]

theorem load_opposite (s : Sys K) (w : Nat → K) : (opposite s).load w = -s.load w := by
  simp [Sys.load, opposite, Finset.sum_neg_distrib]

/-- Vanishing at prescribed values and without energy: zero. -/
theorem null_zero {nrm : Vec3 K → K} (hn : IsNorm nrm) (r : K) {m : Mesh K} (g : Fine nrm m) (f : EqField K) (hanch : ∀ id ∈ m.nodes.ids, Anchored m f id) (φ : Int → K)
    (hE : stiff nrm r m φ φ = 0) (hz : ∀ i id v, m.nodes.idAt? i = some id → Equation.prescribed f i = some v → φ id = 0) : ∀ id ∈ m.nodes.ids, φ id = 0 := by
  have := (total_energy hn r m g.wf g.simplex φ).1
  rw [show -overElements m (fun _ => elementTerm (elementLaplacian nrm r) m φ φ) = 0 from hE] at this
  exact fun id hid => anchored_zero m g.wf g.simplex f φ this hz id (hanch id hid)

/-- What the program leaves in the field. -/
theorem run_rows {nrm : Vec3 K → K} (hn : IsNorm nrm) (r : K) {m : Mesh K} (g : Fine nrm m) (a : K) (solver : Sys K → Nat → K) (hS : Sound solver) (junk junk' : Nat → K) (f : EqField K)
    (hm : f.method = .fem) (hf : IndicesOk f.uFixed m.nodes.count) (hanch : ∀ id ∈ m.nodes.ids, Anchored m f id) :
    ∃ (s : Sys K) (f' : EqField K), s.n = m.nodes.count ∧ (∀ i < s.n, ∀ j < s.n, s.A i j = s.A j i) ∧ (∀ φ ψ : Int → K, s.form (nodal m φ) (nodal m ψ) = -stiff nrm r m φ ψ) ∧
      (∀ φ : Int → K, s.load (nodal m φ) = a * cornerSum m φ) ∧ run nrm r solver junk junk' m a f = some f' ∧ f'.u.size = m.nodes.count ∧
      (∀ i < s.n, ∀ v, Equation.prescribed f i = some v → f'.u.at' i = v) ∧ ∀ i < s.n, Equation.prescribed f i = none → s.row f'.u.at' i = s.b i := by
  obtain ⟨s, h1, h2, h3, h4, h5, h6⟩ := assembled r g a solver junk junk' f
  have hform : ∀ v φ, (∀ i < m.nodes.count, nodal m φ i = v i) → s.form v v = -stiff nrm r m φ φ := fun v φ hφ => by
    rw [← h5]
    exact Sys.form_congr s _ _ _ _ (fun i hi => (hφ i (h2 ▸ hi)).symm) (fun i hi => (hφ i (h2 ▸ hi)).symm)
  have hnn : ∀ φ, 0 ≤ stiff nrm r m φ φ := fun φ => total_nonneg m g.simplex φ _ (total_energy hn r m g.wf g.simplex φ).1
  obtain ⟨w, w1, w2⟩ := FemStress.exists_held (opposite s) (fun i hi j hj => congrArg _ (h4 i hi j hj)) (fun v => by
      obtain ⟨φ, -, hφ⟩ := nodal_surj m g.wf v
      rw [opposite_form, hform v φ hφ, neg_neg]
      exact hnn φ) (Equation.prescribed f) fun v hz hv => by
      obtain ⟨φ, hφ', hφ⟩ := nodal_surj m g.wf v
      rw [opposite_form, hform v φ hφ, neg_neg] at hv
      have h0 := null_zero hn r g f hanch φ hv fun i id x hi hx => by
        have hlt : i < m.nodes.count := (List.getElem?_eq_some_iff.1 hi).1
        rw [hφ' i id hi]
        exact hz i (by show i < s.n; rw [h2]; exact hlt) (by rw [hx]; simp)
      rw [load_opposite, neg_eq_zero]
      refine Finset.sum_eq_zero fun i hi => ?_
      obtain ⟨x, hx⟩ := idAt_of_lt m i (by rw [← h2]; exact Finset.mem_range.1 hi)
      rw [← hφ' i x hx, h0 x (List.mem_of_getElem? hx), zero_mul]
  obtain ⟨f', a1, a2, -, a4, a5⟩ := Equation.eliminate_run solver hS junk junk' s f hm (by rw [h3]; decide) (by rw [h2]; exact hf) ⟨w, w1, fun i hi hp => by
    have := w2 i hi hp
    rw [row_opposite] at this
    exact neg_injective this⟩
  exact ⟨s, f', h2, h4, h5, h6, h1.trans a1, a2.trans h2, a4, a5⟩

/-- Only the result solves the equations. -/
theorem rows_unique {nrm : Vec3 K → K} (hn : IsNorm nrm) (r : K) {m : Mesh K} (g : Fine nrm m) (f : EqField K) (hanch : ∀ id ∈ m.nodes.ids, Anchored m f id) (s : Sys K) (h2 : s.n = m.nodes.count)
    (h5 : ∀ φ ψ : Int → K, s.form (nodal m φ) (nodal m ψ) = -stiff nrm r m φ ψ) (u : Nat → K) (hu : ∀ i < s.n, ∀ v, Equation.prescribed f i = some v → u i = v)
    (hu' : ∀ i < s.n, Equation.prescribed f i = none → s.row u i = s.b i) (φ : Int → K) (hφ : Meets m f φ) (hφ' : ∀ i < s.n, Equation.prescribed f i = none → s.row (nodal m φ) i = s.b i) :
    Holds m u φ := by
  obtain ⟨χ, c1, c2⟩ := nodal_surj m g.wf u
  have hd : (fun i => nodal m χ i - nodal m φ i) = nodal m fun id => χ id - φ id := by
    funext i
    simp only [nodal]
    cases m.nodes.idAt? i <;> simp
  have hz : ∀ i id v, m.nodes.idAt? i = some id → Equation.prescribed f i = some v → χ id - φ id = 0 := fun i id v hi hv => by
    rw [c1 i id hi, hu i (by rw [h2]; exact (List.getElem?_eq_some_iff.1 hi).1) v hv, hφ i id v hi hv, sub_self]
  have h0 : stiff nrm r m (fun id => χ id - φ id) (fun id => χ id - φ id) = 0 := by
    rw [← neg_inj, ← h5, ← hd, form_sub_right, Sys.form_rows, Sys.form_rows, ← Finset.sum_sub_distrib, neg_zero]
    refine Finset.sum_eq_zero fun i hi => ?_
    have hi := Finset.mem_range.1 hi
    cases hp : Equation.prescribed f i with
    | none =>
      have : s.row (nodal m χ) i = s.b i := by
        rw [← hu' i hi hp]
        exact Finset.sum_congr rfl fun j hj => by rw [c2 j (by rw [← h2]; exact Finset.mem_range.1 hj)]
      rw [this, hφ' i hi hp, sub_self]
    | some v =>
      obtain ⟨x, hx⟩ := idAt_of_lt m i (h2 ▸ hi)
      have := hz i x v hx hp
      have hx0 : nodal m χ i - nodal m φ i = 0 := by
        simp only [nodal, hx, Option.map_some, Option.getD_some]
        exact this
      rw [hx0, zero_mul, zero_mul, sub_self]
  have := null_zero hn r g f hanch _ h0 hz
  intro i id hi
  rw [← c1 i id hi]
  exact (sub_eq_zero.1 (this id (List.mem_of_getElem? hi))).symm

end FemPoisson
end ENigMA
