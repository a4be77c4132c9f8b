import Verif.Pde.FemHeatEnergy

/-!
# C144: steady conduction with finite elements
-/

set_option linter.unusedSectionVars false
set_option autoImplicit false

namespace ENigMA
open Matrix FemOp FemThermalOp Fem FemHeat FdmHeat
variable {K : Type} [Field K] [LinearOrder K] [IsStrictOrderedRing K]

namespace FemHeat

theorem form_add_left (s : Sys K) (u v w : Nat → K) : s.form (fun i => u i + v i) w = s.form u w + s.form v w := by
  simp only [Sys.form, add_mul, Finset.sum_add_distrib]

theorem form_add_right (s : Sys K) (u v w : Nat → K) : s.form w (fun i => u i + v i) = s.form w u + s.form w v := by
  simp only [Sys.form, mul_add, Finset.sum_add_distrib]

theorem form_symm (s : Sys K) (h : ∀ i < s.n, ∀ j < s.n, s.A i j = s.A j i) (u v : Nat → K) : s.form u v = s.form v u := by
  simp only [Sys.form]
  rw [Finset.sum_comm]
  refine Finset.sum_congr rfl fun i hi => Finset.sum_congr rfl fun j hj => ?_
  rw [h j (Finset.mem_range.1 hj) i (Finset.mem_range.1 hi)]
  ring

/-- A field that balances every free node: its energy and that of any other field with the same prescribed values. -/
theorem energy_split (s : Sys K) (hsym : ∀ i < s.n, ∀ j < s.n, s.A i j = s.A j i) (p : Nat → Option K) (w v : Nat → K) (hw : ∀ i < s.n, p i = none → s.row w i = 0)
    (hp : ∀ i < s.n, p i ≠ none → v i = w i) : s.form v v = s.form w w + s.form (fun i => v i - w i) (fun i => v i - w i) := by
  have h0 : s.form (fun i => v i - w i) w = 0 := by
    rw [Sys.form_rows]
    refine Finset.sum_eq_zero fun i hi => ?_
    by_cases h : p i = none
    · rw [hw i (Finset.mem_range.1 hi) h, mul_zero]
    · rw [hp i (Finset.mem_range.1 hi) h, sub_self, zero_mul]
  have e : v = fun i => w i + (v i - w i) := by funext i; ring
  conv_lhs => rw [e]
  rw [form_add_left, form_add_right, form_add_right, form_symm s hsym w (fun i => v i - w i), h0]
  ring

/-- What the program leaves in the field. -/
theorem steady_run {nrm : Vec3 K → K} (hn : IsNorm nrm) (r : K) (solver : Sys K → Nat → K) (hS : Sound solver) (junk junk' : Nat → K) (m : Mesh K) (hwf : m.WF)
    (hrt : m.nodes.RoundTrip) (hs : SimplexMesh nrm m) (pf : PdeField K) (hno : NoConditions pf m) (f : EqField K) (hm : f.method = .fem)
    (hf : IndicesOk f.uFixed m.nodes.count) :
    ∃ s f', FemThermalOp.laplacian nrm r pf 1 m = some s ∧ s.n = m.nodes.count ∧ (∀ i < s.n, ∀ j < s.n, s.A i j = s.A j i) ∧
      (∀ φ ψ : Int → K, s.form (nodal m φ) (nodal m ψ) = overElements m (fun _ => elementTerm (elementLaplacian nrm r) m φ ψ)) ∧
      steady nrm r solver junk junk' m pf f = some f' ∧ f'.u.size = m.nodes.count ∧
      (∀ i < s.n, ∀ v, Equation.prescribed f i = some v → f'.u.at' i = v) ∧ ∀ i < s.n, Equation.prescribed f i = none → s.row f'.u.at' i = 0 := by
  obtain ⟨s, h1, h2, h3, h4, h5, h6⟩ := conduct nrm r pf m hwf hrt hs hno
  have hneg : ∀ v, s.form v v ≤ 0 := fun v => by
    obtain ⟨φ, -, hφ⟩ := nodal_surj m hwf v
    rw [Sys.form_congr s v (nodal m φ) v (nodal m φ) (fun i hi => (hφ i (h2 ▸ hi)).symm) (fun i hi => (hφ i (h2 ▸ hi)).symm), h6]
    have := total_nonneg m hs φ _ (total_energy hn r m hwf hs φ).1
    linarith
  have hload : ∀ v, s.load v = 0 := fun v => Finset.sum_eq_zero fun i hi => by rw [h4 i (Finset.mem_range.1 hi), mul_zero]
  obtain ⟨f', g1, g2, -, g4, g5⟩ := Equation.eliminate_run solver hS junk junk' s f hm (by rw [h3]; decide) (by rw [h2]; exact hf)
    (s.exists_free h5 hneg (fun v _ => hload v) (Equation.prescribed f))
  refine ⟨s, f', h1, h2, h5, h6, ?_, by rw [g2, h2], g4, fun i hi hp => by rw [g5 i hi hp, h4 i hi]⟩
  unfold steady
  rw [h1, Option.bind_eq_bind, Option.bind_some, Sys.assignZero']
  exact g1

/-- A field without energy that vanishes at the prescribed nodes vanishes at all anchored ones. -/
theorem anchored_zero {nrm : Vec3 K → K} (m : Mesh K) (hwf : m.WF) (hs : SimplexMesh nrm m) (f : EqField K) (φ : Int → K) (hE : TotalEnergy nrm m φ 0)
    (hz : ∀ i id v, m.nodes.idAt? i = some id → Equation.prescribed f i = some v → φ id = 0) (id : Int) (h : Anchored m f id) : φ id = 0 := by
  induction h with
  | fixed i id v h hv => exact hz i id v h hv
  | element eid e x y he hx hy _ ih => rw [← total_zero m hwf hs φ hE eid e he x hx y hy, ih]

end FemHeat

/-- **C144.** The program always has a result: it has the prescribed values, and among all fields with the prescribed values it has the least energy. If moreover every node hangs together with
a node with a prescribed value, every other such field has more energy, so the result does not depend on the solver. -/
theorem C144_least_energy {nrm : Vec3 K → K} (hn : IsNorm nrm) (r : K) (solver : Sys K → Nat → K) (hS : Sound solver) (junk junk' : Nat → K) (m : Mesh K) (hwf : m.WF)
    (hrt : m.nodes.RoundTrip) (hs : SimplexMesh nrm m) (pf : PdeField K) (hno : NoConditions pf m) (f : EqField K) (hm : f.method = .fem)
    (hf : IndicesOk f.uFixed m.nodes.count) :
    ∃ f', steady nrm r solver junk junk' m pf f = some f' ∧ f'.u.size = m.nodes.count ∧ ∀ φ, Holds m f'.u.at' φ →
      Meets m f φ ∧ ∃ E, TotalEnergy nrm m φ E ∧ ∀ ψ E', Meets m f ψ → TotalEnergy nrm m ψ E' →
        E ≤ E' ∧ ((∀ id ∈ m.nodes.ids, Anchored m f id) → (∃ id ∈ m.nodes.ids, ψ id ≠ φ id) → E < E') := by
  obtain ⟨s, f', h1, h2, h3, h4, h5, h6, h7, h8⟩ := steady_run hn r solver hS junk junk' m hwf hrt hs pf hno f hm hf
  refine ⟨f', h5, h6, fun φ hφ => ⟨fun i id v hi hv => ?_, _, (total_energy hn r m hwf hs φ).1, fun ψ E' hψ hE' => ?_⟩⟩
  · rw [hφ i id hi]
    exact h7 i (by rw [h2]; exact (List.getElem?_eq_some_iff.1 hi).1) v hv
  · have hE2 := (total_energy hn r m hwf hs ψ).2 E' hE'
    have hnod := nodal_of_holds m _ φ hφ
    have hrows : ∀ i < s.n, Equation.prescribed f i = none → s.row (nodal m φ) i = 0 := fun i hi hp => by
      rw [← h8 i hi hp]
      simp only [Sys.row]
      exact Finset.sum_congr rfl fun j hj => by rw [hnod j (h2 ▸ Finset.mem_range.1 hj)]
    have hsame : ∀ i < s.n, Equation.prescribed f i ≠ none → nodal m ψ i = nodal m φ i := fun i hi hp => by
      obtain ⟨v, hv⟩ := Option.ne_none_iff_exists'.1 hp
      obtain ⟨id, hid⟩ := idAt_of_lt m i (h2 ▸ hi)
      rw [hnod i (h2 ▸ hi), h7 i hi v hv]
      simp only [nodal, hid, Option.map_some, Option.getD_some]
      exact hψ i id v hid hv
    have hsp := energy_split s h3 _ _ _ hrows hsame
    have hd : (fun i => nodal m ψ i - nodal m φ i) = nodal m fun id => ψ id - φ id := by
      funext i
      simp only [nodal]
      cases m.nodes.idAt? i <;> simp
    rw [hd, h4, h4, h4] at hsp
    have hdE := (total_energy hn r m hwf hs (fun id => ψ id - φ id)).1
    have hd0 := total_nonneg m hs _ _ hdE
    refine ⟨by linarith, fun hanch hdiff => ?_⟩
    refine lt_of_le_of_ne (by linarith) fun heq => ?_
    obtain ⟨id, hid, hne⟩ := hdiff
    rw [show -overElements m (fun _ => elementTerm (elementLaplacian nrm r) m (fun id => ψ id - φ id) (fun id => ψ id - φ id)) = 0 by linarith] at hdE
    refine hne (sub_eq_zero.1 (anchored_zero m hwf hs f _ hdE (fun i id v hi hv => ?_) id (hanch id hid)))
    have hi' : i < s.n := by rw [h2]; exact (List.getElem?_eq_some_iff.1 hi).1
    rw [hψ i id v hi hv, hφ i id hi, h7 i hi' v hv, sub_self]

end ENigMA
