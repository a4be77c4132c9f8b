import Verif.Pde.FemHeatTime

/-!
# C145: conduction in time with finite elements
-/

set_option linter.unusedSectionVars false
set_option autoImplicit false

namespace ENigMA
open Matrix FemOp FemThermalOp Fem FemHeat FdmHeat
variable {K : Type} [Field K] [LinearOrder K] [IsStrictOrderedRing K]

namespace FemHeat

/-- A mesh the operators handle: simplices, elements numbered 0, 1, …, node ids within the number of nodes. -/
structure Good (nrm : Vec3 K → K) (m : Mesh K) : Prop where
  wf : m.WF
  trip : m.nodes.RoundTrip
  simplex : SimplexMesh nrm m
  elements : Contiguous m
  nodes : ∀ id ∈ m.nodes.ids, 0 ≤ id ∧ id < m.nodes.count

theorem mass_sub_left {nrm : Vec3 K → K} {m : Mesh K} (g : Good nrm m) (φ ψ χ : Int → K) : mass nrm m (fun x => φ x - ψ x) χ = mass nrm m φ χ - mass nrm m ψ χ := by
  obtain ⟨d, -, -, -, -, -, h⟩ := stored m g.wf g.trip g.simplex g.elements g.nodes (fun _ => 0)
  rw [← h, ← h, ← h, nodal_sub, form_sub_left]

theorem mass_sub_right {nrm : Vec3 K → K} {m : Mesh K} (g : Good nrm m) (φ ψ χ : Int → K) : mass nrm m χ (fun x => φ x - ψ x) = mass nrm m χ φ - mass nrm m χ ψ := by
  obtain ⟨d, -, -, -, -, -, h⟩ := stored m g.wf g.trip g.simplex g.elements g.nodes (fun _ => 0)
  rw [← h, ← h, ← h, nodal_sub, form_sub_right]

theorem plain_conditions (m : Mesh K) : NoConditions (PdeField.new 1) m := fun _ _ _ _ _ => rfl

theorem stiff_sub_left {nrm : Vec3 K → K} (r : K) {m : Mesh K} (g : Good nrm m) (φ ψ χ : Int → K) : stiff nrm r m (fun x => φ x - ψ x) χ = stiff nrm r m φ χ - stiff nrm r m ψ χ := by
  obtain ⟨s, -, -, -, -, -, h⟩ := conduct nrm r (PdeField.new 1) m g.wf g.trip g.simplex (plain_conditions m)
  unfold stiff
  rw [← h, ← h, ← h, nodal_sub, form_sub_left]
  ring

theorem stiff_sub_right {nrm : Vec3 K → K} (r : K) {m : Mesh K} (g : Good nrm m) (φ ψ χ : Int → K) : stiff nrm r m χ (fun x => φ x - ψ x) = stiff nrm r m χ φ - stiff nrm r m χ ψ := by
  obtain ⟨s, -, -, -, -, -, h⟩ := conduct nrm r (PdeField.new 1) m g.wf g.trip g.simplex (plain_conditions m)
  unfold stiff
  rw [← h, ← h, ← h, nodal_sub, form_sub_right]
  ring

theorem stiff_symm {nrm : Vec3 K → K} (r : K) {m : Mesh K} (g : Good nrm m) (φ ψ : Int → K) : stiff nrm r m φ ψ = stiff nrm r m ψ φ := by
  obtain ⟨s, -, -, -, -, h5, h⟩ := conduct nrm r (PdeField.new 1) m g.wf g.trip g.simplex (plain_conditions m)
  unfold stiff
  rw [← h, ← h, form_symm s h5]

theorem stiff_nonneg {nrm : Vec3 K → K} (hn : IsNorm nrm) (r : K) {m : Mesh K} (g : Good nrm m) (φ : Int → K) : 0 ≤ stiff nrm r m φ φ :=
  total_nonneg m g.simplex φ _ (total_energy hn r m g.wf g.simplex φ).1

/-- Constant fields have no energy with any other. -/
theorem stiff_one {nrm : Vec3 K → K} (hn : IsNorm nrm) (r : K) {m : Mesh K} (g : Good nrm m) (φ : Int → K) : stiff nrm r m (fun _ => 1) φ = 0 := by
  have h0 : stiff nrm r m (fun _ => 1) (fun _ => 1) = 0 := by
    refine ((total_energy hn r m g.wf g.simplex fun _ => 1).2 0 ⟨fun _ => 0, fun id hid => ?_, by simp⟩).symm
    obtain ⟨e, he⟩ := (g.wf.elements.2 id).1 hid
    obtain ⟨ps, h1, h2⟩ := g.simplex id e he
    refine ⟨e, ps, he, h1, ?_⟩
    have hl := mapM_length _ _ _ h1
    generalize e.elementType = t at h2
    have e0 : e.nodeIds.map (fun _ => (1 : K)) = List.replicate ps.length 1 := by rw [hl]; simp
    rw [e0]
    cases h2 with
    | beam p q h => have := Energy.beam (nrm := nrm) p q 1 1; rw [sub_self, zero_div, mul_zero, mul_zero] at this; exact this
    | triangle a b c h =>
      have := Energy.triangle (nrm := nrm) a b c 0 1 1 1 (Vec3.zero_dot _) (by rw [Vec3.zero_dot, sub_self]) (by rw [Vec3.zero_dot, sub_self])
      rw [Vec3.zero_dot, mul_zero] at this; exact this
    | tetrahedron a b c d h =>
      have := Energy.tetrahedron (nrm := nrm) a b c d 0 1 1 1 1 (by rw [Vec3.zero_dot, sub_self]) (by rw [Vec3.zero_dot, sub_self]) (by rw [Vec3.zero_dot, sub_self])
      rw [Vec3.zero_dot, mul_zero] at this; exact this
  have hneg : ∀ t : K, 0 ≤ stiff nrm r m φ φ - 2 * t * stiff nrm r m (fun _ => 1) φ := fun t => by
    obtain ⟨s, -, h2, -, -, h5, h⟩ := conduct nrm r (PdeField.new 1) m g.wf g.trip g.simplex (plain_conditions m)
    have hq := stiff_nonneg hn r g (fun x => φ x - t)
    have e1 : ∀ ψ, stiff nrm r m (fun _ => t) ψ = t * stiff nrm r m (fun _ => 1) ψ := fun ψ => by
      unfold stiff
      rw [← h, ← h]
      have : nodal m (fun _ => t) = fun i => t * nodal m (fun _ => 1) i := by
        funext i; simp only [nodal]; cases m.nodes.idAt? i <;> simp
      rw [this]
      simp only [Sys.form, Finset.mul_sum, mul_neg]
      rw [neg_inj]
      exact Finset.sum_congr rfl fun i _ => Finset.sum_congr rfl fun j _ => by ring
    rw [stiff_sub_left r g, stiff_sub_right r g, stiff_sub_right r g, e1, e1, stiff_symm r g φ fun _ => t, e1, stiff_symm r g (fun _ => 1) fun _ => t, e1, h0] at hq
    linarith
  by_contra hne
  have h1 := hneg ((stiff nrm r m φ φ + 1) / (2 * stiff nrm r m (fun _ => 1) φ))
  have h2 : 2 * ((stiff nrm r m φ φ + 1) / (2 * stiff nrm r m (fun _ => 1) φ)) * stiff nrm r m (fun _ => 1) φ = stiff nrm r m φ φ + 1 := by field_simp
  linarith

/-- A field that vanishes where values are prescribed. -/
def Rest (m : Mesh K) (f : EqField K) (ψ : Int → K) : Prop := ∀ i id, m.nodes.idAt? i = some id → Equation.prescribed f i ≠ none → ψ id = 0

theorem kept (solver : Sys K → Nat → K) (junk : Nat → K) (e : Equation K) (f f' : EqField K) (h : e.solve solver junk f = some f') : f'.method = f.method ∧ f'.uFixed = f.uFixed := by
  unfold Equation.solve at h
  split at h
  · obtain ⟨u, -, h⟩ := Option.bind_eq_some_iff.1 h
    obtain ⟨u', -, h⟩ := Option.bind_eq_some_iff.1 h
    cases h
    exact ⟨rfl, rfl⟩
  · obtain ⟨u, -, h⟩ := Option.bind_eq_some_iff.1 h
    cases h
    exact ⟨rfl, rfl⟩

/-- What a step leaves in the field. -/
theorem step_run {nrm : Vec3 K → K} (hn : IsNorm nrm) (r : K) (solver : Sys K → Nat → K) (hS : Sound solver) (junk junk' : Nat → K) (m : Mesh K) (g : Good nrm m)
    (pf : PdeField K) (hno : NoConditions pf m) (P : Par K) (hrc : 0 < P.rc) (hdt : 0 < P.dt) (hk : 0 ≤ P.k) (f : EqField K) (hm : f.method = .fem)
    (hf : IndicesOk f.uFixed m.nodes.count) :
    ∃ f', step nrm r solver junk junk' m pf P f = some f' ∧ f'.u.size = m.nodes.count ∧ f'.uFixed = f.uFixed ∧ f'.method = .fem ∧
      ∀ φ φ', Holds m f.u.at' φ → Holds m f'.u.at' φ' → Meets m f φ' ∧
        ∀ ψ, Rest m f ψ → P.rc / P.dt * (mass nrm m ψ φ' - mass nrm m ψ φ) + P.k * stiff nrm r m ψ φ' = 0 := by
  obtain ⟨d, d1, d2, d3, d4, d5, d6⟩ := stored m g.wf g.trip g.simplex g.elements g.nodes f.u.at'
  obtain ⟨l, l1, l2, l3, l4, l5, l6⟩ := conduct nrm r pf m g.wf g.trip g.simplex hno
  have ha : 0 < P.rc / P.dt := div_pos hrc hdt
  obtain ⟨s, hs⟩ : ∃ s : Sys K, s = { kind := Sys.joinKind d.kind l.kind, n := d.n, A := fun i j => P.rc / P.dt * d.A i j - P.k * l.A i j, b := fun i => P.rc / P.dt * d.b i - P.k * l.b i } :=
    ⟨_, rfl⟩
  have hsub : (Sys.smul (P.rc / P.dt) d).sub (Sys.smul P.k l) = some s := by
    unfold Sys.sub Sys.smul
    rw [if_pos (show d.n = l.n by rw [d2, l2]), hs]
  have hsn : s.n = m.nodes.count := by rw [hs]; exact d2
  have hform : ∀ v w, s.form v w = P.rc / P.dt * d.form v w - P.k * l.form v w := fun v w => by
    have hln : l.n = d.n := by rw [d2, l2]
    rw [hs]
    simp only [Sys.form, hln, Finset.mul_sum]
    rw [← Finset.sum_sub_distrib]
    refine Finset.sum_congr rfl fun i _ => ?_
    rw [← Finset.sum_sub_distrib]
    exact Finset.sum_congr rfl fun j _ => by ring
  have hload : ∀ v, s.load v = P.rc / P.dt * d.form v f.u.at' := fun v => by
    rw [Sys.form_rows, Sys.load, hs, Finset.mul_sum]
    refine Finset.sum_congr rfl fun i hi => ?_
    have hi' := Finset.mem_range.1 hi
    show v i * (P.rc / P.dt * d.b i - P.k * l.b i) = _
    rw [d4 i hi', l4 i (by rw [l2, ← d2]; exact hi')]
    ring
  have hlneg : ∀ v, l.form v v ≤ 0 := fun v => by
    obtain ⟨φ, -, hφ⟩ := nodal_surj m g.wf v
    rw [Sys.form_congr l v (nodal m φ) v (nodal m φ) (fun i hi => (hφ i (l2 ▸ hi)).symm) (fun i hi => (hφ i (l2 ▸ hi)).symm), l6]
    have := stiff_nonneg hn r g φ
    unfold stiff at this
    linarith
  have hpsd : Psd s := by
    refine ⟨fun i hi j hj => ?_, fun v => ?_⟩
    · rw [hs]
      show P.rc / P.dt * d.A i j - P.k * l.A i j = P.rc / P.dt * d.A j i - P.k * l.A j i
      rw [d5.1 i (by rw [d2, ← hsn]; exact hi) j (by rw [d2, ← hsn]; exact hj), l5 i (by rw [l2, ← hsn]; exact hi) j (by rw [l2, ← hsn]; exact hj)]
    · rw [hform]
      have h1 := mul_nonneg ha.le (d5.2 v)
      have h2 := mul_nonneg hk (neg_nonneg.2 (hlneg v))
      linarith
  obtain ⟨f', g1, g2, g3, g4, g5⟩ := Equation.eliminate_run solver hS junk junk' s f hm (by rw [hs]; show Sys.joinKind d.kind l.kind ≠ _; rw [d3, l3]; decide) (by rw [hsn]; exact hf)
    (psd_free s hpsd (fun v hv => by
      rw [hform] at hv
      have h1 := mul_nonneg ha.le (d5.2 v)
      have h2 := mul_nonneg hk (neg_nonneg.2 (hlneg v))
      have h3 : d.form v v = 0 := (mul_eq_zero.1 (by linarith : P.rc / P.dt * d.form v v = 0)).resolve_left ha.ne'
      rw [hload, psd_null d d5 v _ h3, mul_zero]) (Equation.prescribed f))
  have hm' : f'.method = .fem := by
    obtain ⟨e, -, he⟩ := Option.bind_eq_some_iff.1 g1
    rw [(kept solver junk' e f f' he).1, hm]
  refine ⟨f', ?_, by rw [g2, hsn], g3, hm', fun φ φ' hφ hφ' => ⟨fun i id v hi hv => ?_, fun ψ hψ => ?_⟩⟩
  · unfold step
    rw [d1, Option.bind_eq_bind, Option.bind_some, l1, Option.bind_eq_bind, Option.bind_some, hsub]
    show (Equation.setElimination junk (Equation.new (s.assignReal 0)) f).bind _ = _
    rw [Sys.assignZero']
    exact g1
  · rw [hφ' i id hi]
    exact g4 i (by rw [hsn]; exact (List.getElem?_eq_some_iff.1 hi).1) v hv
  · have h1 : s.form (nodal m ψ) f'.u.at' = s.load (nodal m ψ) := by
      rw [Sys.form_rows, Sys.load]
      refine Finset.sum_congr rfl fun i hi => ?_
      have hi' := Finset.mem_range.1 hi
      by_cases hp : Equation.prescribed f i = none
      · rw [g5 i hi' hp]
      · obtain ⟨x, hx⟩ := idAt_of_lt m i (hsn ▸ hi')
        have : nodal m ψ i = 0 := by rw [nodal, hx, Option.map_some, Option.getD_some, hψ i x hx hp]
        rw [this, zero_mul, zero_mul]
    have e1 : s.form (nodal m ψ) f'.u.at' = s.form (nodal m ψ) (nodal m φ') :=
      Sys.form_congr s _ _ _ _ (fun _ _ => rfl) (fun i hi => (nodal_of_holds m _ φ' hφ' i (hsn ▸ hi)).symm)
    have e2 : d.form (nodal m ψ) f.u.at' = d.form (nodal m ψ) (nodal m φ) :=
      Sys.form_congr d _ _ _ _ (fun _ _ => rfl) (fun i hi => (nodal_of_holds m _ φ hφ i (d2 ▸ hi)).symm)
    rw [e1, hform, hload, e2, d6, d6, l6] at h1
    unfold stiff
    linear_combination h1

/-- The fields along a run. -/
theorem steps_run {nrm : Vec3 K → K} (hn : IsNorm nrm) (r : K) (solver : Sys K → Nat → K) (hS : Sound solver) (junk junk' : Nat → K) (m : Mesh K) (g : Good nrm m)
    (pf : PdeField K) (hno : NoConditions pf m) (P : Par K) (hrc : 0 < P.rc) (hdt : 0 < P.dt) (hk : 0 ≤ P.k) (f : EqField K) (hm : f.method = .fem)
    (hf : IndicesOk f.uFixed m.nodes.count) (n : Nat) : ∃ f', steps nrm r solver junk junk' m pf P n f = some f' ∧ f'.uFixed = f.uFixed ∧ f'.method = .fem := by
  induction n with
  | zero => exact ⟨f, rfl, rfl, hm⟩
  | succ n ih =>
    obtain ⟨f', h1, h2, h3⟩ := ih
    obtain ⟨f'', a1, -, a3, a4, -⟩ := step_run hn r solver hS junk junk' m g pf hno P hrc hdt hk f' h3 (by rw [h2]; exact hf)
    refine ⟨f'', ?_, by rw [a3, h2], a4⟩
    show (steps nrm r solver junk junk' m pf P n f).bind _ = _
    rw [h1]
    exact a1

end FemHeat

/-- **C145, one step.** A step always has a result. It has the prescribed values, and among all fields that have them it makes `rc/dt` times the integral of the squared change plus `k` times the
energy smallest; if every node belongs to an element, every other field has more, so the result does not depend on the solver. -/
theorem C145_step {nrm : Vec3 K → K} (hn : IsNorm nrm) (r : K) (solver : Sys K → Nat → K) (hS : Sound solver) (junk junk' : Nat → K) (m : Mesh K) (g : Good nrm m)
    (pf : PdeField K) (hno : NoConditions pf m) (P : Par K) (hrc : 0 < P.rc) (hdt : 0 < P.dt) (hk : 0 ≤ P.k) (f : EqField K) (hm : f.method = .fem)
    (hf : IndicesOk f.uFixed m.nodes.count) :
    ∃ f', step nrm r solver junk junk' m pf P f = some f' ∧ f'.u.size = m.nodes.count ∧ ∀ φ φ', Holds m f.u.at' φ → Holds m f'.u.at' φ' → Meets m f φ' ∧
      ∃ S E, TotalProduct nrm m (fun x => φ' x - φ x) (fun x => φ' x - φ x) S ∧ TotalEnergy nrm m φ' E ∧
        ∀ ψ S' E', Meets m f ψ → TotalProduct nrm m (fun x => ψ x - φ x) (fun x => ψ x - φ x) S' → TotalEnergy nrm m ψ E' →
          P.rc / P.dt * S + P.k * E ≤ P.rc / P.dt * S' + P.k * E' ∧
          (Covered m → (∃ id ∈ m.nodes.ids, ψ id ≠ φ' id) → P.rc / P.dt * S + P.k * E < P.rc / P.dt * S' + P.k * E') := by
  obtain ⟨f', h1, h2, -, -, h5⟩ := step_run hn r solver hS junk junk' m g pf hno P hrc hdt hk f hm hf
  refine ⟨f', h1, h2, fun φ φ' hφ hφ' => ?_⟩
  obtain ⟨h6, h7⟩ := h5 φ φ' hφ hφ'
  refine ⟨h6, _, _, (total_product m g.wf g.simplex _ _).1, (total_energy hn r m g.wf g.simplex φ').1, fun ψ S' E' hψ hS' hE' => ?_⟩
  have hw := h7 (fun x => ψ x - φ' x) (fun i id hi hp => by
    obtain ⟨v, hv⟩ := Option.ne_none_iff_exists'.1 hp
    show ψ id - φ' id = 0
    rw [hψ i id v hi hv, h6 i id v hi hv, sub_self])
  have ha : 0 < P.rc / P.dt := div_pos hrc hdt
  rw [(total_product m g.wf g.simplex _ _).2 S' hS', (total_energy hn r m g.wf g.simplex ψ).2 E' hE']
  have hsp : P.rc / P.dt * mass nrm m (fun x => ψ x - φ x) (fun x => ψ x - φ x) + P.k * stiff nrm r m ψ ψ =
      P.rc / P.dt * mass nrm m (fun x => φ' x - φ x) (fun x => φ' x - φ x) + P.k * stiff nrm r m φ' φ' +
        (P.rc / P.dt * mass nrm m (fun x => ψ x - φ' x) (fun x => ψ x - φ' x) + P.k * stiff nrm r m (fun x => ψ x - φ' x) (fun x => ψ x - φ' x)) := by
    simp only [mass_sub_left g, mass_sub_right g, stiff_sub_left r g, stiff_sub_right r g] at hw ⊢
    rw [mass_symm m g.wf g.simplex φ ψ, mass_symm m g.wf g.simplex φ φ', mass_symm m g.wf g.simplex φ' ψ, stiff_symm r g φ' ψ] at *
    linear_combination 2 * hw
  have hs0 := mul_nonneg hk (stiff_nonneg hn r g fun x => ψ x - φ' x)
  obtain ⟨hm0, hm1⟩ := mass_nonneg m g.wf g.simplex fun x => ψ x - φ' x
  have hm2 := mul_nonneg ha.le hm0
  show P.rc / P.dt * mass nrm m (fun x => φ' x - φ x) (fun x => φ' x - φ x) + P.k * stiff nrm r m φ' φ' ≤ P.rc / P.dt * mass nrm m (fun x => ψ x - φ x) (fun x => ψ x - φ x) + P.k * stiff nrm r m ψ ψ ∧
    (_ → _ → P.rc / P.dt * mass nrm m (fun x => φ' x - φ x) (fun x => φ' x - φ x) + P.k * stiff nrm r m φ' φ' < P.rc / P.dt * mass nrm m (fun x => ψ x - φ x) (fun x => ψ x - φ x) + P.k * stiff nrm r m ψ ψ)
  refine ⟨by linarith, fun hcov hdiff => lt_of_le_of_ne (by linarith) fun heq => ?_⟩
  obtain ⟨x, hx, hne⟩ := hdiff
  obtain ⟨id, e, he, hxe⟩ := hcov x hx
  have h0 : mass nrm m (fun x => ψ x - φ' x) (fun x => ψ x - φ' x) = 0 := (mul_eq_zero.1 (by linarith : P.rc / P.dt * mass nrm m (fun x => ψ x - φ' x) (fun x => ψ x - φ' x) = 0)).resolve_left ha.ne'
  exact hne (sub_eq_zero.1 (hm1 h0 id e he x hxe))

/-- **C145, heat is kept.** Without prescribed values the integral of the temperature stays what it was, over any number of steps. -/
theorem C145_insulated {nrm : Vec3 K → K} (hn : IsNorm nrm) (r : K) (solver : Sys K → Nat → K) (hS : Sound solver) (junk junk' : Nat → K) (m : Mesh K) (g : Good nrm m)
    (pf : PdeField K) (hno : NoConditions pf m) (P : Par K) (hrc : 0 < P.rc) (hdt : 0 < P.dt) (hk : 0 ≤ P.k) (f : EqField K) (hm : f.method = .fem)
    (hf : ∀ i, f.uFixed.find? i = none) (n : Nat) :
    ∃ f', steps nrm r solver junk junk' m pf P n f = some f' ∧ ∀ φ φ' H, Holds m f.u.at' φ → Holds m f'.u.at' φ' → TotalHeat nrm m φ H → TotalHeat nrm m φ' H := by
  have hok : IndicesOk f.uFixed m.nodes.count := fun i v h => by rw [hf] at h; cases h
  induction n with
  | zero =>
    refine ⟨f, rfl, fun φ φ' H h h' hH => ?_⟩
    have e : ∀ id e, m.elements.get? id = some e → e.nodeIds.map φ' = e.nodeIds.map φ := fun id e he => List.map_congr_left fun x hx => by
      obtain ⟨i, hi⟩ := List.getElem?_of_mem (g.wf.elemNodes id e he x hx)
      rw [h i x hi, h' i x hi]
    obtain ⟨ht, h1, h2⟩ := hH
    refine ⟨ht, fun id hid => ?_, h2⟩
    obtain ⟨e', ps, V, a1, a2, a3, a4⟩ := h1 id hid
    exact ⟨e', ps, V, a1, a2, a3, by rw [a4, e id e' a1]⟩
  | succ n ih =>
    obtain ⟨f', h1, h2⟩ := ih
    obtain ⟨f1, b1, b2, b3⟩ := steps_run hn r solver hS junk junk' m g pf hno P hrc hdt hk f hm hok n
    rw [h1, Option.some.injEq] at b1
    subst b1
    obtain ⟨f'', a1, -, -, -, a5⟩ := step_run hn r solver hS junk junk' m g pf hno P hrc hdt hk f' b3 (by rw [b2]; exact hok)
    refine ⟨f'', ?_, fun φ φ'' H hφ hφ'' hH => ?_⟩
    · show (steps nrm r solver junk junk' m pf P n f).bind _ = _
      rw [h1]
      exact a1
    · obtain ⟨φ', hφ', -⟩ := nodal_surj m g.wf f'.u.at'
      have hH' := h2 φ φ' H hφ hφ' hH
      have hw := (a5 φ' φ'' hφ' hφ'').2 (fun _ => 1) (fun i id _ hp => by
        exfalso
        refine hp ?_
        unfold Equation.prescribed
        rw [b2, hf])
      rw [stiff_one hn r g, mul_zero, add_zero] at hw
      have hz := (mul_eq_zero.1 hw).resolve_left (div_pos hrc hdt).ne'
      rw [(total_heat m g.wf g.simplex φ').2 H hH']
      have := (total_heat (nrm := nrm) m g.wf g.simplex φ'').1
      rw [mass_symm m g.wf g.simplex] at this ⊢
      rw [← sub_eq_zero.1 hz]
      exact this

end ENigMA
