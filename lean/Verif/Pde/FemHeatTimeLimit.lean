import Verif.Pde.FemHeatTimeProps

/-!
# C145: what runs tend to
-/

set_option linter.unusedSectionVars false
set_option autoImplicit false

namespace ENigMA
open Matrix FemOp FemThermalOp Fem FemHeat FdmHeat
variable {K : Type} [Field K] [LinearOrder K] [IsStrictOrderedRing K]

namespace FemHeat

/-- One step of a difference of two runs. -/
theorem decay {nrm : Vec3 K → K} (hn : IsNorm nrm) (r : K) {m : Mesh K} (g : Good nrm m) (f : EqField K) (a k : K) (ha : 0 < a) (δ δ' : Int → K) (hr : Rest m f δ')
    (h : ∀ ψ, Rest m f ψ → a * (mass nrm m ψ δ' - mass nrm m ψ δ) + k * stiff nrm r m ψ δ' = 0) :
    a * mass nrm m δ' δ' + 2 * (k * stiff nrm r m δ' δ') ≤ a * mass nrm m δ δ ∧ (Rest m f δ → 0 ≤ k → k * stiff nrm r m δ' δ' ≤ k * stiff nrm r m δ δ) := by
  have hd := mul_nonneg ha.le (mass_nonneg m g.wf g.simplex fun x => δ' x - δ x).1
  simp only [mass_sub_left g, mass_sub_right g] at hd
  rw [mass_symm m g.wf g.simplex δ δ'] at hd
  constructor
  · have h1 := h δ' hr
    linarith
  · intro hr0 hk
    have h1 := h (fun x => δ' x - δ x) (fun i id hi hp => by show δ' id - δ id = 0; rw [hr i id hi hp, hr0 i id hi hp, sub_self])
    have h2 := mul_nonneg hk (stiff_nonneg hn r g fun x => δ' x - δ x)
    simp only [mass_sub_left g, stiff_sub_left r g, stiff_sub_right r g] at h1 h2
    rw [mass_symm m g.wf g.simplex δ δ'] at h1
    rw [stiff_symm r g δ' δ] at h2
    linarith

theorem rest_of (m : Mesh K) (f h : EqField K) (hfix : f.uFixed = h.uFixed) (ψ : Int → K) (hr : Rest m f ψ) : Rest m h ψ := fun i id hi hp => hr i id hi (by
  unfold Equation.prescribed at hp ⊢; rw [hfix]; exact hp)

theorem meets_of (m : Mesh K) (f h : EqField K) (hfix : f.uFixed = h.uFixed) (ψ : Int → K) (hr : Meets m f ψ) : Meets m h ψ := fun i id v hi hp => hr i id v hi (by
  unfold Equation.prescribed at hp ⊢; rw [hfix]; exact hp)

theorem meets_sub (m : Mesh K) (f : EqField K) (φ χ : Int → K) (h1 : Meets m f φ) (h2 : Meets m f χ) : Rest m f fun x => φ x - χ x := fun i id hi hp => by
  obtain ⟨v, hv⟩ := Option.ne_none_iff_exists'.1 hp
  show φ id - χ id = 0
  rw [h1 i id v hi hv, h2 i id v hi hv, sub_self]

/-- Fields with the same values at the nodes. -/
theorem mass_congr {nrm : Vec3 K → K} {m : Mesh K} (hwf : m.WF) (φ φ' ψ ψ' : Int → K) (h : ∀ x ∈ m.nodes.ids, φ x = φ' x) (h' : ∀ x ∈ m.nodes.ids, ψ x = ψ' x) :
    mass nrm m φ ψ = mass nrm m φ' ψ' := by
  refine over_congr m hwf _ _ fun id e he => ?_
  unfold elementTerm
  rw [List.map_congr_left fun x hx => h x (hwf.elemNodes id e he x hx), List.map_congr_left fun x hx => h' x (hwf.elemNodes id e he x hx)]

theorem stiff_congr {nrm : Vec3 K → K} {r : K} {m : Mesh K} (hwf : m.WF) (φ φ' ψ ψ' : Int → K) (h : ∀ x ∈ m.nodes.ids, φ x = φ' x) (h' : ∀ x ∈ m.nodes.ids, ψ x = ψ' x) :
    stiff nrm r m φ ψ = stiff nrm r m φ' ψ' := by
  unfold stiff
  rw [over_congr m hwf _ (elementTerm (elementLaplacian nrm r) m φ' ψ') fun id e he => ?_]
  unfold elementTerm
  rw [List.map_congr_left fun x hx => h x (hwf.elemNodes id e he x hx), List.map_congr_left fun x hx => h' x (hwf.elemNodes id e he x hx)]

theorem holds_unique {m : Mesh K} {u : Nat → K} {φ φ' : Int → K} (h : Holds m u φ) (h' : Holds m u φ') : ∀ x ∈ m.nodes.ids, φ x = φ' x := fun x hx => by
  obtain ⟨i, hi⟩ := List.getElem?_of_mem hx
  rw [h i x hi, h' i x hi]

/-- A field every step keeps, and a run beside it. -/
theorem approach {nrm : Vec3 K → K} (hn : IsNorm nrm) (r : K) (solver : Sys K → Nat → K) (hS : Sound solver) (junk junk' : Nat → K) (m : Mesh K) (g : Good nrm m)
    (pf : PdeField K) (hno : NoConditions pf m) (P : Par K) (hrc : 0 < P.rc) (hdt : 0 < P.dt) (hk : 0 ≤ P.k) (f : EqField K) (hm : f.method = .fem)
    (hf : IndicesOk f.uFixed m.nodes.count) (χ : Nat → Int → K) (hχ : ∀ n, Meets m f (χ (n + 1)))
    (hw : ∀ n ψ, Rest m f ψ → P.rc / P.dt * (mass nrm m ψ (χ (n + 1)) - mass nrm m ψ (χ n)) + P.k * stiff nrm r m ψ (χ (n + 1)) = 0) (n : Nat) :
    ∃ f', steps nrm r solver junk junk' m pf P n f = some f' ∧ f'.uFixed = f.uFixed ∧ f'.method = .fem ∧ ∀ φ φ', Holds m f.u.at' φ → Holds m f'.u.at' φ' →
      (n ≠ 0 → Meets m f φ') ∧
      P.rc / P.dt * mass nrm m (fun x => φ' x - χ n x) (fun x => φ' x - χ n x) + 2 * n * (P.k * stiff nrm r m (fun x => φ' x - χ n x) (fun x => φ' x - χ n x)) ≤
        P.rc / P.dt * mass nrm m (fun x => φ x - χ 0 x) (fun x => φ x - χ 0 x) := by
  have ha : 0 < P.rc / P.dt := div_pos hrc hdt
  induction n with
  | zero =>
    refine ⟨f, rfl, rfl, hm, fun φ φ' h h' => ⟨fun h => absurd rfl h, ?_⟩⟩
    have e := holds_unique h' h
    have e' : ∀ x ∈ m.nodes.ids, (fun x => φ' x - χ 0 x) x = (fun x => φ x - χ 0 x) x := fun x hx => by show φ' x - χ 0 x = φ x - χ 0 x; rw [e x hx]
    rw [mass_congr g.wf _ _ _ _ e' e']
    push_cast
    linarith
  | succ n ih =>
    obtain ⟨f', h1, h2, h3, h4⟩ := ih
    obtain ⟨f'', a1, -, a3, a4, a5⟩ := step_run hn r solver hS junk junk' m g pf hno P hrc hdt hk f' h3 (by rw [h2]; exact hf)
    refine ⟨f'', ?_, by rw [a3, h2], a4, fun φ φ'' hφ hφ'' => ?_⟩
    · show (steps nrm r solver junk junk' m pf P n f).bind _ = _
      rw [h1]
      exact a1
    · obtain ⟨φ', hφ', -⟩ := nodal_surj m g.wf f'.u.at'
      obtain ⟨b1, b2⟩ := h4 φ φ' hφ hφ'
      obtain ⟨c1, c2⟩ := a5 φ' φ'' hφ' hφ''
      have c1' := meets_of m f' f h2 φ'' c1
      refine ⟨fun _ => c1', ?_⟩
      obtain ⟨d1, d2⟩ := decay hn r g f (P.rc / P.dt) P.k ha (fun x => φ' x - χ n x) (fun x => φ'' x - χ (n + 1) x) (meets_sub m f _ _ c1' (hχ n)) (fun ψ hψ => by
        have e1 := c2 ψ (rest_of m f f' h2.symm ψ hψ)
        have e2 := hw n ψ hψ
        simp only [mass_sub_right g, stiff_sub_right r g]
        linear_combination e1 - e2)
      rcases Nat.eq_zero_or_pos n with rfl | hpos
      · push_cast at b2 ⊢
        linarith
      · obtain ⟨n', rfl⟩ : ∃ n', n = n' + 1 := ⟨n - 1, by omega⟩
        have hmono := d2 (meets_sub m f _ _ (b1 (by omega)) (hχ n')) hk
        have hn2 : (0 : K) ≤ 2 * ((n' + 1 : ℕ) : K) := by positivity
        have := mul_le_mul_of_nonneg_left hmono hn2
        push_cast at b2 this ⊢
        linarith

/-- The result of the steady program is kept by every step. -/
theorem steady_weak {nrm : Vec3 K → K} (hn : IsNorm nrm) (r : K) (solver : Sys K → Nat → K) (hS : Sound solver) (junk junk' : Nat → K) (m : Mesh K) (g : Good nrm m)
    (pf : PdeField K) (hno : NoConditions pf m) (f : EqField K) (hm : f.method = .fem) (hf : IndicesOk f.uFixed m.nodes.count) :
    ∃ f', steady nrm r solver junk junk' m pf f = some f' ∧ ∀ χ, Holds m f'.u.at' χ → Meets m f χ ∧ ∀ ψ, Rest m f ψ → stiff nrm r m ψ χ = 0 := by
  obtain ⟨s, f', h1, h2, h3, h4, h5, h6, h7, h8⟩ := steady_run hn r solver hS junk junk' m g.wf g.trip g.simplex pf hno f hm hf
  refine ⟨f', h5, fun χ hχ => ⟨fun i id v hi hv => ?_, fun ψ hψ => ?_⟩⟩
  · rw [hχ i id hi]
    exact h7 i (by rw [h2]; exact (List.getElem?_eq_some_iff.1 hi).1) v hv
  · unfold stiff
    rw [← h4, Sys.form_rows, neg_eq_zero]
    refine Finset.sum_eq_zero fun i hi => ?_
    have hi' := Finset.mem_range.1 hi
    by_cases hp : Equation.prescribed f i = none
    · have := h8 i hi' hp
      rw [show s.row (nodal m χ) i = s.row f'.u.at' i from Finset.sum_congr rfl fun j hj => by rw [nodal_of_holds m _ χ hχ j (h2 ▸ Finset.mem_range.1 hj)], this, mul_zero]
    · obtain ⟨x, hx⟩ := idAt_of_lt m i (h2 ▸ hi')
      have : nodal m ψ i = 0 := by rw [nodal, hx, Option.map_some, Option.getD_some, hψ i x hx hp]
      rw [this, zero_mul]

/-! ### The energy bounds the values -/

/-- The linear function on a simplex. -/
theorem energy_affine {nrm : Vec3 K → K} (hn : IsNorm nrm) {t : ElementType} {ps : List (Vec3 K)} (h : Simplex nrm t ps) {us : List K} {E V : K} (hE : Energy nrm t ps us E) (hV : Measure nrm t ps V) :
    ∃ (c : K) (w : Vec3 K), us = ps.map (fun p => c + w.dot p) ∧ E = V * w.dot w := by
  cases hE with
  | beam p q u v =>
    cases h with | beam _ _ h => ?_
    cases hV
    have hsq := hn.sq (q - p)
    have h0 := h.ne'
    have hw : (((v - u) / (nrm (q - p) * nrm (q - p))) • (q - p)).dot (q - p) = v - u := by
      rw [Vec3.smul_dot, show (q - p).dot (q - p) = nrm (q - p) * nrm (q - p) by rw [hsq]; rfl]
      field_simp
    rw [Vec3.dot_sub] at hw
    refine ⟨u - (((v - u) / (nrm (q - p) * nrm (q - p))) • (q - p)).dot p, ((v - u) / (nrm (q - p) * nrm (q - p))) • (q - p), ?_, ?_⟩
    · rw [List.map_cons, List.map_cons, List.map_nil, List.cons.injEq, List.cons.injEq]
      exact ⟨by ring, by linear_combination -hw, rfl⟩
    · rw [Vec3.smul_dot, Vec3.dot_smul, show (q - p).dot (q - p) = nrm (q - p) * nrm (q - p) by rw [hsq]; rfl]
      field_simp
  | triangle a b c w u v z h0 h1 h2 =>
    cases hV
    rw [Vec3.dot_sub] at h1 h2
    refine ⟨u - w.dot a, w, ?_, rfl⟩
    rw [List.map_cons, List.map_cons, List.map_cons, List.map_nil, List.cons.injEq, List.cons.injEq, List.cons.injEq]
    exact ⟨by ring, by linear_combination -h1, by linear_combination -h2, rfl⟩
  | tetrahedron a b c d w u v z y h1 h2 h3 =>
    cases hV
    rw [Vec3.dot_sub] at h1 h2 h3
    refine ⟨y - w.dot d, w, ?_, rfl⟩
    rw [List.map_cons, List.map_cons, List.map_cons, List.map_cons, List.map_nil, List.cons.injEq, List.cons.injEq, List.cons.injEq, List.cons.injEq]
    exact ⟨by linear_combination -h1, by linear_combination -h2, by linear_combination -h3, by ring, rfl⟩

theorem cauchy (v w : Vec3 K) : v.dot w * v.dot w ≤ v.dot v * w.dot w := by
  have := mul_self_nonneg (v.y * w.z - v.z * w.y)
  have := mul_self_nonneg (v.z * w.x - v.x * w.z)
  have := mul_self_nonneg (v.x * w.y - v.y * w.x)
  simp only [Vec3.dot]
  nlinarith

/-- On a simplex the energy bounds the differences. -/
theorem energy_bounds {nrm : Vec3 K → K} (hn : IsNorm nrm) {t : ElementType} {ps : List (Vec3 K)} (h : Simplex nrm t ps) :
    ∃ C : K, 0 ≤ C ∧ ∀ us E, Energy nrm t ps us E → ∀ x ∈ us, ∀ y ∈ us, (x - y) * (x - y) ≤ C * E := by
  obtain ⟨V, hV, hpos⟩ := measure_pos h
  have hR : ∀ l : List (Vec3 K × Vec3 K), 0 ≤ (l.map fun p => (p.1 - p.2).dot (p.1 - p.2)).sum ∧ ∀ p ∈ l, (p.1 - p.2).dot (p.1 - p.2) ≤ (l.map fun p => (p.1 - p.2).dot (p.1 - p.2)).sum := by
    intro l
    induction l with
    | nil => simp
    | cons a l ih =>
      rw [List.map_cons, List.sum_cons]
      have ha := dot_self_nonneg (a.1 - a.2)
      refine ⟨add_nonneg ha ih.1, fun p hp => ?_⟩
      rcases List.mem_cons.1 hp with rfl | hp
      · linarith [ih.1]
      · linarith [ih.2 p hp]
  obtain ⟨h1, h2⟩ := hR (ps ×ˢ ps)
  refine ⟨_, div_nonneg h1 hpos.le, fun us E hE x hx y hy => ?_⟩
  obtain ⟨c, w, rfl, rfl⟩ := energy_affine hn h hE hV
  obtain ⟨p, hp, rfl⟩ := List.mem_map.1 hx
  obtain ⟨q, hq, rfl⟩ := List.mem_map.1 hy
  have h3 := h2 (p, q) (List.mem_product.2 ⟨hp, hq⟩)
  have h4 := cauchy w (p - q)
  have h5 := mul_le_mul_of_nonneg_left h3 (dot_self_nonneg w)
  have e : (c + w.dot p - (c + w.dot q)) = w.dot (p - q) := by rw [Vec3.dot_sub]; ring
  rw [e, div_mul_eq_mul_div, le_div_iff₀ hpos]
  have h6 := mul_le_mul_of_nonneg_right (h4.trans h5) hpos.le
  linarith

theorem element_le (l : List Int) (en : Int → K) (h : ∀ id ∈ l, 0 ≤ en id) (a : Int) (ha : a ∈ l) : en a ≤ (l.map en).sum := by
  induction l with
  | nil => cases ha
  | cons b t ih =>
    rw [List.map_cons, List.sum_cons]
    have hb := h b (List.mem_cons_self ..)
    have ht := (sum_nonneg_zero t en fun id hid => h id (List.mem_cons_of_mem _ hid)).1
    rcases List.mem_cons.1 ha with rfl | ha
    · linarith
    · linarith [ih (fun id hid => h id (List.mem_cons_of_mem _ hid)) ha]

/-- On an element of the mesh. -/
theorem total_bounds {nrm : Vec3 K → K} (hn : IsNorm nrm) {m : Mesh K} (hwf : m.WF) (hs : SimplexMesh nrm m) (id : Int) (e : Elem) (he : m.elements.get? id = some e) :
    ∃ C : K, 0 ≤ C ∧ ∀ δ E, TotalEnergy nrm m δ E → ∀ x ∈ e.nodeIds, ∀ y ∈ e.nodeIds, (δ x - δ y) * (δ x - δ y) ≤ C * E := by
  obtain ⟨ps, h1, h2⟩ := hs id e he
  obtain ⟨C, hC, h3⟩ := energy_bounds hn h2
  refine ⟨C, hC, fun δ E hE x hx y hy => ?_⟩
  obtain ⟨en, h4, rfl⟩ := hE
  have hid := (hwf.elements.2 id).2 ⟨e, he⟩
  have hall : ∀ id ∈ m.elements.ids, 0 ≤ en id := fun id hid => by
    obtain ⟨e, ps, a1, a2, a3⟩ := h4 id hid
    obtain ⟨ps', b1, b2⟩ := hs id e a1
    rw [a2, Option.some.injEq] at b1
    subst b1
    exact energy_nonneg _ ps b2 _ _ a3
  obtain ⟨e', ps', a1, a2, a3⟩ := h4 id hid
  rw [he, Option.some.injEq] at a1
  subst a1
  rw [h1, Option.some.injEq] at a2
  subst a2
  have h5 := h3 _ _ a3 _ (List.mem_map_of_mem hx) _ (List.mem_map_of_mem hy)
  exact h5.trans (mul_le_mul_of_nonneg_left (element_le _ en hall id hid) hC)

/-- The energy bounds the value at every anchored node. -/
theorem anchored_bound {nrm : Vec3 K → K} (hn : IsNorm nrm) {m : Mesh K} (hwf : m.WF) (hs : SimplexMesh nrm m) (f : EqField K) (x : Int) (hx : Anchored m f x) :
    ∃ C : K, 0 ≤ C ∧ ∀ δ E, Rest m f δ → TotalEnergy nrm m δ E → δ x * δ x ≤ C * E := by
  induction hx with
  | fixed i id v h hv =>
    refine ⟨0, le_refl 0, fun δ E hr _ => ?_⟩
    rw [hr i id h (by rw [hv]; simp)]
    linarith
  | element eid e x y he hx hy _ ih =>
    obtain ⟨C, hC, h1⟩ := ih
    obtain ⟨C', hC', h2⟩ := total_bounds hn hwf hs eid e he
    refine ⟨2 * C + 2 * C', by linarith, fun δ E hr hE => ?_⟩
    have a := h1 δ E hr hE
    have b := h2 δ E hE y hy x hx
    have c := mul_self_nonneg (δ y - 2 * δ x)
    nlinarith

theorem mean_le (us : List K) (b : K) (hb : 0 ≤ b) (h : ∀ u ∈ us, u * u ≤ b) : meanProduct us us ≤ b := by
  have h1 : ∀ a : K, a * a ≤ b → ∀ vs : List K, (∀ v ∈ vs, v * v ≤ b) → a * vs.sum ≤ vs.length * b := by
    intro a ha vs
    induction vs with
    | nil => simp
    | cons c t ih =>
      intro hv
      have i := ih fun v hv' => hv v (List.mem_cons_of_mem _ hv')
      have hc := hv c (List.mem_cons_self ..)
      have := mul_self_nonneg (a - c)
      rw [List.sum_cons, List.length_cons]
      push_cast
      nlinarith
  have h2 : ∀ us vs : List K, (∀ u ∈ us, u * u ≤ b) → (∀ v ∈ vs, v * v ≤ b) → us.sum * vs.sum ≤ us.length * vs.length * b := by
    intro us vs
    induction us with
    | nil => simp
    | cons c t ih =>
      intro hu hv
      have i := ih (fun u hu' => hu u (List.mem_cons_of_mem _ hu')) hv
      have j := h1 c (hu c (List.mem_cons_self ..)) vs hv
      rw [List.sum_cons, List.length_cons]
      push_cast
      nlinarith
  have h3 : ∀ us : List K, (∀ u ∈ us, u * u ≤ b) → (List.zipWith (fun u v => u * v) us us).sum ≤ us.length * b := by
    intro us
    induction us with
    | nil => simp
    | cons c t ih =>
      intro hu
      have i := ih fun u hu' => hu u (List.mem_cons_of_mem _ hu')
      have j := hu c (List.mem_cons_self ..)
      rw [List.zipWith_cons_cons, List.sum_cons, List.length_cons]
      push_cast
      linarith
  unfold meanProduct
  rcases Nat.eq_zero_or_pos us.length with h0 | h0
  · rw [h0]; simpa using hb
  · have hl : (0 : K) < us.length := by exact_mod_cast h0
    rw [div_le_iff₀ (by positivity)]
    have a := h2 us us h h
    have c := h3 us h
    nlinarith

/-- The energy bounds the square, when all nodes are anchored. -/
theorem poincare {nrm : Vec3 K → K} (hn : IsNorm nrm) {m : Mesh K} (hwf : m.WF) (hs : SimplexMesh nrm m) (f : EqField K) (hanch : ∀ id ∈ m.nodes.ids, Anchored m f id) :
    ∃ C : K, 0 ≤ C ∧ ∀ δ E, Rest m f δ → TotalEnergy nrm m δ E → mass nrm m δ δ ≤ C * E := by
  have hnode : ∀ l : List Int, (∀ id ∈ l, Anchored m f id) → ∃ B : K, 0 ≤ B ∧ ∀ x ∈ l, ∀ δ E, Rest m f δ → TotalEnergy nrm m δ E → δ x * δ x ≤ B * E := by
    intro l
    induction l with
    | nil => intro _; exact ⟨0, le_refl 0, fun x hx => by cases hx⟩
    | cons a t ih =>
      intro hl
      obtain ⟨B, hB, h1⟩ := ih fun id hid => hl id (List.mem_cons_of_mem _ hid)
      obtain ⟨C, hC, h2⟩ := anchored_bound hn hwf hs f a (hl a (List.mem_cons_self ..))
      refine ⟨B + C, add_nonneg hB hC, fun x hx δ E hr hE => ?_⟩
      have hE0 := total_nonneg m hs δ E hE
      have p1 := mul_nonneg hB hE0
      have p2 := mul_nonneg hC hE0
      rcases List.mem_cons.1 hx with rfl | hx
      · have := h2 δ E hr hE; linarith
      · have := h1 x hx δ E hr hE; linarith
  obtain ⟨B, hB, h1⟩ := hnode m.nodes.ids hanch
  have hel : ∀ l : List Int, (∀ id ∈ l, id ∈ m.elements.ids) → ∃ C : K, 0 ≤ C ∧ ∀ δ E, Rest m f δ → TotalEnergy nrm m δ E →
      (l.map fun id => ((m.elements.get? id).map (elementTerm (elementDdt nrm) m δ δ)).getD 0).sum ≤ C * E := by
    intro l
    induction l with
    | nil => intro _; exact ⟨0, le_refl 0, fun δ E _ _ => by simp⟩
    | cons a t ih =>
      intro hl
      obtain ⟨C, hC, h2⟩ := ih fun id hid => hl id (List.mem_cons_of_mem _ hid)
      obtain ⟨e, he⟩ := (hwf.elements.2 a).1 (hl a (List.mem_cons_self ..))
      obtain ⟨ps, V, -, -, hV, h4⟩ := mass_term hs he
      refine ⟨V * B + C, add_nonneg (mul_nonneg hV.le hB) hC, fun δ E hr hE => ?_⟩
      have hE0 := total_nonneg m hs δ E hE
      rw [List.map_cons, List.sum_cons, he, Option.map_some, Option.getD_some, h4]
      have p := mean_le (e.nodeIds.map δ) (B * E) (mul_nonneg hB hE0) (fun u hu => by
        obtain ⟨x, hx, rfl⟩ := List.mem_map.1 hu
        exact h1 x (hwf.elemNodes a e he x hx) δ E hr hE)
      have q := mul_le_mul_of_nonneg_left p hV.le
      have := h2 δ E hr hE
      linarith
  exact hel m.elements.ids fun _ h => h

/-- The square bounds the value at every node of an element. -/
theorem node_bound {nrm : Vec3 K → K} {m : Mesh K} (hwf : m.WF) (hs : SimplexMesh nrm m) (id : Int) (e : Elem) (he : m.elements.get? id = some e) (x : Int) (hx : x ∈ e.nodeIds) :
    ∃ C : K, 0 ≤ C ∧ ∀ δ : Int → K, δ x * δ x ≤ C * mass nrm m δ δ := by
  obtain ⟨ps, V, -, -, hV, h4⟩ := mass_term hs he
  have hl : (0 : K) < e.nodeIds.length := by exact_mod_cast List.length_pos_of_mem hx
  refine ⟨e.nodeIds.length * (e.nodeIds.length + 1) / V, by positivity, fun δ => ?_⟩
  have hz : ∀ us : List K, ∀ u ∈ us, u * u ≤ (List.zipWith (fun u v => u * v) us us).sum ∧ 0 ≤ (List.zipWith (fun u v => u * v) us us).sum := by
    intro us
    have h0 : ∀ us : List K, 0 ≤ (List.zipWith (fun u v => u * v) us us).sum := fun us => by
      induction us with
      | nil => simp
      | cons a t ih => rw [List.zipWith_cons_cons, List.sum_cons]; linarith [mul_self_nonneg a]
    induction us with
    | nil => intro u hu; cases hu
    | cons a t ih =>
      intro u hu
      rw [List.zipWith_cons_cons, List.sum_cons]
      have := mul_self_nonneg a
      refine ⟨?_, add_nonneg this (h0 t)⟩
      rcases List.mem_cons.1 hu with rfl | hu
      · linarith [h0 t]
      · linarith [(ih u hu).1]
  have hle : V * meanProduct (e.nodeIds.map δ) (e.nodeIds.map δ) ≤ mass nrm m δ δ := by
    have hid := (hwf.elements.2 id).2 ⟨e, he⟩
    have := element_le m.elements.ids (fun id => ((m.elements.get? id).map (elementTerm (elementDdt nrm) m δ δ)).getD 0) (fun id hid => by
      obtain ⟨e', he'⟩ := (hwf.elements.2 id).1 hid
      obtain ⟨ps', V', -, -, hV', h4'⟩ := mass_term hs he'
      show 0 ≤ ((m.elements.get? id).map _).getD 0
      rw [he', Option.map_some, Option.getD_some, h4']
      exact mul_nonneg hV'.le (mean_nonneg _).1) id hid
    refine le_trans (le_of_eq ?_) this
    show _ = ((m.elements.get? id).map _).getD 0
    rw [he, Option.map_some, Option.getD_some, h4]
  have h1 := (hz (e.nodeIds.map δ) (δ x) (List.mem_map_of_mem hx)).1
  have h2 : δ x * δ x ≤ e.nodeIds.length * (e.nodeIds.length + 1) * meanProduct (e.nodeIds.map δ) (e.nodeIds.map δ) := by
    unfold meanProduct
    rw [List.length_map, mul_div_cancel₀ _ (by positivity)]
    linarith [mul_self_nonneg (e.nodeIds.map δ).sum]
  have hc : (0 : K) ≤ e.nodeIds.length * (e.nodeIds.length + 1) / V := by positivity
  calc δ x * δ x ≤ _ := h2
    _ = e.nodeIds.length * (e.nodeIds.length + 1) / V * (V * meanProduct (e.nodeIds.map δ) (e.nodeIds.map δ)) := by field_simp
    _ ≤ _ := mul_le_mul_of_nonneg_left hle hc

end FemHeat

/-- **C145, the energy falls.** From the first step on, no step raises the energy, whatever the prescribed values and the length of the step. -/
theorem C145_energy {nrm : Vec3 K → K} (hn : IsNorm nrm) (r : K) (solver : Sys K → Nat → K) (hS : Sound solver) (junk junk' : Nat → K) (m : Mesh K) (g : Good nrm m)
    (pf : PdeField K) (hno : NoConditions pf m) (P : Par K) (hrc : 0 < P.rc) (hdt : 0 < P.dt) (hk : 0 < P.k) (f : EqField K) (hm : f.method = .fem)
    (hf : IndicesOk f.uFixed m.nodes.count) (n : Nat) :
    ∃ f₁ f₂, steps nrm r solver junk junk' m pf P (n + 1) f = some f₁ ∧ steps nrm r solver junk junk' m pf P (n + 2) f = some f₂ ∧
      ∀ φ₁ φ₂ E₁ E₂, Holds m f₁.u.at' φ₁ → Holds m f₂.u.at' φ₂ → TotalEnergy nrm m φ₁ E₁ → TotalEnergy nrm m φ₂ E₂ → E₂ ≤ E₁ := by
  obtain ⟨f₀, a1, a2, a3⟩ := steps_run hn r solver hS junk junk' m g pf hno P hrc hdt hk.le f hm hf n
  obtain ⟨f₁, b1, -, b3, b4, b5⟩ := step_run hn r solver hS junk junk' m g pf hno P hrc hdt hk.le f₀ a3 (by rw [a2]; exact hf)
  obtain ⟨f₂, c1, -, c3, c4, c5⟩ := step_run hn r solver hS junk junk' m g pf hno P hrc hdt hk.le f₁ b4 (by rw [b3, a2]; exact hf)
  have e1 : steps nrm r solver junk junk' m pf P (n + 1) f = some f₁ := by
    show (steps nrm r solver junk junk' m pf P n f).bind _ = _
    rw [a1]; exact b1
  have e2 : steps nrm r solver junk junk' m pf P (n + 2) f = some f₂ := by
    show (steps nrm r solver junk junk' m pf P (n + 1) f).bind _ = _
    rw [e1]; exact c1
  refine ⟨f₁, f₂, e1, e2, fun φ₁ φ₂ E₁ E₂ h1 h2 hE1 hE2 => ?_⟩
  obtain ⟨φ₀, h0, -⟩ := nodal_surj m g.wf f₀.u.at'
  obtain ⟨m1, -⟩ := b5 φ₀ φ₁ h0 h1
  obtain ⟨m2, w2⟩ := c5 φ₁ φ₂ h1 h2
  have hr := meets_sub m f₁ φ₂ φ₁ m2 (meets_of m f₀ f₁ b3.symm φ₁ m1)
  have hw := w2 _ hr
  have hd := mul_nonneg (div_pos hrc hdt).le (mass_nonneg m g.wf g.simplex fun x => φ₂ x - φ₁ x).1
  have hs := stiff_nonneg hn r g fun x => φ₂ x - φ₁ x
  rw [(total_energy hn r m g.wf g.simplex φ₁).2 E₁ hE1, (total_energy hn r m g.wf g.simplex φ₂).2 E₂ hE2]
  show stiff nrm r m φ₂ φ₂ ≤ stiff nrm r m φ₁ φ₁
  simp only [mass_sub_left g, mass_sub_right g, stiff_sub_left r g, stiff_sub_right r g] at hw hd hs
  rw [stiff_symm r g φ₂ φ₁] at hs
  have : P.k * (stiff nrm r m φ₂ φ₂ - stiff nrm r m φ₁ φ₂) ≤ 0 := by linarith
  have h3 := nonpos_of_mul_nonpos_right this hk
  linarith

/-- **C145, initial temperatures are forgotten.** Two runs with the same prescribed values: the integral of the squared difference never grows, and the energy of the difference falls at least like
one over the number of steps. -/
theorem C145_forgets {nrm : Vec3 K → K} (hn : IsNorm nrm) (r : K) (solver : Sys K → Nat → K) (hS : Sound solver) (junk junk' : Nat → K) (m : Mesh K) (g : Good nrm m)
    (pf : PdeField K) (hno : NoConditions pf m) (P : Par K) (hrc : 0 < P.rc) (hdt : 0 < P.dt) (hk : 0 ≤ P.k) (f h : EqField K) (hm : f.method = .fem) (hm' : h.method = .fem)
    (hfix : h.uFixed = f.uFixed) (hf : IndicesOk f.uFixed m.nodes.count) (n : Nat) :
    ∃ f' h', steps nrm r solver junk junk' m pf P n f = some f' ∧ steps nrm r solver junk junk' m pf P n h = some h' ∧
      ∀ φ χ φ' χ' S S' E', Holds m f.u.at' φ → Holds m h.u.at' χ → Holds m f'.u.at' φ' → Holds m h'.u.at' χ' → TotalProduct nrm m (fun x => φ x - χ x) (fun x => φ x - χ x) S →
        TotalProduct nrm m (fun x => φ' x - χ' x) (fun x => φ' x - χ' x) S' → TotalEnergy nrm m (fun x => φ' x - χ' x) E' →
        P.rc / P.dt * S' + 2 * n * (P.k * E') ≤ P.rc / P.dt * S := by
  -- the second run, field by field
  have hrun : ∀ n, ∃ h', steps nrm r solver junk junk' m pf P n h = some h' ∧ h'.uFixed = h.uFixed ∧ h'.method = .fem :=
    steps_run hn r solver hS junk junk' m g pf hno P hrc hdt hk h hm' (by rw [hfix]; exact hf)
  choose hs r1 r2 r3 using hrun
  have hfield : ∀ n, ∃ χ, Holds m (hs n).u.at' χ := fun n => by obtain ⟨χ, h1, -⟩ := nodal_surj m g.wf (hs n).u.at'; exact ⟨χ, h1⟩
  choose χs hχs using hfield
  have hstep : ∀ n, Meets m (hs n) (χs (n + 1)) ∧ ∀ ψ, Rest m (hs n) ψ → P.rc / P.dt * (mass nrm m ψ (χs (n + 1)) - mass nrm m ψ (χs n)) + P.k * stiff nrm r m ψ (χs (n + 1)) = 0 := fun n => by
    obtain ⟨h'', a1, -, -, -, a5⟩ := step_run hn r solver hS junk junk' m g pf hno P hrc hdt hk (hs n) (r3 n) (by rw [r2, hfix]; exact hf)
    have e : steps nrm r solver junk junk' m pf P (n + 1) h = some h'' := by
      show (steps nrm r solver junk junk' m pf P n h).bind _ = _
      rw [r1 n]; exact a1
    rw [r1 (n + 1), Option.some.injEq] at e
    exact a5 (χs n) (χs (n + 1)) (hχs n) (by rw [← e]; exact hχs (n + 1))
  obtain ⟨f', b1, -, -, b4⟩ := approach hn r solver hS junk junk' m g pf hno P hrc hdt hk f hm hf χs (fun n => meets_of m (hs n) f (by rw [r2, hfix]) _ (hstep n).1)
    (fun n ψ hψ => (hstep n).2 ψ (rest_of m f (hs n) (by rw [r2, hfix]) ψ hψ)) n
  refine ⟨f', hs n, b1, r1 n, fun φ χ φ' χ' S S' E' hφ hχ hφ' hχ' hS hS' hE' => ?_⟩
  have h0 : hs 0 = h := by have := r1 0; exact (Option.some.inj this).symm
  have e0 := holds_unique (h0 ▸ hχs 0) hχ
  have en := holds_unique (hχs n) hχ'
  rw [(total_product m g.wf g.simplex _ _).2 S hS, (total_product m g.wf g.simplex _ _).2 S' hS', (total_energy hn r m g.wf g.simplex _).2 E' hE']
  have key := (b4 φ φ' hφ hφ').2
  have f0 : ∀ x ∈ m.nodes.ids, (fun x => φ x - χs 0 x) x = (fun x => φ x - χ x) x := fun x hx => by show φ x - χs 0 x = φ x - χ x; rw [e0 x hx]
  have fn : ∀ x ∈ m.nodes.ids, (fun x => φ' x - χs n x) x = (fun x => φ' x - χ' x) x := fun x hx => by show φ' x - χs n x = φ' x - χ' x; rw [en x hx]
  rw [mass_congr g.wf _ _ _ _ f0 f0, mass_congr g.wf _ _ _ _ fn fn, stiff_congr g.wf _ _ _ _ fn fn] at key
  exact key

/-- **C145, the run tends to the steady result.** If every node hangs together with a prescribed one and belongs to an element, the temperatures of a run approach those of the steady program with the
same prescribed values, like the powers of a number below one that does not depend on the initial temperatures. -/
theorem C145_limit {nrm : Vec3 K → K} (hn : IsNorm nrm) (r : K) (solver : Sys K → Nat → K) (hS : Sound solver) (junk junk' : Nat → K) (m : Mesh K) (g : Good nrm m) (hcov : Covered m)
    (pf : PdeField K) (hno : NoConditions pf m) (P : Par K) (hrc : 0 < P.rc) (hdt : 0 < P.dt) (hk : 0 < P.k) (f₀ : EqField K)
    (hf : IndicesOk f₀.uFixed m.nodes.count) (hanch : ∀ id ∈ m.nodes.ids, Anchored m f₀ id) :
    ∃ q, 0 ≤ q ∧ q < 1 ∧ ∀ f : EqField K, f.method = .fem → f.uFixed = f₀.uFixed → ∃ fs, steady nrm r solver junk junk' m pf f = some fs ∧ ∀ x ∈ m.nodes.ids, ∃ C, ∀ n,
      ∃ f', steps nrm r solver junk junk' m pf P n f = some f' ∧ ∀ χ φ', Holds m fs.u.at' χ → Holds m f'.u.at' φ' → (φ' x - χ x) * (φ' x - χ x) ≤ C * q ^ n := by
  obtain ⟨C, hC, hP⟩ := poincare hn g.wf g.simplex f₀ hanch
  have ha : 0 < P.rc / P.dt := div_pos hrc hdt
  have hden : 0 < C * (P.rc / P.dt) + 2 * P.k := by positivity
  refine ⟨C * (P.rc / P.dt) / (C * (P.rc / P.dt) + 2 * P.k), by positivity, by rw [div_lt_one hden]; linarith, fun f hm hfix => ?_⟩
  have hf' : IndicesOk f.uFixed m.nodes.count := by rw [hfix]; exact hf
  obtain ⟨fs, s1, s2⟩ := steady_weak hn r solver hS junk junk' m g pf hno f hm hf'
  refine ⟨fs, s1, fun x hx => ?_⟩
  obtain ⟨χ, hχ, -⟩ := nodal_surj m g.wf fs.u.at'
  obtain ⟨φ, hφ, -⟩ := nodal_surj m g.wf f.u.at'
  obtain ⟨t1, t2⟩ := s2 χ hχ
  obtain ⟨id, e, he, hxe⟩ := hcov x hx
  obtain ⟨C', hC', hN⟩ := node_bound (nrm := nrm) g.wf g.simplex id e he x hxe
  have key : ∀ n, ∃ f', steps nrm r solver junk junk' m pf P n f = some f' ∧ f'.uFixed = f.uFixed ∧ f'.method = .fem ∧ ∀ φ', Holds m f'.u.at' φ' →
      mass nrm m (fun x => φ' x - χ x) (fun x => φ' x - χ x) ≤ (C * (P.rc / P.dt) / (C * (P.rc / P.dt) + 2 * P.k)) ^ n * mass nrm m (fun x => φ x - χ x) (fun x => φ x - χ x) := by
    intro n
    induction n with
    | zero =>
      refine ⟨f, rfl, rfl, hm, fun φ' h' => ?_⟩
      have e := holds_unique h' hφ
      have e' : ∀ x ∈ m.nodes.ids, (fun x => φ' x - χ x) x = (fun x => φ x - χ x) x := fun x hx => by show φ' x - χ x = φ x - χ x; rw [e x hx]
      rw [mass_congr g.wf _ _ _ _ e' e', pow_zero, one_mul]
    | succ n ih =>
      obtain ⟨f', h1, h2, h3, h4⟩ := ih
      obtain ⟨f'', a1, -, a3, a4, a5⟩ := step_run hn r solver hS junk junk' m g pf hno P hrc hdt hk.le f' h3 (by rw [h2]; exact hf')
      refine ⟨f'', ?_, by rw [a3, h2], a4, fun φ'' hφ'' => ?_⟩
      · show (steps nrm r solver junk junk' m pf P n f).bind _ = _
        rw [h1]
        exact a1
      · obtain ⟨φ', hφ', -⟩ := nodal_surj m g.wf f'.u.at'
        obtain ⟨c1, c2⟩ := a5 φ' φ'' hφ' hφ''
        have c1' := meets_of m f' f h2 φ'' c1
        have hr := meets_sub m f _ _ c1' t1
        obtain ⟨d1, -⟩ := decay hn r g f (P.rc / P.dt) P.k ha (fun x => φ' x - χ x) (fun x => φ'' x - χ x) hr (fun ψ hψ => by
          have e1 := c2 ψ (rest_of m f f' h2.symm ψ hψ)
          have e2 := t2 ψ hψ
          simp only [mass_sub_right g, stiff_sub_right r g]
          linear_combination e1 - P.k * e2)
        have hp := hP _ _ (rest_of m f f₀ hfix _ hr) (total_energy hn r m g.wf g.simplex _).1
        have hi := h4 φ' hφ'
        have hq : (C * (P.rc / P.dt) + 2 * P.k) * mass nrm m (fun x => φ'' x - χ x) (fun x => φ'' x - χ x) ≤ C * (P.rc / P.dt) * mass nrm m (fun x => φ' x - χ x) (fun x => φ' x - χ x) := by
          have p1 := mul_le_mul_of_nonneg_left d1 hC
          have p2 := mul_le_mul_of_nonneg_left hp (by linarith : (0 : K) ≤ 2 * P.k)
          change 2 * P.k * _ ≤ 2 * P.k * (C * stiff nrm r m _ _) at p2
          linarith
        have hq' : mass nrm m (fun x => φ'' x - χ x) (fun x => φ'' x - χ x) ≤ C * (P.rc / P.dt) / (C * (P.rc / P.dt) + 2 * P.k) * mass nrm m (fun x => φ' x - χ x) (fun x => φ' x - χ x) := by
          rw [div_mul_eq_mul_div, le_div_iff₀ hden]
          linarith
        refine hq'.trans ?_
        rw [pow_succ, mul_comm (_ ^ n), mul_assoc]
        exact mul_le_mul_of_nonneg_left hi (by positivity)
  refine ⟨C' * mass nrm m (fun x => φ x - χ x) (fun x => φ x - χ x), fun n => ?_⟩
  obtain ⟨f', h1, -, -, h4⟩ := key n
  refine ⟨f', h1, fun χ' φ' hχ' hφ' => ?_⟩
  have e := holds_unique hχ' hχ x hx
  have := (hN fun x => φ' x - χ x).trans (mul_le_mul_of_nonneg_left (h4 φ' hφ') hC')
  rw [e]
  calc _ ≤ _ := this
    _ = _ := by ring

end ENigMA
