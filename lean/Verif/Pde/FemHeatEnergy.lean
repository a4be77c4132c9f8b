import Verif.Pde.FemHeatLemmas

/-!
# The energy of a field and the assembled matrix
-/

set_option linter.unusedSectionVars false
set_option autoImplicit false

namespace ENigMA
open Matrix FemOp FemThermalOp Fem
variable {K : Type} [Field K] [LinearOrder K] [IsStrictOrderedRing K]

namespace FemHeat

theorem tri_area (nrm : Vec3 K → K) (a b c : Vec3 K) : triArea nrm ⟨a, b, c⟩ = nrm (Vec3.cross (b - a) (c - a)) / 2 := by
  simp only [triArea, Tri.normalArea, Tri.rawNormal]
  ring

theorem tet_volume (a b c d : Vec3 K) : (⟨a, b, c, d⟩ : Tet K).volume = (a - d).dot (Vec3.cross (b - d) (c - d)) / 6 := by
  simp only [Tet.volume, det4one, det4, det3, Vec3.dot, Vec3.cross, Vec3.sub_x, Vec3.sub_y, Vec3.sub_z]
  ring

theorem normal_dot (nrm : Vec3 K → K) (t : Tri K) (g : Vec3 K) (h : g.dot t.rawNormal = 0) : g.dot (t.normal nrm) = 0 := by
  simp only [Tri.normal, Tri.normalArea]
  split_ifs
  · rw [Vec3.dot_smul, h, mul_zero]
  · exact h

theorem vec2 (u v : K) : (fun i : Fin 2 => [u, v].getD i 0) = ![u, v] := by funext i; fin_cases i <;> rfl
theorem vec3 (u v w : K) : (fun i : Fin 3 => [u, v, w].getD i 0) = ![u, v, w] := by funext i; fin_cases i <;> rfl
theorem vec4 (u v w z : K) : (fun i : Fin 4 => [u, v, w, z].getD i 0) = ![u, v, w, z] := by funext i; fin_cases i <;> rfl

theorem tri_sample (a b c g : Vec3 K) (u v w : K) (h1 : g.dot (b - a) = v - u) (h2 : g.dot (c - a) = w - u) :
    sample (triV ⟨a, b, c⟩) (u - g.dot a) g = ![u, v, w] := by
  rw [Vec3.dot_sub] at h1 h2
  funext i
  fin_cases i
  · show u - g.dot a + g.dot a = u; ring
  · show u - g.dot a + g.dot b = v; linear_combination h1
  · show u - g.dot a + g.dot c = w; linear_combination h2

theorem tet_sample (a b c d g : Vec3 K) (u v w z : K) (h1 : g.dot (a - d) = u - z) (h2 : g.dot (b - d) = v - z) (h3 : g.dot (c - d) = w - z) :
    sample (tetV ⟨a, b, c, d⟩) (z - g.dot d) g = ![u, v, w, z] := by
  rw [Vec3.dot_sub] at h1 h2 h3
  funext i
  fin_cases i
  · show z - g.dot d + g.dot a = u; linear_combination h1
  · show z - g.dot d + g.dot b = v; linear_combination h2
  · show z - g.dot d + g.dot c = w; linear_combination h3
  · show z - g.dot d + g.dot d = z; ring

/-- The matrix of a simplex gives its energy. -/
theorem energy_form {nrm : Vec3 K → K} (hn : IsNorm nrm) (r : K) (t : ElementType) (ps : List (Vec3 K)) (h : Simplex nrm t ps) (us : List K) (E : K) (hE : Energy nrm t ps us E) :
    ∃ M, elementLaplacian nrm r t ps = some (some M) ∧ elementForm M us us = -E := by
  cases hE with
  | beam p q u v =>
    cases h with | beam _ _ h => ?_
    refine ⟨_, rfl, ?_⟩
    rw [elementForm_of, vec2]
    simp [beamLaplacian, if_pos h, dotProduct, mulVec, Fin.sum_univ_two]
    field_simp
    ring
  | triangle a b c g u v w h0 h1 h2 =>
    cases h with | triangle _ _ _ h => ?_
    refine ⟨_, rfl, ?_⟩
    have ha : 0 < triArea nrm ⟨a, b, c⟩ := by rw [tri_area]; linarith
    rw [elementForm_of, vec3, ← tri_sample a b c g u v w h1 h2, (C25_triangle hn ⟨a, b, c⟩ ha 1).2.2.1, normal_dot nrm ⟨a, b, c⟩ g h0, tri_area]
    ring
  | tetrahedron a b c d g u v w z h1 h2 h3 =>
    cases h with | tetrahedron _ _ _ _ h => ?_
    refine ⟨_, rfl, ?_⟩
    have hv : 0 < (⟨a, b, c, d⟩ : Tet K).volume := by rw [tet_volume]; linarith
    rw [elementForm_of, vec4, ← tet_sample a b c d g u v w z h1 h2 h3, (C25_tetrahedron ⟨a, b, c, d⟩ hv).2.2.1, tet_volume]

theorem energy_exists {nrm : Vec3 K → K} (hn : IsNorm nrm) (t : ElementType) (ps : List (Vec3 K)) (h : Simplex nrm t ps) (us : List K) (hl : us.length = ps.length) :
    ∃ E, Energy nrm t ps us E := by
  cases h with
  | beam p q h =>
    match us, hl with
    | [u, v], _ => exact ⟨_, .beam p q u v⟩
  | triangle a b c h =>
    match us, hl with
    | [u, v, w], _ =>
      have hN : (Vec3.cross (b - a) (c - a)).normSq ≠ 0 := by
        rw [← hn.sq]; positivity
      refine ⟨_, .triangle a b c ((Vec3.cross (b - a) (c - a)).normSq⁻¹ • ((v - u) • Vec3.cross (c - a) (Vec3.cross (b - a) (c - a)) + (w - u) • Vec3.cross (Vec3.cross (b - a) (c - a)) (b - a)))
        u v w ?_ ?_ ?_⟩
      · rw [Vec3.smul_dot, Vec3.add_dot, Vec3.smul_dot, Vec3.smul_dot]
        simp only [Vec3.dot, Vec3.cross, Vec3.sub_x, Vec3.sub_y, Vec3.sub_z]
        ring
      · rw [Vec3.smul_dot, inv_mul_eq_div, div_eq_iff hN, Vec3.add_dot, Vec3.smul_dot, Vec3.smul_dot]
        simp only [Vec3.dot, Vec3.normSq, Vec3.cross, Vec3.sub_x, Vec3.sub_y, Vec3.sub_z]
        ring
      · rw [Vec3.smul_dot, inv_mul_eq_div, div_eq_iff hN, Vec3.add_dot, Vec3.smul_dot, Vec3.smul_dot]
        simp only [Vec3.dot, Vec3.normSq, Vec3.cross, Vec3.sub_x, Vec3.sub_y, Vec3.sub_z]
        ring
  | tetrahedron a b c d h =>
    match us, hl with
    | [u, v, w, z], _ =>
      refine ⟨_, .tetrahedron a b c d (((a - d).dot (Vec3.cross (b - d) (c - d)))⁻¹ •
        ((u - z) • Vec3.cross (b - d) (c - d) + (v - z) • Vec3.cross (c - d) (a - d) + (w - z) • Vec3.cross (a - d) (b - d))) u v w z ?_ ?_ ?_⟩ <;>
      · rw [Vec3.smul_dot, inv_mul_eq_div, div_eq_iff h.ne', Vec3.add_dot, Vec3.add_dot, Vec3.smul_dot, Vec3.smul_dot, Vec3.smul_dot]
        simp only [Vec3.dot, Vec3.cross, Vec3.sub_x, Vec3.sub_y, Vec3.sub_z]
        ring

theorem dot_self_nonneg (g : Vec3 K) : 0 ≤ g.dot g := Vec3.normSq_nonneg g

theorem energy_nonneg {nrm : Vec3 K → K} (t : ElementType) (ps : List (Vec3 K)) (h : Simplex nrm t ps) (us : List K) (E : K) (hE : Energy nrm t ps us E) : 0 ≤ E := by
  cases hE with
  | beam p q u v =>
    cases h with | beam _ _ h => exact mul_nonneg h.le (mul_self_nonneg _)
  | triangle a b c g u v w h0 h1 h2 =>
    cases h with | triangle _ _ _ h => exact mul_nonneg (by linarith) (dot_self_nonneg g)
  | tetrahedron a b c d g u v w z h1 h2 h3 =>
    cases h with | tetrahedron _ _ _ _ h => exact mul_nonneg (by linarith) (dot_self_nonneg g)

/-- Without energy all corners have the same value. -/
theorem energy_zero {nrm : Vec3 K → K} (t : ElementType) (ps : List (Vec3 K)) (h : Simplex nrm t ps) (us : List K) (hE : Energy nrm t ps us 0) : ∀ x ∈ us, ∀ y ∈ us, x = y := by
  have hg : ∀ (A : K) (g : Vec3 K), 0 < A → (0 : K) = A * g.dot g → g = 0 := fun A g hA he =>
    Vec3.normSq_eq_zero.1 ((mul_eq_zero.1 he.symm).resolve_left hA.ne')
  generalize h0E : (0 : K) = E0 at hE
  cases hE with
  | beam p q u v =>
    cases h with | beam _ _ h => ?_
    have h1 := (mul_eq_zero.1 h0E.symm).resolve_left h.ne'
    have h2 : v - u = 0 := by
      have := mul_self_eq_zero.1 h1
      exact (div_eq_zero_iff.1 this).resolve_right h.ne'
    intro x hx y hy
    simp only [List.mem_cons, List.not_mem_nil, or_false] at hx hy
    rcases hx with rfl | rfl <;> rcases hy with rfl | rfl <;> linarith
  | triangle a b c g u v w h0 h1 h2 =>
    cases h with | triangle _ _ _ h => ?_
    have := hg _ g (by linarith) h0E
    subst this
    simp only [Vec3.zero_dot] at h1 h2
    intro x hx y hy
    simp only [List.mem_cons, List.not_mem_nil, or_false] at hx hy
    rcases hx with rfl | rfl | rfl <;> rcases hy with rfl | rfl | rfl <;> linarith
  | tetrahedron a b c d g u v w z h1 h2 h3 =>
    cases h with | tetrahedron _ _ _ _ h => ?_
    have := hg _ g (by linarith) h0E
    subst this
    simp only [Vec3.zero_dot] at h1 h2 h3
    intro x hx y hy
    simp only [List.mem_cons, List.not_mem_nil, or_false] at hx hy
    rcases hx with rfl | rfl | rfl | rfl <;> rcases hy with rfl | rfl | rfl | rfl <;> linarith

/-- No convection is prescribed on beams and triangles. -/
def NoConditions (pf : PdeField K) (m : Mesh K) : Prop :=
  ∀ id e, m.elements.get? id = some e → e.elementType = .beam ∨ e.elementType = .triangle → ∀ k, convective pf id k = none

theorem regular {nrm : Vec3 K → K} (r : K) {m : Mesh K} (hs : SimplexMesh nrm m) : Regular nrm r m := by
  intro e he ps hps
  obtain ⟨id, -, hid⟩ := mem_elems.1 he
  obtain ⟨ps', h1, h2⟩ := hs id e hid
  rw [hps, Option.some.injEq] at h1
  subst h1
  generalize e.elementType = t at h2 ⊢
  cases h2 <;> exact ⟨_, rfl⟩

theorem mapM_length {α β : Type} (g : α → Option β) : ∀ (l : List α) (bs : List β), l.mapM g = some bs → bs.length = l.length := by
  intro l
  induction l with
  | nil => intro bs h; simp at h; subst h; rfl
  | cons a t ih =>
    intro bs h
    rw [List.mapM_cons] at h
    obtain ⟨b, hb, h⟩ := Option.bind_eq_some_iff.1 h
    obtain ⟨bs', hbs, h⟩ := Option.bind_eq_some_iff.1 h
    cases h
    simp [ih bs' hbs]

/-- What `laplacian` assembles without convection. -/
theorem conduct (nrm : Vec3 K → K) (r : K) (pf : PdeField K) (m : Mesh K) (hwf : m.WF) (hrt : m.nodes.RoundTrip) (hs : SimplexMesh nrm m) (hno : NoConditions pf m) :
    ∃ s, FemThermalOp.laplacian nrm r pf 1 m = some s ∧ s.n = m.nodes.count ∧ s.kind = .sparseSymmetric ∧ (∀ i < s.n, s.b i = 0) ∧
      (∀ i < s.n, ∀ j < s.n, s.A i j = s.A j i) ∧
      ∀ φ ψ : Int → K, s.form (nodal m φ) (nodal m ψ) = overElements m (fun _ => elementTerm (elementLaplacian nrm r) m φ ψ) := by
  have hreg := regular r hs
  obtain ⟨s, h1, h2, h3, h4⟩ := C115_laplacian nrm r pf m hwf hrt hreg
  obtain ⟨s1, s', g1, g2, g3, g4, g5⟩ := C115_no_conditions nrm r pf m hwf hrt hreg hno
  rw [h1, Option.some.injEq] at g1
  subst g1
  have hsym := (C28_laplacian_symmetric nrm r m hwf hrt hreg s' g2).1
  refine ⟨s, h1, h2, h3, g4, fun i hi j hj => ?_, fun φ ψ => ?_⟩
  · rw [g5 i hi j hj, g5 j hj i hi, hsym i (g3 ▸ hi) j (g3 ▸ hj)]
  · rw [(h4 φ ψ).1, overElements_zero m (exchange nrm pf m φ ψ), add_zero]
    intro id e he
    unfold exchange
    split
    · rename_i h1 h2; rw [hno id e he (Or.inl h1)]
    · rename_i h1 h2; simp [edgeExchange, hno id e he (Or.inr h1)]
    · rfl

/-- The energy of a field is the value of the matrix. -/
theorem total_energy {nrm : Vec3 K → K} (hn : IsNorm nrm) (r : K) (m : Mesh K) (hwf : m.WF) (hs : SimplexMesh nrm m) (φ : Int → K) :
    TotalEnergy nrm m φ (-overElements m (fun _ => elementTerm (elementLaplacian nrm r) m φ φ)) ∧
    ∀ E, TotalEnergy nrm m φ E → E = -overElements m (fun _ => elementTerm (elementLaplacian nrm r) m φ φ) := by
  have key : ∀ id e ps E, m.elements.get? id = some e → e.nodeIds.mapM m.nodes.get? = some ps → Energy nrm e.elementType ps (e.nodeIds.map φ) E →
      ((m.elements.get? id).map (elementTerm (elementLaplacian nrm r) m φ φ)).getD 0 = -E := by
    intro id e ps E he hps hE
    obtain ⟨ps', h1, h2⟩ := hs id e he
    rw [hps, Option.some.injEq] at h1
    subst h1
    obtain ⟨M, hM, hf⟩ := energy_form hn r _ ps h2 _ E hE
    rw [he, Option.map_some, Option.getD_some]
    unfold elementTerm
    rw [hps, Option.bind_some, hM]
    exact hf
  have hsum : ∀ en : Int → K, (∀ id ∈ m.elements.ids, ((m.elements.get? id).map (elementTerm (elementLaplacian nrm r) m φ φ)).getD 0 = -en id) →
      (m.elements.ids.map en).sum = -overElements m (fun _ => elementTerm (elementLaplacian nrm r) m φ φ) := by
    intro en hen
    unfold overElements
    rw [List.map_congr_left hen]
    generalize m.elements.ids = l
    induction l with
    | nil => simp
    | cons a t ih => simp only [List.map_cons, List.sum_cons, ih]; ring
  constructor
  · have hex : ∀ id ∈ m.elements.ids, ∃ E : K, ∃ e ps, m.elements.get? id = some e ∧ e.nodeIds.mapM m.nodes.get? = some ps ∧ Energy nrm e.elementType ps (e.nodeIds.map φ) E := by
      intro id hid
      obtain ⟨e, he⟩ := (hwf.elements.2 id).1 hid
      obtain ⟨ps, h1, h2⟩ := hs id e he
      obtain ⟨E, hE⟩ := energy_exists hn _ ps h2 (e.nodeIds.map φ) (by rw [List.length_map, mapM_length _ _ _ h1])
      exact ⟨E, e, ps, he, h1, hE⟩
    choose! en hen using hex
    refine ⟨en, hen, ?_⟩
    refine (hsum en fun id hid => ?_).symm
    obtain ⟨e, ps, h1, h2, h3⟩ := hen id hid
    exact key id e ps _ h1 h2 h3
  · rintro E ⟨en, hen, rfl⟩
    refine hsum en fun id hid => ?_
    obtain ⟨e, ps, h1, h2, h3⟩ := hen id hid
    exact key id e ps _ h1 h2 h3

theorem sum_nonneg_zero (l : List Int) (en : Int → K) (h : ∀ id ∈ l, 0 ≤ en id) : 0 ≤ (l.map en).sum ∧ ((l.map en).sum = 0 → ∀ id ∈ l, en id = 0) := by
  induction l with
  | nil => simp
  | cons a t ih =>
    obtain ⟨i1, i2⟩ := ih fun id hid => h id (List.mem_cons_of_mem _ hid)
    have ha := h a (List.mem_cons_self ..)
    rw [List.map_cons, List.sum_cons]
    refine ⟨add_nonneg ha i1, fun he id hid => ?_⟩
    rcases List.mem_cons.1 hid with rfl | hid
    · linarith
    · exact i2 (by linarith) id hid

theorem total_nonneg {nrm : Vec3 K → K} (m : Mesh K) (hs : SimplexMesh nrm m) (φ : Int → K) (E : K) (hE : TotalEnergy nrm m φ E) : 0 ≤ E := by
  obtain ⟨en, h1, rfl⟩ := hE
  refine (sum_nonneg_zero _ en fun id hid => ?_).1
  obtain ⟨e, ps, a1, a2, a3⟩ := h1 id hid
  obtain ⟨ps', b1, b2⟩ := hs id e a1
  rw [a2, Option.some.injEq] at b1
  subst b1
  exact energy_nonneg _ ps b2 _ _ a3

/-- A field without energy is constant on every element. -/
theorem total_zero {nrm : Vec3 K → K} (m : Mesh K) (hwf : m.WF) (hs : SimplexMesh nrm m) (φ : Int → K) (hE : TotalEnergy nrm m φ 0) :
    ∀ id e, m.elements.get? id = some e → ∀ x ∈ e.nodeIds, ∀ y ∈ e.nodeIds, φ x = φ y := by
  obtain ⟨en, h1, h2⟩ := hE
  have hall : ∀ id ∈ m.elements.ids, 0 ≤ en id := fun id hid => by
    obtain ⟨e, ps, a1, a2, a3⟩ := h1 id hid
    obtain ⟨ps', b1, b2⟩ := hs id e a1
    rw [a2, Option.some.injEq] at b1
    subst b1
    exact energy_nonneg _ ps b2 _ _ a3
  have hz := (sum_nonneg_zero _ en hall).2 h2.symm
  intro id e he x hx y hy
  have hid := (hwf.elements.2 id).2 ⟨e, he⟩
  obtain ⟨e', ps, a1, a2, a3⟩ := h1 id hid
  rw [he, Option.some.injEq] at a1
  subst a1
  obtain ⟨ps', b1, b2⟩ := hs id e he
  rw [a2, Option.some.injEq] at b1
  subst b1
  rw [hz id hid] at a3
  exact energy_zero _ ps b2 _ a3 _ (List.mem_map_of_mem hx) _ (List.mem_map_of_mem hy)

/-- Every vector of the right length is a field. -/
theorem nodal_surj (m : Mesh K) (hwf : m.WF) (v : Nat → K) : ∃ φ : Int → K, Holds m v φ ∧ ∀ i < m.nodes.count, nodal m φ i = v i := by
  have hinj : ∀ (i j : Nat) (id : Int), m.nodes.idAt? i = some id → m.nodes.idAt? j = some id → i = j := fun i j id hi hj => by
    have hi' := List.getElem?_eq_some_iff.1 hi
    have hj' := List.getElem?_eq_some_iff.1 hj
    exact (hwf.nodes.1.getElem_inj_iff).1 (hi'.2.trans hj'.2.symm)
  classical
  refine ⟨fun id => if h : ∃ i, m.nodes.idAt? i = some id then v h.choose else 0, fun i id hi => ?_, fun i hi => ?_⟩
  · have h : ∃ i, m.nodes.idAt? i = some id := ⟨i, hi⟩
    show (if h : ∃ i, m.nodes.idAt? i = some id then v h.choose else 0) = v i
    rw [dif_pos h, hinj _ _ _ h.choose_spec hi]
  · obtain ⟨id, hid⟩ := idAt_of_lt m i hi
    have h : ∃ i, m.nodes.idAt? i = some id := ⟨i, hid⟩
    rw [nodal, hid, Option.map_some, Option.getD_some, dif_pos h, hinj _ _ _ h.choose_spec hid]

theorem nodal_of_holds (m : Mesh K) (v : Nat → K) (φ : Int → K) (h : Holds m v φ) : ∀ i < m.nodes.count, nodal m φ i = v i := by
  intro i hi
  obtain ⟨id, hid⟩ := idAt_of_lt m i hi
  rw [nodal, hid, Option.map_some, Option.getD_some, h i id hid]

end FemHeat
end ENigMA
