import Verif.Pde.FemHeatProps

/-!
# Heat conduction in time with finite elements: the specification, and the matrices
-/

set_option linter.unusedSectionVars false
set_option autoImplicit false

namespace ENigMA
open Matrix FemOp FemThermalOp Fem FemHeat FdmHeat
variable {K : Type} [Field K] [LinearOrder K] [IsStrictOrderedRing K]

namespace FemHeat

/-! ### Specification -/

/-- Length, area, volume. -/
inductive Measure (nrm : Vec3 K → K) : ElementType → List (Vec3 K) → K → Prop
  | beam (p q : Vec3 K) : Measure nrm .beam [p, q] (nrm (q - p))
  | triangle (a b c : Vec3 K) : Measure nrm .triangle [a, b, c] (nrm (Vec3.cross (b - a) (c - a)) / 2)
  | tetrahedron (a b c d : Vec3 K) : Measure nrm .tetrahedron [a, b, c, d] ((a - d).dot (Vec3.cross (b - d) (c - d)) / 6)

/-- The mean over a simplex of the product of the linear functions with the values `us` and `vs` at its corners (see `meanProduct_beam`, `meanProduct_triangle`). -/
def meanProduct (us vs : List K) : K := (us.sum * vs.sum + (List.zipWith (fun u v => u * v) us vs).sum) / (us.length * (us.length + 1))

/-- The integral of the product of two fields. -/
def TotalProduct (nrm : Vec3 K → K) (m : Mesh K) (φ ψ : Int → K) (S : K) : Prop :=
  ∃ sq : Int → K, (∀ id ∈ m.elements.ids, ∃ e ps V, m.elements.get? id = some e ∧ e.nodeIds.mapM m.nodes.get? = some ps ∧ Measure nrm e.elementType ps V ∧
    sq id = V * meanProduct (e.nodeIds.map φ) (e.nodeIds.map ψ)) ∧ S = (m.elements.ids.map sq).sum

/-- The integral of a field: on every element the measure times the mean of the values at the corners. -/
def TotalHeat (nrm : Vec3 K → K) (m : Mesh K) (φ : Int → K) (H : K) : Prop :=
  ∃ ht : Int → K, (∀ id ∈ m.elements.ids, ∃ e ps V, m.elements.get? id = some e ∧ e.nodeIds.mapM m.nodes.get? = some ps ∧ Measure nrm e.elementType ps V ∧
    ht id = V * ((e.nodeIds.map φ).sum / e.nodeIds.length)) ∧ H = (m.elements.ids.map ht).sum

/-- Every node belongs to an element. -/
def Covered (m : Mesh K) : Prop := ∀ x ∈ m.nodes.ids, ∃ id e, m.elements.get? id = some e ∧ x ∈ e.nodeIds

/-! ### The matrices -/

/-- What `ddt` assembles. -/
def mass (nrm : Vec3 K → K) (m : Mesh K) (φ ψ : Int → K) : K := overElements m (fun _ => elementTerm (elementDdt nrm) m φ ψ)

/-- What `laplacian` assembles, with the opposite sign. -/
def stiff (nrm : Vec3 K → K) (r : K) (m : Mesh K) (φ ψ : Int → K) : K := -overElements m (fun _ => elementTerm (elementLaplacian nrm r) m φ ψ)

theorem elems_over (m : Mesh K) (g : Elem → K) : ((elems m).map g).sum = overElements m (fun _ => g) := by
  unfold elems overElements
  generalize m.elements.ids = l
  induction l with
  | nil => rfl
  | cons a t ih =>
    rw [List.filterMap_cons, List.map_cons, List.sum_cons, ← ih]
    cases m.elements.get? a <;> simp

theorem measure_pos {nrm : Vec3 K → K} {t : ElementType} {ps : List (Vec3 K)} (h : Simplex nrm t ps) : ∃ V, Measure nrm t ps V ∧ 0 < V := by
  cases h with
  | beam p q h => exact ⟨_, .beam p q, h⟩
  | triangle a b c h => exact ⟨_, .triangle a b c, by linarith⟩
  | tetrahedron a b c d h => exact ⟨_, .tetrahedron a b c d, by linarith⟩

theorem measure_unique {nrm : Vec3 K → K} {t : ElementType} {ps : List (Vec3 K)} {V W : K} (h : Measure nrm t ps V) (h' : Measure nrm t ps W) : V = W := by
  cases h <;> cases h' <;> rfl

theorem mean_nonneg (us : List K) : 0 ≤ meanProduct us us ∧ (meanProduct us us = 0 → ∀ u ∈ us, u = 0) := by
  have hz : ∀ us : List K, 0 ≤ (List.zipWith (fun u v => u * v) us us).sum ∧ ((List.zipWith (fun u v => u * v) us us).sum = 0 → ∀ u ∈ us, u = 0) := by
    intro us
    induction us with
    | nil => simp
    | cons a t ih =>
      rw [List.zipWith_cons_cons, List.sum_cons]
      have := mul_self_nonneg a
      refine ⟨by linarith [ih.1], fun h u hu => ?_⟩
      rcases List.mem_cons.1 hu with rfl | hu
      · exact mul_self_eq_zero.1 (by linarith [ih.1])
      · exact ih.2 (by linarith [ih.1]) u hu
  unfold meanProduct
  have hd : (0 : K) ≤ us.length * (us.length + 1) := by positivity
  refine ⟨div_nonneg (add_nonneg (mul_self_nonneg _) (hz us).1) hd, fun h u hu => ?_⟩
  have hl : us.length ≠ 0 := by
    intro h0
    rw [List.length_eq_zero_iff.1 h0] at hu
    cases hu
  rcases div_eq_zero_iff.1 h with h | h
  · exact (hz us).2 (by linarith [mul_self_nonneg us.sum, (hz us).1]) u hu
  · rcases mul_eq_zero.1 h with h | h
    · exact absurd (Nat.cast_eq_zero.1 h) hl
    · have : (0 : K) ≤ us.length := Nat.cast_nonneg _
      linarith

/-- The mass matrix of a simplex. -/
theorem mass_form (nrm : Vec3 K → K) (t : ElementType) (ps : List (Vec3 K)) (h : Simplex nrm t ps) (V : K) (hV : Measure nrm t ps V) (us vs : List K) (hu : us.length = ps.length)
    (hv : vs.length = ps.length) : ∃ M, elementDdt nrm t ps = some (some M) ∧ elementForm M us vs = V * meanProduct us vs := by
  cases h with
  | beam p q h =>
    cases hV
    match us, vs, hu, hv with
    | [u, u'], [v, v'], _, _ =>
      refine ⟨_, rfl, ?_⟩
      rw [elementForm_of, vec2, vec2]
      simp [beamDdt, dotProduct, mulVec, Fin.sum_univ_two, meanProduct]
      ring
  | triangle a b c h =>
    cases hV
    match us, vs, hu, hv with
    | [u, u', u''], [v, v', v''], _, _ =>
      refine ⟨_, rfl, ?_⟩
      rw [elementForm_of, vec3, vec3, tri_area]
      simp [triDdt, dotProduct, mulVec, Fin.sum_univ_three, meanProduct]
      ring
  | tetrahedron a b c d h =>
    cases hV
    match us, vs, hu, hv with
    | [u, u', u'', u3], [v, v', v'', v3], _, _ =>
      refine ⟨_, rfl, ?_⟩
      rw [elementForm_of, vec4, vec4, tet_volume]
      simp [tetDdt, dotProduct, mulVec, Fin.sum_univ_four, meanProduct]
      ring

theorem mass_term {nrm : Vec3 K → K} {m : Mesh K} (hs : SimplexMesh nrm m) {id : Int} {e : Elem} (he : m.elements.get? id = some e) :
    ∃ ps V, e.nodeIds.mapM m.nodes.get? = some ps ∧ Measure nrm e.elementType ps V ∧ 0 < V ∧
      ∀ φ ψ : Int → K, elementTerm (elementDdt nrm) m φ ψ e = V * meanProduct (e.nodeIds.map φ) (e.nodeIds.map ψ) := by
  obtain ⟨ps, h1, h2⟩ := hs id e he
  obtain ⟨V, h3, h4⟩ := measure_pos h2
  refine ⟨ps, V, h1, h3, h4, fun φ ψ => ?_⟩
  have hl := mapM_length _ _ _ h1
  obtain ⟨M, hM, hf⟩ := mass_form nrm _ ps h2 V h3 (e.nodeIds.map φ) (e.nodeIds.map ψ) (by rw [List.length_map, hl]) (by rw [List.length_map, hl])
  unfold elementTerm
  rw [h1, Option.bind_some, hM]
  exact hf

theorem over_eq (m : Mesh K) (hwf : m.WF) (t : Elem → K) (q : Int → K) (h : ∀ id e, m.elements.get? id = some e → q id = t e) : (m.elements.ids.map q).sum = overElements m (fun _ => t) := by
  unfold overElements
  congr 1
  refine List.map_congr_left fun id hid => ?_
  obtain ⟨e, he⟩ := (hwf.elements.2 id).1 hid
  rw [he, h id e he]
  rfl

theorem total_product {nrm : Vec3 K → K} (m : Mesh K) (hwf : m.WF) (hs : SimplexMesh nrm m) (φ ψ : Int → K) :
    TotalProduct nrm m φ ψ (mass nrm m φ ψ) ∧ ∀ S, TotalProduct nrm m φ ψ S → S = mass nrm m φ ψ := by
  constructor
  · refine ⟨fun id => ((m.elements.get? id).map (elementTerm (elementDdt nrm) m φ ψ)).getD 0, fun id hid => ?_, rfl⟩
    obtain ⟨e, he⟩ := (hwf.elements.2 id).1 hid
    obtain ⟨ps, V, h1, h2, -, h4⟩ := mass_term hs he
    refine ⟨e, ps, V, he, h1, h2, ?_⟩
    show ((m.elements.get? id).map _).getD 0 = _
    rw [he, ← h4]
    rfl
  · rintro S ⟨sq, h, rfl⟩
    refine over_eq m hwf _ sq fun id e he => ?_
    obtain ⟨e', ps, V, a1, a2, a3, a4⟩ := h id ((hwf.elements.2 id).2 ⟨e, he⟩)
    rw [he, Option.some.injEq] at a1
    subst a1
    obtain ⟨ps', V', b1, b2, -, b4⟩ := mass_term hs he
    rw [a2, Option.some.injEq] at b1
    subst b1
    rw [a4, b4, measure_unique a3 b2]

theorem total_heat {nrm : Vec3 K → K} (m : Mesh K) (hwf : m.WF) (hs : SimplexMesh nrm m) (φ : Int → K) :
    TotalHeat nrm m φ (mass nrm m φ fun _ => 1) ∧ ∀ H, TotalHeat nrm m φ H → H = mass nrm m φ fun _ => 1 := by
  have hmean : ∀ ids : List Int, meanProduct (ids.map φ) (ids.map fun _ => 1) = (ids.map φ).sum / ids.length := fun ids => by
    have h1 : (List.zipWith (fun u v => u * v) (ids.map φ) (ids.map fun _ => (1 : K))).sum = (ids.map φ).sum := by
      induction ids with
      | nil => rfl
      | cons a t ih => rw [List.map_cons, List.map_cons, List.zipWith_cons_cons, List.sum_cons, List.sum_cons, ih, mul_one]
    have h2 : (ids.map fun _ => (1 : K)).sum = ids.length := by simp
    unfold meanProduct
    rw [h1, h2, List.length_map]
    have : (0 : K) < ids.length + 1 := by positivity
    rw [show (ids.map φ).sum * (ids.length : K) + (ids.map φ).sum = (ids.map φ).sum * (ids.length + 1) by ring]
    rw [mul_div_mul_right _ _ this.ne']
  constructor
  · refine ⟨fun id => ((m.elements.get? id).map (elementTerm (elementDdt nrm) m φ fun _ => 1)).getD 0, fun id hid => ?_, rfl⟩
    obtain ⟨e, he⟩ := (hwf.elements.2 id).1 hid
    obtain ⟨ps, V, h1, h2, -, h4⟩ := mass_term hs he
    refine ⟨e, ps, V, he, h1, h2, ?_⟩
    show ((m.elements.get? id).map _).getD 0 = _
    rw [he, ← hmean, ← h4]
    rfl
  · rintro H ⟨ht, h, rfl⟩
    refine over_eq m hwf _ ht fun id e he => ?_
    obtain ⟨e', ps, V, a1, a2, a3, a4⟩ := h id ((hwf.elements.2 id).2 ⟨e, he⟩)
    rw [he, Option.some.injEq] at a1
    subst a1
    obtain ⟨ps', V', b1, b2, -, b4⟩ := mass_term hs he
    rw [a2, Option.some.injEq] at b1
    subst b1
    rw [a4, b4, measure_unique a3 b2, hmean]

theorem mean_comm (us vs : List K) (h : us.length = vs.length) : meanProduct us vs = meanProduct vs us := by
  unfold meanProduct
  rw [h, mul_comm us.sum, List.zipWith_comm]
  simp only [mul_comm]

theorem over_congr (m : Mesh K) (hwf : m.WF) (t t' : Elem → K) (h : ∀ id e, m.elements.get? id = some e → t e = t' e) : overElements m (fun _ => t) = overElements m (fun _ => t') := by
  unfold overElements
  congr 1
  refine List.map_congr_left fun id hid => ?_
  obtain ⟨e, he⟩ := (hwf.elements.2 id).1 hid
  rw [he]
  exact h id e he

theorem mass_symm {nrm : Vec3 K → K} (m : Mesh K) (hwf : m.WF) (hs : SimplexMesh nrm m) (φ ψ : Int → K) : mass nrm m φ ψ = mass nrm m ψ φ := by
  refine over_congr m hwf _ _ fun id e he => ?_
  obtain ⟨ps, V, -, -, -, h4⟩ := mass_term hs he
  rw [h4, h4, mean_comm _ _ (by rw [List.length_map, List.length_map])]

theorem mass_nonneg {nrm : Vec3 K → K} (m : Mesh K) (hwf : m.WF) (hs : SimplexMesh nrm m) (φ : Int → K) :
    0 ≤ mass nrm m φ φ ∧ (mass nrm m φ φ = 0 → ∀ id e, m.elements.get? id = some e → ∀ x ∈ e.nodeIds, φ x = 0) := by
  have hval : ∀ id e, m.elements.get? id = some e → 0 ≤ elementTerm (elementDdt nrm) m φ φ e ∧ (elementTerm (elementDdt nrm) m φ φ e = 0 → ∀ x ∈ e.nodeIds, φ x = 0) := fun id e he => by
    obtain ⟨ps, V, -, -, hV, h4⟩ := mass_term hs he
    rw [h4]
    obtain ⟨h5, h6⟩ := mean_nonneg (e.nodeIds.map φ)
    exact ⟨mul_nonneg hV.le h5, fun h x hx => h6 ((mul_eq_zero.1 h).resolve_left hV.ne') _ (List.mem_map_of_mem hx)⟩
  obtain ⟨h1, h2⟩ := sum_nonneg_zero m.elements.ids (fun id => ((m.elements.get? id).map (elementTerm (elementDdt nrm) m φ φ)).getD 0) (fun id hid => by
    obtain ⟨e, he⟩ := (hwf.elements.2 id).1 hid
    rw [he]
    exact (hval id e he).1)
  refine ⟨h1, fun h id e he => (hval id e he).2 ?_⟩
  have := h2 h id ((hwf.elements.2 id).2 ⟨e, he⟩)
  rw [he] at this
  exact this

/-! ### Systems -/

theorem form_sub_left (s : Sys K) (u v w : Nat → K) : s.form (fun i => u i - v i) w = s.form u w - s.form v w := by
  simp only [Sys.form, sub_mul, Finset.sum_sub_distrib]

theorem form_sub_right (s : Sys K) (u v w : Nat → K) : s.form w (fun i => u i - v i) = s.form w u - s.form w v := by
  simp only [Sys.form, mul_sub, Finset.sum_sub_distrib]

theorem nodal_sub (m : Mesh K) (φ ψ : Int → K) : nodal m (fun x => φ x - ψ x) = fun i => nodal m φ i - nodal m ψ i := by
  funext i
  simp only [nodal]
  cases m.nodes.idAt? i <;> simp

/-- A symmetric system without negative values. -/
def Psd (s : Sys K) : Prop := (∀ i < s.n, ∀ j < s.n, s.A i j = s.A j i) ∧ ∀ v, 0 ≤ s.form v v

/-- The opposite system. -/
def opposite (s : Sys K) : Sys K := { s with A := fun i j => -s.A i j, b := fun i => -s.b i }

theorem opposite_form (s : Sys K) (v w : Nat → K) : (opposite s).form v w = -s.form v w := by
  simp only [Sys.form, opposite, mul_neg, neg_mul, Finset.sum_neg_distrib]

theorem psd_null (s : Sys K) (h : Psd s) (q w : Nat → K) (hq : s.form q q = 0) : s.form q w = 0 := by
  have := null_of_zero (opposite s).mat (by ext i j; show -s.A j i = -s.A i j; rw [h.1 j j.2 i i.2]) (fun v => by
    have := h.2 (Sys.ext s.n v)
    have e := (opposite s).form_mat (Sys.ext s.n v) (Sys.ext s.n v)
    rw [opposite_form] at e
    rw [show (fun i : Fin (opposite s).n => Sys.ext s.n v i) = v from Sys.ext_fin s.n v] at e
    rw [← e]
    linarith) (fun i => q i) (by rw [← Sys.form_mat, opposite_form, hq, neg_zero]) (fun i => w i)
  rw [← Sys.form_mat, opposite_form] at this
  linarith

theorem psd_free (s : Sys K) (h : Psd s) (hb : ∀ v, s.form v v = 0 → s.load v = 0) (p : Nat → Option K) :
    ∃ w : Nat → K, (∀ i v, p i = some v → w i = v) ∧ ∀ i < s.n, p i = none → s.row w i = s.b i := by
  obtain ⟨w, h1, h2⟩ := (opposite s).exists_free (fun i hi j hj => by show -s.A i j = -s.A j i; rw [h.1 i hi j hj]) (fun v => by rw [opposite_form]; linarith [h.2 v])
    (fun v hv => by
      rw [opposite_form] at hv
      have := hb v (by linarith)
      rw [Sys.load] at this ⊢
      simp only [opposite, mul_neg, Finset.sum_neg_distrib]
      rw [this, neg_zero]) p
  refine ⟨w, h1, fun i hi hp => ?_⟩
  have := h2 i hi hp
  simp only [Sys.row, opposite, neg_mul, Finset.sum_neg_distrib] at this
  rw [Sys.row]
  linarith

/-- What `ddt` assembles. -/
theorem stored {nrm : Vec3 K → K} (m : Mesh K) (hwf : m.WF) (hrt : m.nodes.RoundTrip) (hs : SimplexMesh nrm m) (hc : Contiguous m) (hids : ∀ id ∈ m.nodes.ids, 0 ≤ id ∧ id < m.nodes.count)
    (u : Nat → K) : ∃ d, FemThermalOp.ddt nrm m u = some d ∧ d.n = m.nodes.count ∧ d.kind = .sparseSymmetric ∧ (∀ i < d.n, d.b i = d.row u i) ∧ Psd d ∧
      ∀ φ ψ : Int → K, d.form (nodal m φ) (nodal m ψ) = mass nrm m φ ψ := by
  obtain ⟨d, h1, h2, h3, h4, h5⟩ := C28_ddt_partial nrm m hwf hrt hc hids u
  have h6 : ∀ φ ψ : Int → K, d.form (nodal m φ) (nodal m ψ) = mass nrm m φ ψ := fun φ ψ => by rw [h5, elems_over]; rfl
  refine ⟨d, h1, h2, h3, h4, ⟨fun i hi j hj => ?_, fun v => ?_⟩, h6⟩
  · obtain ⟨x, hx⟩ := idAt_of_lt m i (h2 ▸ hi)
    obtain ⟨y, hy⟩ := idAt_of_lt m j (h2 ▸ hj)
    have key : ∀ i j x y, i < d.n → j < d.n → m.nodes.idAt? i = some x → m.nodes.idAt? j = some y → d.A i j = mass nrm m (fun z => if z = x then 1 else 0) (fun z => if z = y then 1 else 0) :=
      fun i j x y hi hj hx hy => by
        rw [← h6, ← Sys.form_single d i j hi hj]
        exact Sys.form_congr d _ _ _ _ (fun k hk => (nodal_single m hwf i x hx k (h2 ▸ hk)).symm) (fun k hk => (nodal_single m hwf j y hy k (h2 ▸ hk)).symm)
    rw [key i j x y hi hj hx hy, key j i y x hj hi hy hx, mass_symm m hwf hs]
  · obtain ⟨φ, -, hφ⟩ := nodal_surj m hwf v
    rw [Sys.form_congr d v (nodal m φ) v (nodal m φ) (fun i hi => (hφ i (h2 ▸ hi)).symm) (fun i hi => (hφ i (h2 ▸ hi)).symm), h6]
    exact (mass_nonneg m hwf hs φ).1

end FemHeat
end ENigMA
