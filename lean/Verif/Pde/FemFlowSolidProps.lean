import Verif.Pde.FemFlowProps

/-!
# Properties of the finite element operators of flow problems on solids: C117

The terms below are the integrals over a tetrahedron of products of linear functions, given by their values at the corners, and constants.
-/

set_option linter.unusedSectionVars false
set_option autoImplicit false

namespace ENigMA
open Matrix FemOp FemStructuralOp FemFlowOp

variable {K : Type} [Field K] [LinearOrder K] [IsStrictOrderedRing K]

namespace FemFlowOp

/-- A quantity of the tetrahedra; zero on other elements. -/
def onTet (e : Elem) (f : Int → Int → Int → Int → K) : K :=
  match e.elementType, e.nodeIds with
  | .tetrahedron, [w, x, y, z] => f w x y z
  | _, _ => 0

/-- The mean over the tetrahedron of a field. -/
def mean4 (w x y z : Int) (φ : Int → K) : K := (φ w + φ x + φ y + φ z) / 4

/-- The mean over the tetrahedron of the product of two fields. -/
def meanProduct4 (w x y z : Int) (φ ψ : Int → K) : K :=
  ((φ w + φ x + φ y + φ z) * (ψ w + ψ x + ψ y + ψ z) + (φ w * ψ w + φ x * ψ x + φ y * ψ y + φ z * ψ z)) / 20

/-- `∫ φ ψ` over a tetrahedron, with the sign of `volume()`. -/
def solidMassTerm (m : Mesh K) (φ ψ : Int → K) (e : Elem) : K := onTet e fun w x y z => tetVolume m e * meanProduct4 w x y z φ ψ

/-- `∫ φ (U · ∇ψ)` over a tetrahedron, with the sign of `volume()`, for the velocity `U = (u, v, w)` and a field `ψ` with the gradient `g`. -/
def solidConvectionTerm (m : Mesh K) (u v w φ : Int → K) (g : Vec3 K) (e : Elem) : K :=
  onTet e fun a b c d => tetVolume m e * (meanProduct4 a b c d φ u * g.x + meanProduct4 a b c d φ v * g.y + meanProduct4 a b c d φ w * g.z)

/-- `∫ (U · ∇φ) (U · ∇ψ)` over a tetrahedron, with the mean velocity, for fields with the gradients `h` and `g`. -/
def solidStreamTerm (m : Mesh K) (u v w : Int → K) (h g : Vec3 K) (e : Elem) : K :=
  onTet e fun a b c d => tetVolume m e * ((mean4 a b c d u * h.x + mean4 a b c d v * h.y + mean4 a b c d w * h.z) *
    (mean4 a b c d u * g.x + mean4 a b c d v * g.y + mean4 a b c d w * g.z))

/-- The wrong velocity in the last row: the difference of the velocities along `x` at the third and the fourth corner, times the `x` component of the vector product
of the edges from the fourth corner to the first two, over 120, times the product of `φ` at the fourth and `ψ` at the third corner. -/
def slipTerm (m : Mesh K) (u φ ψ : Int → K) (e : Elem) : K :=
  onTet e fun a b c d => (u c - u d) * (Vec3.cross (place m a - place m d) (place m b - place m d)).x / 120 * φ d * ψ c

/-- The form of the convection of a tetrahedron. -/
theorem tetConvection_form (dt : K) (u v w : Fin 4 → K) (t : Tet K) (hV : t.volume ≠ 0) (a b : K) (h g : Vec3 K) :
    Fem.sample (Fem.tetV t) a h ⬝ᵥ (Fem.tetConvection dt u v w t *ᵥ Fem.sample (Fem.tetV t) b g) =
      t.volume / 20 * (∑ i, Fem.sample (Fem.tetV t) a h i * (((u 0 + u 1 + u 2 + u 3) + u i) * g.x + ((v 0 + v 1 + v 2 + v 3) + v i) * g.y
        + ((w 0 + w 1 + w 2 + w 3) + w i) * g.z)) +
      (u 2 - u 3) * Fem.tetB t 0 2 / 120 * Fem.sample (Fem.tetV t) a h 3 * Fem.sample (Fem.tetV t) b g 2 -
      dt * (t.volume * (((u 0 + u 1 + u 2 + u 3) / 4 * h.x + (v 0 + v 1 + v 2 + v 3) / 4 * h.y + (w 0 + w 1 + w 2 + w 3) / 4 * h.z) *
        ((u 0 + u 1 + u 2 + u 3) / 4 * g.x + (v 0 + v 1 + v 2 + v 3) / 4 * g.y + (w 0 + w 1 + w 2 + w 3) / 4 * g.z))) := by
  have hg := Fem.tetB_sample t b g
  have hh := Fem.tetB_sample t a h
  have g0 := congrFun hg 0
  have g1 := congrFun hg 1
  have g2 := congrFun hg 2
  have h0 := congrFun hh 0
  have h1 := congrFun hh 1
  have h2 := congrFun hh 2
  simp only [mulVec, dotProduct, Fin.sum_univ_four, Matrix.cons_val_zero, Matrix.cons_val_one, Matrix.cons_val] at g0 g1 g2 h0 h1 h2
  obtain ⟨r, hr, hrV⟩ : ∃ r : K, (∀ k : K, k / (144 * t.volume) = k * r) ∧ r * t.volume = 1 / 144 :=
    ⟨(144 * t.volume)⁻¹, fun k => div_eq_mul_inv _ _, by field_simp⟩
  simp only [Fem.tetConvection, hr]
  clear hg hh hr
  generalize Fem.tetB t = B at *
  generalize t.volume = V at *
  generalize Fem.sample (Fem.tetV t) b g = ψ at *
  generalize Fem.sample (Fem.tetV t) a h = φ at *
  simp only [mulVec, dotProduct, Fin.sum_univ_four, Matrix.sub_apply, Matrix.smul_apply, Matrix.add_apply, Matrix.of_apply, smul_eq_mul]
  simp only [show ¬ ((0 : Fin 4) = 3) by decide, show ¬ ((1 : Fin 4) = 3) by decide, show ¬ ((2 : Fin 4) = 3) by decide, show ¬ ((0 : Fin 4) = 2) by decide,
    show ¬ ((1 : Fin 4) = 2) by decide, show ¬ ((3 : Fin 4) = 2) by decide, false_and, and_false, if_false, true_and, and_true, if_true, true_and]
  obtain ⟨us, hus⟩ : ∃ us, us = u 0 + u 1 + u 2 + u 3 := ⟨_, rfl⟩
  obtain ⟨vs, hvs⟩ : ∃ vs, vs = v 0 + v 1 + v 2 + v 3 := ⟨_, rfl⟩
  obtain ⟨ws, hws⟩ : ∃ ws, ws = w 0 + w 1 + w 2 + w 3 := ⟨_, rfl⟩
  rw [← hus, ← hvs, ← hws]
  linear_combination (φ 0 * (us + u 0) + φ 1 * (us + u 1) + φ 2 * (us + u 2) + φ 3 * (us + u 3)) / 120 * g0 +
    (φ 0 * (vs + v 0) + φ 1 * (vs + v 1) + φ 2 * (vs + v 2) + φ 3 * (vs + v 3)) / 120 * g1 +
    (φ 0 * (ws + w 0) + φ 1 * (ws + w 1) + φ 2 * (ws + w 2) + φ 3 * (ws + w 3)) / 120 * g2 -
    dt * r / 4 * (us * (B 0 0 * ψ 0 + B 0 1 * ψ 1 + B 0 2 * ψ 2 + B 0 3 * ψ 3) + vs * (B 1 0 * ψ 0 + B 1 1 * ψ 1 + B 1 2 * ψ 2 + B 1 3 * ψ 3) +
      ws * (B 2 0 * ψ 0 + B 2 1 * ψ 1 + B 2 2 * ψ 2 + B 2 3 * ψ 3)) * (us * h0 + vs * h1 + ws * h2) -
    dt * r / 4 * (6 * V) * (us * h.x + vs * h.y + ws * h.z) * (us * g0 + vs * g1 + ws * g2) -
    9 * dt * V * (us * h.x + vs * h.y + ws * h.z) * (us * g.x + vs * g.y + ws * g.z) * hrV

theorem elementTerm_tet (mat : ElementType → List (Vec3 K) → Option (Option (EMat K))) (m : Mesh K) (e : Elem)
    (hnodes : ∀ x ∈ e.nodeIds, ∃ p, m.nodes.get? x = some p) (φ ψ : Int → K) (f : Int → Int → Int → Int → K)
    (hskip : ∀ ps M, mat e.elementType ps = some (some M) → e.elementType = .tetrahedron ∧ ps.length = 4)
    (htet : ∀ w x y z, e.elementType = .tetrahedron → e.nodeIds = [w, x, y, z] →
      ∃ M, mat .tetrahedron [place m w, place m x, place m y, place m z] = some (some M) ∧ elementForm M [φ w, φ x, φ y, φ z] [ψ w, ψ x, ψ y, ψ z] = f w x y z) :
    elementTerm mat m φ ψ e = onTet e f := by
  obtain ⟨ty, ids, fs⟩ := e
  by_cases hty : ty = .tetrahedron ∧ ids.length = 4
  · obtain ⟨rfl, hl⟩ := hty
    match ids, hl with
    | [w, x, y, z], _ =>
    obtain ⟨o, ho⟩ := hnodes w (by simp)
    obtain ⟨p, hp⟩ := hnodes x (by simp)
    obtain ⟨q, hq⟩ := hnodes y (by simp)
    obtain ⟨r, hr⟩ := hnodes z (by simp)
    have hm : [w, x, y, z].mapM m.nodes.get? = some [o, p, q, r] := by simp [List.mapM_cons, ho, hp, hq, hr]
    obtain ⟨M, hM, hf⟩ := htet w x y z rfl rfl
    simp only [place, ho, hp, hq, hr, Option.getD_some] at hM
    simp only [elementTerm, hm, Option.bind_some, hM, onTet]
    exact hf
  · have hR : onTet (K := K) ⟨ty, ids, fs⟩ f = 0 := by
      unfold onTet
      split
      · next h3 h4 =>
        simp only at h3 h4
        subst h3 h4
        exact absurd ⟨rfl, rfl⟩ hty
      · rfl
    rw [hR]
    unfold elementTerm
    split
    · next M hM =>
      obtain ⟨ps, hps, hM⟩ := Option.bind_eq_some_iff.1 hM
      have hl := (mapM_length _ _ _ hps).1
      obtain ⟨h1, h2⟩ := hskip ps M hM
      exact absurd ⟨h1, by rw [← hl, h2]⟩ hty
    · rfl

theorem onTet_tet (ids : List Int) (fs : List Int) (w x y z : Int) (h : ids = [w, x, y, z]) (f : Int → Int → Int → Int → K) : onTet ⟨.tetrahedron, ids, fs⟩ f = f w x y z := by
  subst h; rfl

/-- The gradient of a field on every tetrahedron. -/
def Slopes (m : Mesh K) (ψ : Int → K) (a : Int → K) (g : Int → Vec3 K) : Prop :=
  ∀ id e, m.elements.get? id = some e → e.elementType = .tetrahedron → ∀ x ∈ e.nodeIds, ψ x = a id + (g id).dot (place m x)

theorem Slopes.sample {m : Mesh K} {ψ a : Int → K} {g : Int → Vec3 K} (h : Slopes m ψ a g) {id : Int} {w x y z : Int} {fs : List Int} (he : m.elements.get? id = some ⟨.tetrahedron, [w, x, y, z], fs⟩) :
    (fun i : Fin 4 => [ψ w, ψ x, ψ y, ψ z].getD i 0) = Fem.sample (Fem.tetV ⟨place m w, place m x, place m y, place m z⟩) (a id) (g id) := by
  funext i
  fin_cases i
  · exact h id _ he rfl w (by simp)
  · exact h id _ he rfl x (by simp)
  · exact h id _ he rfl y (by simp)
  · exact h id _ he rfl z (by simp)

end FemFlowOp

/-- **C117, means of solids.** The mean of a product of two linear functions on a tetrahedron by the values at the corners, the centres of the edges and the centre: the rule
that is exact for polynomials of degree two takes the four corners with weight -1/20 and the six centres of the edges with weight 1/5. -/
theorem C117_mean_solid (w x y z : Int) (φ ψ : Int → K) : meanProduct4 w x y z φ ψ =
    -(φ w * ψ w + φ x * ψ x + φ y * ψ y + φ z * ψ z) / 20 +
    ((φ w + φ x) / 2 * ((ψ w + ψ x) / 2) + (φ w + φ y) / 2 * ((ψ w + ψ y) / 2) + (φ w + φ z) / 2 * ((ψ w + ψ z) / 2) +
      (φ x + φ y) / 2 * ((ψ x + ψ y) / 2) + (φ x + φ z) / 2 * ((ψ x + ψ z) / 2) + (φ y + φ z) / 2 * ((ψ y + ψ z) / 2)) / 5 := by
  unfold meanProduct4; ring

/-- **C117, `ddt` of solids, partial.** On every mesh without triangles whose element ids are `0 … n-1` and whose node ids are smaller than the number of nodes, `ddt` yields the matrix of `∫ φ ψ` (with the sign of
`volume()`) and, as right-hand side, this matrix times the field. Missing: other ids, see `C117_ddt_element_ids`. -/
theorem C117_ddt_solid_partial (nrm : Vec3 K → K) (m : Mesh K) (hwf : m.WF) (hrt : m.nodes.RoundTrip)
    (ht : ∀ id e, m.elements.get? id = some e → e.elementType ≠ .triangle) (hc : Contiguous m)
    (hids : ∀ id ∈ m.nodes.ids, 0 ≤ id ∧ id < m.nodes.count) (u : Nat → K) :
    ∃ s, FemFlowOp.ddt nrm m u = some s ∧ s.n = m.nodes.count ∧ s.kind = .sparseSymmetric ∧ (∀ i < s.n, s.b i = s.row u i) ∧
      ∀ φ ψ : Int → K, s.form (nodal m φ) (nodal m ψ) = ((elemsId m).map fun p => solidMassTerm m φ ψ p.2).sum := by
  obtain ⟨s, h1, h2, h3, h4, h5⟩ := ddt_spec nrm m hwf hrt hc hids u
  refine ⟨s, h1, h2, h3, h4, fun φ ψ => ?_⟩
  rw [h5, ← map_elemsId]
  congr 1
  apply List.map_congr_left
  intro p hp
  have he := (mem_elemsId.1 hp).2
  refine elementTerm_tet _ m p.2 (elem_nodes hwf he) φ ψ _ ?_ ?_
  · intro ps M hM
    unfold FemFlowOp.elementDdt at hM
    split at hM
    · next h => exact absurd h (ht _ _ he)
    · next h => exact ⟨h, rfl⟩
    · cases hM
  · intro w x y z h6 h7
    refine ⟨_, rfl, ?_⟩
    rw [elementForm_of]
    obtain ⟨id, ty, ids, fs⟩ := p
    simp only at h6 h7
    subst h6 h7
    simp only [tetVolume, meanProduct4, Fem.tetDdt, if_pos one_pos, inv_one, one_smul]
    simp [mulVec, dotProduct, Fin.sum_univ_four]
    ring

/-- **C117, `laplacian` of solids.** On every consistent mesh without triangles whose tetrahedra have a positive `volume()`: the form of the matrix is the sum over the tetrahedra of `-∫ ∇φ · ∇ψ`. -/
theorem C117_laplacian_solid (nrm : Vec3 K → K) (made : Int → Made K) (m : Mesh K) (hwf : m.WF) (hrt : m.nodes.RoundTrip)
    (hs : ∀ id e, m.elements.get? id = some e → e.elementType ≠ .triangle ∧ (e.elementType = .tetrahedron → e.nodeIds.length = 4 → 0 < tetVolume m e)) :
    ∃ s, FemFlowOp.laplacian nrm made 1 m = some s ∧ s.n = m.nodes.count ∧ s.kind = .sparseSymmetric ∧ (∀ i < s.n, s.b i = 0) ∧
      ∀ (φ ψ a b : Int → K) (h g : Int → Vec3 K), Slopes m φ a h → Slopes m ψ b g →
        s.form (nodal m φ) (nodal m ψ) = ((elemsId m).map fun p => onTet p.2 fun _ _ _ _ => -(tetVolume m p.2 * (h p.1).dot (g p.1))).sum := by
  obtain ⟨s, h1, h2, h3, h4, h5⟩ := assembleBy_spec (fun id _ => FemFlowOp.elementLaplacian nrm (made id)) .sparseSymmetric m hwf hrt (by
    intro id e he ps M hps hM
    have hl := (mapM_length _ _ _ hps).1
    unfold FemFlowOp.elementLaplacian at hM
    split at hM
    · next ht => exact absurd ht (hs id e he).1
    · cases hM
      rw [← hl]; rfl
    · cases hM) (by
    intro id e he ps hps
    unfold FemFlowOp.elementLaplacian
    split
    · next ht => exact absurd ht (hs id e he).1
    · exact ⟨_, rfl⟩
    · exact ⟨_, rfl⟩)
  refine ⟨s, h1, h2, h3, h4, fun φ ψ a b h g hφ hψ => ?_⟩
  rw [h5]
  congr 1
  apply List.map_congr_left
  intro p hp
  have he := (mem_elemsId.1 hp).2
  refine elementTerm_tet _ m p.2 (elem_nodes hwf he) φ ψ _ ?_ ?_
  · intro ps M hM
    unfold FemFlowOp.elementLaplacian at hM
    split at hM
    · next h => exact absurd h (hs _ _ he).1
    · next h => exact ⟨h, rfl⟩
    · cases hM
  · intro w x y z h6 h7
    refine ⟨_, rfl, ?_⟩
    rw [elementForm_of]
    obtain ⟨id, ty, ids, fs⟩ := p
    simp only at h6 h7 he
    subst h6 h7
    have hV := (hs _ _ he).2 rfl rfl
    simp only [tetVolume] at hV ⊢
    rw [hφ.sample he, hψ.sample he]
    rw [(C25_tetrahedron _ hV).2.2.1, Vec3.dot_comm]

/-- **C117, convection of solids, partial.** On every consistent mesh whose tetrahedra have a `volume()` that is not zero, with any velocities: the form of the matrix is the sum over the tetrahedra of `∫ φ (U · ∇ψ)`, minus `dt` times the
streamline term, plus the term of the wrong velocity in the last row of the element matrix. The streamline term has the wrong sign, as in the plane. Missing: the last two are not what a scheme with characteristics asks for. -/
theorem C117_convection_solid_partial (dt : K) (m : Mesh K) (hwf : m.WF) (hrt : m.nodes.RoundTrip)
    (hs : ∀ id e, m.elements.get? id = some e → e.elementType = .tetrahedron → e.nodeIds.length = 4 → tetVolume m e ≠ 0) (U V W : Nat → K) :
    ∃ s, FemFlowOp.divergence3 dt 1 m U V W = some s ∧ s.n = m.nodes.count ∧ s.kind = .sparse ∧ (∀ i < s.n, s.b i = 0) ∧
      ∀ (φ ψ a b : Int → K) (h g : Int → Vec3 K), Slopes m φ a h → Slopes m ψ b g →
        s.form (nodal m φ) (nodal m ψ) = ((elemsId m).map fun p => solidConvectionTerm m (atNodes m U) (atNodes m V) (atNodes m W) φ (g p.1) p.2).sum +
          ((elemsId m).map fun p => slipTerm m (atNodes m U) φ ψ p.2).sum -
          dt * ((elemsId m).map fun p => solidStreamTerm m (atNodes m U) (atNodes m V) (atNodes m W) (h p.1) (g p.1) p.2).sum := by
  have hval : ∀ id e, m.elements.get? id = some e → ∀ w : Nat → K, e.nodeIds.mapM (nodeValue m w) = some (e.nodeIds.map (atNodes m w)) :=
    fun id e he w => nodeValues m hrt w _ fun x hx => hwf.elemNodes _ _ he x hx
  obtain ⟨s, h1, h2, h3, h4, h5⟩ := assembleBy_spec (fun _ => elementConvection3 dt m U V W) .sparse m hwf hrt (by
    intro id e he ps M hps hM
    have hl := (mapM_length _ _ _ hps).1
    simp only [elementConvection3] at hM
    split at hM
    · rw [hval id e he, hval id e he, hval id e he] at hM
      cases hM
      rw [← hl]; rfl
    · cases hM) (by
    intro id e he ps hps
    simp only [elementConvection3]
    split
    · rw [hval id e he, hval id e he, hval id e he]; exact ⟨_, rfl⟩
    · exact ⟨_, rfl⟩)
  refine ⟨s, h1, h2, h3, h4, fun φ ψ a b h g hφ hψ => ?_⟩
  rw [h5, sub_eq_add_neg, neg_mul_eq_neg_mul, ← List.sum_map_mul_left, ← List.sum_map_add, ← List.sum_map_add]
  congr 1
  apply List.map_congr_left
  intro p hp
  have he := (mem_elemsId.1 hp).2
  have key : elementTerm (elementConvection3 dt m U V W p.2) m φ ψ p.2 = onTet p.2 fun a b c d =>
      tetVolume m p.2 * (meanProduct4 a b c d φ (atNodes m U) * (g p.1).x + meanProduct4 a b c d φ (atNodes m V) * (g p.1).y + meanProduct4 a b c d φ (atNodes m W) * (g p.1).z) +
      ((atNodes m U) c - (atNodes m U) d) * (Vec3.cross (place m a - place m d) (place m b - place m d)).x / 120 * φ d * ψ c -
      dt * (tetVolume m p.2 * ((mean4 a b c d (atNodes m U) * (h p.1).x + mean4 a b c d (atNodes m V) * (h p.1).y + mean4 a b c d (atNodes m W) * (h p.1).z) *
        (mean4 a b c d (atNodes m U) * (g p.1).x + mean4 a b c d (atNodes m V) * (g p.1).y + mean4 a b c d (atNodes m W) * (g p.1).z))) := by
    refine elementTerm_tet _ m p.2 (elem_nodes hwf he) φ ψ _ ?_ ?_
    · intro ps M hM
      unfold elementConvection3 at hM
      split at hM
      · next h => exact ⟨h, rfl⟩
      · cases hM
    · intro w x y z h6 h7
      obtain ⟨id, ty, ids, fs⟩ := p
      simp only at h6 h7 he
      subst h6 h7
      simp only [elementConvection3]
      rw [hval id _ he, hval id _ he, hval id _ he]
      refine ⟨_, rfl, ?_⟩
      have hV := hs _ _ he rfl rfl
      simp only [tetVolume] at hV ⊢
      rw [elementForm_of, hφ.sample he, hψ.sample he, tetConvection_form dt _ _ _ _ hV, ← hφ.sample he, ← hψ.sample he]
      simp [Fin.sum_univ_four, meanProduct4, mean4, Fem.tetB, Vec3.cross]
      ring
  rw [key]
  unfold solidConvectionTerm slipTerm solidStreamTerm onTet
  split <;> simp [sub_eq_add_neg]

/-- **C117 fails for solids: constants are not in the kernel of the convection.** With a constant field the form is the sum of the terms of the wrong velocity, for every test function that is linear on the tetrahedra. -/
theorem C117_solid_constants (dt : K) (m : Mesh K) (hwf : m.WF) (hrt : m.nodes.RoundTrip)
    (hs : ∀ id e, m.elements.get? id = some e → e.elementType = .tetrahedron → e.nodeIds.length = 4 → tetVolume m e ≠ 0) (U V W : Nat → K) :
    ∃ s, FemFlowOp.divergence3 dt 1 m U V W = some s ∧ ∀ (φ a : Int → K) (h : Int → Vec3 K), Slopes m φ a h →
      s.form (nodal m φ) (nodal m fun _ => 1) = ((elemsId m).map fun p => slipTerm m (atNodes m U) φ (fun _ => 1) p.2).sum := by
  obtain ⟨s, h1, -, -, -, h5⟩ := C117_convection_solid_partial dt m hwf hrt hs U V W
  refine ⟨s, h1, fun φ a h hφ => ?_⟩
  have z1 : (fun p : Int × Elem => solidConvectionTerm m (atNodes m U) (atNodes m V) (atNodes m W) φ (⟨0, 0, 0⟩ : Vec3 K) p.2) = fun _ => 0 := by
    funext p
    unfold solidConvectionTerm onTet
    split <;> simp
  have z2 : (fun p : Int × Elem => solidStreamTerm m (atNodes m U) (atNodes m V) (atNodes m W) (h p.1) (⟨0, 0, 0⟩ : Vec3 K) p.2) = fun _ => 0 := by
    funext p
    unfold solidStreamTerm onTet
    split <;> simp
  rw [h5 φ (fun _ => 1) a (fun _ => 1) h (fun _ => ⟨0, 0, 0⟩) hφ (by intro id e _ _ x _; simp [Vec3.dot])]
  simp only [z1, z2]
  simp

/-- `femTets` meets the hypotheses of the theorems above, with the fields `x` and `y + 2 z`, which have the slopes `(1, 0, 0)` and `(0, 1, 2)`. -/
example : femTets.WF ∧ femTets.nodes.RoundTrip ∧
    (∀ id e, femTets.elements.get? id = some e → e.elementType ≠ .triangle ∧ (e.elementType = .tetrahedron → e.nodeIds.length = 4 → 0 < tetVolume femTets e)) ∧
    Contiguous femTets ∧ (∀ id ∈ femTets.nodes.ids, 0 ≤ id ∧ id < femTets.nodes.count) := by
  refine ⟨femTets_ok.1, femTets_ok.2.1, ?_, femTets_ok.2.2.2.1, femTets_ok.2.2.2.2.1⟩
  intro id e h
  simp only [femTets, Cont.get?_add] at h
  split_ifs at h
  · simp only [Option.some.injEq] at h
    subst h
    exact ⟨by simp, fun _ _ => by decide +kernel⟩
  · simp only [Option.some.injEq] at h
    subst h
    exact ⟨by simp, fun _ _ => by decide +kernel⟩
  · simp [Cont.empty, Cont.get?] at h

example : Slopes femTets (fun id => (place femTets id).x) (fun _ => 0) (fun _ => ⟨1, 0, 0⟩) ∧
    Slopes femTets (fun id => (place femTets id).y + 2 * (place femTets id).z) (fun _ => 0) (fun _ => ⟨0, 1, 2⟩) := by
  constructor <;> (intro id e _ _ x _; simp [Vec3.dot])

/-- The terms on `femTets`: `∫ 1` and `∫ x` are the volume and its moment, the convection and the streamline terms of the velocity `(1, x, 0)` are not zero, and neither is the slip. -/
example : ((elemsId femTets).map fun p => solidMassTerm femTets (fun _ => 1) (fun _ => 1) p.2).sum = 1 / 2 ∧
    ((elemsId femTets).map fun p => solidConvectionTerm femTets (fun _ => 1) (fun id => (place femTets id).x) (fun _ => 0) (fun _ => 1) ⟨1, 0, 0⟩ p.2).sum = 1 / 2 ∧
    ((elemsId femTets).map fun p => solidStreamTerm femTets (fun _ => 1) (fun id => (place femTets id).x) (fun _ => 0) ⟨1, 0, 0⟩ ⟨1, 0, 0⟩ p.2).sum = 1 / 2 ∧
    ((elemsId femTets).map fun p => slipTerm femTets (fun id => (place femTets id).y) (fun _ => 1) (fun _ => 1) p.2).sum = -1 / 120 := by decide +kernel

end ENigMA
