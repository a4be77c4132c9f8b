import Verif.Pde.FemAssemblyLemmas
import Verif.Fem.IsoparametricProps
import Verif.Mesh.FacesProps

/-!
# Properties of the finite element operators: C28

`FemOp.nodal m φ` is the vector with one value per node index of the field that has the value `φ id` at the node `id`;
`Sys.form s v w` is `vᵀ A w`.
-/

set_option linter.unusedSectionVars false

namespace ENigMA
open Matrix FemOp

variable {K : Type} [Field K] [LinearOrder K] [IsStrictOrderedRing K]

namespace FemOp

theorem elementForm_of {n : Nat} (M : Matrix (Fin n) (Fin n) K) (v w : List K) :
    elementForm (.of M) v w = (fun i : Fin n => v.getD i 0) ⬝ᵥ (M *ᵥ fun i : Fin n => w.getD i 0) := by
  simp only [elementForm, EMat.of, Finset.sum_range, dotProduct, mulVec, Finset.mul_sum]
  apply Finset.sum_congr rfl
  intro i _
  apply Finset.sum_congr rfl
  intro j _
  simp only [i.2, j.2, and_self, dif_pos]
  ring

/-- Every branch of `laplacian` yields some matrix `M` that is symmetric and annihilates constants. -/
theorem elementLaplacian_cases (nrm : Vec3 K → K) (r : K) (t : ElementType) (ps : List (Vec3 K)) (M : EMat K)
    (h : elementLaplacian nrm r t ps = some (some M)) :
    ∃ (n : Nat) (A : Matrix (Fin n) (Fin n) K), M = .of A ∧ ps.length = n ∧ Aᵀ = A ∧ ∀ c : K, (A *ᵥ fun _ => c) = 0 := by
  have neg : ∀ {m n : Nat} (B : Matrix (Fin m) (Fin n) K), (-Bᵀ * B)ᵀ = -Bᵀ * B := by
    intro m n B; simp [Matrix.neg_mul, Matrix.mul_neg, transpose_mul, transpose_neg]
  have ker : ∀ {m n : Nat} (B : Matrix (Fin m) (Fin n) K), (B *ᵥ fun _ => 1) = 0 → ∀ a c : K, ((a • (-Bᵀ * B)) *ᵥ fun _ => c) = 0 := by
    intro m n B hB a c
    have : (fun _ : Fin n => c) = c • fun _ => (1 : K) := by funext i; simp
    rw [this, smul_mulVec, mulVec_smul, ← mulVec_mulVec, hB]; simp
  unfold elementLaplacian at h
  split at h
  · cases h
    refine ⟨2, _, rfl, rfl, ?_, ?_⟩
    · ext i j; unfold Fem.beamLaplacian; split_ifs <;> fin_cases i <;> fin_cases j <;> simp
    · intro c; funext i; unfold Fem.beamLaplacian; split_ifs <;> fin_cases i <;> simp [mulVec, dotProduct, Fin.sum_univ_two]
  · cases h
    refine ⟨3, _, rfl, rfl, ?_, ?_⟩
    · unfold Fem.triLaplacian; simp only [transpose_smul, neg]
    · intro c; unfold Fem.triLaplacian
      apply ker
      funext i
      split_ifs <;> fin_cases i <;> simp [Fem.triB, mulVec, dotProduct, Fin.sum_univ_three, ← mul_add] <;> ring_nf <;> simp
  · obtain ⟨A, hA, hM⟩ := Option.map_eq_some_iff.1 h
    cases hM
    obtain ⟨B, hB, rfl⟩ := Option.map_eq_some_iff.1 hA
    refine ⟨4, _, rfl, rfl, ?_, ?_⟩
    · rw [transpose_smul, Fem.isoLaplacian_symm _ _ B hB]
    · intro c; rw [smul_mulVec, Fem.isoLaplacian_const _ _ B hB Fem.quad_G_one, smul_zero]
  · cases h
    refine ⟨4, _, rfl, rfl, ?_, ?_⟩
    · unfold Fem.tetLaplacian; simp only [transpose_smul, neg]
    · intro c; unfold Fem.tetLaplacian
      apply ker
      funext i
      split_ifs <;> fin_cases i <;> simp [Fem.tetB, mulVec, dotProduct, Fin.sum_univ_four] <;> ring_nf <;> simp
  · obtain ⟨A, hA, hM⟩ := Option.map_eq_some_iff.1 h
    cases hM
    exact ⟨6, _, rfl, rfl, Fem.isoLaplacian_symm _ _ A hA, Fem.isoLaplacian_const _ _ A hA (Fem.prism_G_one r)⟩
  · obtain ⟨A, hA, hM⟩ := Option.map_eq_some_iff.1 h
    cases hM
    exact ⟨8, _, rfl, rfl, Fem.isoLaplacian_symm _ _ A hA, Fem.isoLaplacian_const _ _ A hA Fem.hex_G_one⟩
  · cases h

theorem laplacian_sized (nrm : Vec3 K → K) (r : K) : Sized (elementLaplacian nrm r) := by
  intro t ps M h
  obtain ⟨n, A, rfl, hl, -⟩ := elementLaplacian_cases nrm r t ps M h
  exact hl.symm

theorem ddt_sized (nrm : Vec3 K → K) : Sized (elementDdt nrm) := by
  intro t ps M h
  unfold elementDdt at h
  split at h <;> cases h <;> rfl

/-- Every element has its matrix: no quadrilateral, prism or hexahedron is so degenerate that a Jacobian vanishes at an integration point. -/
def Regular (nrm : Vec3 K → K) (r : K) (m : Mesh K) : Prop :=
  ∀ e ∈ elems m, ∀ ps, e.nodeIds.mapM m.nodes.get? = some ps → ∃ o, elementLaplacian nrm r e.elementType ps = some o

theorem elems_nodes {m : Mesh K} (hwf : m.WF) : ∀ e ∈ elems m, ∀ x ∈ e.nodeIds, x ∈ m.nodes.ids := by
  intro e he
  obtain ⟨id, -, hid⟩ := mem_elems.1 he
  exact hwf.elemNodes id e hid

theorem laplacian_eq (nrm : Vec3 K → K) (r : K) (m : Mesh K) (hwf : m.WF) :
    laplacian nrm r 1 m = (collect ((elems m).map (elementStamps (elementLaplacian nrm r) 1 true m))).bind
      (fun l => (Sys.zero .sparseSymmetric m.nodes.count).assemble l) := by
  rw [← loop_elems m hwf.elements]; rfl

theorem nodal_single (m : Mesh K) (hwf : m.WF) (k : Nat) (id : Int) (hk : m.nodes.idAt? k = some id) (i : Nat) (hi : i < m.nodes.count) :
    nodal m (fun x => if x = id then 1 else 0) i = if i = k then 1 else 0 := by
  have h1 : m.nodes.ids[i]? = some (m.nodes.ids[i]'hi) := List.getElem?_eq_getElem hi
  have hk' : m.nodes.ids[k]? = some id := hk
  simp only [nodal, Cont.idAt?, h1, Option.map_some, Option.getD_some]
  refine if_congr ?_ rfl rfl
  constructor
  · intro h
    have hkl := (List.getElem?_eq_some_iff.1 hk').1
    have e : m.nodes.ids[i]'hi = m.nodes.ids[k]'hkl := by rw [h]; exact (List.getElem?_eq_some_iff.1 hk').2.symm
    exact (hwf.nodes.1.getElem_inj_iff).1 e
  · rintro rfl
    rw [h1] at hk'
    exact Option.some.inj hk'

/-- The entries of a system that represents `F` are the values of `F` on the indicator fields. -/
theorem entry_eq (m : Mesh K) (hwf : m.WF) (s : Sys K) (hn : s.n = m.nodes.count) (F : (Int → K) → (Int → K) → K)
    (hF : ∀ φ ψ, s.form (nodal m φ) (nodal m ψ) = F φ ψ) (i j : Nat) (x y : Int) (hi : m.nodes.idAt? i = some x)
    (hj : m.nodes.idAt? j = some y) : s.A i j = F (fun z => if z = x then 1 else 0) (fun z => if z = y then 1 else 0) := by
  have hi' : i < s.n := by rw [hn]; exact (List.getElem?_eq_some_iff.1 hi).1
  have hj' : j < s.n := by rw [hn]; exact (List.getElem?_eq_some_iff.1 hj).1
  rw [← hF, ← Sys.form_single s i j hi' hj']
  exact Sys.form_congr s _ _ _ _ (fun k hk => (nodal_single m hwf i x hi k (hn ▸ hk)).symm)
    (fun k hk => (nodal_single m hwf j y hj k (hn ▸ hk)).symm)

theorem idAt_of_lt (m : Mesh K) (i : Nat) (h : i < m.nodes.count) : ∃ x, m.nodes.idAt? i = some x :=
  ⟨_, List.getElem?_eq_getElem h⟩

end FemOp

/-- **C28, laplacian.** On every consistent mesh whose elements have their matrices, with any ids, `laplacian` yields a system with one row
per node, zero right-hand side, and for all fields `φ`, `ψ` on the nodes: `φᵀ A ψ` is the sum over the elements of the form of the element's
matrix on the values at the element's nodes. -/
theorem C28_laplacian (nrm : Vec3 K → K) (r : K) (m : Mesh K) (hwf : m.WF) (hrt : m.nodes.RoundTrip) (hreg : Regular nrm r m) :
    ∃ s, laplacian nrm r 1 m = some s ∧ s.n = m.nodes.count ∧ s.kind = .sparseSymmetric ∧ (∀ i < s.n, s.b i = 0) ∧
      ∀ φ ψ : Int → K, s.form (nodal m φ) (nodal m ψ) = ((elems m).map (elementTerm (elementLaplacian nrm r) m φ ψ)).sum := by
  obtain ⟨s, hs⟩ := assembled_defined _ (laplacian_sized nrm r) true m hwf hrt (elems m) (elems_nodes hwf) .sparseSymmetric
    (fun h => by cases h) hreg
  have key := assembled _ (laplacian_sized nrm r) true m hrt (elems m) (elems_nodes hwf) .sparseSymmetric s hs
  obtain ⟨h1, h2, -, h4⟩ := key (fun _ => 0) (fun _ => 0)
  refine ⟨s, by rw [laplacian_eq nrm r m hwf, hs], h1, h2, fun i hi => ?_, fun φ ψ => (key φ ψ).2.2.1⟩
  rw [← Sys.load_single s i hi, h4]

/-- **C28, symmetry and constants.** The assembled matrix is symmetric and its rows sum to zero. -/
theorem C28_laplacian_symmetric (nrm : Vec3 K → K) (r : K) (m : Mesh K) (hwf : m.WF) (hrt : m.nodes.RoundTrip) (hreg : Regular nrm r m)
    (s : Sys K) (hs : laplacian nrm r 1 m = some s) :
    (∀ i < s.n, ∀ j < s.n, s.A i j = s.A j i) ∧ ∀ (c : K), ∀ i < s.n, s.row (fun _ => c) i = 0 := by
  obtain ⟨s', hs', hn, -, -, hF⟩ := C28_laplacian nrm r m hwf hrt hreg
  rw [hs] at hs'
  cases hs'
  constructor
  · intro i hi j hj
    obtain ⟨x, hx⟩ := idAt_of_lt m i (hn ▸ hi)
    obtain ⟨y, hy⟩ := idAt_of_lt m j (hn ▸ hj)
    rw [entry_eq m hwf s hn _ hF i j x y hx hy, entry_eq m hwf s hn _ hF j i y x hy hx]
    congr 1
    apply List.map_congr_left
    intro e _
    unfold elementTerm
    split
    · next M hM =>
      obtain ⟨ps, -, hM⟩ := Option.bind_eq_some_iff.1 hM
      obtain ⟨n, A, rfl, -, hsym, -⟩ := elementLaplacian_cases nrm r _ _ M hM
      rw [elementForm_of, elementForm_of, dotProduct_comm]
      conv_lhs => rw [← hsym]
      rw [mulVec_transpose, ← dotProduct_mulVec]
    · rfl
  · intro c i hi
    obtain ⟨x, hx⟩ := idAt_of_lt m i (hn ▸ hi)
    rw [← Sys.form_row s i hi]
    have e : s.form (fun r => if r = i then 1 else 0) (fun _ => c) =
        s.form (nodal m fun z => if z = x then 1 else 0) (nodal m fun _ => c) := by
      refine Sys.form_congr s _ _ _ _ (fun k hk => (nodal_single m hwf i x hx k (hn ▸ hk)).symm) (fun k hk => ?_)
      obtain ⟨y, hy⟩ := idAt_of_lt m k (hn ▸ hk)
      simp [nodal, hy]
    rw [e, hF]
    apply List.sum_eq_zero
    intro z hz
    obtain ⟨e, -, rfl⟩ := List.mem_map.1 hz
    unfold elementTerm
    split
    · next M hM =>
      obtain ⟨ps, hps, hM⟩ := Option.bind_eq_some_iff.1 hM
      obtain ⟨n, A, rfl, hl, -, hc⟩ := elementLaplacian_cases nrm r _ _ M hM
      have hlen : e.nodeIds.length = n := by
        rw [← hl]
        have : ∀ (l : List Int) (bs : List (Vec3 K)), l.mapM m.nodes.get? = some bs → bs.length = l.length := by
          intro l
          induction l with
          | nil => intro bs h; simp at h; subst h; rfl
          | cons a t ih =>
            intro bs h
            rw [List.mapM_cons] at h
            obtain ⟨b, hb, h⟩ := Option.bind_eq_some_iff.1 h
            obtain ⟨bs', hbs, h⟩ := Option.bind_eq_some_iff.1 h
            cases h
            simp [ih bs' hbs]
        exact (this _ _ hps).symm
      have hcst : (fun i : Fin n => (e.nodeIds.map fun _ => c).getD i 0) = fun _ => c := by
        funext i
        rw [List.getD_eq_getElem _ _ (by simp [hlen])]
        simp
      rw [elementForm_of, hcst, hc, dotProduct_zero]
    · rfl

/-- **C28, order of the elements.** Two meshes with the same nodes and the same elements, listed in any order and with any ids, give the
same matrix. -/
theorem C28_laplacian_order (nrm : Vec3 K → K) (r : K) (m m' : Mesh K) (hwf : m.WF) (hwf' : m'.WF) (hrt : m.nodes.RoundTrip)
    (hreg : Regular nrm r m) (hnodes : m'.nodes = m.nodes) (hperm : (elems m').Perm (elems m)) :
    ∃ s s', laplacian nrm r 1 m = some s ∧ laplacian nrm r 1 m' = some s' ∧ s'.n = s.n ∧
      ∀ i < s.n, ∀ j < s.n, s'.A i j = s.A i j := by
  have hreg' : Regular nrm r m' := by
    intro e he ps hps
    rw [hnodes] at hps
    exact hreg e (hperm.mem_iff.1 he) ps hps
  obtain ⟨s, hs, hn, -, -, hF⟩ := C28_laplacian nrm r m hwf hrt hreg
  obtain ⟨s', hs', hn', -, -, hF'⟩ := C28_laplacian nrm r m' hwf' (hnodes ▸ hrt) hreg'
  refine ⟨s, s', hs, hs', by rw [hn, hn', hnodes], fun i hi j hj => ?_⟩
  obtain ⟨x, hx⟩ := idAt_of_lt m i (hn ▸ hi)
  obtain ⟨y, hy⟩ := idAt_of_lt m j (hn ▸ hj)
  rw [entry_eq m hwf s hn _ hF i j x y hx hy, entry_eq m' hwf' s' hn' _ hF' i j x y (hnodes ▸ hx) (hnodes ▸ hy)]
  have : elementTerm (elementLaplacian nrm r) m' = elementTerm (elementLaplacian nrm r) m := by
    funext φ ψ e; unfold elementTerm; rw [hnodes]
  rw [this]
  exact (hperm.map _).sum_eq

/-- A mesh of tetrahedra: the corner positions of each element. -/
def FemOp.TetMesh (m : Mesh K) (T : Elem → Tet K) : Prop :=
  ∀ e ∈ elems m, e.elementType = .tetrahedron ∧ 0 < (T e).volume ∧
    e.nodeIds.mapM m.nodes.get? = some [(T e).v0, (T e).v1, (T e).v2, (T e).v3]

theorem FemOp.sample_list (m : Mesh K) (φ : Int → K) (c : K) (g : Vec3 K) (hφ : ∀ id p, m.nodes.get? id = some p → φ id = c + g.dot p)
    (ids : List Int) : ∀ ps, ids.mapM m.nodes.get? = some ps → ids.map φ = ps.map fun p => c + g.dot p := by
  induction ids with
  | nil => intro ps h; simp at h; subst h; rfl
  | cons a t ih =>
    intro ps h
    rw [List.mapM_cons] at h
    obtain ⟨b, hb, h⟩ := Option.bind_eq_some_iff.1 h
    obtain ⟨bs, hbs, h⟩ := Option.bind_eq_some_iff.1 h
    cases h
    simp only [List.map_cons, hφ a b hb, ih bs hbs]

/-- **C28, patch test.** On every consistent mesh of tetrahedra with positive volumes: for the fields that sample `c + g · p` and
`d + h · p`, the form of the assembled matrix is minus the total volume times `g · h`; and `φᵀ A φ ≤ 0` for every field `φ`. -/
theorem C28_tetrahedra (nrm : Vec3 K → K) (r : K) (m : Mesh K) (hwf : m.WF) (hrt : m.nodes.RoundTrip) (T : Elem → Tet K)
    (hT : TetMesh m T) :
    ∃ s, laplacian nrm r 1 m = some s ∧
      (∀ (c d : K) (g h : Vec3 K) (φ ψ : Int → K), (∀ id p, m.nodes.get? id = some p → φ id = c + g.dot p) →
        (∀ id p, m.nodes.get? id = some p → ψ id = d + h.dot p) →
        s.form (nodal m ψ) (nodal m φ) = -(((elems m).map fun e => (T e).volume).sum * g.dot h)) ∧
      ∀ φ : Int → K, s.form (nodal m φ) (nodal m φ) ≤ 0 := by
  have hel : ∀ e ∈ elems m, ∀ ps, e.nodeIds.mapM m.nodes.get? = some ps →
      elementLaplacian nrm r e.elementType ps = some (some (.of (Fem.tetLaplacian (T e)))) := by
    intro e he ps hps
    obtain ⟨h1, h2, h3⟩ := hT e he
    rw [h3] at hps
    cases hps
    rw [h1]; rfl
  have hreg : Regular nrm r m := fun e he ps hps => ⟨_, hel e he ps hps⟩
  obtain ⟨s, hs, hn, -, -, hF⟩ := C28_laplacian nrm r m hwf hrt hreg
  refine ⟨s, hs, ?_, ?_⟩
  · intro c d g h φ ψ hφ hψ
    rw [hF]
    have : ∀ e ∈ elems m, elementTerm (elementLaplacian nrm r) m ψ φ e = -((T e).volume * g.dot h) := by
      intro e he
      obtain ⟨h1, h2, h3⟩ := hT e he
      have hf1 := sample_list m φ c g hφ _ _ h3
      have hf2 := sample_list m ψ d h hψ _ _ h3
      unfold elementTerm
      rw [h3, Option.bind_some, hel e he _ h3]
      simp only
      rw [elementForm_of, hf1, hf2, ← (C25_tetrahedron (T e) h2).2.2.1 c d g h]
      rfl
    rw [List.map_congr_left this]
    generalize elems m = l
    induction l with
    | nil => simp
    | cons a t ih => simp only [List.map_cons, List.sum_cons, ih]; ring
  · intro φ
    rw [hF]
    have np : ∀ l : List K, (∀ x ∈ l, x ≤ 0) → l.sum ≤ 0 := by
      intro l
      induction l with
      | nil => intro _; simp
      | cons a t ih =>
        intro h
        rw [List.sum_cons]
        exact add_nonpos (h a (List.mem_cons_self ..)) (ih fun x hx => h x (List.mem_cons_of_mem _ hx))
    apply np
    intro x hx
    obtain ⟨e, he, rfl⟩ := List.mem_map.1 hx
    obtain ⟨h1, h2, h3⟩ := hT e he
    unfold elementTerm
    rw [h3, Option.bind_some, hel e he _ h3]
    simp only
    rw [elementForm_of]
    exact ((C25_tetrahedron (T e) h2).2.2.2 _).1

/-! ### `ddt` -/

/-- The ids of the elements are `0, 1, …, n - 1`, in any order. -/
def FemOp.Contiguous (m : Mesh K) : Prop := m.elements.ids.Perm ((List.range m.elements.count).map fun (k : Nat) => (k : Int))

theorem FemOp.ddt_eq (nrm : Vec3 K → K) (m : Mesh K) (hwf : m.WF) (hc : Contiguous m) (u : Nat → K) :
    ∃ es : List Elem, es.Perm (elems m) ∧
      ddt nrm m u = ((collect (es.map (elementStamps (elementDdt nrm) 1 false m))).bind
        (fun l => (Sys.zero .sparseSymmetric m.nodes.count).assemble l)).map
        (fun s => { s with b := fun i => s.b i + s.row u i }) := by
  refine ⟨((List.range m.elements.count).map fun (k : Nat) => (k : Int)).filterMap m.elements.get?, (hc.symm.filterMap _), ?_⟩
  have h2 : ∀ l : List Nat, (∀ k ∈ l, ∃ e, m.elements.get? (k : Int) = some e) →
      (l.map fun (el : Nat) => (m.elements.get? (el : Int)).bind (elementStamps (elementDdt nrm) 1 false m)) =
        ((l.map fun (k : Nat) => (k : Int)).filterMap m.elements.get?).map (elementStamps (elementDdt nrm) 1 false m) := by
    intro l hl
    induction l with
    | nil => rfl
    | cons a t ih =>
      obtain ⟨e, he⟩ := hl a (by simp)
      rw [List.map_cons, List.map_cons, List.filterMap_cons_some he, List.map_cons, ih (fun x hx => hl x (by simp [hx])), he]
      rfl
  have h3 := h2 (List.range m.elements.count) (fun k hk =>
    (hwf.elements.2 k).1 (hc.mem_iff.2 (List.mem_map.2 ⟨k, hk, rfl⟩)))
  rw [← h3]
  unfold ddt
  cases hcol : collect ((List.range m.elements.count).map fun (el : Nat) =>
      (m.elements.get? (el : Int)).bind (elementStamps (elementDdt nrm) 1 false m)) with
  | none => rfl
  | some l =>
    show (Option.bind (Sys.assemble l (Sys.zero .sparseSymmetric m.nodes.count)) _) = Option.map _ (Sys.assemble l _)
    cases (Sys.zero .sparseSymmetric m.nodes.count).assemble l <;> rfl

/-- **C28, `ddt`, partial.** When the element ids are `0 … n-1` and the node ids are smaller than the number of nodes, `ddt` yields the sum of
the element mass matrices, and the right-hand side is this matrix times the field. Missing: for other ids the claim is false
(`C28_ddt_element_ids`, `C28_ddt_node_ids`), and prisms are left out (`C28_ddt_prisms`). -/
theorem C28_ddt_partial (nrm : Vec3 K → K) (m : Mesh K) (hwf : m.WF) (hrt : m.nodes.RoundTrip) (hc : Contiguous m)
    (hids : ∀ id ∈ m.nodes.ids, 0 ≤ id ∧ id < m.nodes.count) (u : Nat → K) :
    ∃ s, ddt nrm m u = some s ∧ s.n = m.nodes.count ∧ s.kind = .sparseSymmetric ∧ (∀ i < s.n, s.b i = s.row u i) ∧
      ∀ φ ψ : Int → K, s.form (nodal m φ) (nodal m ψ) = ((elems m).map (elementTerm (elementDdt nrm) m φ ψ)).sum := by
  obtain ⟨es, hperm, heq⟩ := ddt_eq nrm m hwf hc u
  have hes : ∀ e ∈ es, ∀ x ∈ e.nodeIds, x ∈ m.nodes.ids := fun e he => elems_nodes hwf e (hperm.mem_iff.1 he)
  obtain ⟨s, hs⟩ := assembled_defined _ (ddt_sized nrm) false m hwf hrt es hes .sparseSymmetric
    (fun _ e he x hx => hids x (hes e he x hx)) (fun e _ ps _ => by
      unfold elementDdt; split <;> exact ⟨_, rfl⟩)
  have key := assembled _ (ddt_sized nrm) false m hrt es hes .sparseSymmetric s hs
  obtain ⟨h1, h2, -, h4⟩ := key (fun _ => 0) (fun _ => 0)
  refine ⟨{ s with b := fun i => s.b i + s.row u i }, by rw [heq, hs]; rfl, h1, h2, fun i hi => ?_, fun φ ψ => ?_⟩
  · show s.b i + s.row u i = s.row u i
    rw [← Sys.load_single s i hi, h4, zero_add]
  · exact ((key φ ψ).2.2.1).trans ((hperm.map _).sum_eq)

/-- **C28, total mass.** For a mesh of tetrahedra with such ids, the entries of the matrix of `ddt` sum to the total volume, and the matrix is
positive semidefinite. -/
theorem C28_ddt_tetrahedra (nrm : Vec3 K → K) (m : Mesh K) (hwf : m.WF) (hrt : m.nodes.RoundTrip) (hc : Contiguous m)
    (hids : ∀ id ∈ m.nodes.ids, 0 ≤ id ∧ id < m.nodes.count) (u : Nat → K) (T : Elem → Tet K) (hT : TetMesh m T) :
    ∃ s, ddt nrm m u = some s ∧ s.form (fun _ => 1) (fun _ => 1) = ((elems m).map fun e => (T e).volume).sum ∧
      ∀ φ : Int → K, 0 ≤ s.form (nodal m φ) (nodal m φ) := by
  obtain ⟨s, hs, hn, -, -, hF⟩ := C28_ddt_partial nrm m hwf hrt hc hids u
  have hel : ∀ (φ ψ : Int → K), ∀ e ∈ elems m, elementTerm (elementDdt nrm) m φ ψ e =
      (fun i : Fin 4 => (e.nodeIds.map φ).getD i 0) ⬝ᵥ (Fem.tetDdt (T e).volume 1 *ᵥ fun i : Fin 4 => (e.nodeIds.map ψ).getD i 0) := by
    intro φ ψ e he
    obtain ⟨h1, h2, h3⟩ := hT e he
    rw [← elementForm_of]
    unfold elementTerm
    rw [h3, Option.bind_some, h1]
    rfl
  refine ⟨s, hs, ?_, ?_⟩
  · have e1 : s.form (fun _ => 1) (fun _ => 1) = s.form (nodal m fun _ => 1) (nodal m fun _ => 1) := by
      apply Sys.form_congr <;> intro k hk <;> obtain ⟨y, hy⟩ := idAt_of_lt m k (hn ▸ hk) <;> simp [nodal, hy]
    rw [e1, hF]
    congr 1
    apply List.map_congr_left
    intro e he
    rw [hel _ _ e he]
    obtain ⟨h1, h2, h3⟩ := hT e he
    have hlen := sample_list m (fun _ => (1 : K)) 1 (⟨0, 0, 0⟩ : Vec3 K) (fun _ p _ => by simp [Vec3.dot]) _ _ h3
    have hcst : (fun i : Fin 4 => (e.nodeIds.map fun _ => (1 : K)).getD i 0) = fun _ => 1 := by
      funext i
      rw [hlen]
      fin_cases i <;> simp [Vec3.dot]
    rw [hcst]
    have := (C26_tetrahedron (T e).volume 1 h2 one_pos).2.2.1
    rw [div_one] at this
    refine Eq.trans ?_ this
    simp [dotProduct, mulVec]
  · intro φ
    rw [hF]
    apply List.sum_nonneg
    intro x hx
    obtain ⟨e, he, rfl⟩ := List.mem_map.1 hx
    rw [hel _ _ e he]
    generalize (fun i : Fin 4 => (e.nodeIds.map φ).getD i 0) = v
    by_cases hv : v = 0
    · subst hv; simp
    · exact ((C26_tetrahedron (T e).volume 1 (hT e he).2.1 one_pos).2.2.2 v hv).le

/-- The length, area or volume of a segment, triangle or tetrahedron, from its corners. -/
def FemOp.simplexSize (nrm : Vec3 K → K) : List (Vec3 K) → K
  | [p, q] => nrm (q - p)
  | [a, b, c] => nrm (Vec3.cross (b - a) (c - a)) / 2
  | [a, b, c, d] => -((b - a).dot (Vec3.cross (c - a) (d - a))) / 6
  | _ => 0

/-- A mesh of beams, triangles and tetrahedra, mixed in any way, whose sizes are positive; `ps` gives the corner positions of each element. -/
def FemOp.SimplexMesh (nrm : Vec3 K → K) (m : Mesh K) (ps : Elem → List (Vec3 K)) : Prop :=
  ∀ e ∈ elems m, e.nodeIds.mapM m.nodes.get? = some (ps e) ∧ 0 < simplexSize nrm (ps e) ∧
    ((e.elementType = .beam ∧ (ps e).length = 2) ∨ (e.elementType = .triangle ∧ (ps e).length = 3) ∨ (e.elementType = .tetrahedron ∧ (ps e).length = 4))

/-- **C28, total mass, all simplices.** For a mesh of beams, triangles and tetrahedra with such ids, the entries of the matrix of `ddt` sum to
the total length, area and volume, and the matrix is positive semidefinite. -/
theorem C28_ddt_total_mass (nrm : Vec3 K → K) (m : Mesh K) (hwf : m.WF) (hrt : m.nodes.RoundTrip) (hc : Contiguous m)
    (hids : ∀ id ∈ m.nodes.ids, 0 ≤ id ∧ id < m.nodes.count) (u : Nat → K) (ps : Elem → List (Vec3 K)) (hS : SimplexMesh nrm m ps) :
    ∃ s, ddt nrm m u = some s ∧ s.form (fun _ => 1) (fun _ => 1) = ((elems m).map fun e => simplexSize nrm (ps e)).sum ∧
      ∀ φ : Int → K, 0 ≤ s.form (nodal m φ) (nodal m φ) := by
  obtain ⟨s, hs, hn, -, -, hF⟩ := C28_ddt_partial nrm m hwf hrt hc hids u
  have hel : ∀ e ∈ elems m, ∃ (n : Nat) (M : Matrix (Fin n) (Fin n) K), (ps e).length = n ∧ MassMatrix M (simplexSize nrm (ps e)) 1 ∧
      ∀ φ ψ : Int → K, elementTerm (elementDdt nrm) m φ ψ e =
      (fun i : Fin n => (e.nodeIds.map φ).getD i 0) ⬝ᵥ (M *ᵥ fun i : Fin n => (e.nodeIds.map ψ).getD i 0) := by
    intro e he
    obtain ⟨h1, h2, h3⟩ := hS e he
    rcases h3 with ⟨h3, h4⟩ | ⟨h3, h4⟩ | ⟨h3, h4⟩
    · obtain ⟨p, q, hpq⟩ := List.length_eq_two.1 h4
      rw [hpq] at h1 h2 ⊢
      refine ⟨2, Fem.beamDdt (nrm (q - p)) 1 1, rfl, ?_, fun φ ψ => ?_⟩
      · have := C26_beam (nrm (q - p)) 1 1 (by simpa [simplexSize] using h2) one_pos
        simpa [simplexSize] using this
      · rw [← elementForm_of]; unfold elementTerm; rw [h1, Option.bind_some, h3]; rfl
    · obtain ⟨a, b, c, hpq⟩ := List.length_eq_three.1 h4
      rw [hpq] at h1 h2 ⊢
      have e1 : Fem.triArea nrm ⟨a, b, c⟩ = simplexSize nrm [a, b, c] := by
        simp only [Fem.triArea, Tri.normalArea, Tri.rawNormal, simplexSize]; ring
      refine ⟨3, Fem.triDdt (Fem.triArea nrm ⟨a, b, c⟩) 1, rfl, ?_, fun φ ψ => ?_⟩
      · rw [← e1]; exact C26_triangle _ 1 (by rw [e1]; exact h2) one_pos
      · rw [← elementForm_of]; unfold elementTerm; rw [h1, Option.bind_some, h3]; rfl
    · obtain ⟨a, b, c, d, hpq⟩ : ∃ a b c d, ps e = [a, b, c, d] := by
        match hps : ps e, h4 with
        | [a, b, c, d], _ => exact ⟨a, b, c, d, rfl⟩
      rw [hpq] at h1 h2 ⊢
      have e1 : (⟨a, b, c, d⟩ : Tet K).volume = simplexSize nrm [a, b, c, d] := by rw [(C38_volume _).1]; rfl
      refine ⟨4, Fem.tetDdt (⟨a, b, c, d⟩ : Tet K).volume 1, rfl, ?_, fun φ ψ => ?_⟩
      · rw [← e1]; exact C26_tetrahedron _ 1 (by rw [e1]; exact h2) one_pos
      · rw [← elementForm_of]; unfold elementTerm; rw [h1, Option.bind_some, h3]; rfl
  refine ⟨s, hs, ?_, ?_⟩
  · have e1 : s.form (fun _ => 1) (fun _ => 1) = s.form (nodal m fun _ => 1) (nodal m fun _ => 1) := by
      apply Sys.form_congr <;> intro k hk <;> obtain ⟨y, hy⟩ := idAt_of_lt m k (hn ▸ hk) <;> simp [nodal, hy]
    rw [e1, hF]
    congr 1
    apply List.map_congr_left
    intro e he
    obtain ⟨n, M, hlen, hM, hel'⟩ := hel e he
    rw [hel']
    have hln : e.nodeIds.length = n := by
      have := sample_list m (fun _ => (1 : K)) 1 (⟨0, 0, 0⟩ : Vec3 K) (fun _ p _ => by simp [Vec3.dot]) _ _ (hS e he).1
      rw [← hlen, ← List.length_map (fun _ => (1 : K)), this, List.length_map]
    have hcst : (fun i : Fin n => (e.nodeIds.map fun _ => (1 : K)).getD i 0) = fun _ => 1 := by
      funext i
      rw [List.getD_eq_getElem?_getD, List.getElem?_map, List.getElem?_eq_getElem (by rw [hln]; exact i.2)]
      rfl
    rw [hcst]
    have := hM.2.2.1
    rw [div_one] at this
    refine Eq.trans ?_ this
    simp [dotProduct, mulVec]
  · intro φ
    rw [hF]
    apply List.sum_nonneg
    intro x hx
    obtain ⟨e, he, rfl⟩ := List.mem_map.1 hx
    obtain ⟨n, M, hlen, hM, hel'⟩ := hel e he
    rw [hel']
    generalize (fun i : Fin n => (e.nodeIds.map φ).getD i 0) = v
    by_cases hv : v = 0
    · subst hv; simp
    · exact (hM.2.2.2 v hv).le

/-- `ddt` needs an element with each of the ids `0 … n-1`. -/
theorem C28_ddt_element_ids (nrm : Vec3 K → K) (m : Mesh K) (u : Nat → K) (k : Nat) (hk : k < m.elements.count)
    (h : m.elements.get? (k : Int) = none) : ddt nrm m u = none := by
  have : collect ((List.range m.elements.count).map fun (el : Nat) =>
      (m.elements.get? (el : Int)).bind (elementStamps (elementDdt nrm) 1 false m)) = none := by
    rw [← Option.not_isSome_iff_eq_none, Option.isSome_iff_exists]
    rintro ⟨out, ho⟩
    obtain ⟨g, hg, -⟩ := collect_some _ _ _ ho
    have := hg k (List.mem_range.2 hk)
    rw [h] at this
    cases this
  unfold ddt
  show Option.bind (collect _) _ = _
  erw [this]
  rfl

/-- **C28, more degrees of freedom.** With two or more degrees of freedom per node the element matrices are indexed beyond their size: no
mesh with a beam, triangle or tetrahedron has a laplacian. -/
theorem C28_laplacian_dofs (nrm : Vec3 K → K) (r : K) (m : Mesh K) (hwf : m.WF) (nbDofs : Nat) (h2 : 2 ≤ nbDofs) (e : Elem) (he : e ∈ elems m)
    (ps : List (Vec3 K)) (hps : e.nodeIds.mapM m.nodes.get? = some ps) (M : EMat K) (hM : elementLaplacian nrm r e.elementType ps = some (some M))
    (hpos : 0 < M.n) : laplacian nrm r nbDofs m = none := by
  have hes : elementStamps (elementLaplacian nrm r) nbDofs true m e = none := by
    rw [← Option.not_isSome_iff_eq_none, Option.isSome_iff_exists]
    rintro ⟨l, hl⟩
    unfold elementStamps at hl
    rw [hps] at hl
    simp only [Option.bind_eq_bind, Option.bind_some, hM] at hl
    obtain ⟨idx, hidx, hl⟩ := Option.bind_eq_some_iff.1 hl
    have hlen : idx.length = M.n := by
      rw [laplacian_sized nrm r _ _ M hM]
      have a : ∀ {β : Type} (f : Int → Option β) (l : List Int) (bs : List β), l.mapM f = some bs → bs.length = l.length := by
        intro β f l
        induction l with
        | nil => intro bs h; simp at h; subst h; rfl
        | cons a t ih =>
          intro bs h
          rw [List.mapM_cons] at h
          obtain ⟨b, hb, h⟩ := Option.bind_eq_some_iff.1 h
          obtain ⟨bs', hbs, h⟩ := Option.bind_eq_some_iff.1 h
          cases h
          simp [ih bs' hbs]
      rw [a _ _ _ hps, a _ _ _ hidx]
    obtain ⟨g, hg, -⟩ := collect_some _ _ _ hl
    have hi : M.n - 1 < idx.length := by omega
    have hmem : (idx[M.n - 1], M.n - 1) ∈ idx.zipIdx := by
      rw [List.mk_mem_zipIdx_iff_getElem?]; exact List.getElem?_eq_getElem hi
    have hrow := hg _ hmem
    simp only [Option.bind_eq_bind] at hrow
    obtain ⟨es, h1, -⟩ := Option.bind_eq_some_iff.1 hrow
    obtain ⟨g1, hg1, -⟩ := collect_some _ _ _ h1
    have hk := hg1 (nbDofs - 1) (List.mem_range.2 (by omega))
    obtain ⟨g2, hg2, -⟩ := collect_some _ _ _ hk
    have hj := hg2 _ hmem
    obtain ⟨g3, hg3, -⟩ := collect_some _ _ _ hj
    have hl := hg3 (nbDofs - 1) (List.mem_range.2 (by omega))
    obtain ⟨v, hv, -⟩ := Option.bind_eq_some_iff.1 hl
    unfold EMat.get? at hv
    have : ¬ ((M.n - 1) * nbDofs + (nbDofs - 1) < M.n) := by
      have : (M.n - 1) * 2 ≤ (M.n - 1) * nbDofs := Nat.mul_le_mul_left _ h2
      omega
    rw [if_neg (fun h => this h.1)] at hv
    cases hv
  have : collect ((elems m).map (elementStamps (elementLaplacian nrm r) nbDofs true m)) = none := by
    rw [← Option.not_isSome_iff_eq_none, Option.isSome_iff_exists]
    rintro ⟨out, ho⟩
    obtain ⟨g, hg, -⟩ := collect_some _ _ _ ho
    have := hg e he
    rw [hes] at this
    cases this
  unfold laplacian
  show Option.bind (collect _) _ = _
  erw [loop_elems m hwf.elements, this]
  rfl

/-! ### `source` -/

/-- How often the node `x` is a corner of an element for which `source` has a branch. -/
def FemOp.corners (m : Mesh K) (x : Int) : Nat :=
  ((elems m).map fun e => if hasSource e.elementType e.nodeIds.length then e.nodeIds.count x else 0).sum

theorem FemOp.corner_stamps (m : Mesh K) (hrt : m.nodes.RoundTrip) (a : K) (i : Nat) (x : Int) (hi : m.nodes.idAt? i = some x) (ids : List Int)
    (hids : ∀ y ∈ ids, y ∈ m.nodes.ids) : ∃ idx, ids.mapM m.nodes.indexOf? = some idx ∧ (∀ I ∈ idx, Equation.InRange I m.nodes.count) ∧
      ((idx.map fun I => Stamp.addB I a).map (Stamp.valB fun r => if r = i then 1 else 0)).sum = a * (ids.count x : K) := by
  induction ids with
  | nil => exact ⟨[], rfl, by simp, by simp⟩
  | cons y t ih =>
    obtain ⟨idx, h1, h2, h3⟩ := ih fun z hz => hids z (by simp [hz])
    obtain ⟨k, hk, hk'⟩ := hrt.2 y (hids y (by simp))
    refine ⟨(k : Int) :: idx, by simp [List.mapM_cons, hk, h1], ?_, ?_⟩
    · intro I hI
      rcases List.mem_cons.1 hI with rfl | hI
      · have : k < m.nodes.count := (List.getElem?_eq_some_iff.1 hk').1
        exact ⟨by omega, by omega⟩
      · exact h2 I hI
    · rw [List.map_cons, List.map_cons, List.sum_cons, h3, List.count_cons]
      have e : (k = i) ↔ (y = x) := by
        constructor
        · rintro rfl; rw [hi] at hk'; exact (Option.some.inj hk').symm
        · rintro rfl
          have := hrt.1 i y hi
          rw [hk] at this
          have := Option.some.inj this
          omega
      by_cases h : y = x
      · simp [Stamp.valB, e.2 h, h]; ring
      · have h' : ¬ k = i := fun h2 => h (e.1 h2)
        simp [Stamp.valB, h, h']

/-- **C63.** On every consistent mesh `source` adds to the entry of a node the source once for every element corner at this node: neither the
measure of the element nor its number of corners enters. -/
theorem C63_source (m : Mesh K) (hwf : m.WF) (hrt : m.nodes.RoundTrip) (a : K) :
    ∃ b, source m a = some b ∧ ∀ (i : Nat) (x : Int), m.nodes.idAt? i = some x → b i = a * (corners m x : K) := by
  have key : ∀ e ∈ elems m, ∃ l : List (Stamp K), (do
      let _ ← e.nodeIds.mapM m.nodes.get?
      if hasSource e.elementType e.nodeIds.length then
        let idx ← e.nodeIds.mapM m.nodes.indexOf?
        return idx.map fun I => Stamp.addB I a
      else return []) = some l ∧ (∀ st ∈ l, st.Ok m.nodes.count ∧ st.IsAdd) ∧
      ∀ (i : Nat) (x : Int), m.nodes.idAt? i = some x → (l.map (Stamp.valB fun r => if r = i then 1 else 0)).sum =
        a * ((if hasSource e.elementType e.nodeIds.length then e.nodeIds.count x else 0 : Nat) : K) := by
    intro e he
    obtain ⟨ps, hps, -⟩ := mapM_some m.nodes.get? e.nodeIds fun x hx => (hwf.nodes.2 x).1 (elems_nodes hwf e he x hx)
    rw [hps]
    by_cases hs : hasSource e.elementType e.nodeIds.length = true
    · obtain ⟨idx, hidx, -⟩ := mapM_some m.nodes.indexOf? e.nodeIds fun x hx => by
        obtain ⟨i, hi, -⟩ := hrt.2 x (elems_nodes hwf e he x hx)
        exact ⟨_, hi⟩
      refine ⟨idx.map fun I => Stamp.addB I a, by simp [hs, hidx], ?_, ?_⟩
      · have hlt : ∀ I ∈ idx, Equation.InRange I m.nodes.count := by
          have : ∀ (ids : List Int) (idx : List Int), (∀ y ∈ ids, y ∈ m.nodes.ids) → ids.mapM m.nodes.indexOf? = some idx →
              ∀ I ∈ idx, Equation.InRange I m.nodes.count := by
            intro ids
            induction ids with
            | nil => intro idx _ h; simp at h; subst h; simp
            | cons y t ih =>
              intro idx hm h
              rw [List.mapM_cons] at h
              obtain ⟨b, hb, h⟩ := Option.bind_eq_some_iff.1 h
              obtain ⟨bs, hbs, h⟩ := Option.bind_eq_some_iff.1 h
              cases h
              intro I hI
              rcases List.mem_cons.1 hI with rfl | hI
              · obtain ⟨k, hk, hk'⟩ := hrt.2 y (hm y (by simp))
                rw [hb] at hk
                cases hk
                have : k < m.nodes.count := (List.getElem?_eq_some_iff.1 hk').1
                exact ⟨by omega, by omega⟩
              · exact ih bs (fun z hz => hm z (by simp [hz])) hbs I hI
          exact this _ _ (elems_nodes hwf e he) hidx
        intro st hst
        obtain ⟨I, hI, rfl⟩ := List.mem_map.1 hst
        exact ⟨hlt I hI, trivial⟩
      · intro i x hi
        obtain ⟨idx', h1, -, h3⟩ := corner_stamps m hrt a i x hi e.nodeIds (elems_nodes hwf e he)
        rw [hidx] at h1
        cases h1
        rw [h3, if_pos hs]
    · refine ⟨[], by simp [hs], by simp, fun i x _ => ?_⟩
      simp [hs]
  choose! g hg using key
  have hcol : collect ((elems m).map _) = some ((elems m).flatMap g) := collect_map _ _ _ fun e he => (hg e he).1
  obtain ⟨s, h, hn, -⟩ := Sys.assemble_spec ((elems m).flatMap g) (Sys.zero .sparse m.nodes.count) (by
    intro st hst
    obtain ⟨e, he, hst⟩ := List.mem_flatMap.1 hst
    exact ((hg e he).2.1 st hst).1)
  refine ⟨s.b, ?_, fun i x hi => ?_⟩
  · unfold source
    show Option.bind (collect _) _ = _
    erw [loop_elems m hwf.elements, hcol]
    rw [Option.bind_some]
    show Option.bind (Sys.assemble _ _) _ = _
    rw [h]; rfl
  · have hi' : i < s.n := by rw [hn]; exact (List.getElem?_eq_some_iff.1 hi).1
    obtain ⟨-, -, -, a4⟩ := Sys.assemble_form _ _ _ h (by
      intro st hst
      obtain ⟨e, he, hst⟩ := List.mem_flatMap.1 hst
      exact ((hg e he).2.1 st hst).2) (fun r => if r = i then 1 else 0) (fun _ => 0)
    rw [← Sys.load_single s i hi', a4, Sys.zero_load, zero_add, List.map_flatMap, List.flatMap_def, List.sum_flatten, List.map_map]
    unfold corners
    rw [Nat.cast_list_sum, ← List.sum_map_mul_left, List.map_map]
    congr 1
    apply List.map_congr_left
    intro e he
    exact (hg e he).2.2 i x hi

/-! ### Cases -/

/-- One tetrahedron with nodes `10 … 13` and element id `7`. -/
def farTet : Mesh ℚ :=
  { nodes := (((Cont.empty.add 10 ⟨0, 0, 0⟩).add 11 ⟨1, 0, 0⟩).add 12 ⟨0, 1, 0⟩).add 13 ⟨0, 0, 1⟩
    faces := Cont.empty
    elements := Cont.empty.add 7 ⟨.tetrahedron, [11, 10, 12, 13], []⟩
    nbBoundary := 0 }

/-- The same with element id `0`. -/
def farNodesTet : Mesh ℚ := { farTet with elements := Cont.empty.add 0 ⟨.tetrahedron, [11, 10, 12, 13], []⟩ }

/-- A prism with ids from `0`. -/
def onePrism : Mesh ℚ :=
  { nodes := (((((Cont.empty.add 0 ⟨0, 0, 0⟩).add 1 ⟨1, 0, 0⟩).add 2 ⟨0, 1, 0⟩).add 3 ⟨0, 0, 1⟩).add 4 ⟨1, 0, 1⟩).add 5 ⟨0, 1, 1⟩
    faces := Cont.empty
    elements := Cont.empty.add 0 ⟨.triangularPrism, [0, 1, 2, 3, 4, 5], []⟩
    nbBoundary := 0 }

/-- **C28 fails for `ddt`: element ids.** The laplacian of a tetrahedron with id `7` is assembled, its `ddt` throws. -/
theorem C28_ddt_element_id_seven (nrm : Vec3 ℚ → ℚ) (r : ℚ) (u : Nat → ℚ) :
    ddt nrm farTet u = none ∧ ((laplacian nrm r 1 farTet).map fun s => s.A 0 0) = some (-1 / 2) :=
  ⟨C28_ddt_element_ids nrm farTet u 0 (by decide) (by decide), by
    show ((laplacian (fun _ => 0) 0 1 farTet).map fun s => s.A 0 0) = some (-1 / 2)
    decide +kernel⟩

/-- **C28 fails for `ddt`: node ids.** With element id `0` but node ids from `10`, `vectorB` is indexed with `10`. -/
theorem C28_ddt_node_ids (nrm : Vec3 ℚ → ℚ) (u : Nat → ℚ) : ddt nrm farNodesTet u = none := by rfl

/-- **C28 fails for `ddt`: prisms.** The matrix of `ddt` on a prism is zero, whose volume is `1/2`. -/
theorem C28_ddt_prisms (nrm : Vec3 ℚ → ℚ) (u : Nat → ℚ) :
    ((ddt nrm onePrism u).map fun s => (s.n, (List.range 6).map fun i => (List.range 6).map fun j => s.A i j)) =
      some (6, List.replicate 6 (List.replicate 6 0)) := by rfl

/-- With no degrees of freedom, the value a new field has, the laplacian is the zero matrix. -/
theorem C28_laplacian_no_dofs (nrm : Vec3 ℚ → ℚ) (r : ℚ) :
    ((laplacian nrm r 0 twoTets).map fun s => (s.n, (List.range 5).map fun i => (List.range 5).map fun j => s.A i j)) =
      some (5, List.replicate 5 (List.replicate 5 0)) := by rfl

/-- Two tetrahedra with a common face and positive volumes. -/
def femTets : Mesh ℚ :=
  { twoTets with elements := (Cont.empty.add 1 ⟨.tetrahedron, [1, 0, 2, 3], []⟩).add 0 ⟨.tetrahedron, [3, 4, 2, 1], []⟩ }

/-- Their corners. -/
def femTetsCorners (e : Elem) : Tet ℚ :=
  if e.nodeIds = [1, 0, 2, 3] then ⟨⟨1, 0, 0⟩, ⟨0, 0, 0⟩, ⟨0, 1, 0⟩, ⟨0, 0, 1⟩⟩ else ⟨⟨0, 0, 1⟩, ⟨1, 1, 1⟩, ⟨0, 1, 0⟩, ⟨1, 0, 0⟩⟩

/-- `femTets` meets the hypotheses of the theorems above. -/
theorem femTets_ok : femTets.WF ∧ femTets.nodes.RoundTrip ∧ TetMesh femTets femTetsCorners ∧ Contiguous femTets ∧
    (∀ id ∈ femTets.nodes.ids, 0 ≤ id ∧ id < femTets.nodes.count) ∧ elems femTets ≠ [] := by
  refine ⟨⟨twoTets_ok.1.nodes, twoTets_ok.1.faces, ?_, twoTets_ok.1.faceNodes, ?_⟩, ⟨?_, ?_⟩, ?_, ?_, by decide, by decide⟩
  · exact Cont.add_ok (Cont.add_ok Cont.empty_ok _ (by decide)) _ (by decide)
  · intro id e h n hn
    simp only [femTets, Cont.get?_add] at h
    split_ifs at h <;> first
      | (simp only [Option.some.injEq] at h; subst h; simp at hn; rcases hn with rfl | rfl | rfl | rfl <;> decide)
      | (simp [Cont.empty, Cont.get?] at h)
  · intro i id h
    have hi : i < 5 := (List.getElem?_eq_some_iff.1 h).1
    have h5 : i = 0 ∨ i = 1 ∨ i = 2 ∨ i = 3 ∨ i = 4 := by omega
    rcases h5 with rfl | rfl | rfl | rfl | rfl <;> (cases h; decide)
  · intro id h
    have : id = 0 ∨ id = 1 ∨ id = 2 ∨ id = 3 ∨ id = 4 := by
      have e : femTets.nodes.ids = [0, 1, 2, 3, 4] := by decide
      rw [e] at h; simpa using h
    rcases this with rfl | rfl | rfl | rfl | rfl
    exacts [⟨0, by decide⟩, ⟨1, by decide⟩, ⟨2, by decide⟩, ⟨3, by decide⟩, ⟨4, by decide⟩]
  · have : elems femTets = [⟨.tetrahedron, [1, 0, 2, 3], []⟩, ⟨.tetrahedron, [3, 4, 2, 1], []⟩] := by decide
    intro e he
    rw [this] at he
    rcases List.mem_cons.1 he with rfl | he
    · decide +kernel
    · rcases List.mem_cons.1 he with rfl | he
      · decide +kernel
      · cases he
  · show List.Perm [1, 0] [0, 1]
    exact List.Perm.swap ..

/-- A node of both tetrahedra gets twice the source, although their volumes are `1/6` and `1/3`. -/
example : (source femTets 5).map (fun b => [b 0, b 1, b 2, b 3, b 4]) = some [5, 10, 10, 10, 5] ∧
    (elems femTets).map (fun e => (femTetsCorners e).volume) = [1 / 6, 1 / 3] := by decide +kernel

example (nrm : Vec3 ℚ → ℚ) (r : ℚ) : Regular nrm r femTets := by
  intro e he ps hps
  obtain ⟨h1, -, h3⟩ := femTets_ok.2.2.1 e he
  rw [h3] at hps; cases hps
  rw [h1]; exact ⟨_, rfl⟩


/-- A tetrahedron, a triangle and a beam on the nodes of `femTets`. -/
def femMixed : Mesh ℚ :=
  { twoTets with elements := ((Cont.empty.add 1 ⟨.tetrahedron, [1, 0, 2, 3], []⟩).add 0 ⟨.triangle, [0, 1, 2], []⟩).add 2 ⟨.beam, [4, 3], []⟩ }

def femMixedCorners (e : Elem) : List (Vec3 ℚ) := (e.nodeIds.mapM femMixed.nodes.get?).getD []

/-- `femMixed` meets the hypotheses of `C28_ddt_total_mass`; the length is `|x| + |y| + |z|`, which is rational. -/
example : femMixed.WF ∧ femMixed.nodes.RoundTrip ∧ Contiguous femMixed ∧ (∀ id ∈ femMixed.nodes.ids, 0 ≤ id ∧ id < femMixed.nodes.count) ∧
    SimplexMesh (fun v => |v.x| + |v.y| + |v.z|) femMixed femMixedCorners := by
  refine ⟨⟨twoTets_ok.1.nodes, twoTets_ok.1.faces, ?_, twoTets_ok.1.faceNodes, ?_⟩, femTets_ok.2.1, ?_, by decide, ?_⟩
  · exact Cont.add_ok (Cont.add_ok (Cont.add_ok Cont.empty_ok _ (by decide)) _ (by decide)) _ (by decide)
  · intro id e h n hn
    simp only [femMixed, Cont.get?_add] at h
    split_ifs at h <;> first
      | (simp only [Option.some.injEq] at h; subst h; simp at hn; rcases hn with rfl | rfl | rfl | rfl <;> decide)
      | (simp only [Option.some.injEq] at h; subst h; simp at hn; rcases hn with rfl | rfl | rfl <;> decide)
      | (simp only [Option.some.injEq] at h; subst h; simp at hn; rcases hn with rfl | rfl <;> decide)
      | (simp [Cont.empty, Cont.get?] at h)
  · show List.Perm [1, 0, 2] [0, 1, 2]
    exact List.Perm.swap ..
  · have : elems femMixed = [⟨.tetrahedron, [1, 0, 2, 3], []⟩, ⟨.triangle, [0, 1, 2], []⟩, ⟨.beam, [4, 3], []⟩] := by decide
    intro e he
    rw [this] at he
    rcases List.mem_cons.1 he with rfl | he
    · decide +kernel
    · rcases List.mem_cons.1 he with rfl | he
      · decide +kernel
      · rcases List.mem_cons.1 he with rfl | he
        · decide +kernel
        · cases he

end ENigMA
