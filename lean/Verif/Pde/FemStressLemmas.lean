import Verif.Pde.FemStress

/-! # Lemmas on stresses of plates -/

set_option linter.unusedSectionVars false
set_option autoImplicit false

namespace ENigMA
open FemOp FemStructuralOp Matrix
open FdmHeat (Sound)
open FemHeat (form_add_left form_add_right form_symm)
variable {K : Type} [Field K] [LinearOrder K] [IsStrictOrderedRing K]

namespace FemStress

theorem holds_exists (m : Mesh K) (hwf : m.WF) (v : Nat → K) : ∃ φ, Holds m v φ := by
  have hinj : ∀ (i j : Nat) (id : Int), m.nodes.idAt? i = some id → m.nodes.idAt? j = some id → i = j := fun i j id hi hj => by
    have hi' := List.getElem?_eq_some_iff.1 hi
    have hj' := List.getElem?_eq_some_iff.1 hj
    exact (hwf.nodes.1.getElem_inj_iff).1 (hi'.2.trans hj'.2.symm)
  classical
  refine ⟨fun id k => if h : ∃ i, m.nodes.idAt? i = some id then v (h.choose * 2 + k) else 0, fun i id k hi _ => ?_⟩
  have h : ∃ i, m.nodes.idAt? i = some id := ⟨i, hi⟩
  show (if h : ∃ i, m.nodes.idAt? i = some id then v (h.choose * 2 + k) else 0) = _
  rw [dif_pos h, hinj _ _ _ h.choose_spec hi]

theorem nodalD_of_holds (m : Mesh K) (v : Nat → K) (φ : Int → Nat → K) (h : Holds m v φ) : ∀ i < m.nodes.count * 2, nodalD m 2 φ i = v i := by
  intro i hi
  obtain ⟨x, hx⟩ := row_of_lt m 2 i hi
  rw [nodalD, hx, Option.map_some, Option.getD_some, h (i / 2) x (i % 2) hx (Nat.mod_lt _ (by norm_num))]
  congr 1
  omega

/-- Prescribed displacements, by node and by row. -/
theorem admissible_rows {m : Mesh K} {f : EqField K} {ψ : Int → Nat → K} (h : Admissible m f ψ) : ∀ i < m.nodes.count * 2, Equation.prescribed f i ≠ none → nodalD m 2 ψ i = 0 := by
  intro i hi hp
  obtain ⟨x, hx⟩ := row_of_lt m 2 i hi
  obtain ⟨v, hv⟩ := Option.ne_none_iff_exists'.1 hp
  rw [nodalD, hx, Option.map_some, Option.getD_some]
  refine h x (i % 2) v ⟨i / 2, hx, Nat.mod_lt _ (by norm_num), ?_⟩
  rw [show i / 2 * 2 + i % 2 = i by omega]
  exact hv

theorem rows_admissible {m : Mesh K} {f : EqField K} {ψ : Int → Nat → K} (h : ∀ i < m.nodes.count * 2, Equation.prescribed f i ≠ none → nodalD m 2 ψ i = 0) : Admissible m f ψ := by
  rintro id k v ⟨i, hi, hk, hv⟩
  have hlt : i < m.nodes.count := (List.getElem?_eq_some_iff.1 hi).1
  have := h (i * 2 + k) (by omega) (by rw [Equation.prescribed, hv]; simp)
  rw [nodalD, show (i * 2 + k) / 2 = i by omega, hi, Option.map_some, Option.getD_some, show (i * 2 + k) % 2 = k by omega] at this
  exact this

theorem sum_pairs (g : Nat → K) (n : Nat) : ∑ i ∈ Finset.range (n * 2), g i = ∑ i ∈ Finset.range n, (g (i * 2 + 0) + g (i * 2 + 1)) := by
  induction n with
  | zero => simp
  | succ n ih => rw [Nat.succ_mul, Finset.sum_range_succ, Finset.sum_range_succ, ih, Finset.sum_range_succ]; ring_nf

theorem work_rows (m : Mesh K) (f : EqField K) (ψ : Int → Nat → K) :
    ∑ i ∈ Finset.range (m.nodes.count * 2), nodalD m 2 ψ i * (f.uSource.find? (i : Int)).getD 0 = work m f ψ := by
  rw [sum_pairs]
  refine Finset.sum_congr rfl fun i hi => ?_
  obtain ⟨x, hx⟩ := idAt_of_lt m i (Finset.mem_range.1 hi)
  simp only [nodalD]
  rw [show (i * 2 + 0) / 2 = i by omega, show (i * 2 + 1) / 2 = i by omega, hx, show (i * 2 + 0) % 2 = 0 by omega, show (i * 2 + 1) % 2 = 1 by omega]
  simp only [Option.map_some, Option.getD_some, force]
  ring

theorem nodalD_sub (m : Mesh K) (φ ψ : Int → Nat → K) (i : Nat) : nodalD m 2 (fun id k => φ id k - ψ id k) i = nodalD m 2 φ i - nodalD m 2 ψ i := by
  simp only [nodalD]
  cases m.nodes.idAt? (i / 2) <;> simp

theorem nodalD_comb (m : Mesh K) (a b : K) (φ ψ : Int → Nat → K) (i : Nat) : nodalD m 2 (fun id k => a * φ id k + b * ψ id k) i = a * nodalD m 2 φ i + b * nodalD m 2 ψ i := by
  simp only [nodalD]
  cases m.nodes.idAt? (i / 2) <;> simp

theorem work_comb (m : Mesh K) (f : EqField K) (a b : K) (φ ψ : Int → Nat → K) : work m f (fun id k => a * φ id k + b * ψ id k) = a * work m f φ + b * work m f ψ := by
  rw [← work_rows, ← work_rows, ← work_rows, Finset.mul_sum, Finset.mul_sum, ← Finset.sum_add_distrib]
  exact Finset.sum_congr rfl fun i _ => by rw [nodalD_comb]; ring

/-- The stiffness of a plate. -/
theorem stiffness {nrm : Vec3 K → K} (hn : IsNorm nrm) {mat : Material K} {made : Int → Made K} {th : Int → K} {m : Mesh K} (g : Plate mat made th m) :
    ∃ s, FemStructuralOp.laplacian nrm mat made 2 m = some s ∧ s.n = m.nodes.count * 2 ∧ s.kind = .sparseSymmetric ∧ (∀ i < s.n, s.b i = 0) ∧ (∀ i < s.n, ∀ j < s.n, s.A i j = s.A j i) ∧
      (∀ φ ψ, s.form (nodalD m 2 φ) (nodalD m 2 ψ) = elastic mat th m φ ψ) ∧ ∀ φ, 0 ≤ elastic mat th m φ φ ∧ (elastic mat th m φ φ = 0 ↔ Unstrained m φ) := by
  obtain ⟨s, h1, h2, h3, h4, h5⟩ := C116_plane hn mat made th m g.wf g.trips g.flat g.plates
  refine ⟨s, h1, h2, h3, h4, (C116_plane_rigid hn mat made th m g.wf g.trips g.flat g.plates s h1).1, h5, fun φ => ?_⟩
  have := C116_plane_energy hn mat made th m g.wf g.trips g.flat g.plates s h1 g.modulus g.poisson g.thick φ
  rw [h5] at this
  exact this

theorem elastic_comb {nrm : Vec3 K → K} (hn : IsNorm nrm) {mat : Material K} {made : Int → Made K} {th : Int → K} {m : Mesh K} (g : Plate mat made th m) (a b : K) (φ ψ χ : Int → Nat → K) :
    elastic mat th m (fun id k => a * φ id k + b * ψ id k) χ = a * elastic mat th m φ χ + b * elastic mat th m ψ χ := by
  obtain ⟨s, h1, h2, h3, h4, h5, h6, h7⟩ := stiffness hn g
  rw [← h6, ← h6, ← h6]
  simp only [Sys.form, Finset.mul_sum, ← Finset.sum_add_distrib]
  refine Finset.sum_congr rfl fun i _ => Finset.sum_congr rfl fun j _ => ?_
  rw [nodalD_comb]
  ring

theorem elastic_symm {nrm : Vec3 K → K} (hn : IsNorm nrm) {mat : Material K} {made : Int → Made K} {th : Int → K} {m : Mesh K} (g : Plate mat made th m) (φ ψ : Int → Nat → K) :
    elastic mat th m φ ψ = elastic mat th m ψ φ := by
  obtain ⟨s, h1, h2, h3, h4, h5, h6, h7⟩ := stiffness hn g
  rw [← h6, ← h6, form_symm s h5]

/-- Unstrained displacements do no work with any stress. -/
theorem elastic_unstrained {mat : Material K} {th : Int → K} {m : Mesh K} (φ ψ : Int → Nat → K) (h : Unstrained m ψ) : elastic mat th m φ ψ = 0 := by
  refine List.sum_eq_zero fun x hx => ?_
  obtain ⟨p, hp, rfl⟩ := List.mem_map.1 hx
  unfold planeEnergy
  split
  · next x y z h3 h4 =>
    by_cases hD : area2 (place m x) (place m y) (place m z) = 0
    · rw [hD]; simp
    · rw [h p.1 p.2 x y z (mem_elemsId.1 hp).2 h3 h4 hD]
      simp [planeStress]
  · rfl

theorem comb_sub (φ ψ : Int → Nat → K) : (fun id k => 1 * φ id k + (-1) * ψ id k) = fun id k => φ id k - ψ id k := by
  funext id k; ring

/-- The system after the forces have been set. -/
theorem loaded {nrm : Vec3 K → K} (hn : IsNorm nrm) {mat : Material K} {made : Int → Made K} {th : Int → K} {m : Mesh K} (g : Plate mat made th m) (f : EqField K) (hf : Given m f)
    (solver : Sys K → Nat → K) (junk junk' : Nat → K) :
    ∃ s : Sys K, run nrm solver junk junk' mat made m f = (do let e ← (Equation.new s).setElimination junk f; e.solve solver junk' f) ∧ s.n = m.nodes.count * 2 ∧ s.kind = .sparseSymmetric ∧
      (∀ i < s.n, ∀ j < s.n, s.A i j = s.A j i) ∧ (∀ φ ψ, s.form (nodalD m 2 φ) (nodalD m 2 ψ) = elastic mat th m φ ψ) ∧ ∀ ψ, s.load (nodalD m 2 ψ) = work m f ψ := by
  obtain ⟨s, h1, h2, h3, h4, h5, h6, -⟩ := stiffness hn g
  obtain ⟨e, a1, a2, a3, a4, a5, a6, a7⟩ := C54_setSources (Equation.new s) f (by show IndicesOk f.uSource s.n; rw [h2]; exact hf.source)
  have he : e = Equation.new e.sys := by
    obtain ⟨x, y, z⟩ := e
    simp only [Equation.new] at a5 a6 ⊢
    rw [a5, a6]
  have a2 : e.sys.n = s.n := a2
  have a4 : e.sys.A = s.A := a4
  refine ⟨e.sys, ?_, a2.trans h2, a3.trans h3, ?_, ?_, ?_⟩
  · unfold run
    rw [h1, Option.bind_eq_bind, Option.bind_some, Sys.assignZero', a1, ← he]
    rfl
  · rw [a2, a4]; exact h5
  · intro φ ψ
    rw [← h6, Sys.form, Sys.form, a2, a4]
  · intro ψ
    rw [← work_rows, Sys.load, a2, h2]
    refine Finset.sum_congr rfl fun i hi => ?_
    have hi : i < s.n := by rw [h2]; exact Finset.mem_range.1 hi
    rw [a7 i, show (Equation.new s).sys.b i = 0 from h4 i hi, zero_add]

/-- The equations of the free rows are the principle of virtual work. -/
theorem rows_iff {mat : Material K} {th : Int → K} {m : Mesh K} (hwf : m.WF) (f : EqField K) (s : Sys K) (h2 : s.n = m.nodes.count * 2)
    (hsym : ∀ i < s.n, ∀ j < s.n, s.A i j = s.A j i)
    (h5 : ∀ φ ψ, s.form (nodalD m 2 φ) (nodalD m 2 ψ) = elastic mat th m φ ψ) (h6 : ∀ ψ, s.load (nodalD m 2 ψ) = work m f ψ) (w : Nat → K) (φ : Int → Nat → K) (hφ : Holds m w φ) :
    (∀ i < s.n, Equation.prescribed f i = none → s.row w i = s.b i) ↔ Equilibrium mat th m f φ := by
  have hw : ∀ ψ, s.form (nodalD m 2 ψ) w = elastic mat th m φ ψ := fun ψ => by
    rw [← h5, form_symm s hsym (nodalD m 2 φ)]
    exact Sys.form_congr s _ _ _ _ (fun _ _ => rfl) fun i hi => (nodalD_of_holds m w φ hφ i (h2 ▸ hi)).symm
  constructor
  · intro h ψ hψ
    rw [← hw, ← h6, Sys.form_rows, Sys.load]
    refine Finset.sum_congr rfl fun i hi => ?_
    have hi := Finset.mem_range.1 hi
    by_cases hp : Equation.prescribed f i = none
    · rw [h i hi hp]
    · rw [admissible_rows hψ i (h2 ▸ hi) hp, zero_mul, zero_mul]
  · intro h i hi hp
    obtain ⟨x, hx⟩ := row_of_lt m 2 i (h2 ▸ hi)
    have hone := fun j hj => nodalD_single (K := K) m hwf 2 (by norm_num) i x hx j hj
    have h1 := h (oneAt x (i % 2)) (rows_admissible fun j hj hpj => by
      rw [hone j hj, if_neg]
      rintro rfl
      exact hpj hp)
    rw [← hw, ← h6, ← rowD_eq m hwf 2 (by norm_num) s h2 i x hi hx] at h1
    rw [h1, Sys.load, Finset.sum_eq_single i]
    · rw [hone i (h2 ▸ hi), if_pos rfl, one_mul]
    · intro j hj hne
      rw [hone j (by rw [← h2]; exact Finset.mem_range.1 hj), if_neg hne, zero_mul]
    · intro hni
      exact absurd (Finset.mem_range.2 hi) hni

/-- The equations of the free values can be solved if what is loaded is held. -/
theorem exists_constrained' {n : Nat} (B : Matrix (Fin n) (Fin n) K) (hs : Bᵀ = B) (hneg : ∀ v, v ⬝ᵥ (B *ᵥ v) ≤ 0) (b : Fin n → K) (p : Fin n → Option K)
    (hb : ∀ q, (∀ i, p i ≠ none → q i = 0) → q ⬝ᵥ (B *ᵥ q) = 0 → q ⬝ᵥ b = 0) : ∃ w : Fin n → K, (∀ i v, p i = some v → w i = v) ∧ ∀ i, p i = none → (B *ᵥ w) i = b i := by
  classical
  have hd : ∃ d : Fin n → K, d = fun i => if p i = none then 1 else 0 := ⟨_, rfl⟩
  obtain ⟨d, hd⟩ := hd
  let B' := diagonal d * B * diagonal d
  have hB' : ∀ z : Fin n → K, B' *ᵥ z = fun i => d i * (B *ᵥ fun j => d j * z j) i := fun z => by
    funext i
    simp only [B']
    rw [← mulVec_mulVec, ← mulVec_mulVec, mulVec_diagonal]
    congr 2
    funext j
    rw [mulVec_diagonal]
  have hdot : ∀ z : Fin n → K, z ⬝ᵥ (B' *ᵥ z) = (fun i => d i * z i) ⬝ᵥ (B *ᵥ fun j => d j * z j) := fun z => by
    rw [hB']
    simp only [dotProduct]
    exact Finset.sum_congr rfl fun i _ => by ring
  have hv : ∃ v : Fin n → K, v = fun i => (p i).getD 0 := ⟨_, rfl⟩
  obtain ⟨v, hv⟩ := hv
  obtain ⟨w, w1, w2⟩ := exists_constrained B' (by
      simp only [B', transpose_mul, diagonal_transpose, hs, Matrix.mul_assoc]) (fun z => by rw [hdot]; exact hneg _)
    (fun i => d i * (b i - (B *ᵥ v) i)) (fun q hq => by
      rw [hdot] at hq
      have e1 := null_of_zero B hs hneg _ hq v
      have e2 := hb (fun i => d i * q i) (fun i hi => by show d i * q i = 0; rw [hd]; simp [hi]) hq
      have : (q ⬝ᵥ fun i => d i * (b i - (B *ᵥ v) i)) = (fun i => d i * q i) ⬝ᵥ b - (fun i => d i * q i) ⬝ᵥ (B *ᵥ v) := by
        simp only [dotProduct, ← Finset.sum_sub_distrib]
        exact Finset.sum_congr rfl fun i _ => by ring
      rw [this, e1, e2, sub_zero]) (fun i => (p i).map fun _ => 0)
  refine ⟨fun i => d i * w i + v i, fun i x hx => ?_, fun i hi => ?_⟩
  · rw [hd, hv]; simp [hx]
  · have h0 := w2 i (by simp [hi])
    have hdi : d i = 1 := by rw [hd]; simp [hi]
    rw [hB'] at h0
    simp only [hdi, one_mul] at h0
    rw [show (fun i => d i * w i + v i) = (fun i => d i * w i) + v from rfl, mulVec_add, Pi.add_apply, h0]
    ring

theorem exists_held (s : Sys K) (hsym : ∀ i < s.n, ∀ j < s.n, s.A i j = s.A j i) (hpos : ∀ v, 0 ≤ s.form v v) (p : Nat → Option K)
    (hb : ∀ v, (∀ i < s.n, p i ≠ none → v i = 0) → s.form v v = 0 → s.load v = 0) :
    ∃ w : Nat → K, (∀ i v, p i = some v → w i = v) ∧ ∀ i < s.n, p i = none → s.row w i = s.b i := by
  have hq : ∀ v : Fin s.n → K, v ⬝ᵥ (-s.mat *ᵥ v) = -s.form (Sys.ext s.n v) (Sys.ext s.n v) := fun v => by
    rw [Sys.form_mat, Sys.ext_fin, neg_mulVec, dotProduct_neg]
  obtain ⟨w, h1, h2⟩ := exists_constrained' (-s.mat) (by ext i j; simp only [transpose_apply, neg_apply]; exact congrArg _ (hsym j j.2 i i.2))
    (fun v => by rw [hq]; have := hpos (Sys.ext s.n v); linarith) (fun i => -s.b i) (fun i => p i)
    (fun q hz hqq => by
      rw [hq, neg_eq_zero] at hqq
      have := hb (Sys.ext s.n q) (fun i hi hp => by rw [Sys.ext, dif_pos hi]; exact hz ⟨i, hi⟩ hp) hqq
      rw [Sys.load, Finset.sum_range] at this
      rw [show (fun i : Fin s.n => -s.b i) = -(fun i : Fin s.n => s.b i) from rfl, dotProduct_neg, neg_eq_zero, ← this]
      simp only [dotProduct]
      exact Finset.sum_congr rfl fun i _ => by rw [← congrFun (Sys.ext_fin s.n q) i])
  refine ⟨fun i => if i < s.n then Sys.ext s.n w i else (p i).getD 0, fun i v hv => ?_, fun i hi hp => ?_⟩
  · show (if i < s.n then Sys.ext s.n w i else (p i).getD 0) = v
    split
    · next h => rw [Sys.ext, dif_pos h]; exact h1 ⟨i, h⟩ v hv
    · rw [hv]; rfl
  · rw [← Sys.mat_mulVec s _ ⟨i, hi⟩]
    have : (fun j : Fin s.n => if (j : Nat) < s.n then Sys.ext s.n w j else (p j).getD 0) = w := by
      funext j; rw [if_pos j.2]; exact congrFun (Sys.ext_fin s.n w) j
    rw [this]
    have := h2 ⟨i, hi⟩ hp
    rw [neg_mulVec, Pi.neg_apply, neg_inj] at this
    exact this

/-- What the program leaves in the field. -/
theorem run_spec {nrm : Vec3 K → K} (hn : IsNorm nrm) {mat : Material K} {made : Int → Made K} {th : Int → K} {m : Mesh K} (g : Plate mat made th m) (f : EqField K) (hf : Given m f)
    (hb : Balanced m f) (solver : Sys K → Nat → K) (hS : Sound solver) (junk junk' : Nat → K) :
    ∃ f', run nrm solver junk junk' mat made m f = some f' ∧ f'.u.size = m.nodes.count * 2 ∧ ∀ φ, Holds m f'.u.at' φ → Meets m f φ ∧ Equilibrium mat th m f φ := by
  obtain ⟨s, h1, h2, h3, h4, h5, h6⟩ := loaded hn g f hf solver junk junk'
  obtain ⟨-, -, -, -, -, -, -, e7⟩ := stiffness hn g
  have hform : ∀ v φ, Holds m v φ → s.form v v = elastic mat th m φ φ := fun v φ hφ => by
    rw [← h5]
    exact Sys.form_congr s _ _ _ _ (fun i hi => (nodalD_of_holds m v φ hφ i (h2 ▸ hi)).symm) (fun i hi => (nodalD_of_holds m v φ hφ i (h2 ▸ hi)).symm)
  obtain ⟨f', a1, a2, -, a4, a5⟩ := Equation.eliminate_run solver hS junk junk' s f hf.fem (by rw [h3]; decide) (by rw [h2]; exact hf.fixed)
    (exists_held s h4 (fun v => by
      obtain ⟨φ, hφ⟩ := holds_exists m g.wf v
      rw [hform v φ hφ]
      exact (e7 φ).1) (Equation.prescribed f) fun v hz hv => by
      obtain ⟨φ, hφ⟩ := holds_exists m g.wf v
      have hnod := nodalD_of_holds m v φ hφ
      rw [hform v φ hφ, (e7 φ).2] at hv
      rw [← hb φ hv (rows_admissible fun i hi hp => by rw [hnod i hi]; exact hz i (h2 ▸ hi) hp), ← h6]
      exact Finset.sum_congr rfl fun i hi => by rw [hnod i (by rw [← h2]; exact Finset.mem_range.1 hi)])
  refine ⟨f', h1.trans a1, a2.trans h2, fun φ hφ => ⟨?_, (rows_iff g.wf f s h2 h4 h5 h6 _ φ hφ).1 a5⟩⟩
  rintro id k v ⟨i, hi, hk, hv⟩
  have hlt : i < m.nodes.count := (List.getElem?_eq_some_iff.1 hi).1
  rw [hφ i id k hi hk]
  exact a4 (i * 2 + k) (by omega) v hv

end FemStress
end ENigMA
