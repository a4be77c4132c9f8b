import Verif.Pde.FemHeat
import Verif.Pde.FemThermalProps
import Verif.Pde.EquationProps
import Verif.Pde.FdmHeatLemmas
import Mathlib.LinearAlgebra.Dual.Lemmas
import Mathlib.LinearAlgebra.Matrix.ToLin

/-!
# Linear algebra of conduction problems
-/

set_option linter.unusedSectionVars false
set_option autoImplicit false

namespace ENigMA
open Matrix FemOp
variable {K : Type} [Field K] [LinearOrder K] [IsStrictOrderedRing K]

/-- A symmetric form without positive values vanishes against everything at its zeros. -/
theorem null_of_zero {n : Nat} (B : Matrix (Fin n) (Fin n) K) (hs : Bᵀ = B) (hneg : ∀ v, v ⬝ᵥ (B *ᵥ v) ≤ 0) (q : Fin n → K) (hq : q ⬝ᵥ (B *ᵥ q) = 0) (w : Fin n → K) :
    q ⬝ᵥ (B *ᵥ w) = 0 := by
  have hsym : w ⬝ᵥ (B *ᵥ q) = q ⬝ᵥ (B *ᵥ w) := by
    rw [dotProduct_mulVec, ← mulVec_transpose, hs, dotProduct_comm]
  have hc := hneg w
  have ht : ∀ t : K, 2 * t * (q ⬝ᵥ (B *ᵥ w)) + t * t * (w ⬝ᵥ (B *ᵥ w)) ≤ 0 := fun t => by
    have := hneg (q + t • w)
    rw [mulVec_add, mulVec_smul, add_dotProduct, dotProduct_add, dotProduct_add, smul_dotProduct, smul_dotProduct, dotProduct_smul, dotProduct_smul, hsym, hq] at this
    simp only [smul_eq_mul] at this
    linarith
  generalize q ⬝ᵥ (B *ᵥ w) = a at ht ⊢
  generalize w ⬝ᵥ (B *ᵥ w) = c at ht hc
  have hd : 0 < 1 - c := by linarith
  have h1 := ht (a / (1 - c))
  have h2 : 2 * (a / (1 - c)) * a + a / (1 - c) * (a / (1 - c)) * c = a * a * (2 - c) / ((1 - c) * (1 - c)) := by field_simp; ring
  rw [h2, div_nonpos_iff] at h1
  rcases h1 with h1 | h1
  · have : 0 < (1 - c) * (1 - c) := by positivity
    linarith [h1.2]
  · have h3 : a * a * (2 - c) ≤ 0 := h1.1
    have h4 : a * a ≤ 0 := by nlinarith [mul_self_nonneg a]
    exact mul_self_eq_zero.1 (le_antisymm h4 (mul_self_nonneg a))

/-- The equations of the free values can be solved, whatever the prescribed ones are. -/
theorem exists_constrained {n : Nat} (B : Matrix (Fin n) (Fin n) K) (hs : Bᵀ = B) (hneg : ∀ v, v ⬝ᵥ (B *ᵥ v) ≤ 0) (b : Fin n → K)
    (hb : ∀ q, q ⬝ᵥ (B *ᵥ q) = 0 → q ⬝ᵥ b = 0) (p : Fin n → Option K) : ∃ w : Fin n → K, (∀ i v, p i = some v → w i = v) ∧ ∀ i, p i = none → (B *ᵥ w) i = b i := by
  classical
  obtain ⟨d, hd⟩ : ∃ d : Fin n → K, d = fun i => if p i = none then 1 else 0 := ⟨_, rfl⟩
  obtain ⟨v, hv⟩ : ∃ v : Fin n → K, v = fun i => (p i).getD 0 := ⟨_, rfl⟩
  let M := diagonal d * B * diagonal d
  have hmem : (fun i => d i * (b i - (B *ᵥ v) i)) ∈ LinearMap.range M.mulVecLin := by
    by_contra hx
    obtain ⟨f, h1, h2⟩ := Submodule.exists_dual_map_eq_bot_of_notMem hx inferInstance
    have hf : ∀ z, f z = ∑ i, z i * f (Pi.single i 1) := fun z => by
      rw [LinearMap.pi_apply_eq_sum_univ f z]
      refine Finset.sum_congr rfl fun i _ => ?_
      rw [smul_eq_mul]
      congr 2
      funext j
      rw [Pi.single_apply]
      simp [eq_comm]
    obtain ⟨y, hy⟩ : ∃ y : Fin n → K, y = fun i => f (Pi.single i 1) := ⟨_, rfl⟩
    have hfy : ∀ z, f z = y ⬝ᵥ z := fun z => by rw [hf, dotProduct]; exact Finset.sum_congr rfl fun i _ => by rw [hy, mul_comm]
    have hzero : ∀ z, y ⬝ᵥ (M *ᵥ z) = 0 := fun z => by
      rw [← hfy]
      have : f (M *ᵥ z) ∈ (LinearMap.range M.mulVecLin).map f := ⟨M *ᵥ z, ⟨z, rfl⟩, rfl⟩
      rw [h2] at this
      exact (Submodule.mem_bot K).1 this
    obtain ⟨q, hq⟩ : ∃ q : Fin n → K, q = fun i => d i * y i := ⟨_, rfl⟩
    have hmask : ∀ z : Fin n → K, y ⬝ᵥ (fun i => d i * z i) = q ⬝ᵥ z := fun z => by
      rw [hq]
      simp only [dotProduct]
      exact Finset.sum_congr rfl fun i _ => by ring
    have hM : ∀ z, M *ᵥ z = fun i => d i * (B *ᵥ fun j => d j * z j) i := fun z => by
      funext i
      simp only [M]
      rw [← mulVec_mulVec, ← mulVec_mulVec, mulVec_diagonal]
      congr 2
      funext j
      rw [mulVec_diagonal]
    have hqq : q ⬝ᵥ (B *ᵥ q) = 0 := by
      have := hzero y
      rw [hM, hmask, ← hq] at this
      exact this
    apply h1
    rw [hfy, hmask]
    have e1 := null_of_zero B hs hneg q hqq v
    have e2 := hb q hqq
    rw [show (fun i => b i - (B *ᵥ v) i) = b - B *ᵥ v from rfl, dotProduct_sub, e1, e2, sub_zero]
  obtain ⟨z, hz⟩ := hmem
  refine ⟨fun i => d i * z i + v i, fun i w hw => ?_, fun i hi => ?_⟩
  · rw [hd, hv]; simp [hw]
  · have := congrFun hz i
    have hM : (M.mulVecLin z) i = d i * (B *ᵥ fun j => d j * z j) i := by
      rw [mulVecLin_apply]
      simp only [M]
      rw [← mulVec_mulVec, ← mulVec_mulVec, mulVec_diagonal]
      congr 2
      funext j
      rw [mulVec_diagonal]
    rw [hM] at this
    have hdi : d i = 1 := by rw [hd]; simp [hi]
    rw [hdi, one_mul, one_mul] at this
    rw [show (fun i => d i * z i + v i) = (fun i => d i * z i) + v from rfl, mulVec_add, Pi.add_apply, this]
    ring

namespace Sys

/-- The matrix. -/
def mat (s : Sys K) : Matrix (Fin s.n) (Fin s.n) K := fun i j => s.A i j

theorem mat_mulVec (s : Sys K) (w : Nat → K) (i : Fin s.n) : (s.mat *ᵥ fun j : Fin s.n => w j) i = s.row w i := by
  simp only [mulVec, dotProduct, mat, row, Finset.sum_range]

theorem form_mat (s : Sys K) (v w : Nat → K) : s.form v w = (fun i : Fin s.n => v i) ⬝ᵥ (s.mat *ᵥ fun j : Fin s.n => w j) := by
  simp only [form, Finset.sum_range, dotProduct, mulVec, mat, Finset.mul_sum, mul_assoc]

theorem form_rows (s : Sys K) (v w : Nat → K) : s.form v w = ∑ i ∈ Finset.range s.n, v i * s.row w i := by
  simp only [form, row, Finset.mul_sum, mul_assoc]

/-- A vector of the size of the system as a function on the numbers. -/
def ext (n : Nat) (v : Fin n → K) (i : Nat) : K := if h : i < n then v ⟨i, h⟩ else 0

theorem ext_fin (n : Nat) (v : Fin n → K) : (fun i : Fin n => ext n v i) = v := by funext i; simp [ext]

/-- The equations of the free values of a symmetric system without positive values can be solved. -/
theorem exists_free (s : Sys K) (hsym : ∀ i < s.n, ∀ j < s.n, s.A i j = s.A j i) (hneg : ∀ v, s.form v v ≤ 0) (hb : ∀ v, s.form v v = 0 → s.load v = 0) (p : Nat → Option K) :
    ∃ w : Nat → K, (∀ i v, p i = some v → w i = v) ∧ ∀ i < s.n, p i = none → s.row w i = s.b i := by
  obtain ⟨w, h1, h2⟩ := exists_constrained s.mat (by ext i j; exact hsym j j.2 i i.2)
    (fun v => by have := hneg (ext s.n v); rw [form_mat, ext_fin] at this; exact this) (fun i => s.b i)
    (fun q hq => by
      have := hb (ext s.n q) (by rw [form_mat, ext_fin]; exact hq)
      rw [load, Finset.sum_range] at this
      rw [← this]
      simp only [dotProduct]
      exact Finset.sum_congr rfl fun i _ => by rw [← congrFun (ext_fin s.n q) i])
    (fun i => p i)
  refine ⟨fun i => if i < s.n then ext s.n w i else (p i).getD 0, fun i v hv => ?_, fun i hi hp => ?_⟩
  · show (if i < s.n then ext s.n w i else (p i).getD 0) = v
    split
    · next h => rw [ext, dif_pos h]; exact h1 ⟨i, h⟩ v hv
    · rw [hv]; rfl
  · rw [← mat_mulVec s _ ⟨i, hi⟩]
    have : (fun j : Fin s.n => if (j : Nat) < s.n then ext s.n w j else (p j).getD 0) = w := by
      funext j; rw [if_pos j.2]; exact congrFun (ext_fin s.n w) j
    rw [this]
    exact h2 ⟨i, hi⟩ hp

end Sys

/-- Elimination and solution with a sound solver, when the equations of the free values can be solved. -/
theorem Equation.eliminate_run (solver : Sys K → Nat → K) (hS : FdmHeat.Sound solver) (junk junk' : Nat → K) (s : Sys K) (f : EqField K) (hm : f.method = .fem)
    (hk : s.kind ≠ .unknown) (hf : IndicesOk f.uFixed s.n)
    (hex : ∃ w : Nat → K, (∀ i v, prescribed f i = some v → w i = v) ∧ ∀ i < s.n, prescribed f i = none → s.row w i = s.b i) :
    ∃ f', (do let e ← (Equation.new s).setElimination junk f; e.solve solver junk' f) = some f' ∧ f'.u.size = s.n ∧ f'.uFixed = f.uFixed ∧
      (∀ i < s.n, ∀ v, prescribed f i = some v → f'.u.at' i = v) ∧ ∀ i < s.n, prescribed f i = none → s.row f'.u.at' i = s.b i := by
  obtain ⟨e', f', h1, h2, h3, h4, h5, -, h7⟩ := C19_solve solver junk junk' s f hm hk hf
  obtain ⟨e'', g1, -, -, -, g5⟩ := C19_setElimination junk s f hm hf
  rw [h1, Option.some.injEq] at g1
  subst g1
  obtain ⟨w, w1, w2⟩ := hex
  have hsol : e'.sys.Solves (solver e'.sys) := hS e'.sys ⟨fun k => w ((freeDofs f s.n).getD k 0), (g5 _ w (fun k i hki => by
    rw [List.getD_eq_getElem?_getD, hki]; rfl) w1).2 w2⟩
  refine ⟨f', ?_, h3, h4, h5, h7 hsol⟩
  rw [h1]
  exact h2

/-- The method of a field is kept. -/
theorem Sys.assignZero' (s : Sys K) : s.assignReal 0 = s := by
  simp [Sys.assignReal]

end ENigMA
