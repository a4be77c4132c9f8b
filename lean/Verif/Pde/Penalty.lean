import Verif.Pde.FemHeatProps
import Mathlib.LinearAlgebra.Matrix.ToLinearEquiv

/-!
# Prescribed values by a penalty factor (C155)
-/

set_option linter.unusedSectionVars false
set_option autoImplicit false

namespace ENigMA
variable {K : Type} [Field K] [LinearOrder K] [IsStrictOrderedRing K]

/-- `CPdeEquation e(system); e.setPenaltyFactor(T, p); e.solve(T)`: trunk/examples/femintro/main.cpp:273-275; PdeEquation_Imp.hpp:22-28, 41-56, 136-183. -/
def Equation.penalised (solver : Sys K → Nat → K) (junk : Nat → K) (s : Sys K) (f : EqField K) (p : K) : Option (EqField K) := do
  let e ← (Equation.new s).setPenaltyFactor f p
  e.solve solver junk f

/-- `CPdeEquation e(laplacian(T) = 0); e.setPenaltyFactor(T, p); e.solve(T)`: trunk/examples/femintro/main.cpp:270-275; PdeEquation_Imp.hpp:22-28, 41-56, 136-183, 222-237, SleSystem_Imp.hpp:88-93. -/
def FemHeat.steadyPenalty (nrm : Vec3 K → K) (r : K) (solver : Sys K → Nat → K) (junk : Nat → K) (m : Mesh K) (pf : PdeField K) (f : EqField K) (p : K) : Option (EqField K) := do
  let l ← FemThermalOp.laplacian nrm r pf 1 m
  Equation.penalised solver junk (l.assignReal 0) f p

namespace Penalty

/-! ### Specification -/

/-- `y` has the prescribed values and satisfies all other equations. -/
def Exact (s : Sys K) (f : EqField K) (y : Nat → K) : Prop :=
  (∀ i < s.n, ∀ v, Equation.prescribed f i = some v → y i = v) ∧ ∀ i < s.n, Equation.prescribed f i = none → s.row y i = s.b i

/-- The other equations determine the other values: only zero has zero prescribed values and satisfies the equations without right-hand side. -/
def Determined (s : Sys K) (f : EqField K) : Prop :=
  ∀ x : Nat → K, (∀ i < s.n, ∀ v, Equation.prescribed f i = some v → x i = 0) → (∀ i < s.n, Equation.prescribed f i = none → s.row x i = 0) → ∀ i < s.n, x i = 0

/-! ### Lemmas -/

open Matrix Equation

/-- The sum of the absolute values. -/
def size {n : Nat} (x : Fin n → K) : K := ∑ i, |x i|

theorem size_nonneg {n : Nat} (x : Fin n → K) : 0 ≤ size x := Finset.sum_nonneg fun _ _ => abs_nonneg _

theorem le_size {n : Nat} (x : Fin n → K) (i : Fin n) : |x i| ≤ size x := Finset.single_le_sum (f := fun i => |x i|) (fun _ _ => abs_nonneg _) (Finset.mem_univ i)

theorem size_add {n : Nat} (x y : Fin n → K) : size (fun i => x i + y i) ≤ size x + size y := by
  unfold size
  rw [← Finset.sum_add_distrib]
  exact Finset.sum_le_sum fun i _ => abs_add_le _ _

theorem size_mul {n : Nat} (c : K) (x : Fin n → K) : size (fun i => c * x i) = |c| * size x := by
  unfold size
  rw [Finset.mul_sum]
  exact Finset.sum_congr rfl fun i _ => abs_mul _ _

/-- A bound of a matrix. -/
def weight {n : Nat} (G : Matrix (Fin n) (Fin n) K) : K := ∑ i, ∑ j, |G i j|

theorem weight_nonneg {n : Nat} (G : Matrix (Fin n) (Fin n) K) : 0 ≤ weight G := Finset.sum_nonneg fun _ _ => Finset.sum_nonneg fun _ _ => abs_nonneg _

theorem size_mulVec {n : Nat} (G : Matrix (Fin n) (Fin n) K) (x : Fin n → K) : size (G *ᵥ x) ≤ weight G * size x := by
  unfold size weight
  rw [Finset.sum_mul]
  refine Finset.sum_le_sum fun i _ => ?_
  rw [Finset.sum_mul]
  refine (Finset.abs_sum_le_sum_abs (fun j => G i j * x j) Finset.univ).trans (Finset.sum_le_sum fun j _ => ?_)
  rw [abs_mul]
  exact mul_le_mul_of_nonneg_left (le_size x j) (abs_nonneg _)

/-- The solution of a system depends continuously on a small change of the matrix. -/
theorem perturb {n : Nat} (A N : Matrix (Fin n) (Fin n) K) (hA : A.det ≠ 0) (y : Fin n → K) :
    ∃ P C : K, 0 < P ∧ 0 ≤ C ∧ ∀ p, P < p → (∃ x, (A + p⁻¹ • N) *ᵥ x = A *ᵥ y) ∧ ∀ x, (A + p⁻¹ • N) *ᵥ x = A *ᵥ y → ∀ i, |x i - y i| ≤ C / p := by
  have hu : IsUnit A.det := isUnit_iff_ne_zero.2 hA
  obtain ⟨G, hG⟩ : ∃ G, G = A⁻¹ * N := ⟨_, rfl⟩
  have hw := weight_nonneg G
  have key : ∀ p : K, 0 < p → ∀ x z : Fin n → K, (A + p⁻¹ • N) *ᵥ x = A *ᵥ z → ∀ i, x i - z i = -p⁻¹ * (G *ᵥ x) i := fun p hp x z h i => by
    have h1 : A⁻¹ *ᵥ ((A + p⁻¹ • N) *ᵥ x) = z := by rw [h, mulVec_mulVec, nonsing_inv_mul _ hu, one_mulVec]
    rw [mulVec_mulVec, mul_add, nonsing_inv_mul _ hu, Matrix.mul_smul, ← hG, add_mulVec, one_mulVec, smul_mulVec] at h1
    have := congrFun h1 i
    simp only [Pi.add_apply, Pi.smul_apply, smul_eq_mul] at this
    linear_combination this
  have bound : ∀ p : K, 2 * weight G + 1 < p → ∀ x z : Fin n → K, (A + p⁻¹ • N) *ᵥ x = A *ᵥ z → size (fun i => x i - z i) ≤ 2 * weight G * size z / p := fun p hp x z h => by
    have hp0 : 0 < p := by linarith
    have h1 : size (fun i => x i - z i) ≤ p⁻¹ * (weight G * size x) := by
      rw [show (fun i => x i - z i) = fun i => -p⁻¹ * (G *ᵥ x) i from funext (key p hp0 x z h), size_mul, abs_neg, abs_of_pos (inv_pos.2 hp0)]
      exact mul_le_mul_of_nonneg_left (size_mulVec G x) (inv_pos.2 hp0).le
    have h2 : size x ≤ size (fun i => x i - z i) + size z := by
      refine le_trans (le_of_eq ?_) (size_add (fun i => x i - z i) z)
      congr 1
      funext i
      ring
    have h3 : p⁻¹ * weight G ≤ 1 / 2 := by
      rw [inv_mul_le_iff₀ hp0]
      linarith
    have h4 := size_nonneg x
    have h5 : p⁻¹ * (weight G * size x) ≤ 1 / 2 * size x := by
      rw [← mul_assoc]
      exact mul_le_mul_of_nonneg_right h3 h4
    have h6 : size x ≤ 2 * size z := by linarith
    refine h1.trans ?_
    rw [div_eq_inv_mul]
    refine mul_le_mul_of_nonneg_left ?_ (inv_pos.2 hp0).le
    have := mul_le_mul_of_nonneg_left h6 hw
    linarith
  refine ⟨2 * weight G + 1, 2 * weight G * size y, by linarith, mul_nonneg (by linarith) (size_nonneg y), fun p hp => ⟨?_, fun x hx i => (le_size (fun i => x i - y i) i).trans (bound p hp x y hx)⟩⟩
  have hd : (A + p⁻¹ • N).det ≠ 0 := fun h0 => by
    obtain ⟨v, hv, hv0⟩ := exists_mulVec_eq_zero_iff.2 h0
    apply hv
    have := bound p hp v 0 (by rw [hv0, mulVec_zero])
    have hz : size (0 : Fin n → K) = 0 := by simp [size]
    rw [hz, mul_zero, zero_div] at this
    funext i
    have h1 := (le_size (fun i => v i - (0 : Fin n → K) i) i).trans this
    simpa using abs_nonpos_iff.1 h1
  exact ⟨(A + p⁻¹ • N)⁻¹ *ᵥ (A *ᵥ y), by rw [mulVec_mulVec, mul_nonsing_inv _ (isUnit_iff_ne_zero.2 hd), one_mulVec]⟩

/-- What the program leaves in the field, if the penalised system can be solved. -/
theorem penalised_run (solver : Sys K → Nat → K) (hS : FdmHeat.Sound solver) (junk : Nat → K) (s : Sys K) (f : EqField K) (p : K) (hm : f.method = .fem ∨ f.method = .fdm) (hk : s.kind ≠ .unknown)
    (hf : IndicesOk f.uFixed s.n)
    (hex : ∃ x : Nat → K, (∀ i < s.n, prescribed f i = none → s.row x i = s.b i) ∧
      ∀ i < s.n, ∀ v, prescribed f i = some v → p * x i + ∑ j ∈ (Finset.range s.n).erase i, s.A i j * x j = p * v) :
    ∃ (f' : EqField K) (x : Nat → K), penalised solver junk s f p = some f' ∧ f'.u.size = s.n ∧ f'.uFixed = f.uFixed ∧ (∀ i < s.n, prescribed f i = none → f'.u.at' i = x i) ∧
      (∀ i < s.n, ∀ v, prescribed f i = some v → f'.u.at' i = v) ∧ (∀ i < s.n, prescribed f i = none → s.row x i = s.b i) ∧
      ∀ i < s.n, ∀ v, prescribed f i = some v → p * x i + ∑ j ∈ (Finset.range s.n).erase i, s.A i j * x j = p * v := by
  obtain ⟨e, h1, h2, h3, h4, h5⟩ := C20_setPenaltyFactor (Equation.new s) f p hm hf
  change e.sys.n = s.n at h2
  change e.sys.kind = s.kind at h3
  have helim : e.elim = false := by
    rw [setPenaltyFactor, if_pos hm] at h1
    obtain ⟨s', -, rfl⟩ := Option.map_eq_some_iff.1 h1
    rfl
  have hiff : ∀ x, e.sys.Solves x ↔ (∀ i < s.n, prescribed f i = none → s.row x i = s.b i) ∧
      ∀ i < s.n, ∀ v, prescribed f i = some v → p * x i + ∑ j ∈ (Finset.range s.n).erase i, s.A i j * x j = p * v := fun x => by
    constructor
    · intro h
      refine ⟨fun i hi hp => ?_, fun i hi v hv => ?_⟩
      · have := h i (by rw [h2]; exact hi)
        rw [(h4 i hp).1, (h4 i hp).2] at this
        exact this
      · have := h i (by rw [h2]; exact hi)
        rw [(h5 i v hv).1, (h5 i v hv).2] at this
        exact this
    · rintro ⟨g1, g2⟩ i hi
      rw [h2] at hi
      cases hp : prescribed f i with
      | none => rw [(h4 i hp).1, (h4 i hp).2]; exact g1 i hi hp
      | some v => rw [(h5 i v hp).1, (h5 i v hp).2]; exact g2 i hi v hp
  have hsol := hS e.sys (by obtain ⟨x, hx⟩ := hex; exact ⟨x, (hiff x).2 hx⟩)
  obtain ⟨k1, k2⟩ := (hiff _).1 hsol
  obtain ⟨u', g1, g2, g3, g4⟩ := setFixedLoop_spec f.uFixed.entries f.uFixed.keys_nodup ⟨s.n, solver e.sys⟩ hf.inRange
  refine ⟨{ f with u := u' }, solver e.sys, ?_, g2, rfl, fun i hi hp => ?_, fun i hi v hv => g4 i v ((f.uFixed.find?_eq_some_iff _ _).1 hv), k1, k2⟩
  · unfold penalised
    rw [h1, Option.bind_eq_bind, Option.bind_some, solve, if_neg (by rw [helim]; simp), sysSolve, if_neg (by rw [h3]; exact hk), h2, g1]
    rfl
  · exact g3 i fun ent he h => by
      have := (f.uFixed.find?_eq_some_iff _ _).2 he
      rw [h] at this
      rw [prescribed, this] at hp
      simp at hp

end Penalty

open Penalty Equation Matrix in
/-- **C155, convergence.** For every system and all prescribed values: if the equations determine the other values, then exactly one vector has the prescribed values and satisfies the other equations, and with a large enough
penalty factor the program finds it up to an error that is inversely proportional to the factor. The prescribed values themselves are exact in the result. -/
theorem C155_converges (s : Sys K) (f : EqField K) (hm : f.method = .fem ∨ f.method = .fdm) (hk : s.kind ≠ .unknown) (hf : IndicesOk f.uFixed s.n) (hd : Determined s f) :
    ∃ y, Exact s f y ∧ (∀ z, Exact s f z → ∀ i < s.n, z i = y i) ∧ ∃ P C : K, 0 < P ∧ ∀ p, P < p → ∀ solver, FdmHeat.Sound solver → ∀ junk, ∃ f', penalised solver junk s f p = some f' ∧ f'.u.size = s.n ∧
      f'.uFixed = f.uFixed ∧ (∀ i < s.n, ∀ v, prescribed f i = some v → f'.u.at' i = v) ∧ ∀ i < s.n, |f'.u.at' i - y i| ≤ C / p := by
  let A : Matrix (Fin s.n) (Fin s.n) K := fun i j => if (prescribed f i).isSome then (if i = j then 1 else 0) else s.A i j
  let N : Matrix (Fin s.n) (Fin s.n) K := fun i j => if (prescribed f i).isSome then (if i = j then 0 else s.A i j) else 0
  have hAN : ∀ (x : Nat → K) (i : Fin s.n), (A *ᵥ fun j : Fin s.n => x j) i = if (prescribed f i).isSome then x i else s.row x i := fun x i => by
    simp only [mulVec, dotProduct, A]
    by_cases h : (prescribed f i).isSome
    · simp only [if_pos h, ite_mul, one_mul, zero_mul, Finset.sum_ite_eq, Finset.mem_univ, if_true]
    · simp only [if_neg h, Sys.row, Finset.sum_range]
  have hN : ∀ (x : Nat → K) (i : Fin s.n), (N *ᵥ fun j : Fin s.n => x j) i = if (prescribed f i).isSome then ∑ j ∈ (Finset.range s.n).erase i, s.A i j * x j else 0 := fun x i => by
    simp only [mulVec, dotProduct, N]
    by_cases h : (prescribed f i).isSome
    · simp only [if_pos h]
      have e1 := Finset.add_sum_erase (Finset.range s.n) (fun j => (if (i : Nat) = j then 0 else s.A i j) * x j) (Finset.mem_range.2 i.2)
      rw [if_pos rfl, zero_mul, zero_add] at e1
      have e2 : ∑ j ∈ (Finset.range s.n).erase i, s.A i j * x j = ∑ j ∈ (Finset.range s.n).erase i, (if (i : Nat) = j then 0 else s.A i j) * x j :=
        Finset.sum_congr rfl fun j hj => by rw [if_neg (Finset.ne_of_mem_erase hj).symm]
      rw [e2, e1, Finset.sum_range]
      refine Finset.sum_congr rfl fun j _ => ?_
      simp only [Fin.ext_iff]
    · simp only [if_neg h, zero_mul, Finset.sum_const_zero]
  have hinj : ∀ x : Fin s.n → K, A *ᵥ x = 0 → x = 0 := fun x hx => by
    have h1 : ∀ i : Fin s.n, (if (prescribed f i).isSome then Sys.ext s.n x i else s.row (Sys.ext s.n x) i) = 0 := fun i => by
      rw [← hAN, Sys.ext_fin, hx]
      rfl
    have := hd (Sys.ext s.n x) (fun i hi v hv => by have := h1 ⟨i, hi⟩; rwa [if_pos (by rw [hv]; rfl)] at this) (fun i hi hp => by have := h1 ⟨i, hi⟩; rwa [if_neg (by rw [hp]; simp)] at this)
    funext i
    rw [← congrFun (Sys.ext_fin s.n x) i]
    exact this i i.2
  have hdet : A.det ≠ 0 := fun h0 => by
    obtain ⟨v, hv, hv0⟩ := exists_mulVec_eq_zero_iff.2 h0
    exact hv (hinj v hv0)
  let rhs : Fin s.n → K := fun i => (prescribed f i).getD (s.b i)
  have hy : A *ᵥ (A⁻¹ *ᵥ rhs) = rhs := by rw [mulVec_mulVec, mul_nonsing_inv _ (isUnit_iff_ne_zero.2 hdet), one_mulVec]
  have hexact : ∀ z : Nat → K, Exact s f z ↔ A *ᵥ (fun j : Fin s.n => z j) = rhs := fun z => by
    constructor
    · rintro ⟨h1, h2⟩
      funext i
      rw [hAN]
      show _ = (prescribed f i).getD (s.b i)
      cases hp : prescribed f i with
      | none => exact h2 i i.2 hp
      | some v => exact h1 i i.2 v hp
    · intro h
      have h1 : ∀ i : Fin s.n, (if (prescribed f i).isSome then z i else s.row z i) = (prescribed f i).getD (s.b i) := fun i => by rw [← hAN, h]
      refine ⟨fun i hi v hv => ?_, fun i hi hp => ?_⟩
      · have := h1 ⟨i, hi⟩
        dsimp only at this
        rw [hv] at this
        exact this
      · have := h1 ⟨i, hi⟩
        dsimp only at this
        rw [hp] at this
        exact this
  refine ⟨Sys.ext s.n (A⁻¹ *ᵥ rhs), (hexact _).2 (by rw [Sys.ext_fin]; exact hy), fun z hz i hi => ?_, ?_⟩
  · have h1 := (hexact z).1 hz
    have h2 : (fun j : Fin s.n => z j) - A⁻¹ *ᵥ rhs = 0 := hinj _ (by rw [mulVec_sub, h1, hy, sub_self])
    have := congrFun (sub_eq_zero.1 h2) ⟨i, hi⟩
    rw [Sys.ext, dif_pos hi]
    exact this
  · obtain ⟨P, C, hP, hC, h⟩ := perturb A N hdet (A⁻¹ *ᵥ rhs)
    refine ⟨P, C, hP, fun p hp solver hS junk => ?_⟩
    have hp0 : 0 < p := hP.trans hp
    obtain ⟨⟨x, hx⟩, hclose⟩ := h p hp
    rw [hy] at hx
    simp only [hy] at hclose
    have hiff : ∀ z : Nat → K, (A + p⁻¹ • N) *ᵥ (fun j : Fin s.n => z j) = rhs ↔ (∀ i < s.n, prescribed f i = none → s.row z i = s.b i) ∧
        ∀ i < s.n, ∀ v, prescribed f i = some v → p * z i + ∑ j ∈ (Finset.range s.n).erase i, s.A i j * z j = p * v := fun z => by
      have e1 : ∀ i : Fin s.n, ((A + p⁻¹ • N) *ᵥ (fun j : Fin s.n => z j)) i = (if (prescribed f i).isSome then z i else s.row z i) +
          p⁻¹ * if (prescribed f i).isSome then ∑ j ∈ (Finset.range s.n).erase i, s.A i j * z j else 0 := fun i => by
        rw [add_mulVec, smul_mulVec, Pi.add_apply, Pi.smul_apply, hAN, hN, smul_eq_mul]
      constructor
      · intro hz
        refine ⟨fun i hi hp' => ?_, fun i hi v hv => ?_⟩
        · have := e1 ⟨i, hi⟩
          rw [hz] at this
          simp only [rhs, hp', Option.getD_none, Option.isSome_none, Bool.false_eq_true, if_false, mul_zero, add_zero] at this
          exact this.symm
        · have := e1 ⟨i, hi⟩
          rw [hz] at this
          simp only [rhs, hv, Option.getD_some, Option.isSome_some, if_true] at this
          rw [this]
          field_simp
      · rintro ⟨g1, g2⟩
        funext i
        rw [e1]
        show _ = (prescribed f i).getD (s.b i)
        cases hp' : prescribed f i with
        | none => simp only [Option.getD_none, Option.isSome_none, Bool.false_eq_true, if_false, mul_zero, add_zero]; exact g1 i i.2 hp'
        | some v =>
          have := g2 i i.2 v hp'
          simp only [Option.getD_some, Option.isSome_some, if_true]
          have h0 := hp0.ne'
          field_simp
          linear_combination this
    obtain ⟨f', w, r1, r2, r3, r4, r5, r6, r7⟩ := penalised_run solver hS junk s f p hm hk hf ⟨Sys.ext s.n x, (hiff _).1 (by rw [Sys.ext_fin]; exact hx)⟩
    refine ⟨f', r1, r2, r3, r5, fun i hi => ?_⟩
    rw [Sys.ext, dif_pos hi]
    cases hp' : prescribed f i with
    | none =>
      rw [r4 i hi hp']
      exact hclose _ ((hiff w).2 ⟨r6, r7⟩) ⟨i, hi⟩
    | some v =>
      rw [r5 i hi v hp']
      have h2 := ((hexact (Sys.ext s.n (A⁻¹ *ᵥ rhs))).2 (by rw [Sys.ext_fin]; exact hy)).1 i hi v hp'
      rw [Sys.ext, dif_pos hi] at h2
      rw [h2, sub_self, abs_zero]
      exact div_nonneg hC hp0.le

end ENigMA
