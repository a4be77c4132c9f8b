import Verif.Pde.FvmConvectionLemmas
import Verif.Pde.FvmHeatExamples

/-!
# C152: heat convection with finite volumes
-/

set_option linter.unusedSectionVars false
set_option autoImplicit false

namespace ENigMA
open FvmOp FvmConvection
open FvmHeat (Plain Cells sgn cubes bareCtx bare_cells cubesField)
open FdmConvection (Flow)
open FdmHeat (Sound anySolver anySolver_sound)
variable {K : Type} [Field K] [LinearOrder K] [IsStrictOrderedRing K]

/-- C152 (partial: of the steps that are not too long): a step has exactly one result, in which every cell has gained what the flow has brought through the faces with a neighbour.
Not proved, because false: `C152_uniform`, `C152_piles`. -/
theorem C152_step_partial (nrm : Vec3 K → K) (eps : K) (solver : Sys K → Nat → K) (hS : Sound solver) (junk : Nat → K) (c : Ctx K) (out : Bool) (g : Open nrm eps out c)
    (P : Flow K) (hrc : 0 < P.rc) (hdt : 0 < P.dt) (hs : Slow nrm eps c P) (f : EqField K) (hf : Plain f) :
    ∃ u : EVec K, step nrm eps solver junk c P f = some { f with u := u } ∧ u.size = c.mesh.elements.count ∧ Carried nrm eps c P f.u.at' u.at' ∧
      ∀ y, Carried nrm eps c P f.u.at' y → ∀ i < c.mesh.elements.count, y i = u.at' i :=
  step_run g solver hS junk P hrc hdt hs f hf

/-- C152: every step starts from the result of the one before. -/
theorem C152_steps (nrm : Vec3 K → K) (eps : K) (solver : Sys K → Nat → K) (hS : Sound solver) (junk : Nat → K) (c : Ctx K) (out : Bool) (g : Open nrm eps out c)
    (P : Flow K) (hrc : 0 < P.rc) (hdt : 0 < P.dt) (hs : Slow nrm eps c P) (f : EqField K) (hf : Plain f) (k : Nat) :
    ∃ u : EVec K, steps nrm eps solver junk c P k f = some { f with u := u } ∧
      ∃ u' : EVec K, steps nrm eps solver junk c P (k + 1) f = some { f with u := u' } ∧ u'.size = c.mesh.elements.count ∧ Carried nrm eps c P u.at' u'.at' := by
  induction k with
  | zero =>
    obtain ⟨u, h1, h2, h3, -⟩ := step_run g solver hS junk P hrc hdt hs f hf
    exact ⟨f.u, rfl, u, by simpa [steps] using h1, h2, h3⟩
  | succ k ih =>
    obtain ⟨u, -, u', h1, h2, -⟩ := ih
    obtain ⟨w, w1, w2, w3, -⟩ := step_run g solver hS junk P hrc hdt hs { f with u := u' } hf
    refine ⟨u', h1, w, ?_, w2, w3⟩
    rw [steps, h1, Option.bind_some, w1]

/-- C152: the heat in the mesh is the same after any number of steps: all that leaves a cell enters a neighbour, and what the flow should take out at the outlet stays. -/
theorem C152_conserved (nrm : Vec3 K → K) (eps : K) (solver : Sys K → Nat → K) (hS : Sound solver) (junk : Nat → K) (c : Ctx K) (out : Bool) (g : Open nrm eps out c)
    (P : Flow K) (hrc : 0 < P.rc) (hdt : 0 < P.dt) (hs : Slow nrm eps c P) (f : EqField K) (hf : Plain f) (n : Nat) :
    ∃ f', steps nrm eps solver junk c P n f = some f' ∧ Plain f' ∧
      ∑ i ∈ Finset.range c.mesh.elements.count, |volumeOf nrm eps c.mesh i| * f'.u.at' i = ∑ i ∈ Finset.range c.mesh.elements.count, |volumeOf nrm eps c.mesh i| * f.u.at' i := by
  induction n with
  | zero => exact ⟨f, rfl, hf, rfl⟩
  | succ n ih =>
    obtain ⟨f1, h1, h2, h3⟩ := ih
    obtain ⟨u, a1, -, a3, -⟩ := step_run g solver hS junk P hrc hdt hs f1 h2
    refine ⟨{ f1 with u := u }, ?_, h2, ?_⟩
    · simp only [steps, h1, Option.bind_some, a1]
    rw [← h3]
    show ∑ i ∈ Finset.range c.mesh.elements.count, |volumeOf nrm eps c.mesh i| * u.at' i = _
    have hz := net_sum g u.at'
    have hd : ∑ i ∈ Finset.range c.mesh.elements.count, |volumeOf nrm eps c.mesh i| * (u.at' i - f1.u.at' i) = 0 := by
      have e : ∀ i ∈ Finset.range c.mesh.elements.count, |volumeOf nrm eps c.mesh i| * (u.at' i - f1.u.at' i) =
          -(sgn out * P.v * P.dt / P.rc) * ((facesAt c.mesh i).map (fluxOut nrm eps c u.at' i)).sum := by
        intro i hi
        have h := a3 i (Finset.mem_range.1 hi)
        rw [g.cells.abs (Finset.mem_range.1 hi)]
        field_simp at h ⊢
        linear_combination sgn out * h
      rw [Finset.sum_congr rfl e, ← Finset.mul_sum, hz, mul_zero]
    simp only [mul_sub, Finset.sum_sub_distrib] at hd
    exact sub_eq_zero.1 hd

/-- C152: the energy of a step. What the flow brings in and takes out counts only through the cells where it enters and leaves. -/
theorem C152_energy (nrm : Vec3 K → K) (eps : K) (solver : Sys K → Nat → K) (hS : Sound solver) (junk : Nat → K) (c : Ctx K) (out : Bool) (g : Open nrm eps out c)
    (P : Flow K) (hrc : 0 < P.rc) (hdt : 0 < P.dt) (hs : Slow nrm eps c P) (f f' : EqField K) (hf : Plain f) (h : step nrm eps solver junk c P f = some f') :
    ∑ i ∈ Finset.range c.mesh.elements.count, |volumeOf nrm eps c.mesh i| * f'.u.at' i ^ 2 ≤ ∑ i ∈ Finset.range c.mesh.elements.count, |volumeOf nrm eps c.mesh i| * f.u.at' i ^ 2 -
      sgn out * P.v * P.dt / P.rc * ∑ i ∈ Finset.range c.mesh.elements.count, opened nrm eps c i * f'.u.at' i ^ 2 := by
  obtain ⟨u, a1, -, a3, -⟩ := step_run g solver hS junk P hrc hdt hs f hf
  rw [h, Option.some.injEq] at a1
  subst a1
  have hz := net_energy g u.at'
  show ∑ i ∈ Finset.range c.mesh.elements.count, |volumeOf nrm eps c.mesh i| * u.at' i ^ 2 ≤ ∑ i ∈ Finset.range c.mesh.elements.count, |volumeOf nrm eps c.mesh i| * f.u.at' i ^ 2 -
      sgn out * P.v * P.dt / P.rc * ∑ i ∈ Finset.range c.mesh.elements.count, opened nrm eps c i * u.at' i ^ 2
  have e : ∀ i ∈ Finset.range c.mesh.elements.count, |volumeOf nrm eps c.mesh i| * (u.at' i - f.u.at' i) * u.at' i =
      -(sgn out * P.v * P.dt / P.rc) * (u.at' i * ((facesAt c.mesh i).map (fluxOut nrm eps c u.at' i)).sum) := by
    intro i hi
    have h := a3 i (Finset.mem_range.1 hi)
    rw [g.cells.abs (Finset.mem_range.1 hi)]
    field_simp at h ⊢
    linear_combination sgn out * u.at' i * h
  have e1 := Finset.sum_congr rfl e
  rw [← Finset.mul_sum, hz] at e1
  have e2 : ∑ i ∈ Finset.range c.mesh.elements.count, |volumeOf nrm eps c.mesh i| * u.at' i ^ 2 ≤ ∑ i ∈ Finset.range c.mesh.elements.count, |volumeOf nrm eps c.mesh i| * f.u.at' i ^ 2 +
      2 * ∑ i ∈ Finset.range c.mesh.elements.count, |volumeOf nrm eps c.mesh i| * (u.at' i - f.u.at' i) * u.at' i := by
    rw [Finset.mul_sum, ← Finset.sum_add_distrib]
    refine Finset.sum_le_sum fun i _ => ?_
    nlinarith [mul_nonneg (abs_nonneg (volumeOf nrm eps c.mesh i)) (sq_nonneg (u.at' i - f.u.at' i))]
  refine e2.trans (le_of_eq ?_)
  rw [e1]
  have e3 : ∑ i ∈ Finset.range c.mesh.elements.count, opened nrm eps c i / 2 * u.at' i ^ 2 = (∑ i ∈ Finset.range c.mesh.elements.count, opened nrm eps c i * u.at' i ^ 2) * (1 / 2) := by
    rw [Finset.sum_mul]
    exact Finset.sum_congr rfl fun i _ => by ring
  rw [e3]
  ring

/-- C152, where it fails: a temperature that is the same everywhere is carried to itself by any flow; here it is not kept where the flow enters or leaves the mesh. -/
theorem C152_uniform (nrm : Vec3 K → K) (eps : K) (solver : Sys K → Nat → K) (hS : Sound solver) (junk : Nat → K) (c : Ctx K) (out : Bool) (g : Open nrm eps out c)
    (P : Flow K) (hrc : 0 < P.rc) (hdt : 0 < P.dt) (hv : P.v ≠ 0) (hs : Slow nrm eps c P) (f f' : EqField K) (hf : Plain f) (t : K) (ht : t ≠ 0) (hu : ∀ i < c.mesh.elements.count, f.u.at' i = t)
    (h : step nrm eps solver junk c P f = some f') : (∀ i < c.mesh.elements.count, f'.u.at' i = t) ↔ ∀ i < c.mesh.elements.count, opened nrm eps c i = 0 := by
  obtain ⟨u, a1, -, a3, a4⟩ := step_run g solver hS junk P hrc hdt hs f hf
  rw [h, Option.some.injEq] at a1
  subst a1
  have key : ∀ x : Nat → K, (∀ i < c.mesh.elements.count, x i = t) → ∀ i < c.mesh.elements.count, ((facesAt c.mesh i).map (fluxOut nrm eps c x i)).sum = opened nrm eps c i * t := by
    intro x hx i hi
    rw [net_pass g, opened_pass g, Finset.sum_mul]
    refine Finset.sum_congr rfl fun j hj => ?_
    rw [hx i hi, hx j (Finset.mem_range.1 hj)]
    ring
  constructor
  · intro hk i hi
    have := a3 i hi
    have hk' : u.at' i = t := hk i hi
    rw [key u.at' hk i hi, hk', hu i hi, sub_self, mul_zero, zero_div] at this
    have h0 : P.v * (opened nrm eps c i * t) = 0 := by linear_combination this
    exact (mul_eq_zero.1 ((mul_eq_zero.1 h0).resolve_left hv)).resolve_right ht
  · intro h0 i hi
    refine (a4 (fun _ => t) (fun i hi => ?_) i hi).symm
    rw [key _ (fun _ _ => rfl) i hi, h0 i hi, hu i hi]
    simp

namespace FvmConvection

theorem bare_open : Open l1 (1 / 1024) false bareCtx := by
  refine ⟨bare_cells, ?_, fun _ => rfl⟩
  have key : ∀ p ∈ cubes.faces.map.entries, p.2.hasPair = true → normalOf l1 (1 / 1024) cubes p.2.pairFaceId = -normalOf l1 (1 / 1024) cubes p.1 := by decide +kernel
  intro fid f hf
  exact key (fid, f) ((SMap.find?_eq_some_iff _ _ _).1 hf)

theorem bare_slow : Slow l1 (1 / 1024) bareCtx ⟨1, 1, 1⟩ := by unfold Slow; decide +kernel

end FvmConvection

/-- C152, where it fails: three unit cubes at the temperature 1 and a flow along them that passes one in a step. After the step the temperatures are 3/5, 1/5 and 11/5: nothing enters, nothing leaves, and
what should have left is in the last cube. -/
theorem C152_piles (solver : Sys ℚ → Nat → ℚ) (hS : Sound solver) (junk : Nat → ℚ) : ∃ f', step l1 (1 / 1024) solver junk bareCtx ⟨1, 1, 1⟩ (cubesField 1 1 1) = some f' ∧
    f'.u.at' 0 = 3 / 5 ∧ f'.u.at' 1 = 1 / 5 ∧ f'.u.at' 2 = 11 / 5 := by
  obtain ⟨u, h1, -, -, h4⟩ := C152_step_partial l1 (1 / 1024) solver hS junk bareCtx false bare_open ⟨1, 1, 1⟩ (by norm_num) (by norm_num) bare_slow (cubesField 1 1 1) rfl
  have hc : bareCtx.mesh.elements.count = 3 := by decide +kernel
  have hy : Carried l1 (1 / 1024) bareCtx ⟨1, 1, 1⟩ (cubesField 1 1 1).u.at' (fun i => if i = 0 then 3 / 5 else if i = 1 then 1 / 5 else 11 / 5) := by unfold Carried; decide +kernel
  have := h4 _ hy
  rw [hc] at this
  exact ⟨_, h1, (this 0 (by norm_num)).symm.trans (by norm_num), (this 1 (by norm_num)).symm.trans (by norm_num), (this 2 (by norm_num)).symm.trans (by norm_num)⟩

/-- The cubes meet the hypotheses of `C152_steps`, `C152_conserved`, `C152_energy` and `C152_uniform`, and the flow enters and leaves. -/
example (n : Nat) := C152_steps l1 (1 / 1024) anySolver anySolver_sound (fun _ => 0) bareCtx false bare_open ⟨1, 1, 1⟩ (by norm_num) (by norm_num) bare_slow (cubesField 1 1 1) rfl n

example (n : Nat) (f' : EqField ℚ) (h : step l1 (1 / 1024) anySolver (fun _ => 0) bareCtx ⟨1, 1, 1⟩ (cubesField 1 1 1) = some f') :=
  And.intro (C152_conserved l1 (1 / 1024) anySolver anySolver_sound (fun _ => 0) bareCtx false bare_open ⟨1, 1, 1⟩ (by norm_num) (by norm_num) bare_slow (cubesField 1 1 1) rfl n)
    (And.intro (C152_energy l1 (1 / 1024) anySolver anySolver_sound (fun _ => 0) bareCtx false bare_open ⟨1, 1, 1⟩ (by norm_num) (by norm_num) bare_slow (cubesField 1 1 1) f' rfl h)
      (C152_uniform l1 (1 / 1024) anySolver anySolver_sound (fun _ => 0) bareCtx false bare_open ⟨1, 1, 1⟩ (by norm_num) (by norm_num) (by norm_num) bare_slow (cubesField 1 1 1) f' rfl 1 one_ne_zero
        (by have hc : bareCtx.mesh.elements.count = 3 := by decide +kernel
            rw [hc]
            decide +kernel) h))

example : opened l1 (1 / 1024) bareCtx 0 = -1 ∧ opened l1 (1 / 1024) bareCtx 1 = 0 ∧ opened l1 (1 / 1024) bareCtx 2 = 1 := by decide +kernel

end ENigMA
