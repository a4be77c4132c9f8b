import Verif.Pde.FdmHeatLemmas
import Verif.Pde.FvmHeatLemmas

/-!
# Heat convection along a line with finite differences

The program of trunk/examples/fdmheat/main.cpp:228-293: `rho * Cp / dt * ddt(T) + u * divergence(T) = 0` on a line with no values prescribed. The operators of trunk/src/pde/fdm/thermal/FdmThermalOperators_Imp.hpp
are modelled in `Verif.Pde.Fdm`.
-/

set_option linter.unusedSectionVars false
set_option autoImplicit false

namespace ENigMA
namespace FdmConvection
variable {K : Type} [Field K]

/-- The numbers of a run: `rho * Cp`, the velocity `u`, the time step. -/
structure Flow (K : Type) where
  rc : K
  v : K
  dt : K

/-- `CPdeEquation e(rho * Cp / dt * ddt(T) + u * divergence(T) = 0); e.solve(T)`: trunk/examples/fdmheat/main.cpp:289-291; PdeEquation_Imp.hpp:205-237, SleSystem_Imp.hpp:83-88, 120-147. -/
def step (solver : Sys K → Nat → K) (junk : Nat → K) (n : Nat) (dx : K) (P : Flow K) (f : EqField K) : Option (EqField K) := do
  let d ← Fdm.ddt f n
  let g ← Fdm.divergence false f n dx
  let s ← (Sys.smul (P.rc / P.dt) d).add (Sys.smul P.v g)
  (Equation.new (s.assignReal 0)).solve solver junk f

/-- The loop over the time steps: trunk/examples/fdmheat/main.cpp:284-293. -/
def steps (solver : Sys K → Nat → K) (junk : Nat → K) (n : Nat) (dx : K) (P : Flow K) : Nat → EqField K → Option (EqField K)
  | 0, f => some f
  | m + 1, f => (steps solver junk n dx P m f).bind (step solver junk n dx P)

/-! ### Specification -/

/-- Between the ends: what a node stores during the step is what the flow brings from one side less what it takes to the other (half the heat of each neighbour); the ends keep their values. -/
def Carried (n : Nat) (dx : K) (P : Flow K) (o x : Nat → K) : Prop :=
  x 0 = o 0 ∧ x (n - 1) = o (n - 1) ∧ ∀ i, 0 < i → i + 1 < n → P.rc * dx * (x i - o i) / P.dt = P.v * (x (i - 1) / 2) - P.v * (x (i + 1) / 2)

/-- The Courant number over two: half the number of cells the flow crosses in a step. -/
def half (dx : K) (P : Flow K) : K := P.v * P.dt / (P.rc * (2 * dx))

end FdmConvection

namespace FdmConvection
open FdmHeat (Sound)
open FvmHeat (Plain plain_ok plain_none)
variable {K : Type} [Field K] [LinearOrder K] [IsStrictOrderedRing K]

/-- Interior sums of a skew product. -/
theorem skew (z : Nat → K) (m : Nat) : ∑ i ∈ Finset.range m, z (i + 1) * (z (i + 2) - z i) = z m * z (m + 1) - z 0 * z 1 := by
  induction m with
  | zero => simp
  | succ m ih => rw [Finset.sum_range_succ, ih]; ring

theorem spread (z : Nat → K) (m : Nat) : ∑ i ∈ Finset.range m, (z (i + 2) - z i) = z m + z (m + 1) - z 0 - z 1 := by
  induction m with
  | zero => simp
  | succ m ih => rw [Finset.sum_range_succ, ih]; ring

/-- The equations in the form used in the proofs. -/
theorem carried_iff (m : Nat) (dx : K) (hdx : 0 < dx) (P : Flow K) (hrc : 0 < P.rc) (hdt : 0 < P.dt) (o x : Nat → K) :
    Carried (m + 2) dx P o x ↔ x 0 = o 0 ∧ x (m + 1) = o (m + 1) ∧ ∀ i < m, x (i + 1) - o (i + 1) = -half dx P * (x (i + 2) - x i) := by
  unfold Carried half
  refine and_congr Iff.rfl (and_congr Iff.rfl ?_)
  have e : ∀ i, (P.rc * dx * (x (i + 1) - o (i + 1)) / P.dt = P.v * (x i / 2) - P.v * (x (i + 2) / 2)) ↔ x (i + 1) - o (i + 1) = -(P.v * P.dt / (P.rc * (2 * dx))) * (x (i + 2) - x i) := by
    intro i
    constructor
    · intro h
      rw [div_eq_iff hdt.ne'] at h
      field_simp
      linear_combination 2 * h
    · intro h
      rw [h]
      field_simp
      ring
  constructor
  · intro h i hi
    exact (e i).1 (h (i + 1) (by omega) (by omega))
  · intro h i h0 hi
    obtain ⟨j, rfl⟩ : ∃ j, i = j + 1 := ⟨i - 1, by omega⟩
    exact (e j).2 (h j (by omega))

/-- Homogeneous equations have only the zero solution. -/
theorem trivial_kernel (m : Nat) (c : K) (z : Nat → K) (h0 : z 0 = 0) (hl : z (m + 1) = 0) (h : ∀ i < m, z (i + 1) = -c * (z (i + 2) - z i)) : ∀ i < m + 2, z i = 0 := by
  have hs : ∑ i ∈ Finset.range m, z (i + 1) * z (i + 1) = 0 := by
    have e : ∑ i ∈ Finset.range m, z (i + 1) * z (i + 1) = -c * ∑ i ∈ Finset.range m, z (i + 1) * (z (i + 2) - z i) := by
      rw [Finset.mul_sum]
      refine Finset.sum_congr rfl fun i hi => ?_
      have := h i (Finset.mem_range.1 hi)
      linear_combination z (i + 1) * this
    rw [e, skew, h0, hl]; ring
  have hz := (Finset.sum_eq_zero_iff_of_nonneg fun i _ => mul_self_nonneg (z (i + 1))).1 hs
  intro i hi
  rcases Nat.eq_zero_or_pos i with rfl | hp
  · exact h0
  · obtain ⟨j, rfl⟩ : ∃ j, i = j + 1 := ⟨i - 1, by omega⟩
    by_cases hj : j < m
    · exact mul_self_eq_zero.1 (hz j (Finset.mem_range.2 hj))
    · have : j = m := by omega
      rw [this]; exact hl

/-- The system of a step and its result. -/
theorem step_run (solver : Sys K → Nat → K) (hS : Sound solver) (junk : Nat → K) (m : Nat) (dx : K) (hdx : 0 < dx) (P : Flow K) (hrc : 0 < P.rc) (hdt : 0 < P.dt)
    (f : EqField K) (hf : Plain f) (hu : f.u.size = m + 2) :
    ∃ u : EVec K, step solver junk (m + 2) dx P f = some { f with u := u } ∧ u.size = m + 2 ∧ Carried (m + 2) dx P f.u.at' u.at' ∧
      ∀ y, Carried (m + 2) dx P f.u.at' y → ∀ i < m + 2, y i = u.at' i := by
  obtain ⟨d, d1, d2, d3, d4⟩ := FdmHeat.ddt_residual f (m + 2) (plain_ok hf _) hu.ge
  have d4 : ∀ x, ∀ i < m + 2, d.residual x i = x i - f.u.at' i := fun x i hi => by rw [d4 x i hi, plain_none hf]; rfl
  obtain ⟨g, g1, g2, g3⟩ := C55_divergence_interior false f (m + 2) dx (by omega) hdx.ne' two_ne_zero (plain_ok hf _) hu.ge 0 0 0 0
  obtain ⟨g', g1', g4⟩ := C55_divergence_ends_thermal f (m + 2) dx (by omega) (plain_ok hf _) hu.ge
  rw [g1, Option.some.injEq] at g1'
  subst g1'
  have gk : g.kind = .sparse := by
    unfold Fdm.divergence at g1
    simp only [Option.bind_eq_bind, Option.bind_eq_some_iff] at g1
    obtain ⟨fx, -, r, -, h⟩ := g1
    exact Sys.assemble_kind _ _ _ h
  have hn : (Sys.smul (P.rc / P.dt) d).n = (Sys.smul P.v g).n := show d.n = g.n by rw [d2, g2]
  have r1 := fun x i => (C18_residuals d g (show d.n = g.n by rw [d2, g2]) (P.rc / P.dt) (fun _ => 0) x).2.2.1.2 i
  have r2 := fun x i => (C18_residuals g g rfl P.v (fun _ => 0) x).2.2.1.2 i
  obtain ⟨s, e1, e2, -⟩ := (C18_residuals (Sys.smul (P.rc / P.dt) d) (Sys.smul P.v g) hn 0 (fun _ => 0) (fun _ => 0)).1
  have hkind : s.kind = .sparse := by
    unfold Sys.add at e1
    rw [if_pos hn, Option.some.injEq] at e1
    rw [← e1]
    simp only [Sys.smul, d3, gk]
    rfl
  have hn' : s.n = m + 2 := e2.trans d2
  have hres : ∀ x i, s.residual x i = P.rc / P.dt * d.residual x i + P.v * g.residual x i := fun x i => by
    obtain ⟨s', a1, -, a3⟩ := (C18_residuals (Sys.smul (P.rc / P.dt) d) (Sys.smul P.v g) hn 0 (fun _ => 0) x).1
    rw [e1, Option.some.injEq] at a1
    subst a1
    rw [a3 i, r1, r2]
  have hc := (div_pos hrc hdt).ne'
  have hin : ∀ x, ∀ i < m, s.residual x (i + 1) = P.rc / P.dt * (x (i + 1) - f.u.at' (i + 1) + half dx P * (x (i + 2) - x i)) := fun x i hi => by
    obtain ⟨q1, q2, -⟩ := g3 (i + 1) (by omega) (by omega)
    rw [hres, d4 x (i + 1) (by omega), Sys.residual, q1, q2]
    simp only [half, Nat.add_sub_cancel]
    field_simp
    ring
  have hend0 : ∀ x, s.residual x 0 = P.rc / P.dt * (x 0 - f.u.at' 0) := fun x => by
    rw [hres, d4 x 0 (by omega), (g4 x).1, plain_none hf]; ring
  have hend1 : ∀ x, s.residual x (m + 1) = P.rc / P.dt * (x (m + 1) - f.u.at' (m + 1)) := fun x => by
    have := (g4 x).2
    rw [plain_none hf] at this
    rw [hres, d4 x (m + 1) (by omega), show g.residual x (m + 1) = 0 from this]; ring
  have hsolve : ∀ x, s.Solves x ↔ Carried (m + 2) dx P f.u.at' x := fun x => by
    rw [carried_iff m dx hdx P hrc hdt, FvmHeat.solves_residual, hn']
    constructor
    · intro h
      refine ⟨?_, ?_, fun i hi => ?_⟩
      · exact sub_eq_zero.1 ((mul_eq_zero.1 ((hend0 x).symm.trans (h 0 (by omega)))).resolve_left hc)
      · exact sub_eq_zero.1 ((mul_eq_zero.1 ((hend1 x).symm.trans (h (m + 1) (by omega)))).resolve_left hc)
      · have := (mul_eq_zero.1 ((hin x i hi).symm.trans (h (i + 1) (by omega)))).resolve_left hc
        linear_combination this
    · rintro ⟨h0, h1, h⟩ i hi
      rcases Nat.eq_zero_or_pos i with rfl | hp
      · rw [hend0, h0, sub_self, mul_zero]
      · obtain ⟨j, rfl⟩ : ∃ j, i = j + 1 := ⟨i - 1, by omega⟩
        by_cases hj : j < m
        · rw [hin x j hj, h j hj]; ring
        · have : j = m := by omega
          subst this
          rw [hend1, h1, sub_self, mul_zero]
  have hker : ∀ z : Nat → K, (∀ i < s.n, s.row z i = 0) → ∀ i < s.n, z i = 0 := by
    intro z hz
    rw [hn'] at hz ⊢
    have k0 := hz 0 (by omega)
    have k1 := hz (m + 1) (by omega)
    rw [FvmHeat.residual_row, hend0, hend0] at k0
    rw [FvmHeat.residual_row, hend1, hend1] at k1
    refine trivial_kernel m (half dx P) z ?_ ?_ fun i hi => ?_
    · exact (mul_eq_zero.1 ((by linear_combination k0 : P.rc / P.dt * z 0 = 0))).resolve_left hc
    · exact (mul_eq_zero.1 ((by linear_combination k1 : P.rc / P.dt * z (m + 1) = 0))).resolve_left hc
    · have k := hz (i + 1) (by omega)
      rw [FvmHeat.residual_row, hin z i hi, hin _ i hi] at k
      have := (mul_eq_zero.1 ((by linear_combination k : P.rc / P.dt * (z (i + 1) + half dx P * (z (i + 2) - z i)) = 0))).resolve_left hc
      linear_combination this
  obtain ⟨u, h1, h2, h3⟩ := FvmHeat.solve_run solver hS junk s (by rw [hkind]; simp) f hf hker
  have h3' := (hsolve _).1 h3
  refine ⟨u, ?_, h2.trans hn', h3', fun y hy i hi => ?_⟩
  · simp only [step, d1, g1, e1, Option.bind_eq_bind, Option.bind_some]; exact h1
  · have hy := (hsolve y).2 hy
    have := hker (fun j => y j - u.at' j) (fun i hi => by
      have a := hy i hi
      have b := h3 i hi
      have : s.row (fun j => y j - u.at' j) i = s.row y i - s.row u.at' i := by simp only [Sys.row, mul_sub, Finset.sum_sub_distrib]
      rw [this, a, b, sub_self]) i (hn' ▸ hi)
    exact sub_eq_zero.1 this

end FdmConvection
end ENigMA
