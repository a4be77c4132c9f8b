import Verif.Pde.Fdm

/-!
# Heat conduction in a rod with finite differences

The programs of trunk/examples/fdmheat/main.cpp and trunk/tests/TestPdeEquation.cpp: an equation is written with the operators, solved, and the field holds the result.
`solver` is the linear solver of Eigen.
-/

set_option linter.unusedSectionVars false
set_option autoImplicit false

namespace ENigMA
namespace FdmHeat
variable {K : Type} [Field K]

/-- `CPdeEquation e(laplacian(T) = 0); e.solve(T)`: trunk/examples/fdmheat/main.cpp:73-75; PdeEquation_Imp.hpp:22-28, 222-237, 136-183, SleSystem_Imp.hpp:83-88. -/
def steady (solver : Sys K → Nat → K) (junk : Nat → K) (n : Nat) (dx : K) (f : EqField K) : Option (EqField K) := do
  let l ← Fdm.laplacian f n dx
  (Equation.new (l.assignReal 0)).solve solver junk f

/-- The numbers of a run: `rho * Cp`, the conductivity `k`, the time step. -/
structure Par (K : Type) where
  rc : K
  k : K
  dt : K

/-- `CPdeEquation e(rho * Cp / dt * ddt(T) - k * laplacian(T) = 0); e.solve(T)`: trunk/examples/fdmheat/main.cpp:181-183; PdeEquation_Imp.hpp:205-237, SleSystem_Imp.hpp:83-88, 149-176. -/
def step (solver : Sys K → Nat → K) (junk : Nat → K) (n : Nat) (dx : K) (P : Par K) (f : EqField K) : Option (EqField K) := do
  let d ← Fdm.ddt f n
  let l ← Fdm.laplacian f n dx
  let s ← (Sys.smul (P.rc / P.dt) d).sub (Sys.smul P.k l)
  (Equation.new (s.assignReal 0)).solve solver junk f

/-- The loop over the time steps: trunk/examples/fdmheat/main.cpp:176-185. -/
def steps (solver : Sys K → Nat → K) (junk : Nat → K) (n : Nat) (dx : K) (P : Par K) : Nat → EqField K → Option (EqField K)
  | 0, f => some f
  | m + 1, f => (steps solver junk n dx P m f).bind (step solver junk n dx P)

/-! ### Specification -/

/-- The solver finds a solution of every system that has one. -/
def Sound (solver : Sys K → Nat → K) : Prop := ∀ s : Sys K, (∃ x, s.Solves x) → s.Solves (solver s)

/-- The balance of every node for the values `x` at the end of a step: the heat stored is the heat that flowed in from both sides. Beyond a prescribed end lies the prescribed value, nothing flows through a
free end; the value at the start of the step is the prescribed one where there is one. -/
def HeatBalance (n : Nat) (dx : K) (P : Par K) (f : EqField K) (x : Nat → K) : Prop :=
  ∀ i < n, P.rc * (x i - (Equation.prescribed f i).getD (f.u.at' i)) / P.dt =
    P.k * ((if i = 0 then (Equation.prescribed f 0).getD (x 0) else x (i - 1)) - x i) / (dx * dx) +
    P.k * ((if i + 1 = n then (Equation.prescribed f i).getD (x i) else x (i + 1)) - x i) / (dx * dx)

end FdmHeat
end ENigMA
