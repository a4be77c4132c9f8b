import Verif.Pde.BlackScholesLemmas

/-!
# The equation of Burgers with finite differences

The finite difference part of trunk/examples/burgers1d/MainWindow.cpp:232-272, over the models of the generic finite difference operators (`Verif.Pde.Fdm`), the algebra of systems and `CPdeEquation`.
-/

set_option linter.unusedSectionVars false
set_option autoImplicit false

namespace ENigMA
namespace Burgers
variable {K : Type} [Field K]

/-- The time step and the viscosity `mu`: MainWindow.cpp (burgers1d). -/
structure Par (K : Type) where
  dt : K
  mu : K

/-- `1.0 / dt * ddt(u) + u.u * divergence(u) - mu * laplacian(u) = 0`, solved for `u`: trunk/examples/burgers1d/MainWindow.cpp:264-266; SleSystem_Imp.hpp:133-202. -/
def solveStep (solver : Sys K → Nat → K) (junk : Nat → K) (n : Nat) (dx : K) (P : Par K) (f : EqField K) : Option (EqField K) := do
  let d ← Fdm.ddt f n
  let g ← Fdm.divergence true f n dx
  let l ← Fdm.laplacian f n dx
  let s ← (Sys.smul (1 / P.dt) d).add (Sys.vmul f.u.at' g)
  let s ← s.sub (Sys.smul P.mu l)
  (Equation.new (s.assignReal 0)).solve solver junk f

/-- `u.u(0) = u.u(nbNodes - 1)`, "Cyclic BC": MainWindow.cpp:269 (burgers1d). -/
def cyclic (n : Nat) (f : EqField K) : EqField K := { f with u := ⟨f.u.size, fun i => if i = 0 then f.u.at' (n - 1) else f.u.at' i⟩ }

/-- One pass of the loop: MainWindow.cpp:262-270 (burgers1d). -/
def step (solver : Sys K → Nat → K) (junk : Nat → K) (n : Nat) (dx : K) (P : Par K) (f : EqField K) : Option (EqField K) := do
  let f ← solveStep solver junk n dx P f
  return cyclic n f

/-- The loop: MainWindow.cpp:260-270 (burgers1d). -/
def steps (solver : Sys K → Nat → K) (junk : Nat → K) (n : Nat) (dx : K) (P : Par K) : Nat → EqField K → Option (EqField K)
  | 0, f => some f
  | m + 1, f => (steps solver junk n dx P m f).bind (step solver junk n dx P)

/-! ### Specification -/

/-- One step. Between the ends: change of velocity, carried by the old velocity, spread by the viscosity. At the ends: no slope beyond the end in the second difference, and the old velocity multiplies the **velocity** instead of its slope. -/
def Scheme (n : Nat) (dx : K) (P : Par K) (o x : Nat → K) : Prop :=
  (∀ i, 0 < i → i + 1 < n → (x i - o i) / P.dt + o i * ((x (i + 1) - x (i - 1)) / (2 * dx)) = P.mu * ((x (i + 1) - 2 * x i + x (i - 1)) / dx ^ 2)) ∧
  (x 0 - o 0) / P.dt + o 0 * x 0 = P.mu * ((x 1 - x 0) / dx ^ 2) ∧
  (x (n - 1) - o (n - 1)) / P.dt + o (n - 1) * x (n - 1) = P.mu * ((x (n - 2) - x (n - 1)) / dx ^ 2)

/-- A velocity field that does not flow backwards, on a line so fine that viscosity outweighs what is carried between neighbours. -/
structure Fine [LinearOrder K] [IsStrictOrderedRing K] (n : Nat) (dx : K) (P : Par K) (c : Nat → K) : Prop where
  nodes : 2 ≤ n
  gap : 0 < dx
  time : 0 < P.dt
  visc : 0 ≤ P.mu
  forward : ∀ i < n, 0 ≤ c i
  fine : ∀ i < n, c i * dx ≤ 2 * P.mu

end Burgers
end ENigMA
