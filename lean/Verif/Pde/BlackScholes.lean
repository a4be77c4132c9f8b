import Verif.Pde.FdmConvection

/-!
# Option prices with finite differences

`CBlackScholes::calculate(DM_FDM, ..)` of trunk/examples/finance/BlackScholes.cpp:96-276, over the models of the generic finite difference operators (`Verif.Pde.Fdm`), the algebra of systems (`Verif.Sle.System`) and
`CPdeEquation` (`Verif.Pde.Equation`). The plot signals are left out.
-/

set_option linter.unusedSectionVars false
set_option autoImplicit false

namespace ENigMA
namespace BlackScholes
variable {K : Type} [Field K]

/-- The data of a run: `m_r`, `m_sigma`, the time step `dt = m_T / m_N`, `m_bDiffTerm`, `m_bAdvectTerm`, `m_bReactTerm`, `m_Smin`, the spacing: BlackScholes.h; BlackScholes.cpp:222. -/
structure Par (K : Type) where
  r : K
  sigma : K
  dt : K
  diff : Bool
  advect : Bool
  react : Bool
  smin : K
  dx : K

/-- `fd`, `fa`, `fr`: BlackScholes.cpp:229-238. -/
def flag (b : Bool) : K := if b then 1 else 0

/-- `S.u(i)`: the share price at node `i`, BlackScholes.cpp:184; MshBasicMesher_Imp.hpp:31-58 (the line from `m_Smin` to `m_Smax`). -/
def share (P : Par K) (i : Nat) : K := P.smin + P.dx * i

/-- `DiffusionTerm`, `AdvectionTerm`, `ReactionTerm`: BlackScholes.cpp:240-242; `n` is the number of nodes. -/
def terms (n : Nat) (P : Par K) (f : EqField K) : Option (Sys K × Sys K × Sys K) := do
  let l ← Fdm.laplacian f n P.dx
  let d ← Fdm.divergence true f n P.dx
  return (Sys.smul (flag P.diff * (1 / 2) * P.sigma * P.sigma) (Sys.vmul (fun i => share P i * share P i) l),
    Sys.smul (flag P.advect * P.r) (Sys.vmul (share P) d), Sys.ofField (-flag P.react * P.r) f.u.size)

/-- One pass of the loop: BlackScholes.cpp:250-252. -/
def step (solver : Sys K → Nat → K) (junk : Nat → K) (n : Nat) (P : Par K) (t : Sys K × Sys K × Sys K) (f : EqField K) : Option (EqField K) := do
  let d ← Fdm.ddt f n
  let s ← (Sys.smul (-1 / P.dt) d).add t.1
  let s ← s.add t.2.1
  let s ← s.add t.2.2
  (Equation.new (s.assignReal 0)).solve solver junk f

/-- The loop over the time steps: BlackScholes.cpp:244-267. The terms are those of the field at maturity. -/
def steps (solver : Sys K → Nat → K) (junk : Nat → K) (n : Nat) (P : Par K) (t : Sys K × Sys K × Sys K) : Nat → EqField K → Option (EqField K)
  | 0, f => some f
  | m + 1, f => (steps solver junk n P t m f).bind (step solver junk n P t)

/-- The terms and the loop. -/
def run (solver : Sys K → Nat → K) (junk : Nat → K) (n : Nat) (P : Par K) (k : Nat) (f : EqField K) : Option (EqField K) := do
  let t ← terms n P f
  steps solver junk n P t k f

variable [LinearOrder K]

/-- The value of the option at maturity: BlackScholes.cpp:171, 178-193. -/
def payoff (strike : K) (n : Nat) (P : Par K) : EqField K := ⟨.fdm, .empty, .empty, ⟨n, fun i => max (strike - share P i) 0⟩⟩

/-- `wi`: the first node above `m_S0`, BlackScholes.cpp:166, 189-190. -/
def above (n : Nat) (P : Par K) (s0 : K) : Option Nat := (List.range n).find? fun i => s0 < share P i

/-- The printed price, BlackScholes.cpp:269-274: `none` when `V.u(-1)` is read, `some none` when nothing is printed. -/
def quote (n : Nat) (P : Par K) (s0 : K) (v : Nat → K) : Option (Option K) :=
  match above n P s0 with
  | none => some none
  | some 0 => none
  | some (w + 1) => some (some (v w + (v (w + 1) - v w) * (s0 - share P w) / (share P (w + 1) - share P w)))

/-- `calculate(DM_FDM, ..)`: BlackScholes.cpp:96-276, with `k` time steps on `n` nodes. -/
def calculate (solver : Sys K → Nat → K) (junk : Nat → K) (n : Nat) (P : Par K) (strike s0 : K) (k : Nat) : Option (Option K) := do
  let f ← run solver junk n P k (payoff strike n P)
  quote n P s0 f.u.at'

/-! ### Specification -/

/-- Half the squared volatility, the drift and the discount rate that are switched on. -/
def half2 (P : Par K) : K := if P.diff then P.sigma ^ 2 / 2 else 0
def drift (P : Par K) : K := if P.advect then P.r else 0
def rate (P : Par K) : K := if P.react then P.r else 0

/-- One step backwards in time. Between the ends: the equation of Black and Scholes with central differences. At the ends: no slope beyond the end in the second difference, and the drift multiplies the **value** instead of the slope. -/
def Scheme (n : Nat) (P : Par K) (o x : Nat → K) : Prop :=
  (∀ i, 0 < i → i + 1 < n → (x i - o i) / P.dt =
    half2 P * share P i ^ 2 * ((x (i + 1) - 2 * x i + x (i - 1)) / P.dx ^ 2) + drift P * share P i * ((x (i + 1) - x (i - 1)) / (2 * P.dx)) - rate P * x i) ∧
  (x 0 - o 0) / P.dt = half2 P * share P 0 ^ 2 * ((x 1 - x 0) / P.dx ^ 2) + drift P * share P 0 * x 0 - rate P * x 0 ∧
  (x (n - 1) - o (n - 1)) / P.dt = half2 P * share P (n - 1) ^ 2 * ((x (n - 2) - x (n - 1)) / P.dx ^ 2) + drift P * share P (n - 1) * x (n - 1) - rate P * x (n - 1)

/-- Data for which the scheme behaves: a line of at least two nodes of nonnegative prices, a nonnegative rate, volatility that outweighs the drift between neighbours, and a step so short that the drift at the highest price is kept down. -/
structure Mild [IsStrictOrderedRing K] (n : Nat) (P : Par K) : Prop where
  nodes : 2 ≤ n
  dx : 0 < P.dx
  dt : 0 < P.dt
  smin : 0 ≤ P.smin
  r : 0 ≤ P.r
  calm : ∀ i, 0 < i → i + 1 < n → drift P * P.dx ≤ 2 * half2 P * share P i
  short : P.dt * (drift P * share P (n - 1) - rate P) < 1

end BlackScholes
end ENigMA
