import Verif.Solvers.LbmProps
import Mathlib.Algebra.BigOperators.Group.Finset.Basic
import Mathlib.Algebra.BigOperators.Ring.Finset
import Mathlib.Order.Interval.Finset.Defs
import Mathlib.Data.Int.Interval

/-!
# The lid-driven cavity (C160)

The program of trunk/examples/lbmflow/main.cpp: a box whose upper side moves, with the other three sides marked as walls.
-/

set_option linter.unusedSectionVars false
set_option autoImplicit false

namespace ENigMA
namespace Lbm
variable {K : Type} [Field K]

/-- `setDensity(i, j, value)`: LbmLidDrivenSolver_Imp.hpp:203-207. -/
def setDensity (s : State K) (i j : Int) (v : K) : State K :=
  { s with rho := fun i' j' => if i' = i ∧ j' = j then v else s.rho i' j' }

/-- The body of the inner loop of `init`: trunk/examples/lbmflow/main.cpp:374-381. -/
def cavityNode (i : Nat) (s : State K) (j : Nat) : State K :=
  let s := setVelocity s i j 0 0
  let s := setVelocity s i j 1 0
  let s := setDensity s i j 1
  let s := setBoundary s i j 0
  if i = 0 ∨ i = s.nx ∨ j = 0 then setBoundary s i j 1 else s

/-- The body of the outer loop of `init`: trunk/examples/lbmflow/main.cpp:368-385. -/
def cavityColumn (U : K) (s : State K) (i : Nat) : State K :=
  setVelocity ((List.range (s.ny + 1)).foldl (cavityNode i) s) i s.ny 0 U

/-- The constructor and `init`: trunk/examples/lbmflow/main.cpp:13, 366-387. -/
def cavity (nx ny : Nat) (U : K) : State K := (List.range (nx + 1)).foldl (cavityColumn U) (init (new nx ny))

/-- One call of `evolve` after the other: trunk/examples/lbmflow/main.cpp:222. -/
def steps (taus : List K) (s : State K) : State K := taus.foldl (fun s t => evolve t s) s

/-! ### Specification -/

/-- The nodes `1 ≤ i < nx`, `1 ≤ j < ny`. -/
def State.nodes (s : State K) : Finset (Int × Int) := Finset.Icc 1 ((s.nx : Int) - 1) ×ˢ Finset.Icc 1 ((s.ny : Int) - 1)

/-- The mass of the fluid in the cavity. -/
def fluid (s : State K) : K := ∑ p ∈ s.nodes, mass (s.f p.1 p.2)

/-- What a node sends in direction `k` in the next step. -/
def sent (tau : K) (s : State K) (i j : Int) (k : Fin 9) : K := collide tau (s.rho i j) (s.u i j) (s.f i j) k

/-- What the nodes of the cavity get from outside in the next step. -/
def inflow (tau : K) (s : State K) : K := ∑ k, ∑ p ∈ s.nodes.filter (fun p => (p.1 - (e k).1, p.2 - (e k).2) ∉ s.nodes), sent tau s (p.1 - (e k).1) (p.2 - (e k).2) k

/-- What the nodes of the cavity send outside in the next step. -/
def outflow (tau : K) (s : State K) : K := ∑ k, ∑ p ∈ s.nodes.filter (fun p => (p.1 + (e k).1, p.2 + (e k).2) ∉ s.nodes), sent tau s p.1 p.2 k

/-- The net inflow of several steps. -/
def gain : List K → State K → K
  | [], _ => 0
  | t :: ts, s => inflow t s - outflow t s + gain ts (evolve t s)

/-- The same velocities, densities and populations. -/
structure Same (s t : State K) : Prop where
  nx : s.nx = t.nx
  ny : s.ny = t.ny
  u : s.u = t.u
  rho : s.rho = t.rho
  f : s.f = t.f

/-- The direction mirrored at a vertical line. -/
def flip : Fin 9 → Fin 9
  | 0 => 0 | 1 => 3 | 2 => 2 | 3 => 1 | 4 => 4 | 5 => 6 | 6 => 5 | 7 => 8 | 8 => 7

/-- The state seen in a mirror: left and right are exchanged. -/
def mirror (s : State K) : State K :=
  { nx := s.nx, ny := s.ny
    u := fun i j => (-(s.u (s.nx - i) j).1, (s.u (s.nx - i) j).2)
    u0 := fun i j => (-(s.u0 (s.nx - i) j).1, (s.u0 (s.nx - i) j).2)
    rho := fun i j => s.rho (s.nx - i) j
    B := fun i j => s.B (s.nx - i) j
    f := fun i j k => s.f (s.nx - i) j (flip k)
    F := fun i j k => s.F (s.nx - i) j (flip k) }

end Lbm
end ENigMA
