import Verif.Pde.FdmConvection
import Verif.Pde.FemHeatTime
import Verif.Mesh.BasicMesherProps

/-!
# Heat convection along a line with finite elements

The program of trunk/examples/femheat/main.cpp:229-293: `rho * Cp / dt * ddt(T) + u * divergence(T) = 0` on a line of beams with no values prescribed. The operators of
trunk/src/pde/fem/thermal/FemThermalOperators_Imp.hpp are modelled in `Verif.Pde.FemThermal`.
-/

set_option linter.unusedSectionVars false
set_option autoImplicit false

namespace ENigMA
namespace FemConvection
open FdmConvection (Flow)
variable {K : Type} [Field K] [LinearOrder K] [IsStrictOrderedRing K]

/-- `CPdeEquation e(rho * Cp / dt * ddt(T) + u * divergence(T) = 0); e.solve(T)`: trunk/examples/femheat/main.cpp:289-291; PdeEquation_Imp.hpp:205-237, SleSystem_Imp.hpp:83-88, 120-147. -/
def step (nrm : Vec3 K → K) (solver : Sys K → Nat → K) (junk : Nat → K) (m : Mesh K) (P : Flow K) (f : EqField K) : Option (EqField K) := do
  let d ← FemThermalOp.ddt nrm m f.u.at'
  let g ← FemThermalOp.divergence nrm 1 m
  let s ← (Sys.smul (P.rc / P.dt) d).add (Sys.smul P.v g)
  (Equation.new (s.assignReal 0)).solve solver junk f

/-- The loop over the time steps: trunk/examples/femheat/main.cpp:284-293. -/
def steps (nrm : Vec3 K → K) (solver : Sys K → Nat → K) (junk : Nat → K) (m : Mesh K) (P : Flow K) : Nat → EqField K → Option (EqField K)
  | 0, f => some f
  | k + 1, f => (steps nrm solver junk m P k f).bind (step nrm solver junk m P)

/-! ### Specification -/

/-- `n` beams in a row, of the lengths `h 0 … h (n - 1)`, between `n + 1` nodes; nodes and beams are numbered along the row. -/
structure Line (nrm : Vec3 K → K) (m : Mesh K) (n : Nat) (h : Nat → K) : Prop where
  wf : m.WF
  trips : m.nodes.RoundTrip
  nodes : m.nodes.ids = Mesh.iota (n + 1)
  elements : m.elements.ids = Mesh.iota n
  beam : ∀ i : Nat, i < n → m.elements.get? i = some { elementType := .beam, nodeIds := [(i : Int), i + 1] }
  length : ∀ i : Nat, i < n → ∃ p q, m.nodes.get? i = some p ∧ m.nodes.get? (i + 1) = some q ∧ nrm (q - p) = h i
  pos : ∀ i : Nat, i < n → 0 < h i

/-- The integral over a beam of length `h` of the product of the linear functions with the end values `a`, `b` and `a'`, `b'`. -/
def product (h a b a' b' : K) : K := h / 6 * (2 * a * a' + a * b' + b * a' + 2 * b * b')

/-- The heat equation without conduction, `rc ∂T/∂t + v ∂T/∂s = 0`, weighed with every function `φ` that is linear on the beams: the slope on a beam is the difference of the end values over the length, so that
its integral with `φ` is the mean of `φ` times the difference. -/
def Carried (n : Nat) (h : Nat → K) (P : Flow K) (o x : Nat → K) : Prop :=
  ∀ φ : Nat → K, ∑ e ∈ Finset.range n, (P.rc * product (h e) (φ e) (φ (e + 1)) (x e - o e) (x (e + 1) - o (e + 1)) / P.dt + P.v * ((φ e + φ (e + 1)) / 2 * (x (e + 1) - x e))) = 0

/-- What the line holds: the integral of `T` over it, with `T` linear on every beam. -/
def held (n : Nat) (h : Nat → K) (x : Nat → K) : K := ∑ e ∈ Finset.range n, h e * (x e + x (e + 1)) / 2

/-- How far the flow carries in a step. -/
def way (P : Flow K) : K := P.v * P.dt / P.rc

end FemConvection
end ENigMA
