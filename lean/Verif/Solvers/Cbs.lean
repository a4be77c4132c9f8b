import Verif.Pde.FemFlow
import Verif.Pde.Equation

/-!
# `CFemCbsSolver<Real, 2>`

trunk/src/solvers/FemCbsSolver.hpp, FemCbsSolver_Imp.hpp:20-141, the two-dimensional solver. The operators applied to its fields are the ones of
flow problems, with one degree of freedom per node (lines 25-47). `none` is an exception, an assertion of Eigen or the use of an object without a
value.

The three-dimensional specialisation (from line 143 on) names `CFemCbsSolver<Real, 2>`, which is not one of its bases, in the initializer list of
its constructor (line 146), so it cannot be instantiated; it is not modelled.
-/

set_option linter.unusedSectionVars false
set_option autoImplicit false

namespace ENigMA

variable {K : Type} [Field K] [LinearOrder K] [IsStrictOrderedRing K]

/-- The members of `CFemCbsSolver<Real, 2>`: FemCbsSolver.hpp:34-47. `G1`, `G2` are the systems whose matrices are kept. -/
structure Cbs (K : Type) where
  dt : K
  dens : K
  visc : K
  gx : K
  gy : K
  u : EqField K
  v : EqField K
  p : EqField K
  G1 : Sys K
  G2 : Sys K

namespace Cbs
open FemStructuralOp (Made)

/-- What a step reads beside the members: the Euclidean length, how the elements were made, the mesh, the linear solver and the contents of new
vectors. -/
structure Env (K : Type) where
  nrm : Vec3 K → K
  made : Int → Made K
  mesh : Mesh K
  solver : Sys K → Nat → K
  junk : Nat → K
  junk' : Nat → K

/-- Constructor: FemCbsSolver_Imp.hpp:20-51. The vectors are resized, not filled (`junk`); the other members have no value until they are set, here
they are arguments. -/
def new (E : Env K) (dt dens visc gx gy : K) : Option (Cbs K) := do
  let f : EqField K := { method := .fem, uFixed := SMap.empty, uSource := SMap.empty, u := ⟨E.mesh.nodes.count, E.junk⟩ }
  let G1 ← FemFlowOp.gradient E.nrm 0 1 E.mesh
  let G2 ← FemFlowOp.gradient E.nrm 1 1 E.mesh
  return { dt := dt, dens := dens, visc := visc, gx := gx, gy := gy, u := f, v := f, p := f, G1 := G1, G2 := G2 }

/-- `CPdeEquation e(system); e.setElimination(f); e.solve(f)`. -/
def solveWith (E : Env K) (s : Sys K) (f : EqField K) : Option (EqField K) := do
  let e ← (Equation.new s).setElimination E.junk f
  e.solve E.solver E.junk' f

/-- `1.0 / m_dt * ddt(f) - nu * laplacian(f) + divergence(m_u, m_v, m_dt) = g`: FemCbsSolver_Imp.hpp:81, 83, 87. The products of the matrices with the
field need a field of the size of the mesh. -/
def momentum (E : Env K) (c : Cbs K) (f : EqField K) (g : K) : Option (Sys K) :=
  if f.u.size = E.mesh.nodes.count ∧ c.u.u.size = E.mesh.nodes.count ∧ c.v.u.size = E.mesh.nodes.count then do
    let M ← FemFlowOp.ddt E.nrm E.mesh f.u.at'
    let L ← FemFlowOp.laplacian E.nrm E.made 1 E.mesh
    let D ← FemFlowOp.divergence2 E.nrm c.dt 1 E.mesh c.u.u.at' c.v.u.at'
    let s ← (Sys.smul (1 / c.dt) M).sub (Sys.smul (c.visc / c.dens) L)
    let s ← s.add D
    return s.assignReal g
  else none

/-- `calculateVelocityField`: FemCbsSolver_Imp.hpp:78-90. The second equation is built with the solution of the first. -/
def calculateVelocityField (E : Env K) (c : Cbs K) : Option (Cbs K) := do
  let s ← momentum E c c.u c.gx
  let u ← solveWith E s c.u
  let c := { c with u := u }
  let s ← momentum E c c.v c.gy
  let v ← solveWith E s c.v
  return { c with v := v }

/-- The system `laplacian(m_p) = 1.0 / m_dt * (m_G1 * m_u.u + m_G2 * m_v.u)`: FemCbsSolver_Imp.hpp:96. -/
def pressureSystem (E : Env K) (c : Cbs K) : Option (Sys K) :=
  if c.u.u.size = c.G1.n ∧ c.v.u.size = c.G2.n ∧ c.G1.n = c.G2.n then do
    let L ← FemFlowOp.laplacian E.nrm E.made 1 E.mesh
    if L.n = c.G1.n then
      return L.assignVec fun i => 1 / c.dt * (c.G1.row c.u.u.at' i + c.G2.row c.v.u.at' i)
    else none
  else none

/-- `calculatePressureField`: FemCbsSolver_Imp.hpp:92-99. -/
def calculatePressureField (E : Env K) (c : Cbs K) : Option (Cbs K) := do
  let s ← pressureSystem E c
  let p ← solveWith E s c.p
  return { c with p := p }

/-- The system `ddt(f) = -m_dt / m_dens * G * m_p.u`: FemCbsSolver_Imp.hpp:104, 105. -/
def correction (E : Env K) (c : Cbs K) (f : EqField K) (G : Sys K) : Option (Sys K) :=
  if f.u.size = E.mesh.nodes.count ∧ c.p.u.size = G.n then do
    let M ← FemFlowOp.ddt E.nrm E.mesh f.u.at'
    if M.n = G.n then
      return M.assignVec fun i => -c.dt / c.dens * G.row c.p.u.at' i
    else none
  else none

/-- `correctVelocityField`: FemCbsSolver_Imp.hpp:101-112. -/
def correctVelocityField (E : Env K) (c : Cbs K) : Option (Cbs K) := do
  let su ← correction E c c.u c.G1
  let sv ← correction E c c.v c.G2
  let u ← solveWith E su c.u
  let v ← solveWith E sv c.v
  return { c with u := u, v := v }

/-- `iterate(dt)`: FemCbsSolver_Imp.hpp:114-123. -/
def iterate (E : Env K) (dt : K) (c : Cbs K) : Option (Cbs K) := do
  let c ← calculateVelocityField E { c with dt := dt }
  let c ← calculatePressureField E c
  correctVelocityField E c

end Cbs
end ENigMA
