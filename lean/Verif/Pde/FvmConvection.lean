import Verif.Pde.FvmHeatLemmas
import Verif.Pde.FdmConvection

/-!
# Heat convection with finite volumes

The program of trunk/examples/fvmheat/main.cpp:283-370: `rho * Cp / dt * ddt(T) + u * divergence(T) = 0` on a mesh of cells with no values prescribed. The operators are modelled in `Verif.Pde.FvmAssembly`.
-/

set_option linter.unusedSectionVars false
set_option autoImplicit false

namespace ENigMA
namespace FvmConvection
open FvmOp FvmHeat
open FdmConvection (Flow)
variable {K : Type} [Field K] [LinearOrder K] [IsStrictOrderedRing K]

/-- `CPdeEquation e(rho * Cp / dt * ddt(T) + u * divergence(T) = 0); e.solve(T)`: trunk/examples/fvmheat/main.cpp:365-367; PdeEquation_Imp.hpp:205-237, SleSystem_Imp.hpp:83-88, 120-147. -/
def step (nrm : Vec3 K → K) (eps : K) (solver : Sys K → Nat → K) (junk : Nat → K) (c : Ctx K) (P : Flow K) (f : EqField K) : Option (EqField K) := do
  let d ← ddt { c with u := f.u.at' }
  let g ← divergence nrm eps { c with u := f.u.at' }
  let s ← (Sys.smul (P.rc / P.dt) d).add (Sys.smul P.v g)
  (Equation.new (s.assignReal 0)).solve solver junk f

/-- The loop over the time steps: trunk/examples/fvmheat/main.cpp:360-369. -/
def steps (nrm : Vec3 K → K) (eps : K) (solver : Sys K → Nat → K) (junk : Nat → K) (c : Ctx K) (P : Flow K) : Nat → EqField K → Option (EqField K)
  | 0, f => some f
  | k + 1, f => (steps nrm eps solver junk c P k f).bind (step nrm eps solver junk c P)

/-! ### Specification -/

/-- What a flow with the velocity (1, 1, 1) takes through a face: area times the sum of the components of the normal. -/
def through (nrm : Vec3 K → K) (eps : K) (c : Ctx K) (fid : Int) : K :=
  areaOf nrm eps c.mesh fid * ((normalOf nrm eps c.mesh fid).x + (normalOf nrm eps c.mesh fid).y + (normalOf nrm eps c.mesh fid).z)

/-- Cells without prescribed values, and faces that are seen oppositely from their two sides. -/
structure Open (nrm : Vec3 K → K) (eps : K) (out : Bool) (c : Ctx K) : Prop where
  cells : Cells nrm eps out c
  opposite : ∀ fid f, c.mesh.faces.get? fid = some f → f.hasPair = true → normalOf nrm eps c.mesh f.pairFaceId = -normalOf nrm eps c.mesh fid
  free : ∀ fid, fixedValue c.field fid = none

/-- In every cell, the heat stored during the step is what the flow has taken in less what it has taken out through the faces with a neighbour, where the temperature is the mean of the two cells at the end of the step.
Volumes and normals are the calculated ones: both change sign where faces are seen from inside. -/
def Carried (nrm : Vec3 K → K) (eps : K) (c : Ctx K) (P : Flow K) (o x : Nat → K) : Prop :=
  ∀ i < c.mesh.elements.count, P.rc * volumeOf nrm eps c.mesh i * (x i - o i) / P.dt = -(P.v * ((facesAt c.mesh i).map (fluxOut nrm eps c x i)).sum)

/-- What the flow takes out of a cell through the faces with a neighbour, less what it takes in through them: zero in a cell inside; in one where the flow enters the mesh the volume that enters. -/
def opened (nrm : Vec3 K → K) (eps : K) (c : Ctx K) (i : Nat) : K := ((facesAt c.mesh i).map fun fid => if acrossOf c fid = none then 0 else through nrm eps c fid).sum

/-- In a step less enters and leaves the mesh at a cell than twice its volume. -/
def Slow (nrm : Vec3 K → K) (eps : K) (c : Ctx K) (P : Flow K) : Prop :=
  ∀ i < c.mesh.elements.count, |P.v * P.dt * opened nrm eps c i| < 2 * (P.rc * |volumeOf nrm eps c.mesh i|)

end FvmConvection
end ENigMA
