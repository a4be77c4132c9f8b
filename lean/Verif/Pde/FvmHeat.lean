import Verif.Pde.FvmDivergenceProps
import Verif.Pde.FdmHeat
import Verif.Geometry.PolyhedronProps

/-!
# Heat conduction with finite volumes

The programs of trunk/examples/fvmheat/main.cpp and trunk/examples/heat1d/MainWindow.cpp: an equation is written with the operators and solved, and the field holds the result. The operators of
trunk/src/pde/fvm/thermal/FvmThermalOperators_Imp.hpp are those of trunk/src/pde/fvm/generic/FvmGenericOperators_Imp.hpp, line by line; they are modelled in `Verif.Pde.FvmAssembly`.
`solver` is the linear solver of Eigen. What the operators read besides the values of the field (the mesh, its centroids, the conditions on faces) is passed as `c`.
-/

set_option linter.unusedSectionVars false
set_option autoImplicit false

namespace ENigMA
namespace FvmHeat
open FvmOp
variable {K : Type} [Field K] [LinearOrder K] [IsStrictOrderedRing K]

/-- `CPdeEquation e(laplacian(T) = 0); e.solve(T)`: trunk/examples/fvmheat/main.cpp:107-109; PdeEquation_Imp.hpp:22-28, 136-183, 222-237, SleSystem_Imp.hpp:83-88. -/
def steady (nrm : Vec3 K → K) (eps : K) (solver : Sys K → Nat → K) (junk : Nat → K) (c : Ctx K) (f : EqField K) : Option (EqField K) := do
  let l ← laplacian nrm eps { c with u := f.u.at' }
  (Equation.new (l.assignReal 0)).solve solver junk f

/-- `CPdeEquation e(rho * Cp / dt * ddt(T) - k * laplacian(T) = 0); e.solve(T)` (`minus`): trunk/examples/heat1d/MainWindow.cpp:608-610; with `+ k * laplacian(T)` (not `minus`):
trunk/examples/fvmheat/main.cpp:239-241; PdeEquation_Imp.hpp:22-28, 136-183, 205-237, SleSystem_Imp.hpp:83-88, 120-176. -/
def step (nrm : Vec3 K → K) (eps : K) (solver : Sys K → Nat → K) (junk : Nat → K) (c : Ctx K) (minus : Bool) (P : FdmHeat.Par K) (f : EqField K) : Option (EqField K) := do
  let d ← ddt { c with u := f.u.at' }
  let l ← laplacian nrm eps { c with u := f.u.at' }
  let s ← if minus then (Sys.smul (P.rc / P.dt) d).sub (Sys.smul P.k l) else (Sys.smul (P.rc / P.dt) d).add (Sys.smul P.k l)
  (Equation.new (s.assignReal 0)).solve solver junk f

/-- The loop over the time steps: trunk/examples/heat1d/MainWindow.cpp:605-612, trunk/examples/fvmheat/main.cpp:234-243. -/
def steps (nrm : Vec3 K → K) (eps : K) (solver : Sys K → Nat → K) (junk : Nat → K) (c : Ctx K) (minus : Bool) (P : FdmHeat.Par K) : Nat → EqField K → Option (EqField K)
  | 0, f => some f
  | n + 1, f => (steps nrm eps solver junk c minus P n f).bind (step nrm eps solver junk c minus P)

/-! ### Specification -/

/-- A mesh for the method: faces made and paired, centroids calculated, cells with a volume, faces with an area, the same from both sides, and centroids that do not fall together. The calculated volume of a cell is
positive where its faces are seen counterclockwise from outside, negative where they are from inside; `out`: the former in all cells; otherwise the latter in all. -/
structure Cells (nrm : Vec3 K → K) (eps : K) (out : Bool) (c : Ctx K) : Prop where
  regular : Regular c.mesh
  elementCentroid : c.mesh.elementCentroids = some c.elementCentroid
  faceCentroid : c.mesh.faceCentroids = some c.faceCentroid
  volume : ∀ i < c.mesh.elements.count, if out then 0 < volumeOf nrm eps c.mesh i else volumeOf nrm eps c.mesh i < 0
  area : ∀ fid ∈ c.mesh.faces.ids, 0 < areaOf nrm eps c.mesh fid
  pair : ∀ fid f, c.mesh.faces.get? fid = some f → f.hasPair = true → areaOf nrm eps c.mesh f.pairFaceId = areaOf nrm eps c.mesh fid
  apart : ∀ fid ∈ c.mesh.faces.ids, acrossOf c fid ≠ none ∨ prescribed c fid ≠ none → 0 < distOf nrm c fid

/-- A field of the method: values are prescribed on faces, not in cells. -/
def Plain (f : EqField K) : Prop := f.uFixed.entries = []

/-- The cell hangs together, across faces, with a cell that has a face with a prescribed value. -/
inductive Anchored (c : Ctx K) : Nat → Prop
  | face (i : Nat) (fid : Int) (v : K) (h : fid ∈ facesAt c.mesh i) (hv : prescribed c fid = some v) : Anchored c i
  | across (i j : Nat) (fid : Int) (h : fid ∈ facesAt c.mesh i) (ha : acrossOf c fid = some (j : Int)) (hj : Anchored c j) : Anchored c i

/-- In every cell what flows in through its faces adds up to zero. -/
def Balanced (nrm : Vec3 K → K) (eps : K) (c : Ctx K) (x : Nat → K) : Prop :=
  ∀ i < c.mesh.elements.count, ((facesAt c.mesh i).map (fluxInto nrm eps c x i)).sum = 0

/-- The value a step starts from in a cell: the value of the field; but in a cell with a fixed value on a face, that fixed value (the first of them). -/
def start (c : Ctx K) (u : Nat → K) (i : Nat) : K := ((facesAt c.mesh i).findSome? (fixedValue c.field)).getD (u i)

/-- In every cell the heat stored during the step is what has flowed in through its faces at the temperatures of its end. -/
def Stored (nrm : Vec3 K → K) (eps : K) (c : Ctx K) (P : FdmHeat.Par K) (o x : Nat → K) : Prop :=
  ∀ i < c.mesh.elements.count, P.rc * |volumeOf nrm eps c.mesh i| * (x i - o i) / P.dt = P.k * ((facesAt c.mesh i).map (fluxInto nrm eps c x i)).sum

/-- The temperatures are those of the linear field `p ↦ t + g · p` at the centroids of the cells. -/
def Linear (c : Ctx K) (t : K) (g : Vec3 K) (x : Nat → K) : Prop :=
  ∀ i id p, c.mesh.elements.idAt? i = some id → c.elCentroid id = some p → x i = t + g.dot p

/-- A cell for which the method is exact on linear fields: its faces are planar and close up, all of them seen counterclockwise from outside (`s = 1`) or all from inside (`s = -1`); the line between the centroids of two cells is perpendicular to the face between them, and the line from the centroid of the
cell to that of a face with a prescribed value to that face; there the value of the linear field is prescribed; and no heat of the linear field crosses the other faces. -/
structure Orthogonal (nrm : Vec3 K → K) (eps : K) (c : Ctx K) (t : K) (g : Vec3 K) (s : K) (i : Nat) : Prop where
  side : s = 1 ∨ s = -1
  planar : ∀ fid ∈ facesAt c.mesh i, Planar (cornersOf c.mesh fid) ∧ HasCorner nrm eps (cornersOf c.mesh fid)
  closed : Polyhedron.ClosedSurface ((facesAt c.mesh i).map (cornersOf c.mesh))
  across : ∀ fid ∈ facesAt c.mesh i, ∀ j id id' p q, acrossOf c fid = some j → c.mesh.elements.idAt? i = some id → c.mesh.elements.idAt? j.toNat = some id' →
    c.elCentroid id = some p → c.elCentroid id' = some q → ∃ r : K, 0 < r ∧ q - p = (s * r) • vecArea2 (cornersOf c.mesh fid)
  value : ∀ fid ∈ facesAt c.mesh i, ∀ v id p q, prescribed c fid = some v → c.mesh.elements.idAt? i = some id → c.elCentroid id = some p → c.fcCentroid fid = some q →
    v = t + g.dot q ∧ ∃ r : K, 0 < r ∧ q - p = (s * r) • vecArea2 (cornersOf c.mesh fid)
  free : ∀ fid ∈ facesAt c.mesh i, acrossOf c fid = none → prescribed c fid = none → g.dot (vecArea2 (cornersOf c.mesh fid)) = 0

end FvmHeat
end ENigMA
