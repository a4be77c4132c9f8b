import Verif.Pde.FemHeatTimeProps
import Verif.Pde.FemStressLemmas
import Verif.Pde.FemHeatExamples

/-!
# Poisson's equation with finite elements

The program of trunk/examples/femintro/main.cpp:281-388 (example 10.5, torsion): `laplacian(T) = source(T, a)` for a generic field with one degree of freedom per node; the prescribed values are eliminated and the equation is
solved. `solver` is the linear solver of Eigen.
-/

set_option linter.unusedSectionVars false
set_option autoImplicit false

namespace ENigMA
open FemOp BasicMesher
open FemHeat (Measure)
variable {K : Type} [Field K] [LinearOrder K] [IsStrictOrderedRing K]

namespace FemPoisson

/-- `CPdeEquation e(laplacian(T) = source(T, a)); e.setElimination(T); e.solve(T)`: trunk/examples/femintro/main.cpp:356-360;
PdeEquation_Imp.hpp:22-28, 58-122, 136-183, 222-237, SleSystem_Imp.hpp:95-100. -/
def run (nrm : Vec3 K → K) (r : K) (solver : Sys K → Nat → K) (junk junk' : Nat → K) (m : Mesh K) (a : K) (f : EqField K) : Option (EqField K) := do
  let l ← FemOp.laplacian nrm r 1 m
  let b ← FemOp.source m a
  let e ← (Equation.new (l.assignVec b)).setElimination junk f
  e.solve solver junk' f

/-! ### Specification -/

/-- The sum of the values at the corners of all elements. -/
def cornerSum (m : Mesh K) (φ : Int → K) : K := (m.elements.ids.map fun id => ((m.elements.get? id).map fun e => (e.nodeIds.map φ).sum).getD 0).sum

/-- Every element measures as many units as it has corners: beams are 2 long, triangles have the area 3, tetrahedra the volume 4. -/
def UnitCorners (nrm : Vec3 K → K) (m : Mesh K) : Prop :=
  ∀ id e ps V, m.elements.get? id = some e → e.nodeIds.mapM m.nodes.get? = some ps → Measure nrm e.elementType ps V → V = e.nodeIds.length

/-- A straight rod from 0 to `ℓ` of `n` beams of the same length. -/
def rod (ℓ : K) (n : Nat) : Mesh K := build ((List.range (n + 1)).map fun i : Nat => ⟨ℓ * i / n, 0, 0⟩) ((List.range n).map fun i : Nat => ⟨.beam, [(i : Int), (i : Int) + 1], []⟩)

/-- Zero at both ends. -/
def ends (n : Nat) : EqField K := ⟨.fem, (SMap.empty.insert 0 0).insert n 0, .empty, ⟨n + 1, fun _ => 0⟩⟩

end FemPoisson
end ENigMA
