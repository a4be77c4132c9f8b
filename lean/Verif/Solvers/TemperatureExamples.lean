import Verif.Solvers.TemperatureProps

/-!
# C80, C81: examples
-/

set_option linter.unusedSectionVars false
set_option autoImplicit false

namespace ENigMA
open Piso Heat Mesh FvmOp

namespace Heat

/-- A vessel with walls all around and gravity: density 2, conductivity `k`, heat capacity 3; the wall at face 0 has the temperature 1, the others 0. -/
def vessel (k : ℚ) : Heat.State ℚ :=
  let v := Heat.setMaterialProperties fvm 2 1 k 3 Heat.State.init
  setBoundaryTemperature [0] .wallNoSlip 1 { v with fl := setBoundaryVelocity [0, 1, 2, 4, 5, 6] .wallNoSlip 0 (setGravity ⟨1, 2, -3⟩ v.fl) }

/-- All walls at the temperature 1. -/
def oven : Heat.State ℚ := setBoundaryTemperature [0, 1, 2, 4, 5, 6] .wallNoSlip 1 (vessel 1)

def heatStep (dt : ℚ) (v : Heat.State ℚ) : Option (Heat.State ℚ) := Heat.iterate 1000 fvm geom solve2 solve2 solve2 dt v

/-- The same two tetrahedra, with the nodes of the second in another order. -/
def tets' : Mesh ℚ := { twoTets with elements := (Cont.empty.add 0 ⟨.tetrahedron, [1, 0, 2, 3], []⟩).add 1 ⟨.tetrahedron, [4, 3, 1, 2], []⟩ }

def fvm' : FvmMesh ℚ := ((Mesh.generateFaces smallMachine tets' 0).bind (FvmMesh.set l1)).getD ⟨Cont.empty, Cont.empty⟩

def geom' : Geom ℚ := Geom.ofMesh l1 (1 / 1024) (fun _ _ => 1) fvm'

/-- The vessel with this mesh. -/
def vessel' (k : ℚ) : Heat.State ℚ :=
  let v := Heat.setMaterialProperties fvm' 2 1 k 3 Heat.State.init
  { v with fl := setBoundaryVelocity (fvm'.faces.ids.filter fun f => !paired fvm' f) .wallNoSlip 0 v.fl }

end Heat
theorem Heat.oneFluid : OneFluid fvm (vessel 1) 2 1 3 := by
  constructor <;> decide +kernel

theorem Heat.goodGeom : GoodGeom fvm geom := by
  constructor <;> decide +kernel

/-- The hypotheses of `C80_balance`, `C80_conservation_partial`, `C80_step` and `C81_vessel_partial` are met: the vessel takes up heat from the wall at face 0. -/
example : OneFluid fvm (vessel 1) 2 1 3 ∧ GoodGeom fvm geom ∧ ExactPressure fvm geom solve2 solve2 (1 / 2) (vessel 1).fl ∧
    (∀ cv ∈ fvm.cvs.ids, ∀ f ∈ cellFaces fvm cv, paired fvm f = false → (vessel 1).fl.bt f = .wallNoSlip) ∧
    (heatStep (1 / 2) (vessel 1)).map (fun v => [v.T 0, v.T 1, v.fl.flux 3, v.fl.dt]) = some [111 / 155, 9 / 155, 0, 1 / 2] ∧
    (heatStep (1 / 2) (vessel 1)).bind (fun v => (heatSystem fvm geom v).map fun sys =>
      decide (sys.n = 2) && (List.range 2).all fun k => decide (sys.row (solve2 sys) k = sys.b k)) = some true :=
  ⟨oneFluid, goodGeom, exact_of (by decide +kernel), by decide +kernel, by decide +kernel, by decide +kernel⟩

/-- **C80 fails for other conductivities.** In a fluid of conductivity 2 at rest the heat that leaves the first cell for the second is 75/64 for each degree of difference, and what arrives
in the second is 21/16: the solver uses in each cell the mean with the conductivity it used at the previous face of the cell. -/
theorem C80_asymmetric : (Heat.iterate 1000 fvm' geom' solve2 solve2 solve2 (1 / 2) (vessel' 2)).bind (fun v => (heatSystem fvm' geom' v).map fun sys =>
      ([sys.A 0 1, sys.A 1 0], decide (∀ f ∈ fvm'.faces.ids, v.fl.flux f = 0))) = some ([-(75 / 64), -(21 / 16)], true) ∧ cellFaces fvm' 0 = [0, 1, 2, 3] ∧ cellFaces fvm' 1 = [4, 3, 5, 6] := by
  refine ⟨by decide +kernel, by decide +kernel, by decide +kernel⟩

/-- **C81 fails.** A fluid at the temperature 0 in a vessel with all walls at the temperature 1 is hotter than the walls after one step, although all equations are solved exactly: the
solver divides the temperatures of the walls by the volumes of the cells. -/
theorem C81_overheats : (∀ cv ∈ fvm.cvs.ids, oven.T cv = 0) ∧ (∀ cv ∈ fvm.cvs.ids, ∀ f ∈ cellFaces fvm cv, paired fvm f = false → oven.Tf f = 1) ∧
    (heatStep 10 oven).map (fun v => [v.T 0, v.T 1]) = some [11835 / 2449, 7695 / 2449] ∧
    (heatStep 10 oven).bind (fun v => (heatSystem fvm geom v).map fun sys => (List.range 2).all fun k => decide (sys.row (solve2 sys) k = sys.b k)) = some true := by
  refine ⟨by decide +kernel, by decide +kernel, by decide +kernel, by decide +kernel⟩

end ENigMA
