import Verif.Solvers.VofProps
import Verif.Geometry.ClipPolygonProps

/-!
# C78, C79: examples
-/

set_option linter.unusedSectionVars false
set_option autoImplicit false

namespace ENigMA
open Piso Vof

namespace Vof

/-- The two tetrahedra of the flow solver's examples. -/
def ctx : Ctx ℚ where
  big := 1000
  env := { normal := fun f => geom.normal (((fvm.faces.get? f).map fun F => F.cvId).getD 0) f, nrm := clipL1, cosTwoAcos := fun x => 2 * x * x - 1,
           trunc := fun x => x.floor.toNat, epsilon := 1 / 2 ^ 52 }
  m := fvm
  g := geom
  solveU := solve2
  solveP := solve2
  solveS := solve2
  tol := 1 / 10 ^ 16

/-- Walls all around; the second cell is filled with the second fluid. -/
def basin : List (Call ℚ) := [.material ⟨1, 1, 2, 1⟩, .fill 1 1, .velocity [0, 1, 2, 4, 5, 6] .wallNoSlip 0, .gravity ⟨1, 2, -3⟩, .iterate (1 / 2)]

/-- A vessel filled with the second fluid, into which the second fluid flows through face 0; the fluid leaves through face 5. -/
def filled : List (Call ℚ) := [.material ⟨1, 1, 1, 1⟩, .fill 0 1, .fill 1 1, .velocity [1, 2, 4, 6] .wallNoSlip 0, .velocity [0] .inletFlow ⟨2, 1, 1⟩,
  .pressure [5] .inletPressure 1, .boundary [0] .inletFlow 1, .boundary [5] .inletPressure 1, .iterate (1 / 2), .fill 0 1, .fill 1 1, .iterate (1 / 2)]

/-- The same for a short time, with a quarter of the second fluid in the second cell. -/
def gently : List (Call ℚ) := [.material ⟨1, 1, 2, 1⟩, .fill 0 1, .fill 1 (1 / 4), .velocity [1, 2, 4, 6] .wallNoSlip 0, .velocity [0] .inletFlow ⟨2, 1, 1⟩,
  .pressure [5] .inletPressure 1, .boundary [0] .inletFlow 1, .boundary [5] .inletPressure 1, .iterate (1 / 64), .iterate (1 / 64)]

end Vof


/-- The histories end in a state, and the last linear system is solved exactly, by numbers between zero and one: the hypotheses of `C78_bounded`, `C78_properties`, `C78_step`,
`C79_iterate_partial` and (for `basin`) of its last clause are met. -/
example : (gently.foldlM (run ctx) State.init).map (fun v => ([v.s 0, v.s 1, v.fl.flux 3, v.fl.flux 0, v.betaf 3], v.phases.isSome)) =
      some ([3658789 / 4096576, 71689 / 256036, 1 / 2, 1 / 2, 0], true) ∧
    (gently.dropLast.foldlM (run ctx) State.init).bind (fun v => (lastState ctx (1 / 64) v).bind fun u => (gammaSystem fvm geom u).map fun sys =>
      decide (sys.n = 2) && (List.range 2).all fun k => decide (sys.row (solve2 sys) k = sys.b k ∧ 0 ≤ solve2 sys k ∧ solve2 sys k ≤ 1)) = some true ∧
    (basin.foldlM (run ctx) State.init).map (fun v => decide (∀ f ∈ fvm.faces.ids, v.fl.flux f = 0)) = some true := by
  refine ⟨by decide +kernel, by decide +kernel, by decide +kernel⟩

example : Linked ctx.m ∧ (∀ o ∈ gently, o.Ok) ∧ ∀ o ∈ filled, o.Ok := by
  refine ⟨fvm_ok.1, ?_, ?_⟩ <;>
  · intro o ho
    simp only [gently, filled, List.mem_cons, List.not_mem_nil, or_false] at ho
    rcases ho with rfl | rfl | rfl | rfl | rfl | rfl | rfl | rfl | rfl | rfl | rfl | rfl <;> norm_num [Call.Ok]

/-- **C79 fails with flow through the boundary.** All cells and the inlet are full of the second fluid, the fluid flows in and out with a balanced mass in every cell, and after the call
the cell at the inlet holds none of it: the flux of a boundary face, which the flow solver stores as flow into the cell, is taken as flow out of it. -/
theorem C79_filled : (filled.dropLast.foldlM (run ctx) State.init).map (fun v => [v.s 0, v.s 1]) = some [1, 1] ∧
    (filled.foldlM (run ctx) State.init).map (fun v => [v.s 0, v.s 1, v.sf 0, v.sf 5, netOut fvm v.fl 0, netOut fvm v.fl 1]) = some [0, 1, 1, 1, 0, 0] := by
  constructor <;> decide +kernel

/-- **C79 fails when a fraction is cut off**, also for the flow through the boundary as the solver counts it: the last linear system is solved exactly, but the volume of the second
fluid does not change by that flow. -/
theorem C79_cut_off : (filled.dropLast.foldlM (run ctx) State.init).bind (fun v => (lastState ctx (1 / 2) v).bind fun u => (gammaSystem fvm geom u).map fun sys =>
      (List.range 2).all fun k => decide (sys.row (solve2 sys) k = sys.b k)) = some true ∧
    (filled.dropLast.foldlM (run ctx) State.init).bind (fun v => (run ctx v (.iterate (1 / 2))).map fun v' =>
      decide (phaseVolume fvm geom v'.s = phaseVolume fvm geom v.s - 1 / 2 * phaseBoundary fvm v')) = some false := by
  constructor <;> decide +kernel

end ENigMA
