import Verif.Solvers.PisoReach
import Verif.Pde.FvmAssemblyProps

/-!
# C73: the hypotheses are met; the cases where the mass balance fails

Two tetrahedra with a common face. The length is `|x| + |y| + |z|`, which is rational; the theorems ask of it only what it satisfies.
-/

set_option linter.unusedSectionVars false
set_option autoImplicit false

namespace ENigMA
open Piso Mesh FvmOp

namespace Piso

/-- Two tetrahedra with outward normals that share a face. -/
def tets : Mesh ℚ := { twoTets with elements := (Cont.empty.add 0 ⟨.tetrahedron, [1, 0, 2, 3], []⟩).add 1 ⟨.tetrahedron, [3, 4, 2, 1], []⟩ }

/-- The same with the faces `generateFaces` makes. -/
def tetsFaces : Mesh ℚ := (Mesh.generateFaces smallMachine tets 0).getD tets

/-- The FVM mesh. Face 3 is between the two cells. -/
def fvm : FvmMesh ℚ := (FvmMesh.set l1 tetsFaces).getD ⟨Cont.empty, Cont.empty⟩

def geom : Geom ℚ := Geom.ofMesh l1 (1 / 1024) (fun _ _ => 1) fvm

theorem tets_ok : tets.WF ∧ tets.FullElements ∧ GoodFaces smallMachine tets := by
  refine ⟨⟨twoTets_ok.1.nodes, twoTets_ok.1.faces, ?_, twoTets_ok.1.faceNodes, ?_⟩, ?_, ⟨twoTets_ok.2.2.1, twoTets_ok.2.2.2, twoTets_ok.2.2.3, ?_⟩⟩
  · exact Cont.add_ok (Cont.add_ok Cont.empty_ok _ (by decide)) _ (by decide)
  · intro id e h n hn
    simp only [tets, Cont.get?_add] at h
    split_ifs at h <;> first
      | (simp only [Option.some.injEq] at h; subst h; simp at hn; rcases hn with rfl | rfl | rfl | rfl <;> decide)
      | (simp [Cont.empty, Cont.get?] at h)
  · intro id e h
    simp only [tets, Cont.get?_add] at h
    split_ifs at h <;> first
      | (simp only [Option.some.injEq] at h; subst h; decide)
      | (simp [Cont.empty, Cont.get?] at h)
  · right; right
    refine ⟨tets.expectedFaces[0]'(by decide), List.getElem_mem _, tets.expectedFaces[1]'(by decide), List.getElem_mem _, ?_⟩
    decide +kernel

theorem tets_gen : generateFaces smallMachine tets 0 = some tetsFaces := by
  have : (generateFaces smallMachine tets 0).isSome = true := by decide +kernel
  obtain ⟨x, hx⟩ := Option.isSome_iff_exists.1 this
  simp [tetsFaces, hx]

theorem l1_smul (c : ℚ) (v : Vec3 ℚ) : l1 (c • v) = |c| * l1 v := by
  simp only [l1, Vec3.smul_x, Vec3.smul_y, Vec3.smul_z, abs_mul]; ring

/-- The faces of the example, with the ids under which they are stored. -/
theorem tets_cases (P : Int → Face → Bool)
    (h : tetsFaces.faces.ids.all (fun i => ((tetsFaces.faces.get? i).map fun f => P i f).getD true) = true) :
    ∀ i f, tetsFaces.faces.get? i = some f → P i f = true := by
  intro i f hi
  obtain ⟨m, a1, -, -, -, a5, -⟩ := C07_generateFaces_faces smallMachine tets tets_ok.1 tets_ok.2.1 tets_ok.2.2 0 le_rfl
  rw [tets_gen] at a1
  cases a1
  have := List.all_eq_true.1 h i ((a5.faces.2 i).2 ⟨f, hi⟩)
  simpa [hi] using this

instance (f g : Face) : Decidable (Coincide f g) := by unfold Coincide; infer_instance

/-- Two faces of the example that coincide are a pair and belong to different elements. -/
theorem tets_pair : ∀ i f, tetsFaces.faces.get? i = some f → ∀ j g, tetsFaces.faces.get? j = some g → i ≠ j → Coincide f g →
    f.elementId ≠ g.elementId ∧ j = f.pairFaceId := by
  intro i f hi j g hj
  have h1 := tets_cases (fun i f => tetsFaces.faces.ids.all fun j => ((tetsFaces.faces.get? j).map fun g =>
    decide (i ≠ j → Coincide f g → f.elementId ≠ g.elementId ∧ j = f.pairFaceId)).getD true) (by decide +kernel) i f hi
  have hjm : j ∈ tetsFaces.faces.ids := by
    obtain ⟨m, a1, -, -, -, a5, -⟩ := C07_generateFaces_faces smallMachine tets tets_ok.1 tets_ok.2.1 tets_ok.2.2 0 le_rfl
    rw [tets_gen] at a1
    cases a1
    exact (a5.faces.2 j).2 ⟨g, hj⟩
  have := List.all_eq_true.1 h1 j hjm
  rw [hj] at this
  exact of_decide_eq_true this

/-- The example meets the hypotheses of `C73_reachable`, so that its conclusions hold for `fvm`. -/
theorem fvm_ok : Linked fvm ∧ Opposite fvm geom := by
  have hpair := tets_pair
  obtain ⟨r, h1, h2, h3⟩ := C73_reachable l1 smallMachine tets tets_ok.1 tets_ok.2.1 tets_ok.2.2 0 le_rfl tetsFaces tets_gen
    (fun i j k f g h hi hj hk h1 h2 hij hik => (hpair i f hi j g hj hij h1).2.trans (hpair i f hi k h hk hik h2).2.symm)
    (fun i j f g hij hi hj h => (hpair i f hi j g hj hij h).1)
  have hr : fvm = r := by simp [fvm, h1]
  subst hr
  refine ⟨h2, h3 (1 / 1024) (fun _ _ => 1) (by norm_num) l1_smul ?_⟩
  intro i f vs hi hc
  have hlen := tets_cases (fun _ f => decide (f.nodeIds.length = 3)) (by decide +kernel) i f hi
  have hl : vs.length = 3 := by
    have := congrArg List.length hc
    simp only [Mesh.coords, List.length_map] at this
    rw [← this]; simpa using hlen
  match vs, hl with
  | [a, b, c], _ => exact .triangle a b c

/-- An exact solver of two equations; for a singular system it takes the first unknown to be zero. -/
def solve2 (s : Sys ℚ) (k : Nat) : ℚ :=
  let det := s.A 0 0 * s.A 1 1 - s.A 0 1 * s.A 1 0
  if det = 0 then (if k = 0 then 0 else s.b 0 / s.A 0 1)
  else if k = 0 then (s.b 0 * s.A 1 1 - s.A 0 1 * s.b 1) / det else (s.A 0 0 * s.b 1 - s.A 1 0 * s.b 0) / det

/-- A fluid of density and viscosity 1, with walls all around. -/
def walls : State ℚ := setBoundaryVelocity [0, 1, 2, 4, 5, 6] .wallNoSlip 0 (setGravity ⟨1, 2, -3⟩ (setMaterialProperties fvm 1 1 State.init))

/-- Inflow through face 0 of cell 0, prescribed pressure on face 5 of cell 1. -/
def inlet : State ℚ := setBoundaryPressure [5] .inletPressure 1 (setBoundaryVelocity [0] .inletFlow ⟨2, 1, 1⟩ walls)

/-- Inflow through face 0 of cell 0, outlet at face 5 of cell 1. -/
def outlet : State ℚ := setBoundaryPressure [5] .outlet 0 (setBoundaryVelocity [0] .inletFlow ⟨2, 1, 1⟩ walls)

def step (s : State ℚ) : Option (State ℚ) := iterate 1000 fvm geom solve2 solve2 (1 / 2) s

/-- A decidable test for `ExactPressure`. -/
theorem exact_of {s : State ℚ} {dt : ℚ} (h : ((calculateVelocityField fvm geom solve2 (beginStep dt s)).bind (pressureSystem fvm geom)).map (fun r =>
    (List.range r.2.n).all fun i => decide (r.2.row (solve2 r.2) i = r.2.b i)) = some true) : ExactPressure fvm geom solve2 solve2 dt s := by
  intro s1 t sys h1 h2 i hi
  rw [h1, Option.bind_some, h2] at h
  simp only [Option.map_some, Option.some.injEq, List.all_eq_true] at h
  exact of_decide_eq_true (h i (List.mem_range.2 hi))

end Piso

/-- The hypotheses of the theorems about `iterate` are met: with walls all around and with two inlets the pressure equation is solved exactly,
`iterate` succeeds, and the mass balances are zero in the second step. -/
example : ExactPressure fvm geom solve2 solve2 (1 / 2) walls ∧ ExactPressure fvm geom solve2 solve2 (1 / 2) inlet ∧
    (∀ s, step inlet = some s → ExactPressure fvm geom solve2 solve2 (1 / 2) s) ∧
    ((step inlet).bind step).map (fun s => [netOut fvm s 0, netOut fvm s 1, s.flux 3, s.flux 0, s.flux 5]) = some [0, 0, 1 / 2, 1 / 2, -1 / 2] := by
  refine ⟨exact_of (by decide +kernel), exact_of (by decide +kernel), fun s hs => exact_of ?_, by decide +kernel⟩
  have : ((step inlet).bind fun s => ((calculateVelocityField fvm geom solve2 (beginStep (1 / 2) s)).bind (pressureSystem fvm geom)).map (fun r =>
    (List.range r.2.n).all fun i => decide (r.2.row (solve2 r.2) i = r.2.b i))) = some true := by decide +kernel
  rw [hs] at this
  exact this

/-- **C73 fails in the first step.** The pressure equation takes the flux of a flow inlet from the step before: in the first step from a fluid at rest the cell
at the inlet gains mass. -/
theorem C73_first_step : (step inlet).map (fun s => [netOut fvm s 0, netOut fvm s 1]) = some [-1 / 2, 0] := by decide +kernel

/-- **C73 fails at outlets**, also in the second step. -/
theorem C73_outlet_step : ((step outlet).bind step).map (fun s => decide (netOut fvm s 0 = 0 ∧ netOut fvm s 1 < 0)) = some true := by decide +kernel

/-- **C73.** `checkMassConservation` gives the fluxes of the boundary the wrong sign: it reports an error of 1 when every cell is balanced. -/
theorem C73_check_inlet : ((step inlet).bind step).map (fun s => (netOut fvm s 0, netOut fvm s 1)) = some (0, 0) ∧
    ((step inlet).bind step).bind (checkMassConservation fvm) = some 1 := by decide +kernel

end ENigMA
