import Verif.Pde.FemAssembly
import Verif.Pde.Field

/-!
# Finite element operators of thermal problems

trunk/src/pde/fem/thermal/FemThermalOperators_Imp.hpp and the elements of trunk/src/fem/thermal. `none` is an exception of `.at`, an index
outside a matrix, or a division by zero in the inverse of a Jacobian. `nrm` is the Euclidean length and `r` is `1 / sqrt(3)`.

The thermal elements have the matrices of the generic ones: `CFemLinearTemperatureTriangle::setDiffusionTerm`
(FemLinearTemperatureTriangle_Imp.hpp:31-36) multiplies by `thermalConductivity()`, which is the constant `1` of
FemThermalElement_Imp.hpp:19-24 and has no setter. The material that `laplacian` copies from the field (line 263) is not used.
Perimeter and thickness are `1` (FemBeam_Imp.hpp:29, FemTriangle_Imp.hpp:24).

The overloads of `setConvectionOnEdge` for radiation are not called by the operators and are not modelled.
-/

set_option linter.unusedSectionVars false
set_option autoImplicit false

namespace ENigMA
open Matrix

variable {K : Type} [Field K] [LinearOrder K] [IsStrictOrderedRing K]

/-- `m(i, j) += v`. -/
def EMat.addAt (m : EMat K) (i j : Nat) (v : K) : EMat K := ⟨m.n, fun r c => if r = i ∧ c = j then m.at_ r c + v else m.at_ r c⟩

namespace FemThermalOp

/-- The matrix `laplacian` and the vector `source` of an element. -/
structure Local (K : Type) where
  mat : EMat K
  src : Nat → K

namespace Local

/-- `source(i) += v`. -/
def addSource (s : Local K) (i : Nat) (v : K) : Local K := ⟨s.mat, fun r => if r = i then s.src r + v else s.src r⟩

/-- `laplacian(i, j) += v`. -/
def addMatrix (s : Local K) (i j : Nat) (v : K) : Local K := ⟨s.mat.addAt i j v, s.src⟩

end Local

/-- `CFemLinearTemperatureBeam::setConvectionOnEdge(h, Tinf)`: FemLinearTemperatureBeam_Imp.hpp:30-38, perimeter `1`. -/
def convectBeam (length h tInf : K) (s : Local K) : Local K :=
  ((((s.addSource 0 (h * tInf * 1 * length)).addSource 1 (h * tInf * 1 * length)).addMatrix 0 0 (h * 1 * length)).addMatrix 1 1 (h * 1 * length))

/-- `CFemLinearTemperatureTriangle::setConvectionOnEdge(anEdgeIndex, h, Tinf)`: FemLinearTemperatureTriangle_Imp.hpp:39-59, thickness `1`;
`v k` is vertex `k`. -/
def convectTriangle (nrm : Vec3 K → K) (v : Nat → Vec3 K) (k : Nat) (h tInf : K) (s : Local K) : Local K :=
  let i := (k + 0) % 3
  let j := (k + 1) % 3
  let length := nrm (v j - v i)
  (((((s.addSource i (h * tInf * length * 1 * (1 / 2))).addSource j (h * tInf * length * 1 * (1 / 2))).addMatrix i i (h * length * 1 / 3)).addMatrix
    i j (h * length * 1 / 6)).addMatrix j i (h * length * 1 / 6)).addMatrix j j (h * length * 1 / 3)

/-- The condition on edge `k` of element `id`: lines 231-242, 281-294. `BT_HEAT_CONVECTIVE` with `CT_HEAT_TRANSFER_COEFFICIENT` (2) and
`CT_HEAT_INFINITESIMAL_TEMPERATURE` (3); the condition is a copy, the field is not changed. -/
def convective (f : PdeField K) (id : Int) (k : Nat) : Option (K × K) :=
  if f.elementHasBC id k then
    let b := (f.elementBC id k).1
    if b.type = .heatConvective then
      let q := b.conditionValue 2
      some (q.1, (q.2.conditionValue 3).1)
    else none
  else none

/-- The matrix and the source of an element of `laplacian`: a beam looks at its edge 0 (line 231), a triangle at its three edges (281-294); the
other branches (303-456) do not look at the conditions. -/
def elementLocal (nrm : Vec3 K → K) (r : K) (f : PdeField K) (id : Int) (t : ElementType) (ps : List (Vec3 K)) : Option (Option (Local K)) := do
  match ← FemOp.elementLaplacian nrm r t ps with
  | none => return none
  | some M =>
    let s : Local K := ⟨M, fun _ => 0⟩
    match t, ps with
    | .beam, [p, q] =>
      match convective f id 0 with
      | some (h, tInf) => return some (convectBeam (nrm (q - p)) h tInf s)
      | none => return some s
    | .triangle, [_, _, _] =>
      return some ((List.range 3).foldl (fun s k => match convective f id k with
        | some (h, tInf) => convectTriangle nrm (fun i => ps.getD i 0) k h tInf s
        | none => s) s)
    | _, _ => return some s

/-- The four nested loops that add an element to the system, for example lines 243-259. -/
def scatter (nbDofs : Nat) (idx : List Int) (s : Local K) : Option (List (Stamp K)) :=
  FemOp.collect <| idx.zipIdx.map fun (I, i) => do
    let es ← FemOp.collect <| (List.range nbDofs).map fun k =>
      FemOp.collect <| idx.zipIdx.map fun (J, j) =>
        FemOp.collect <| (List.range nbDofs).map fun l => do
          let v ← s.mat.get? (i * nbDofs + k) (j * nbDofs + l)
          return [Stamp.addA (I * nbDofs + k) (J * nbDofs + l) v]
    return es ++ [Stamp.addB I (s.src i)]

/-- The body of the loop over the elements: lines 211-456. -/
def elementStamps (nrm : Vec3 K → K) (r : K) (f : PdeField K) (nbDofs : Nat) (m : Mesh K) (id : Int) : Option (List (Stamp K)) := do
  let e ← m.elements.get? id
  let ps ← e.nodeIds.mapM m.nodes.get?
  match ← elementLocal nrm r f id e.elementType ps with
  | none => return []
  | some s =>
    let idx ← e.nodeIds.mapM m.nodes.indexOf?
    scatter nbDofs idx s

/-- `laplacian`: FemThermalOperators_Imp.hpp:198-459. -/
def laplacian (nrm : Vec3 K → K) (r : K) (f : PdeField K) (nbDofs : Nat) (m : Mesh K) : Option (Sys K) := do
  let stamps ← FemOp.collect <| (List.range m.elements.count).map fun el => do
    let id ← m.elements.idAt? el
    elementStamps nrm r f nbDofs m id
  (Sys.zero .sparseSymmetric m.nodes.count).assemble stamps

/-- `ddt`: FemThermalOperators_Imp.hpp:31-195, statement by statement the generic operator: the element is looked up with its position (line 43),
`vectorB` is addressed with node ids (lines 71, 100, …), and there is no branch for prisms. -/
def ddt (nrm : Vec3 K → K) (m : Mesh K) (u : Nat → K) : Option (Sys K) := FemOp.ddt nrm m u

/-- `divergence`: FemThermalOperators_Imp.hpp:462-538, statement by statement the generic operator. -/
def divergence (nrm : Vec3 K → K) (nbDofs : Nat) (m : Mesh K) : Option (Sys K) := FemOp.divergence nrm nbDofs m

/-- `source`: FemThermalOperators_Imp.hpp:540-543, an empty body: the vector is left as it is. -/
def source (b : Nat → K) (_a : K) : Nat → K := b

end FemThermalOp
end ENigMA
