import Verif.Pde.FemStructuralProps
import Verif.Pde.FemHeatProps

/-!
# Stresses of plates with finite elements

The program of trunk/examples/femintro/main.cpp:27-107 (example 5.6): `laplacian(u) = 0` for a plane structural field with two degrees of freedom per node; the forces are set as sources, the prescribed displacements are
eliminated, the equation is solved, and the field holds the displacements. `solver` is the linear solver of Eigen. The thicknesses of the triangles come from `made`.
-/

set_option linter.unusedSectionVars false
set_option autoImplicit false

namespace ENigMA
open FemOp FemStructuralOp
variable {K : Type} [Field K] [LinearOrder K] [IsStrictOrderedRing K]

namespace FemStress

/-- `CPdeEquation e(laplacian(u) = 0.0); e.setSources(u); e.setElimination(u); e.solve(u)`: trunk/examples/femintro/main.cpp:97-103;
PdeEquation_Imp.hpp:22-28, 58-122, 127-183, 222-237, SleSystem_Imp.hpp:83-88. -/
def run (nrm : Vec3 K → K) (solver : Sys K → Nat → K) (junk junk' : Nat → K) (mat : Material K) (made : Int → Made K) (m : Mesh K) (f : EqField K) : Option (EqField K) := do
  let l ← FemStructuralOp.laplacian nrm mat made 2 m
  let e ← (Equation.new (l.assignReal 0)).setSources f
  let e ← e.setElimination junk f
  e.solve solver junk' f

/-! ### Specification -/

/-- Component `k` of the displacement of the node `id` is prescribed to be `v`. -/
def Fixed (m : Mesh K) (f : EqField K) (id : Int) (k : Nat) (v : K) : Prop := ∃ i, m.nodes.idAt? i = some id ∧ k < 2 ∧ f.uFixed.find? ((i * 2 + k : Nat) : Int) = some v

/-- The displacements that the vector `u` holds, two per node. -/
def Holds (m : Mesh K) (u : Nat → K) (φ : Int → Nat → K) : Prop := ∀ i id k, m.nodes.idAt? i = some id → k < 2 → φ id k = u (i * 2 + k)

/-- A displacement that is as prescribed. -/
def Meets (m : Mesh K) (f : EqField K) (φ : Int → Nat → K) : Prop := ∀ id k v, Fixed m f id k v → φ id k = v

/-- A displacement that is zero where displacements are prescribed. -/
def Admissible (m : Mesh K) (f : EqField K) (ψ : Int → Nat → K) : Prop := ∀ id k v, Fixed m f id k v → ψ id k = 0

/-- Component `k` of the force at the node with index `i`. -/
def force (f : EqField K) (i k : Nat) : K := (f.uSource.find? ((i * 2 + k : Nat) : Int)).getD 0

/-- The work of the forces on a displacement. -/
def work (m : Mesh K) (f : EqField K) (ψ : Int → Nat → K) : K :=
  ∑ i ∈ Finset.range m.nodes.count, ((m.nodes.idAt? i).map fun id => force f i 0 * ψ id 0 + force f i 1 * ψ id 1).getD 0

/-- The work of the stresses of `φ` on the strains of `ψ`: thickness × area × stress : strain, over all triangles. -/
def elastic (mat : Material K) (th : Int → K) (m : Mesh K) (φ ψ : Int → Nat → K) : K :=
  ((elemsId m).map fun p => planeEnergy (modulus mat) (poisson mat) (th p.1) m φ ψ p.2).sum

/-- The principle of virtual work: the stresses and the forces do the same work on every displacement that keeps the supports. -/
def Equilibrium (mat : Material K) (th : Int → K) (m : Mesh K) (f : EqField K) (φ : Int → Nat → K) : Prop :=
  ∀ ψ, Admissible m f ψ → elastic mat th m φ ψ = work m f ψ

/-- A displacement that strains no triangle. -/
def Unstrained (m : Mesh K) (ψ : Int → Nat → K) : Prop :=
  ∀ id e x y z, m.elements.get? id = some e → e.elementType = .triangle → e.nodeIds = [x, y, z] → area2 (place m x) (place m y) (place m z) ≠ 0 →
    strain (place m x) (place m y) (place m z) (ψ x) (ψ y) (ψ z) = (0, 0, 0)

/-- The supports allow no motion without strain. -/
def Held (m : Mesh K) (f : EqField K) : Prop := ∀ ψ, Unstrained m ψ → Admissible m f ψ → ∀ id ∈ m.nodes.ids, ∀ k < 2, ψ id k = 0

/-- The forces do no work on the motions without strain that the supports allow. -/
def Balanced (m : Mesh K) (f : EqField K) : Prop := ∀ ψ, Unstrained m ψ → Admissible m f ψ → work m f ψ = 0

/-- A plate: a plane mesh of triangles with positive thicknesses and a material with a positive modulus and a Poisson coefficient between -1 and 1. -/
structure Plate (mat : Material K) (made : Int → Made K) (th : Int → K) (m : Mesh K) : Prop where
  wf : m.WF
  trips : m.nodes.RoundTrip
  flat : Flat m
  plates : Plates m made th
  modulus : 0 < modulus mat
  poisson : -1 < poisson mat ∧ poisson mat < 1
  thick : ∀ id, 0 < th id

/-- A field of the method of finite elements whose prescribed displacements and forces are those of nodes. -/
structure Given (m : Mesh K) (f : EqField K) : Prop where
  fem : f.method = .fem
  fixed : IndicesOk f.uFixed (m.nodes.count * 2)
  source : IndicesOk f.uSource (m.nodes.count * 2)

end FemStress
end ENigMA
