import Verif.Geometry.BBox

/-!
# `CSphParticles`: trunk/src/solvers/SphParticles_Imp.hpp

Particle `i` is the `i`-th node of the mesh of the field. `near i` is the list of the indices of the nodes `aHashGrid.find(sNodeIds, aNode1, m_h)` returns (the
hash grid has its own model, Verif/Geometry/HashGrid.lean); the theorems hold for every such list. `w` and `lap` are `W(·, m_h)` and `laplacianW(·, m_h)` of the
kernel. Division by a density zero is outside the model.
-/

set_option linter.unusedSectionVars false

namespace ENigMA
namespace SphParticles

variable {K : Type} [Field K] [LinearOrder K]

/-- The particles, the nodes of the mesh and the field. `fixed` is `uFixed`. -/
structure State (K : Type) where
  n : Nat
  mass : Nat → K
  density : Nat → K
  conductivity : Nat → K
  velocity : Nat → Vec3 K
  node : Nat → Vec3 K
  u : Nat → K
  fixed : Nat → Option K
  boundary : BBox K
  cyclic : Bool
  dt : K

/-- `init(field, mass, diff, h, dt, bCyclic)`: lines 30-48. -/
def init (s : State K) (mass diff dt : K) (cyclic : Bool) : State K :=
  { s with
    mass := fun i => if i < s.n then mass else s.mass i
    density := fun i => if i < s.n then 0 else s.density i
    conductivity := fun i => if i < s.n then diff else s.conductivity i
    velocity := fun i => if i < s.n then 0 else s.velocity i
    cyclic := cyclic, dt := dt }

/-- `setInitialVelocity`: lines 62-69. -/
def setInitialVelocity (s : State K) (v : Vec3 K) : State K := { s with velocity := fun i => if i < s.n then v else s.velocity i }

/-- `calculateDensity`: lines 86-116. -/
def calculateDensity (w : Vec3 K → K) (near : Nat → List Nat) (s : State K) : State K :=
  { s with density := fun i =>
      if i < s.n then (near i).foldl (fun rho j => rho + s.mass j * w (s.node j - s.node i)) 0 else s.density i }

/-- The wrapping of one coordinate: lines 132-135, 137-140, 142-145. -/
def wrap (lo hi x : K) : K := if hi ≤ x then lo else if x ≤ lo then hi else x

/-- `advectParticles`: lines 118-148. The second and third components of the velocity are swapped there. -/
def advectParticles (s : State K) : State K :=
  { s with node := fun i =>
      if i < s.n then
        let p : Vec3 K := ⟨(s.node i).x + (s.velocity i).x * s.dt, (s.node i).y + (s.velocity i).z * s.dt, (s.node i).z + (s.velocity i).y * s.dt⟩
        if s.cyclic then
          ⟨wrap s.boundary.min.x s.boundary.max.x p.x, wrap s.boundary.min.y s.boundary.max.y p.y, wrap s.boundary.min.z s.boundary.max.z p.z⟩
        else p
      else s.node i }

/-- The sum `fd` of one particle: lines 165-180. -/
def flux (lap : Vec3 K → K) (near : Nat → List Nat) (s : State K) (u : Nat → K) (i : Nat) : K :=
  (near i).foldl (fun fd j => fd + (u j - u i) / s.density j * lap (s.node j - s.node i)) 0

/-- One turn of the loop of `addDiffusion`: lines 156-185. -/
def diffuse (lap : Vec3 K → K) (near : Nat → List Nat) (s : State K) (u : Nat → K) (i : Nat) : Nat → K :=
  Function.update u i (match s.fixed i with
    | some v => v
    | none => u i + s.conductivity i * flux lap near s u i * s.dt)

/-- `addDiffusion`: lines 150-187. The field is updated in place: later particles see the new values of earlier ones. -/
def addDiffusion (lap : Vec3 K → K) (near : Nat → List Nat) (s : State K) : State K :=
  { s with u := (List.range s.n).foldl (diffuse lap near s) s.u }

/-- `solve(field)`: lines 189-200. `near` and `near'` are what `find` returns before and after the particles have moved. -/
def solve (w lap : Vec3 K → K) (near near' : Nat → List Nat) (s : State K) : State K :=
  addDiffusion lap near' (advectParticles (calculateDensity w near s))

end SphParticles
end ENigMA
