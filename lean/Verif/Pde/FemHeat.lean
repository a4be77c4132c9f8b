import Verif.Pde.FemThermal
import Verif.Pde.FdmHeat

/-!
# Heat conduction with finite elements

The programs of trunk/examples/femheat/main.cpp: an equation is written with the operators, the prescribed values are eliminated, the equation is solved, and the field holds the result.
`solver` is the linear solver of Eigen. The thermal conditions of the field (`pf`) and its values (`f`) are passed as two records.
-/

set_option linter.unusedSectionVars false
set_option autoImplicit false

namespace ENigMA
namespace FemHeat
variable {K : Type} [Field K] [LinearOrder K] [IsStrictOrderedRing K]

/-- `CPdeEquation e(laplacian(T) = 0); e.setElimination(T); e.solve(T)`: trunk/examples/femheat/main.cpp:73-77, 393-397; PdeEquation_Imp.hpp:22-28, 58-122, 136-183, 222-237, SleSystem_Imp.hpp:83-88. -/
def steady (nrm : Vec3 K → K) (r : K) (solver : Sys K → Nat → K) (junk junk' : Nat → K) (m : Mesh K) (pf : PdeField K) (f : EqField K) : Option (EqField K) := do
  let l ← FemThermalOp.laplacian nrm r pf 1 m
  let e ← (Equation.new (l.assignReal 0)).setElimination junk f
  e.solve solver junk' f

/-- `CPdeEquation e(rho * Cp / dt * ddt(T) - k * laplacian(T) = 0); e.setElimination(T); e.solve(T)`: trunk/examples/femheat/main.cpp:181-185, 504-509;
PdeEquation_Imp.hpp:22-28, 58-122, 136-183, 205-237, SleSystem_Imp.hpp:83-88, 149-176. -/
def step (nrm : Vec3 K → K) (r : K) (solver : Sys K → Nat → K) (junk junk' : Nat → K) (m : Mesh K) (pf : PdeField K) (P : FdmHeat.Par K) (f : EqField K) : Option (EqField K) := do
  let d ← FemThermalOp.ddt nrm m f.u.at'
  let l ← FemThermalOp.laplacian nrm r pf 1 m
  let s ← (Sys.smul (P.rc / P.dt) d).sub (Sys.smul P.k l)
  let e ← (Equation.new (s.assignReal 0)).setElimination junk f
  e.solve solver junk' f

/-- The loop over the time steps: trunk/examples/femheat/main.cpp:176-187. -/
def steps (nrm : Vec3 K → K) (r : K) (solver : Sys K → Nat → K) (junk junk' : Nat → K) (m : Mesh K) (pf : PdeField K) (P : FdmHeat.Par K) : Nat → EqField K → Option (EqField K)
  | 0, f => some f
  | n + 1, f => (steps nrm r solver junk junk' m pf P n f).bind (step nrm r solver junk junk' m pf P)

/-! ### Specification -/

/-- The corners of the elements: beams, triangles and tetrahedra that are not degenerate, tetrahedra in the orientation of the library. -/
inductive Simplex (nrm : Vec3 K → K) : ElementType → List (Vec3 K) → Prop
  | beam (p q : Vec3 K) (h : 0 < nrm (q - p)) : Simplex nrm .beam [p, q]
  | triangle (a b c : Vec3 K) (h : 0 < nrm (Vec3.cross (b - a) (c - a))) : Simplex nrm .triangle [a, b, c]
  | tetrahedron (a b c d : Vec3 K) (h : 0 < (a - d).dot (Vec3.cross (b - d) (c - d))) : Simplex nrm .tetrahedron [a, b, c, d]

/-- A mesh of beams, triangles and tetrahedra. -/
def SimplexMesh (nrm : Vec3 K → K) (m : Mesh K) : Prop := ∀ id e, m.elements.get? id = some e → ∃ ps, e.nodeIds.mapM m.nodes.get? = some ps ∧ Simplex nrm e.elementType ps

/-- The energy of the linear function with the values `us` at the corners `ps`: the integral of the square of its gradient over the beam, the triangle (with a gradient in its plane), the tetrahedron. -/
inductive Energy (nrm : Vec3 K → K) : ElementType → List (Vec3 K) → List K → K → Prop
  | beam (p q : Vec3 K) (u v : K) : Energy nrm .beam [p, q] [u, v] (nrm (q - p) * (((v - u) / nrm (q - p)) * ((v - u) / nrm (q - p))))
  | triangle (a b c g : Vec3 K) (u v w : K) (h0 : g.dot (Vec3.cross (b - a) (c - a)) = 0) (h1 : g.dot (b - a) = v - u) (h2 : g.dot (c - a) = w - u) :
      Energy nrm .triangle [a, b, c] [u, v, w] (nrm (Vec3.cross (b - a) (c - a)) / 2 * g.dot g)
  | tetrahedron (a b c d g : Vec3 K) (u v w z : K) (h1 : g.dot (a - d) = u - z) (h2 : g.dot (b - d) = v - z) (h3 : g.dot (c - d) = w - z) :
      Energy nrm .tetrahedron [a, b, c, d] [u, v, w, z] ((a - d).dot (Vec3.cross (b - d) (c - d)) / 6 * g.dot g)

/-- The energy of the field with the value `φ id` at node `id`: the sum over the elements. -/
def TotalEnergy (nrm : Vec3 K → K) (m : Mesh K) (φ : Int → K) (E : K) : Prop :=
  ∃ en : Int → K, (∀ id ∈ m.elements.ids, ∃ e ps, m.elements.get? id = some e ∧ e.nodeIds.mapM m.nodes.get? = some ps ∧ Energy nrm e.elementType ps (e.nodeIds.map φ) (en id)) ∧
    E = (m.elements.ids.map en).sum

/-- The field with the values of the vector `u`. -/
def Holds (m : Mesh K) (u : Nat → K) (φ : Int → K) : Prop := ∀ i id, m.nodes.idAt? i = some id → φ id = u i

/-- A field that has the prescribed values. -/
def Meets (m : Mesh K) (f : EqField K) (φ : Int → K) : Prop := ∀ i id v, m.nodes.idAt? i = some id → Equation.prescribed f i = some v → φ id = v

/-- Every node hangs together, through elements, with a node that has a prescribed value. -/
inductive Anchored (m : Mesh K) (f : EqField K) : Int → Prop
  | fixed (i : Nat) (id : Int) (v : K) (h : m.nodes.idAt? i = some id) (hv : Equation.prescribed f i = some v) : Anchored m f id
  | element (eid : Int) (e : Elem) (x y : Int) (he : m.elements.get? eid = some e) (hx : x ∈ e.nodeIds) (hy : y ∈ e.nodeIds) (h : Anchored m f x) : Anchored m f y

end FemHeat
end ENigMA
