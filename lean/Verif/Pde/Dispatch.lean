import Verif.Sle.System

/-!
# Which operator is called for a field, and the size of what it returns

The functions `ddt`, `laplacian`, `divergence`, `gradient`, `source` of trunk/src/pde/PdeEquation_Imp.hpp choose by the method and the kind of simulation of the field,
through trunk/src/pde/{fdm,bem,fem,fvm}/*Operators_Imp.hpp. Here only the type and the number of rows of the returned system are modelled; the entries are the subject of
the models of the single operators. A system that no operator has touched is empty.
-/

set_option linter.unusedSectionVars false
set_option autoImplicit false

namespace ENigMA
namespace Dispatch

/-- `EDiscretMethod`: PdeField.hpp:20-29. -/
inductive Method where
  | none | fdm | bem | fem | fvm | lbm | sph
  deriving DecidableEq, Repr

/-- `ESimulationType`: PdeField.hpp:44-50. -/
inductive Sim where
  | generic | thermal | flow | structural
  deriving DecidableEq, Repr

/-- What the choice and the sizes depend on: the method, the kind of simulation, the mesh, `nbDofs()` and `u.size()`. -/
structure Fld where
  method : Method
  sim : Sim
  nbNodes : Nat
  nbElements : Nat
  nbDofs : Nat
  uSize : Nat

/-- The type and the number of rows of a system; the matrix is square and `vectorB` has as many entries. -/
structure Shape where
  kind : MatrixType
  n : Nat
  deriving DecidableEq, Repr

/-- A system made by the default constructor: SleSystem_Imp.hpp:32-36. -/
def Shape.empty : Shape := ⟨.unknown, 0⟩

/-- `fdm::ddt`, `fdm::laplacian` and `fdm::divergence`: FdmOperators_Imp.hpp:25-50; FdmGenericOperators_Imp.hpp:21-30, 56-65, 139-148,
FdmThermalOperators_Imp.hpp:21-30, 56-65, 139-148. -/
def fdm (f : Fld) : Shape :=
  match f.sim with
  | .generic => ⟨.sparse, f.nbNodes⟩
  | .thermal => ⟨.sparse, f.nbNodes⟩
  | _ => Shape.empty

/-- `fvm::ddt`, `fvm::laplacian` and `fvm::divergence`: FvmOperators_Imp.hpp:26-57; FvmGenericOperators_Imp.hpp:25-33, 67-75, 150-159,
FvmThermalOperators_Imp.hpp:21-29, 63-71, 146-155, FvmFlowOperators_Imp.hpp:23-32, 58-67, 142-151. -/
def fvm (f : Fld) : Shape :=
  match f.sim with
  | .generic => ⟨.sparse, f.nbElements⟩
  | .thermal => ⟨.sparse, f.nbElements⟩
  | .flow => ⟨.sparse, f.nbElements⟩
  | .structural => Shape.empty

/-- `fem::ddt`: FemOperators_Imp.hpp:34-46; FemGenericOperators_Imp.hpp:30-39, FemThermalOperators_Imp.hpp:31-39, FemFlowOperators_Imp.hpp:27-36,
FemStructuralOperators_Imp.hpp:27-30 (empty). -/
def femDdt (f : Fld) : Shape :=
  match f.sim with
  | .generic => ⟨.sparseSymmetric, f.nbNodes⟩
  | .thermal => ⟨.sparseSymmetric, f.nbNodes⟩
  | .structural => Shape.empty
  | .flow => ⟨.sparseSymmetric, f.nbNodes⟩

/-- `fem::laplacian`: FemOperators_Imp.hpp:48-60; FemGenericOperators_Imp.hpp:198-207, FemThermalOperators_Imp.hpp:198-207, FemFlowOperators_Imp.hpp:116-125,
FemStructuralOperators_Imp.hpp:33-42. -/
def femLaplacian (f : Fld) : Shape :=
  match f.sim with
  | .generic => ⟨.sparseSymmetric, f.nbNodes⟩
  | .thermal => ⟨.sparseSymmetric, f.nbNodes⟩
  | .structural => ⟨.sparseSymmetric, f.nbNodes * f.nbDofs⟩
  | .flow => ⟨.sparseSymmetric, f.nbNodes⟩

/-- `fem::divergence` of one field: FemOperators_Imp.hpp:62-72; FemGenericOperators_Imp.hpp:431-440, FemThermalOperators_Imp.hpp:462-471,
FemStructuralOperators_Imp.hpp:150-153 (empty). There is no case for flow; `flow::divergence` of one field is never called. -/
def femDivergence (f : Fld) : Shape :=
  match f.sim with
  | .generic => ⟨.sparse, f.nbNodes⟩
  | .thermal => ⟨.sparse, f.nbNodes⟩
  | .structural => Shape.empty
  | .flow => Shape.empty

/-- `ddt(field)`: PdeEquation_Imp.hpp:205-220; `bem::ddt` is empty (BemOperators_Imp.hpp:22-25). -/
def ddt (f : Fld) : Shape :=
  match f.method with
  | .bem => Shape.empty
  | .fdm => fdm f
  | .fem => femDdt f
  | .fvm => fvm f
  | _ => Shape.empty

/-- `laplacian(field)`: PdeEquation_Imp.hpp:222-237; BemOperators_Imp.hpp:27-32, BemThermalOperators_Imp.hpp:32-40. -/
def laplacian (f : Fld) : Shape :=
  match f.method with
  | .bem => if f.sim = .thermal then ⟨.dense, f.nbElements⟩ else Shape.empty
  | .fdm => fdm f
  | .fem => femLaplacian f
  | .fvm => fvm f
  | _ => Shape.empty

/-- `divergence(field)`: PdeEquation_Imp.hpp:239-254; `bem::divergence` is empty (BemOperators_Imp.hpp:34-38). -/
def divergence (f : Fld) : Shape :=
  match f.method with
  | .bem => Shape.empty
  | .fdm => fdm f
  | .fem => femDivergence f
  | .fvm => fvm f
  | _ => Shape.empty

/-- `divergence(field, field, dt)`, `divergence(field, field, field, dt)` and `gradient(field, component)`: PdeEquation_Imp.hpp:256-287, FemOperators_Imp.hpp:74-96,
FemFlowOperators_Imp.hpp:280-289, 374-383, 467-476. -/
def coupling (f : Fld) : Shape :=
  match f.method with
  | .fem => if f.sim = .flow then ⟨.sparse, f.nbNodes⟩ else Shape.empty
  | _ => Shape.empty

/-- The number of entries of `source(field, value)`: PdeEquation_Imp.hpp:289-304, FemOperators_Imp.hpp:98-110, FemGenericOperators_Imp.hpp:509-512. All other `source` functions have
empty bodies: BemOperators_Imp.hpp:40-43, FdmGenericOperators_Imp.hpp:203-206, FdmThermalOperators_Imp.hpp:199-202, FemThermalOperators_Imp.hpp:540-543,
FemStructuralOperators_Imp.hpp:156-159, FemFlowOperators_Imp.hpp:584-587, FvmGenericOperators_Imp.hpp:229-231, FvmThermalOperators_Imp.hpp:225-227, FvmFlowOperators_Imp.hpp:221-223. -/
def source (f : Fld) : Nat :=
  match f.method with
  | .fem => if f.sim = .generic then f.nbNodes else 0
  | _ => 0

/-- Left-hand sides of equations for one field, as a user writes them. -/
inductive Expr where
  | ddt | laplacian | divergence | coupling
  | field
  | scaled (e : Expr)
  | sum (l r : Expr)
  | diff (l r : Expr)

/-- The operators of systems: SleSystem_Imp.hpp:133-176, and `c * u`: PdeEquation_Imp.hpp:186-202. `none` is the assertion of Eigen that the sizes agree. -/
def eval (f : Fld) : Expr → Option Shape
  | .ddt => some (ddt f)
  | .laplacian => some (laplacian f)
  | .divergence => some (divergence f)
  | .coupling => some (coupling f)
  | .field => some ⟨.unknown, f.uSize⟩
  | .scaled e => eval f e
  | .sum l r => do
    let a ← eval f l
    let b ← eval f r
    if a.n = b.n then some ⟨Sys.joinKind a.kind b.kind, a.n⟩ else none
  | .diff l r => do
    let a ← eval f l
    let b ← eval f r
    if a.n = b.n then some ⟨Sys.joinKind a.kind b.kind, a.n⟩ else none

/-- `CPdeEquation(e = source(field, value))`: SleSystem_Imp.hpp:90-95. `none` is the assertion of Eigen that the sizes agree. -/
def withSource (f : Fld) (e : Expr) : Option Shape := do
  let a ← eval f e
  if a.n = source f then some a else none

end Dispatch
end ENigMA
