import Verif.Base.SMap
import Mathlib.Algebra.BigOperators.Group.Finset.Basic
import Mathlib.Algebra.BigOperators.Ring.Finset
import Mathlib.Algebra.Field.Basic
import Mathlib.Data.Rat.Defs

/-!
# `CSleSystem`: trunk/src/sle/SleSystem.hpp, SleSystem_Imp.hpp

A system `A x = b`. The sparse matrix is represented by its values; which zeros are stored is not modelled. Entries outside
`n × n` are meaningless. Operations on systems of different sizes (an Eigen assertion) are `none`.
-/

namespace ENigMA

/-- `EMatrixType`: SleSystem.hpp:18-24, in increasing order of the enumerators. -/
inductive MatrixType where
  | unknown | sparseSymmetric | sparse | dense
  deriving DecidableEq, Repr

/-- The value of the enumerator: SleSystem.hpp:18-24. -/
def MatrixType.code : MatrixType → Int
  | .unknown => -1
  | .sparseSymmetric => 0
  | .sparse => 1
  | .dense => 2

/-- `CSleSystem`: SleSystem.hpp:26-42. -/
structure Sys (K : Type) where
  kind : MatrixType
  n : Nat
  A : Nat → Nat → K
  b : Nat → K

namespace Sys
variable {K : Type} [Field K]

/-- `operator=(const Real right)`: SleSystem_Imp.hpp:83-88. It **adds** to the right-hand side. -/
def assignReal (s : Sys K) (c : K) : Sys K := { s with b := fun i => s.b i + c }

/-- `operator=(Eigen::Matrix right)`: SleSystem_Imp.hpp:90-95. It **adds** to the right-hand side. -/
def assignVec (s : Sys K) (v : Nat → K) : Sys K := { s with b := fun i => s.b i + v i }

/-- `operator-(system, Real)`: SleSystem_Imp.hpp:97-113; the loops visit each diagonal entry and each component once. -/
def subReal (s : Sys K) (c : K) : Sys K :=
  { s with A := fun i j => if i = j then s.A i j - c else s.A i j, b := fun i => s.b i - c }

/-- `operator+(system, Real)`: SleSystem_Imp.hpp:115-131. -/
def addReal (s : Sys K) (c : K) : Sys K :=
  { s with A := fun i j => if i = j then s.A i j + c else s.A i j, b := fun i => s.b i + c }

/-- The matrix type of a sum or difference: SleSystem_Imp.hpp:138-141, 154-157. -/
def joinKind (l r : MatrixType) : MatrixType := if l.code > r.code then l else r

/-- `operator+(system, system)`: SleSystem_Imp.hpp:133-147. -/
def add (l r : Sys K) : Option (Sys K) :=
  if l.n = r.n then
    some { kind := joinKind l.kind r.kind, n := l.n, A := fun i j => l.A i j + r.A i j, b := fun i => l.b i + r.b i }
  else none

/-- `operator-(system, system)`: SleSystem_Imp.hpp:149-163. -/
def sub (l r : Sys K) : Option (Sys K) :=
  if l.n = r.n then
    some { kind := joinKind l.kind r.kind, n := l.n, A := fun i j => l.A i j - r.A i j, b := fun i => l.b i - r.b i }
  else none

/-- `operator*(Real, system)`: SleSystem_Imp.hpp:165-176. -/
def smul (c : K) (s : Sys K) : Sys K := { s with A := fun i j => c * s.A i j, b := fun i => c * s.b i }

/-- `operator*(vector, system)`: SleSystem_Imp.hpp:178-202; every stored entry is multiplied by the factor of its row. -/
def vmul (v : Nat → K) (s : Sys K) : Sys K := { s with A := fun i j => s.A i j * v i, b := fun i => s.b i * v i }

/-- `operator*(Real, field)`: PdeEquation_Imp.hpp:189-206; `n` is the size of the field. The matrix type is left `MT_UNKNOWN`. -/
def ofField (c : K) (n : Nat) : Sys K :=
  { kind := .unknown, n := n, A := fun i j => if i = j then c else 0, b := fun _ => 0 }

/-! ### Specification -/

/-- Left-hand side of row `i` at `x`. -/
def row (s : Sys K) (x : Nat → K) (i : Nat) : K := ∑ j ∈ Finset.range s.n, s.A i j * x j

/-- Residual of row `i` at `x`. -/
def residual (s : Sys K) (x : Nat → K) (i : Nat) : K := s.row x i - s.b i

/-- `x` solves the system. -/
def Solves (s : Sys K) (x : Nat → K) : Prop := ∀ i < s.n, s.row x i = s.b i

/-- The matrix is symmetric. -/
def Symmetric (s : Sys K) : Prop := ∀ i < s.n, ∀ j < s.n, s.A i j = s.A j i

end Sys
end ENigMA
