import Verif.Sle.System
import Mathlib.Data.Int.Order.Basic

/-!
# `CPdeEquation`: trunk/src/pde/PdeEquation.hpp, PdeEquation_Imp.hpp
-/

namespace ENigMA

/-- `EDiscretMethod`: trunk/src/pde/PdeField.hpp. -/
inductive DiscretMethod where
  | none | fdm | bem | fem | fvm | lbm | sph
  deriving DecidableEq, Repr

/-- A vector of Eigen: its size and its components. -/
structure EVec (K : Type) where
  size : Nat
  at' : Nat → K

/-- The members of `CPdeField` that `CPdeEquation` uses: PdeField.hpp. -/
structure EqField (K : Type) where
  method : DiscretMethod
  uFixed : SMap Int K
  uSource : SMap Int K
  u : EVec K

/-- `CPdeEquation`: PdeEquation.hpp. -/
structure Equation (K : Type) where
  sys : Sys K
  del : List Bool
  elim : Bool

namespace Equation
variable {K : Type} [Field K]

/-- Constructor: PdeEquation_Imp.hpp:22-28. -/
def new (s : Sys K) : Equation K := ⟨s, [], false⟩

/-- An index is valid for a vector of size `n` (Eigen asserts this, `std::vector::operator[]` does not check). -/
def InRange (i : Int) (n : Nat) : Prop := 0 ≤ i ∧ i < n

instance (i : Int) (n : Nat) : Decidable (InRange i n) := by unfold InRange; infer_instance

/-- Loop of `setPenaltyFactor`: PdeEquation_Imp.hpp:47-55. -/
def penaltyLoop (p : K) : List (Int × K) → Sys K → Option (Sys K)
  | [], s => some s
  | (i, v) :: t, s =>
    if InRange i s.n then
      penaltyLoop p t { s with
        A := fun r c => if r = i.toNat ∧ c = i.toNat then p else s.A r c
        b := fun r => if r = i.toNat then p * v else s.b r }
    else none

/-- `setPenaltyFactor`: PdeEquation_Imp.hpp:41-58. -/
def setPenaltyFactor (e : Equation K) (f : EqField K) (p : K) : Option (Equation K) :=
  if f.method = .fem ∨ f.method = .fdm then
    (penaltyLoop p f.uFixed.entries e.sys).map fun s => { e with sys := s }
  else some e

/-- `std::vector<bool>::resize(n, false)`. -/
def resizeBool (l : List Bool) (n : Nat) : List Bool := l.take n ++ List.replicate (n - l.length) false

/-- First loop of `setElimination`: PdeEquation_Imp.hpp:68-77. -/
def elimLoop : List (Int × K) → Sys K × List Bool → Option (Sys K × List Bool)
  | [], s => some s
  | (i, v) :: t, (s, del) =>
    if InRange i s.n ∧ InRange i del.length then
      elimLoop t ({ s with b := fun r => s.b r - s.A r i.toNat * v }, del.set i.toNat true)
    else none

/-- Second loop of `setElimination`: the vector `oldToNewIndex` and the final `newIndex`: PdeEquation_Imp.hpp:79-88. The
argument is `m_bDeleteIndex`, which has as many entries as the loop has iterations. -/
def oldToNew : List Bool → Nat → List Nat × Nat
  | [], k => ([], k)
  | d :: t, k =>
    let r := oldToNew t (if d then k else k + 1)
    (k :: r.1, r.2)

/-- Third loop of `setElimination`, over the rows: PdeEquation_Imp.hpp:98-104. -/
def copyB (s : Sys K) (del : List Bool) (o2n : List Nat) (n' : Nat) : List Nat → (Nat → K) → Option (Nat → K)
  | [], b => some b
  | i :: t, b => do
    let d ← del[i]?
    if !d then do
      let r ← o2n[i]?
      if r < n' then copyB s del o2n n' t (fun k => if k = r then s.b i else b k) else none
    else copyB s del o2n n' t b

/-- Fourth loop of `setElimination`, over the entries of the matrix: PdeEquation_Imp.hpp:106-118. Here all positions are visited,
column by column; the code skips those that are not stored, which are zero in both matrices. -/
def copyA (s : Sys K) (del : List Bool) (o2n : List Nat) (n' : Nat) : List (Nat × Nat) → (Nat → Nat → K) → Option (Nat → Nat → K)
  | [], a => some a
  | (i, j) :: t, a => do
    let di ← del[i]?
    let dj ← del[j]?
    if !di && !dj then do
      let r ← o2n[i]?
      let c ← o2n[j]?
      if r < n' ∧ c < n' then copyA s del o2n n' t (fun k l => if k = r ∧ l = c then s.A i j else a k l) else none
    else copyA s del o2n n' t a

/-- All positions of an `n × n` matrix, column by column. -/
def positions (n : Nat) : List (Nat × Nat) := (List.range n).flatMap fun j => (List.range n).map fun i => (i, j)

/-- `setElimination`: PdeEquation_Imp.hpp:60-125. `junk` is the uninitialised content of the new `vectorB`. -/
def setElimination (junk : Nat → K) (e : Equation K) (f : EqField K) : Option (Equation K) :=
  if f.method = .fem then do
    let (s, del) ← elimLoop f.uFixed.entries (e.sys, resizeBool e.del e.sys.n)
    let (o2n, n') := oldToNew (del.take s.n) 0
    let b ← copyB s del o2n n' (List.range s.n) junk
    let A ← copyA s del o2n n' (positions s.n) (fun _ _ => 0)
    return { sys := { kind := s.kind, n := n', A := A, b := b }, del := del, elim := true }
  else some e

/-- `setSources`: PdeEquation_Imp.hpp:127-137. -/
def sourceLoop : List (Int × K) → Sys K → Option (Sys K)
  | [], s => some s
  | (i, v) :: t, s =>
    if InRange i s.n then sourceLoop t { s with b := fun r => if r = i.toNat then s.b r + v else s.b r } else none

/-- `setSources`: PdeEquation_Imp.hpp:127-137. -/
def setSources (e : Equation K) (f : EqField K) : Option (Equation K) :=
  (sourceLoop f.uSource.entries e.sys).map fun s => { e with sys := s }

/-- `newToOldIndex`: PdeEquation_Imp.hpp:144-154. The map has the keys `0, 1, …` in order, so it is represented by the list of
its values. -/
def newToOld : List Bool → Nat → List Nat
  | [], _ => []
  | d :: t, i => if !d then i :: newToOld t (i + 1) else newToOld t (i + 1)

/-- `for i < x.size(): u(newToOldIndex[i]) = x(i)`: PdeEquation_Imp.hpp:160-163. `operator[]` of the map gives 0 for a missing key. -/
def scatter (x : EVec K) (n2o : List Nat) : List Nat → EVec K → Option (EVec K)
  | [], u => some u
  | i :: t, u =>
    let r := (n2o[i]?).getD 0
    if r < u.size then scatter x n2o t { u with at' := fun k => if k = r then x.at' i else u.at' k } else none

/-- `u(anIndex) = aValue` for the fixed values: PdeEquation_Imp.hpp:165-171, 178-184. -/
def setFixedLoop : List (Int × K) → EVec K → Option (EVec K)
  | [], u => some u
  | (i, v) :: t, u =>
    if InRange i u.size then setFixedLoop t { u with at' := fun k => if k = i.toNat then v else u.at' k } else none

/-- `CSleSystem::solve()`: SleSystem_Imp.hpp:39-81: with type `MT_UNKNOWN` the vector returned is empty; otherwise it is what the
library solver returns, `solver` here. -/
def sysSolve (solver : Sys K → Nat → K) (s : Sys K) : EVec K :=
  if s.kind = .unknown then ⟨0, fun _ => 0⟩ else ⟨s.n, solver s⟩

/-- `solve(field)`: PdeEquation_Imp.hpp:139-186. `junk` is the uninitialised content of `u` after `resize`. -/
def solve (solver : Sys K → Nat → K) (junk : Nat → K) (e : Equation K) (f : EqField K) : Option (EqField K) :=
  if e.elim then do
    let x := sysSolve solver e.sys
    let u ← scatter x (newToOld e.del 0) (List.range x.size) ⟨e.del.length, junk⟩
    let u ← setFixedLoop f.uFixed.entries u
    return { f with u := u }
  else do
    let u ← setFixedLoop f.uFixed.entries (sysSolve solver e.sys)
    return { f with u := u }

/-! ### Specification -/

/-- The value prescribed for degree of freedom `i`, if any. -/
def prescribed (f : EqField K) (i : Nat) : Option K := f.uFixed.find? (i : Int)

/-- The free degrees of freedom, in increasing order. -/
def freeDofs (f : EqField K) (n : Nat) : List Nat := (List.range n).filter fun i => (prescribed f i).isNone

end Equation
end ENigMA
