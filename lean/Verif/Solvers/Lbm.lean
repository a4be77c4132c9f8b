import Mathlib.Algebra.BigOperators.Fin
import Mathlib.Algebra.Field.Basic

/-!
# `CLbmLidDrivenSolver<Real, 2, 9>`: trunk/src/solvers/LbmLidDrivenSolver_Imp.hpp

The nested vectors are functions of the indices. The accessors and the loops use the indices `0 … nx`, `0 … ny` only, which are the sizes given to
`resizeMatrix`; the last loop of `evolve` reads index `ny - 1`, so `ny = 0` is outside the model. Every loop of `evolve` and `init` writes each entry once
and reads no entry it writes for another index, so a loop is a pointwise update. Division is that of a field: `tau_f = 0` and a density zero are outside the
model of the floating-point code.
-/

set_option linter.unusedSectionVars false

namespace ENigMA
namespace Lbm

/-- `m_e`: lines 39-72. -/
def e : Fin 9 → Int × Int
  | 0 => (0, 0) | 1 => (1, 0) | 2 => (0, 1) | 3 => (-1, 0) | 4 => (0, -1)
  | 5 => (1, 1) | 6 => (-1, 1) | 7 => (-1, -1) | 8 => (1, -1)

/-- `m_op`: lines 29-37. -/
def op : Fin 9 → Fin 9
  | 0 => 0 | 1 => 3 | 2 => 4 | 3 => 1 | 4 => 2 | 5 => 7 | 6 => 8 | 7 => 5 | 8 => 6

variable {K : Type} [Field K]

/-- `m_w`: lines 41-73. -/
def w : Fin 9 → K
  | 0 => 4 / 9 | 1 => 1 / 9 | 2 => 1 / 9 | 3 => 1 / 9 | 4 => 1 / 9
  | 5 => 1 / 36 | 6 => 1 / 36 | 7 => 1 / 36 | 8 => 1 / 36

/-- The members. -/
structure State (K : Type) where
  nx : Nat
  ny : Nat
  u : Int → Int → K × K
  u0 : Int → Int → K × K
  rho : Int → Int → K
  B : Int → Int → Int
  f : Int → Int → Fin 9 → K
  F : Int → Int → Fin 9 → K

/-- The constructor: lines 16-81. `resize` fills with zeros. -/
def new (nx ny : Nat) : State K :=
  { nx := nx, ny := ny, u := fun _ _ => (0, 0), u0 := fun _ _ => (0, 0), rho := fun _ _ => 0, B := fun _ _ => 0,
    f := fun _ _ _ => 0, F := fun _ _ _ => 0 }

/-- `feq2`: lines 124-131. -/
def feq2 (k : Fin 9) (rho : K) (u : K × K) : K :=
  let eu := ((e k).1 : K) * u.1 + ((e k).2 : K) * u.2
  let uv := u.1 * u.1 + u.2 * u.2
  w k * rho * (1 + 3 * eu + 9 / 2 * eu * eu - 3 / 2 * uv)

/-- `1 <= i < m_nx` and `1 <= j < m_ny`: lines 137-139, 169-171. -/
def State.inner (s : State K) (i j : Int) : Prop := 1 ≤ i ∧ i < s.nx ∧ 1 ≤ j ∧ j < s.ny

/-- `0 <= i <= m_nx` and `0 <= j <= m_ny`. -/
def State.inside (s : State K) (i j : Int) : Prop := 0 ≤ i ∧ i ≤ s.nx ∧ 0 ≤ j ∧ j ≤ s.ny

instance (s : State K) (i j : Int) : Decidable (s.inner i j) := inferInstanceAs (Decidable (_ ∧ _))
instance (s : State K) (i j : Int) : Decidable (s.inside i j) := inferInstanceAs (Decidable (_ ∧ _))

/-- The relaxed population of a node: the right-hand side of line 145. -/
def collide (tau : K) (rho : K) (u : K × K) (f : Fin 9 → K) (k : Fin 9) : K := f k + (feq2 k rho u - f k) / tau

/-- Streaming and collision: lines 136-148. -/
def stream (tau : K) (s : State K) : State K :=
  { s with F := fun i j k =>
      if s.inner i j then
        let ip := i - (e k).1
        let jp := j - (e k).2
        collide tau (s.rho ip jp) (s.u ip jp) (s.f ip jp) k
      else s.F i j k }

/-- Bounce-back at the nodes marked by `setBoundary(i, j, 1)`: lines 150-166. -/
def bounce (s : State K) : State K :=
  { s with F := fun i j k => if s.inside i j ∧ s.B i j = 1 then s.F i j (op k) else s.F i j k }

/-- The macroscopic quantities: lines 168-191. -/
def macros (s : State K) : State K :=
  { s with
    u0 := fun i j => if s.inner i j then s.u i j else s.u0 i j
    f := fun i j k => if s.inner i j then s.F i j k else s.f i j k
    rho := fun i j => if s.inner i j then ∑ k, s.F i j k else s.rho i j
    u := fun i j =>
      if s.inner i j then
        ((∑ k, ((e k).1 : K) * s.F i j k) / ∑ k, s.F i j k, (∑ k, ((e k).2 : K) * s.F i j k) / ∑ k, s.F i j k)
      else s.u i j }

/-- The upper boundary: lines 193-200. -/
def upper (s : State K) : State K :=
  { s with
    rho := fun i j => if 0 ≤ i ∧ i ≤ s.nx ∧ j = s.ny then s.rho i (s.ny - 1) else s.rho i j
    f := fun i j k =>
      if 0 ≤ i ∧ i ≤ s.nx ∧ j = s.ny then
        feq2 k (s.rho i (s.ny - 1)) (s.u i s.ny) + s.f i (s.ny - 1) k - feq2 k (s.rho i (s.ny - 1)) (s.u i (s.ny - 1))
      else s.f i j k }

/-- `evolve(tau_f)`: lines 133-201. -/
def evolve (tau : K) (s : State K) : State K := upper (macros (bounce (stream tau s)))

/-- `init()`: lines 233-248. -/
def init (s : State K) : State K :=
  { s with
    u := fun i j => if s.inside i j then (0, 0) else s.u i j
    rho := fun i j => if s.inside i j then 1 else s.rho i j
    f := fun i j k => if s.inside i j then feq2 k 1 (0, 0) else s.f i j k }

/-- `setVelocity(i, j, d, value)`: lines 209-213, for `d = 0` or `d = 1`. -/
def setVelocity (s : State K) (i j : Int) (d : Fin 2) (v : K) : State K :=
  { s with u := fun i' j' => if i' = i ∧ j' = j then (if d = 0 then (v, (s.u i j).2) else ((s.u i j).1, v)) else s.u i' j' }

/-- `setBoundary(i, j, value)`: lines 221-225. -/
def setBoundary (s : State K) (i j : Int) (v : Int) : State K :=
  { s with B := fun i' j' => if i' = i ∧ j' = j then v else s.B i' j' }

end Lbm
end ENigMA
