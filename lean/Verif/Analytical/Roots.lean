import Mathlib.Algebra.Order.Field.Basic
import Mathlib.Algebra.Order.AbsoluteValue.Basic
import Mathlib.Algebra.Order.Group.Abs

/-!
# Root finding

Model of `bisection`, `brent` and `root` of `CAnaFunction` (analytical/AnaFunction_Imp.hpp). The expression, which the code gives to the library exprtk, is a function
`f`: `evaluate(strVar, x)` is `f x`. The real numbers are an ordered field.
-/

set_option linter.unusedSectionVars false
set_option autoImplicit false

namespace ENigMA
namespace Ana

variable {K : Type} [Field K] [LinearOrder K] [IsStrictOrderedRing K]

/-- The number of passes after which the loops stop by `if (i > nMaxIterations) break`: AnaFunction_Imp.hpp 133-136, 246-249. The test comes after the pass, so there
is one pass more than `nMaxIterations`, and at least one. -/
def passes (nMax : Int) : Nat := max 1 (nMax + 1).toNat

/-- The loop of `bisection`: AnaFunction_Imp.hpp 113-137. `k` is the number of passes left; the state is `a`, `b`, `i`. -/
def bisectLoop (f : K → K) (tol : K) : Nat → K × K × Nat → K × K × Nat
  | 0, st => st
  | k + 1, (a, b, i) =>
    if |b - a| > tol then
      let s := (a + b) * (1 / 2)
      if f a * f s > 0 then bisectLoop f tol k (s, b, i + 1) else bisectLoop f tol k (a, s, i + 1)
    else (a, b, i)

/-- `bisection(strVar, lowerBnd, upperBnd, nIterations, nMaxIterations, aTolerance)`: AnaFunction_Imp.hpp 104-142. Returns the value and `nIterations`. -/
def bisection (f : K → K) (lower upper : K) (nMax : Int) (tol : K) : K × Nat :=
  let r := bisectLoop f tol (passes nMax) (lower, upper, 0)
  ((r.1 + r.2.1) * (1 / 2), r.2.2)

/-- `root`: AnaFunction_Imp.hpp 257-258. -/
def root (f : K → K) (lower upper : K) (nMax : Int) (tol : K) : K × Nat := bisection f lower upper nMax tol

/-- The variables of the loop of `brent`. -/
structure BState (K : Type) where
  a : K
  b : K
  c : K
  d : K
  fa : K
  fb : K
  fc : K
  mflag : Bool
  i : Nat

/-- Exchange of `a` and `b` when `|f(a)| < |f(b)|`: AnaFunction_Imp.hpp 171-180, 233-242. -/
def BState.order (st : BState K) : BState K :=
  if |st.fa| < |st.fb| then { st with a := st.b, b := st.a, fa := st.fb, fb := st.fa } else st

/-- The next point and the new `mflag`: AnaFunction_Imp.hpp 191-216. -/
def BState.next (tol : K) (st : BState K) : K × Bool :=
  let s := if st.fa ≠ st.fc ∧ st.fb ≠ st.fc then
      st.a * st.fb * st.fc / (st.fa - st.fb) / (st.fa - st.fc) + st.b * st.fa * st.fc / (st.fb - st.fa) / (st.fb - st.fc) +
        st.c * st.fa * st.fb / (st.fc - st.fa) / (st.fc - st.fb)
    else st.b - st.fb * (st.b - st.a) / (st.fb - st.fa)
  let tmp2 := (3 * st.a + st.b) / 4
  if ¬ ((tmp2 < s ∧ s < st.b) ∨ (s < tmp2 ∧ st.b < s)) ∨ (st.mflag = true ∧ |st.b - st.c| / 2 ≤ |s - st.b|) ∨
      (st.mflag = false ∧ |st.c - st.d| / 2 ≤ |s - st.b|) then ((st.a + st.b) * (1 / 2), true)
  else if (st.mflag = true ∧ |st.b - st.c| < tol) ∨ (st.mflag = false ∧ |st.c - st.d| < tol) then ((st.a + st.b) / 2, true)
  else (s, false)

/-- The body of the loop: AnaFunction_Imp.hpp 189-244. -/
def BState.step (f : K → K) (tol : K) (st : BState K) : BState K :=
  let (s, mflag) := st.next tol
  let fs := f s
  let st := { st with d := st.c, c := st.b, fc := st.fb, mflag := mflag, i := st.i + 1 }
  (if st.fa * fs < 0 then { st with b := s, fb := fs } else { st with a := s, fa := fs }).order

/-- The loop of `brent`: AnaFunction_Imp.hpp 187-250. -/
def BState.loop (f : K → K) (tol : K) : Nat → BState K → BState K
  | 0, st => st
  | k + 1, st => if st.fb ≠ 0 ∧ |st.a - st.b| > tol then BState.loop f tol k (st.step f tol) else st

/-- `brent(strVar, lowerBnd, upperBnd, nIterations, nMaxIterations, aTolerance)`: AnaFunction_Imp.hpp 144-255. Returns the value and `nIterations`; `none`: the
argument `nIterations` is left as it was. `big` is `std::numeric_limits<Real>::max()`. -/
def brent (big : K) (f : K → K) (lower upper : K) (nMax : Int) (tol : K) : K × Option Nat :=
  if f lower * f upper ≥ 0 then (if f lower < f upper then lower else upper, none)
  else
    let st := BState.order ⟨lower, upper, 0, big, f lower, f upper, 0, true, 0⟩
    let r := BState.loop f tol (passes nMax) { st with c := st.a, fc := st.fa }
    (r.b, some r.i)

end Ana
end ENigMA
