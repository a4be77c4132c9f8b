import Verif.Pde.Assembly

/-!
# Finite-difference operators: trunk/src/pde/fdm/generic/FdmGenericOperators_Imp.hpp and
trunk/src/pde/fdm/thermal/FdmThermalOperators_Imp.hpp

`n` is `mesh().nbNodes()` and `dx` is `mesh().dx()`. The functions of the two files are the same except for `divergence`, where only
the generic one writes the diagonal of the first and last rows. A key of `uFixed` outside the mesh (an unchecked index into
`isFixed`) and a read of `u` outside its size are `none`.
-/

namespace ENigMA
namespace Fdm
open Equation (InRange)
variable {K : Type} [Field K]

/-- The table `isFixed`: FdmGenericOperators_Imp.hpp:30-38, 64-72, 142-150. -/
def isFixed (f : EqField K) (n : Nat) : Option (List Bool) :=
  fill f.uFixed.keys (List.replicate n false)
where
  /-- The loop over the fixed values. -/
  fill : List Int → List Bool → Option (List Bool)
    | [], l => some l
    | i :: t, l => if InRange i l.length then fill t (l.set i.toNat true) else none

/-- `aField.uFixed[ii]` (`std::map::operator[]`: zero for a missing key). -/
def fixedAt (f : EqField K) (ii : Nat) : K := (f.uFixed.find? (ii : Int)).getD 0

/-- `aField.u[ii]`, unchecked. -/
def uAt (f : EqField K) (ii : Nat) : Option K := if ii < f.u.size then some (f.u.at' ii) else none

/-- Body of the loop of `ddt`: FdmGenericOperators_Imp.hpp:40-48. -/
def ddtRow (f : EqField K) (fx : List Bool) (ii : Nat) : Option (List (Stamp K)) := do
  let fixed ← fx[ii]?
  if fixed then return [.addA ii ii 1, .addB ii (fixedAt f ii)]
  else return [.addA ii ii 1, .addB ii (← uAt f ii)]

/-- Body of the loop of `laplacian`: FdmGenericOperators_Imp.hpp:77-130. -/
def laplacianRow (f : EqField K) (fx : List Bool) (n : Nat) (dx : K) (ii : Nat) : Option (List (Stamp K)) := do
  let i : Int := ii
  let fixed ← fx[ii]?
  if ii = 0 then
    if fixed then
      return [.addA i i (-2 / (dx * dx)), .addA i (i + 1) (1 / (dx * dx)), .addB i (-1 / (dx * dx) * fixedAt f ii)]
    else
      return [.addA i i (-1 / (dx * dx)), .addA i (i + 1) (1 / (dx * dx))]
  else if ii + 1 < n then
    return [.addA i (i - 1) (1 / (dx * dx)), .addA i i (-2 / (dx * dx)), .addA i (i + 1) (1 / (dx * dx))]
  else if ii + 1 = n then
    if fixed then
      return [.addA i (i - 1) (1 / (dx * dx)), .addA i i (-2 / (dx * dx)), .addB i (-1 / (dx * dx) * fixedAt f ii)]
    else
      return [.addA i (i - 1) (1 / (dx * dx)), .addA i i (-1 / (dx * dx))]
  else return []

/-- Body of the loop of `divergence`: FdmGenericOperators_Imp.hpp:155-194; without the assignments to the diagonal
(`diag = false`): FdmThermalOperators_Imp.hpp. -/
def divergenceRow (diag : Bool) (f : EqField K) (fx : List Bool) (n : Nat) (dx : K) (ii : Nat) : Option (List (Stamp K)) := do
  let i : Int := ii
  let fixed ← fx[ii]?
  let d : List (Stamp K) := if diag then [.setA i i 1] else []
  if ii = 0 then
    if fixed then return d ++ [.addB i (-((← uAt f (ii + 1)) - fixedAt f ii) / dx)] else return d
  else if ii + 1 < n then
    return [.addA i (i - 1) (-1 / (2 * dx)), .addA i (i + 1) (1 / (2 * dx))]
  else if ii + 1 = n then
    if fixed then return d ++ [.addB i (-(fixedAt f ii - (← uAt f (ii - 1))) / dx)] else return d
  else return []

/-- All rows in order. -/
def rows (g : Nat → Option (List (Stamp K))) : List Nat → Option (List (Stamp K))
  | [] => some []
  | i :: t => do
    let a ← g i
    let b ← rows g t
    return a ++ b

/-- `ddt`: FdmGenericOperators_Imp.hpp:20-51. -/
def ddt (f : EqField K) (n : Nat) : Option (Sys K) := do
  let fx ← isFixed f n
  (Sys.zero .sparse n).assemble (← rows (ddtRow f fx) (List.range n))

/-- `laplacian`: FdmGenericOperators_Imp.hpp:53-133. -/
def laplacian (f : EqField K) (n : Nat) (dx : K) : Option (Sys K) := do
  let fx ← isFixed f n
  (Sys.zero .sparse n).assemble (← rows (laplacianRow f fx n dx) (List.range n))

/-- `divergence`: FdmGenericOperators_Imp.hpp:135-199 (`diag = true`), FdmThermalOperators_Imp.hpp:131-195 (`diag = false`). -/
def divergence (diag : Bool) (f : EqField K) (n : Nat) (dx : K) : Option (Sys K) := do
  let fx ← isFixed f n
  (Sys.zero .sparse n).assemble (← rows (divergenceRow diag f fx n dx) (List.range n))

end Fdm
end ENigMA
