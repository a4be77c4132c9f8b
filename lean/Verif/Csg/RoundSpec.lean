import Verif.Csg.Bsp

/-!
# What a closed surface is

Independent of the model of the sphere and the cylinder.
-/

set_option linter.unusedSectionVars false
set_option autoImplicit false

namespace ENigMA
open Csg

variable {K : Type}

/-- The directed sides of a closed list of corners (its last corner is its first). -/
def sidesOf (vs : List (Vec3 K)) : List (Vec3 K × Vec3 K) := vs.zip vs.tail

/-- The polygons have no open side: every side is walked as often in one direction as in the other. -/
def ClosedSurface (ps : List (Poly K)) : Prop :=
  let s := ps.flatMap fun p => sidesOf p.vs
  s.Perm (s.map Prod.swap)

end ENigMA
