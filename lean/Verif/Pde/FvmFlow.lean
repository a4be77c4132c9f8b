import Verif.Pde.FvmAssembly
import Verif.Pde.Fdm

/-!
# Finite-volume operators of flow problems: trunk/src/pde/fvm/flow/FvmFlowOperators_Imp.hpp

`laplacian` (lines 57-139) is the text of the generic one, `FvmOp.laplacian`, and so are all three operators of
trunk/src/pde/fvm/thermal/FvmThermalOperators_Imp.hpp. `source` is empty. `none` is an exception of `.at`, an unchecked index outside a vector or a
division by zero.
-/

set_option linter.unusedSectionVars false
set_option autoImplicit false

namespace ENigMA

variable {K : Type} [Field K] [LinearOrder K] [IsStrictOrderedRing K]

namespace FvmFlowOp
open FvmOp

/-- `ddt`: FvmFlowOperators_Imp.hpp:22-55. The fixed values are looked up by the index of the element. The text between the resizes and the end is the
one of the finite differences (FdmGenericOperators_Imp.hpp:30-48) with elements instead of nodes. -/
def ddt (f : EqField K) (m : Mesh K) : Option (Sys K) := Fdm.ddt f m.elements.count

/-- Body of the loop over the faces in `divergence`: FvmFlowOperators_Imp.hpp:182-214. -/
def divergenceFace (nrm : Vec3 K → K) (eps : K) (c : Ctx K) (el : Nat) (cv : ControlVolume K) (fid : Int) : Option (List (Stamp K)) := do
  let Vp := volume nrm eps cv
  let q := face nrm eps cv fid
  let Af := q.m_area
  let s := q.m_normal.x + q.m_normal.y + q.m_normal.z
  let f ← c.mesh.faces.get? fid
  if f.hasPair then
    let g ← c.mesh.faces.get? f.pairFaceId
    let nl ← c.mesh.elements.indexOf? g.elementId
    if Vp = 0 then none
    else return [.addA el el (1 / 2 * Af / Vp * s * c.u el), .addA el nl (1 / 2 * Af / Vp * s * c.u el)]
  else
    match fixedValue c.field fid with
    | some v => if Vp = 0 then none else return [.addB el (Af / Vp * s * c.u el * v)]
    | none => return []

/-- `divergence`: FvmFlowOperators_Imp.hpp:141-218. -/
def divergence (nrm : Vec3 K → K) (eps : K) (c : Ctx K) : Option (Sys K) := do
  let l ← FemOp.collect ((List.range c.mesh.elements.count).map fun el => elementRow c (fun _ cv fid => divergenceFace nrm eps c el cv fid) el)
  (Sys.zero .sparse c.mesh.elements.count).assemble l

end FvmFlowOp
end ENigMA
