import Verif.Solvers.Piso

/-!
# `CFvmTemperatureSolver`

trunk/src/solvers/FvmTemperatureSolver_Imp.hpp: the flow solver with a temperature. `m_calcT` is never read.
-/

set_option linter.unusedSectionVars false
set_option autoImplicit false

namespace ENigMA
namespace Heat
open Piso
variable {K : Type} [Field K] [LinearOrder K] [IsStrictOrderedRing K]

/-- The members of `CFvmTemperatureSolver`: FvmTemperatureSolver.hpp:24-35; `m_bthcond` is 1 and never changed. -/
structure State (K : Type) where
  fl : Piso.State K
  thcond : Int → Option K
  spheat : Int → Option K
  T0 : Int → K
  T : Int → K
  Tf : Int → K

/-- Constructor: FvmTemperatureSolver_Imp.hpp:19-36. -/
def State.init : State K where
  fl := Piso.State.init
  thcond _ := none
  spheat _ := none
  T0 _ := 0
  T _ := 0
  Tf _ := 0

/-- `setMaterialProperties`: 51-63. -/
def setMaterialProperties (m : FvmMesh K) (dens visc thcond spheat : K) (v : State K) : State K :=
  { v with fl := Piso.setMaterialProperties m dens visc v.fl
           thcond := fun id => if id ∈ m.cvs.ids then some thcond else v.thcond id
           spheat := fun id => if id ∈ m.cvs.ids then some spheat else v.spheat id }

/-- `setBoundaryTemperature`: 65-76. -/
def setBoundaryTemperature : List Int → FvmBType → K → State K → State K
  | [], _, _, v => v
  | f :: t, b, x, v => setBoundaryTemperature t b x { v with Tf := put v.Tf f x, fl := { v.fl with bt := put v.fl.bt f b } }

/-- The local variables `dens`, `thcond`, `spheat` of the loop over the control volumes, which the loop over the faces changes. -/
structure Loc (K : Type) where
  dens : K
  thcond : K
  spheat : K

/-- Body of the loop over faces of `calculateTemperatureField`: 106-182. `operator[]` on a map gives 0 for a missing key. -/
def heatFace (m : FvmMesh K) (g : Geom K) (v : State K) (cv : Int) (iP : Nat) (q : Loc K × List (Stamp K)) (f : Int) : Option (Loc K × List (Stamp K)) := do
  let (p, st) := q
  let F ← m.faces.get? f
  let flux ← signedFlux m v.fl cv f
  let xsi : K := if flux > 0 then 0 else 1
  if F.hasPair then
    let nb := F.neighborId cv
    let iN ← index m nb
    let c ← m.cvs.get? nb
    if c.poly.containsPolygon f then
      let area := (g.area cv f + g.area nb f) * (1 / 2)
      let dist := g.dist cv f + g.dist nb f
      let p : Loc K := ⟨(p.dens + (v.fl.dens nb).getD 0) * (1 / 2), (p.thcond + (v.thcond nb).getD 0) * (1 / 2), (p.spheat + (v.spheat nb).getD 0) * (1 / 2)⟩
      if dist = 0 then none else
      return (p, st ++ [.addA iP iP (p.thcond * area / dist), .addA iP iN (-p.thcond * area / dist),
        .addA iP iP ((1 - xsi) * p.dens * p.spheat * flux), .addA iP iN (xsi * p.dens * p.spheat * flux)])
    else return q
  else
    let area := g.area cv f
    let dist := g.dist cv f
    let p : Loc K := { p with thcond := (p.thcond + 1) * (1 / 2) }
    if dist = 0 then none else
    if g.volume cv = 0 then none else
    return (p, st ++ [.addA iP iP (p.thcond * area / dist), .addB iP (p.thcond * area / dist / g.volume cv * v.Tf f),
      .addA iP iP ((1 - xsi) * p.dens * p.spheat * flux), .addB iP (-xsi * p.dens * p.spheat * flux * v.Tf f)])

/-- Body of the loop over control volumes: 91-189. -/
def heatCell (m : FvmMesh K) (g : Geom K) (v : State K) (st : List (Stamp K)) (cv : Int) : Option (List (Stamp K)) := do
  let iP ← index m cv
  let dens ← v.fl.dens cv
  let _visc ← v.fl.visc cv
  let thcond ← v.thcond cv
  let spheat ← v.spheat cv
  let (p, st) ← (← facesOf m cv).foldlM (heatFace m g v cv iP) (⟨dens, thcond, spheat⟩, st)
  return if v.fl.dt > 0 then st ++ [.addA iP iP (g.volume cv * p.spheat * p.dens / v.fl.dt), .addB iP (g.volume cv * p.spheat * p.dens / v.fl.dt * v.T0 cv)] else st

/-- The system that `calculateTemperatureField` solves: 78-191. -/
def heatSystem (m : FvmMesh K) (g : Geom K) (v : State K) : Option (Sys K) := do
  (Sys.zero .sparse m.cvs.ids.length).assemble (← m.cvs.ids.foldlM (heatCell m g v) [])

/-- `calculateTemperatureField`: 78-205; the linear solver is a parameter. -/
def calculateTemperatureField (m : FvmMesh K) (g : Geom K) (solve : Sys K → Nat → K) (v : State K) : Option (State K) := do
  let sys ← heatSystem m g v
  return { v with T := fun id => match index m id with
    | some k => solve sys k
    | none => v.T id }

/-- `iterate`: 207-213; `storePreviousQuantities` (43-49), called by the flow step, also stores the temperature. -/
def iterate (big : K) (m : FvmMesh K) (g : Geom K) (solveU solveP solveT : Sys K → Nat → K) (dt : K) (v : State K) : Option (State K) := do
  let fl ← Piso.iterate big m g solveU solveP dt v.fl
  calculateTemperatureField m g solveT { v with fl := fl, T0 := v.T }

end Heat
end ENigMA
