import Verif.Solvers.Piso

/-!
# `CFvmVofSolver`

trunk/src/solvers/FvmVofSolver_Imp.hpp: two fluids on one mesh, told apart by a phase fraction `s` per control volume. It derives from `CFvmPisoSolver`, whose state it
extends. The members for the phases are not initialised by the constructor: `phases` is `none` until `setMaterialProperties`. `m_betaf` and `m_Co` are
filled for every face and every control volume before they are read (`iterate` is the only public function that reads them), so they are functions.
-/

set_option linter.unusedSectionVars false
set_option autoImplicit false

namespace ENigMA
namespace Vof
open Piso
variable {K : Type} [Field K] [LinearOrder K] [IsStrictOrderedRing K]

/-- `m_dens0`, `m_visc0`, `m_dens1`, `m_visc1`: FvmVofSolver.hpp:24-28. -/
structure Phases (K : Type) where
  dens0 : K
  visc0 : K
  dens1 : K
  visc1 : K

/-- The members of `CFvmVofSolver`: FvmVofSolver.hpp:24-35. -/
structure State (K : Type) where
  fl : Piso.State K
  phases : Option (Phases K)
  s0 : Int → K
  s : Int → K
  sf : Int → K
  betaf : Int → K
  Co : Int → K

/-- What the functions take from outside the model: `normal` is the normal of a face as calculated by the constructor of the flow solver, `nrm` the length of a
vector, `cosTwoAcos x` is `cos(2 * acos(x))`, `trunc` the conversion `(Integer)x` for a value that fits, `epsilon` is `numeric_limits<Real>::epsilon()`. -/
structure Env (K : Type) where
  normal : Int → Vec3 K
  nrm : Vec3 K → K
  cosTwoAcos : K → K
  trunc : K → Nat
  epsilon : K

/-- Constructor: FvmVofSolver_Imp.hpp:21-37. -/
def State.init : State K where
  fl := Piso.State.init
  phases := none
  s0 _ := 0
  s _ := 0
  sf _ := 0
  betaf _ := 0
  Co _ := 0

/-- `updateProperties`: 333-343. `none`: the phases are read uninitialised. -/
def updateProperties (m : FvmMesh K) (v : State K) : Option (State K) := do
  let ph ← v.phases
  return { v with fl := { v.fl with
    dens := fun id => if id ∈ m.cvs.ids then some (ph.dens0 * (1 - v.s id) + ph.dens1 * v.s id) else v.fl.dens id
    visc := fun id => if id ∈ m.cvs.ids then some (ph.visc0 * (1 - v.s id) + ph.visc1 * v.s id) else v.fl.visc id } }

/-- `setMaterialProperties`: 52-62. -/
def setMaterialProperties (m : FvmMesh K) (ph : Phases K) (v : State K) : Option (State K) := updateProperties m { v with phases := some ph }

/-- `setInitialGamma`: 64-68. -/
def setInitialGamma (cv : Int) (x : K) (v : State K) : State K := { v with s := put v.s cv x }

/-- `setBoundaryGamma`: 77-88 (and 70-75 for a single face). -/
def setBoundaryGamma : List Int → FvmBType → K → State K → State K
  | [], _, _, v => v
  | f :: t, b, x, v => setBoundaryGamma t b x { v with sf := put v.sf f x, fl := { v.fl with bt := put v.fl.bt f b } }

/-- `std::min(std::max(x, 0.0), 1.0)`. -/
def clamp (x : K) : K := min (max x 0) 1

/-- Body of the loop over faces of `calculateCourant`: 113-128. -/
def courantFace (m : FvmMesh K) (g : Geom K) (v : State K) (dt cs : K) (cv : Int) (acc : K) (f : Int) : Option K := do
  let flux ← signedFlux m v.fl cv f
  if g.volume cv = 0 then none else
  return acc + cs * max (-flux * g.area cv f * dt / g.volume cv) 0

/-- Body of the loop over control volumes: 95-134. -/
def courantCell (m : FvmMesh K) (g : Geom K) (dt : K) (bInterface : Bool) (q : State K × K) (cv : Int) : Option (State K × K) := do
  let (v, mx) := q
  let s := clamp (v.s cv)
  let cs := if bInterface then (1 - s) * (1 - s) * s * s * 16 else 1
  let cpp ← (← facesOf m cv).foldlM (courantFace m g v dt cs cv) 0
  return ({ v with Co := put v.Co cv cpp }, max mx cpp)

/-- `calculateCourant`: 90-137. -/
def calculateCourant (m : FvmMesh K) (g : Geom K) (dt : K) (bInterface : Bool) (v : State K) : Option (State K × K) :=
  m.cvs.ids.foldlM (courantCell m g dt bInterface) (v, 0)

/-- The interpolation weight of a face between two control volumes: 165-243; `dot` and `l1 * l2` as calculated there. -/
def predictFace (e : Env K) (tol sd sa cod dot l : K) : K :=
  let su := clamp (sa - 2 * dot)
  let cod := min cod 1
  if |sa - su| > tol then
    let sdn := (sd - su) / (sa - su)
    let cbc := if 0 ≤ sdn ∧ sdn ≤ 1 ∧ |cod| > tol then min 1 (sdn / cod) else sdn
    let uq := if 0 ≤ sdn ∧ sdn ≤ 1 then min ((8 * cod * sdn + (1 - cod) * (6 * sdn + 3)) / 8) cbc else sdn
    let ang := if |l| > tol then |dot / l| else |dot / tol|
    let ang := if ang > 1 then 1 else ang
    let q := min (2 * (1 / 2) * (e.cosTwoAcos ang + 1)) 1
    let sjn := q * cbc + (1 - q) * uq
    if |1 - sdn| > tol then clamp ((sjn - sdn) / (1 - sdn)) else 1
  else 1

/-- Body of the loop of `predictBeta`: 147-246. -/
def predictBetaFace (e : Env K) (m : FvmMesh K) (g : Geom K) (tol : K) (v : State K) (f : Int) : Option (State K) := do
  let F ← m.faces.get? f
  let cv := F.cvId
  if F.hasPair then
    let nb := F.neighborId cv
    let flux ← signedFlux m v.fl cv f
    let dist := g.dist cv f
    let acceptor := if flux < 0 then nb else cv
    let donor := if flux < 0 then cv else nb
    let gs ← gradient m g v.s v.sf donor
    let dot := gs.dot (e.normal f) * dist
    return { v with betaf := put v.betaf f (predictFace e tol (v.s donor) (v.s acceptor) (v.Co donor) dot (e.nrm gs * dist)) }
  else return { v with betaf := put v.betaf f 1 }

/-- `predictBeta`: 139-248. -/
def predictBeta (e : Env K) (m : FvmMesh K) (g : Geom K) (tol : K) (v : State K) : Option (State K) := m.faces.ids.foldlM (predictBetaFace e m g tol) v

/-- The correction `cbetaj` of a weight: 289-324; `sd` is the value of the donor. -/
def correction (e : Env K) (tol ds cj beta sd : K) : K :=
  let em := max (-sd) 0
  let ep := max (sd - 1) 0
  let c := if sd < 0 ∧ em > tol ∧ cj > tol ∧ ds > em then min (em * (2 + cj - 2 * cj * beta) / (2 * cj * (ds - em))) beta else 0
  if sd > 1 ∧ ep > e.epsilon ∧ cj > e.epsilon ∧ ds < -ep then min (ep * (2 + cj - 2 * cj * beta) / (2 * cj * (-ds - ep))) beta else c

/-- The correction of the face of a control volume: 266-325. -/
def correctionOf (e : Env K) (m : FvmMesh K) (g : Geom K) (dt tol : K) (v : State K) (F : FvmFace K) (f : Int) : Option K := do
  if F.hasPair then
    let cv := F.cvId
    let nb := F.neighborId cv
    let flux ← signedFlux m v.fl cv f
    if flux = 0 then return 0
    else if g.volume cv = 0 then none
    else
      let acceptor := if flux < 0 then nb else cv
      let donor := if flux < 0 then cv else nb
      let cj := clamp (-flux * g.area cv f * dt / g.volume cv)
      let ds := 1 / 2 * (v.s0 acceptor + v.s acceptor) - 1 / 2 * (v.s0 donor + v.s donor)
      return correction e tol ds cj (v.betaf f) (v.s donor)
  else return 0

/-- Body of the loop of `correctBeta`: 255-330. -/
def correctBetaFace (e : Env K) (m : FvmMesh K) (g : Geom K) (dt tol : K) (v : State K) (f : Int) : Option (State K) := do
  let F ← m.faces.get? f
  if v.betaf f < 1 / 100 then return v
  else
    let c ← correctionOf e m g dt tol v F f
    return { v with betaf := put v.betaf f (max (v.betaf f - c) 0) }

/-- `correctBeta`: 250-331. -/
def correctBeta (e : Env K) (m : FvmMesh K) (g : Geom K) (dt tol : K) (v : State K) : Option (State K) :=
  m.faces.ids.foldlM (correctBetaFace e m g dt tol) v

/-- Body of the loop over faces of `calculateGammaField`: 368-411. -/
def gammaFace (m : FvmMesh K) (v : State K) (cv : Int) (iP : Nat) (st : List (Stamp K)) (f : Int) : Option (List (Stamp K)) := do
  let F ← m.faces.get? f
  let flux ← signedFlux m v.fl cv f
  if F.hasPair then
    let nb := F.neighborId cv
    let iN ← index m nb
    let c ← m.cvs.get? nb
    if c.poly.containsPolygon f then
      let beta := if flux < 0 then v.betaf f else 1 - v.betaf f
      return st ++ [.addA iP iP (1 / 2 * (1 - beta) * flux), .addA iP iN (1 / 2 * beta * flux),
        .addB iP (-(1 / 2) * (1 - beta) * flux * v.s cv), .addB iP (-(1 / 2) * beta * flux * v.s nb)]
    else return st
  else return st ++ [.addB iP (-1 * flux * v.sf f)]

/-- Body of the loop over control volumes: 360-419. -/
def gammaCell (m : FvmMesh K) (g : Geom K) (v : State K) (st : List (Stamp K)) (cv : Int) : Option (List (Stamp K)) := do
  let iP ← index m cv
  let st ← (← facesOf m cv).foldlM (gammaFace m v cv iP) st
  return if v.fl.dt > 0 then st ++ [.addA iP iP (g.volume cv / v.fl.dt), .addB iP (g.volume cv / v.fl.dt * v.s0 cv)] else st

/-- The system that `calculateGammaField` solves: 345-421. -/
def gammaSystem (m : FvmMesh K) (g : Geom K) (v : State K) : Option (Sys K) := do
  (Sys.zero .sparse m.cvs.ids.length).assemble (← m.cvs.ids.foldlM (gammaCell m g v) [])

/-- `calculateGammaField`: 345-435; the linear solver is a parameter. -/
def calculateGammaField (m : FvmMesh K) (g : Geom K) (solve : Sys K → Nat → K) (v : State K) : Option (State K) := do
  let sys ← gammaSystem m g v
  return { v with s := fun id => match index m id with
    | some k => clamp (solve sys k)
    | none => v.s id }

/-- One of the two correction passes of `iterate`: 461-467, with `m = 2`. -/
def pass (e : Env K) (m : FvmMesh K) (g : Geom K) (solve : Sys K → Nat → K) (dt tol : K) (v : State K) : Option (State K) := do
  let (v, _) ← calculateCourant m g (dt / 2) false v
  let v ← calculateGammaField m g solve v
  correctBeta e m g (dt / 2) tol v

/-- The outer loop of `iterate`: 449-469. -/
def outer (e : Env K) (m : FvmMesh K) (g : Geom K) (solve : Sys K → Nat → K) (dt tol : K) : Nat → State K → Option (State K)
  | 0, v => some v
  | n + 1, v => do
    let v ← predictBeta e m g tol v
    let v ← pass e m g solve dt tol v
    let v ← pass e m g solve dt tol v
    outer e m g solve dt tol n v

/-- `iterate`: 437-470; `storePreviousQuantities` (45-50), called by the flow step, also stores the phase fraction; `tol` is `1E-16`. -/
def iterate (big : K) (e : Env K) (m : FvmMesh K) (g : Geom K) (solveU solveP solveS : Sys K → Nat → K) (tol dt : K) (v : State K) : Option (State K) := do
  let v ← updateProperties m v
  let fl ← Piso.iterate big m g solveU solveP dt v.fl
  let (v, mx) ← calculateCourant m g dt true { v with fl := fl, s0 := v.s }
  outer e m g solveS dt tol (min (e.trunc (mx * 2) + 1) 100) v

end Vof
end ENigMA
