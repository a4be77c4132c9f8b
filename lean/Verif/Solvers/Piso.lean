import Verif.Fvm.FvmMesh
import Verif.Pde.Assembly
import Mathlib.Algebra.Order.Field.Basic

/-!
# `CFvmPisoSolver`

trunk/src/solvers/FvmPisoSolver_Imp.hpp. The maps `m_u`, `m_v`, `m_w` (and the others that come in threes) are one map of vectors. Maps
that the constructor fills for every control volume or face are functions; the maps filled later (`m_dens`, `m_visc`, `m_ap`) give
`none` for a missing key, where `.at` throws. The geometry calculated once in the constructor is the record `Geom`. The linear solver is
a parameter: Eigen's iterative solvers stop at a tolerance, the theorems state what they need of the returned vector. A division by zero
is `none`.
-/

set_option linter.unusedSectionVars false
set_option autoImplicit false

namespace ENigMA

/-- `EBoundaryType`: trunk/src/fvm/FvmFace.hpp:22-32. -/
inductive FvmBType where
  | none | interiorFace | interface | wallNoSlip | wallSlip | inletFlow | inletPressure | outlet
  deriving DecidableEq, Repr

namespace Piso
variable {K : Type} [Field K] [LinearOrder K] [IsStrictOrderedRing K]

/-- What the constructor calculates for the control volumes, FvmPisoSolver_Imp.hpp:30-46: the area and the normal of a face as a polygon of
a control volume, the distance between their centroids (`faceDist(f).norm()`), `originalVolume()`. The arguments are the ids of the
control volume and of the face. -/
structure Geom (K : Type) where
  area : Int → Int → K
  normal : Int → Int → Vec3 K
  dist : Int → Int → K
  volume : Int → K

/-- The geometry of an FVM mesh: the cached area, normal and volume of the polyhedra (FvmControlVolume_Imp.hpp:112-168, 282-301,
316-325). The distances, which come from centroids, are left arbitrary. -/
def Geom.ofMesh (nrm : Vec3 K → K) (eps : K) (dist : Int → Int → K) (m : FvmMesh K) : Geom K where
  area cv f := ((m.cvs.get? cv).map fun c => ((c.poly.polygon f).calculateArea nrm eps false).m_area).getD 0
  normal cv f := ((m.cvs.get? cv).map fun c => ((c.poly.polygon f).calculateArea nrm eps false).m_normal).getD 0
  dist := dist
  volume cv := ((m.cvs.get? cv).map fun c => (c.poly.calculateVolume nrm eps false).m_volume).getD 0

/-- The members of `CFvmPisoSolver` (FvmPisoSolver.hpp), without the mesh, the index maps and `m_massError`; and the boundary types of the
faces of its mesh. -/
structure State (K : Type) where
  dt : K
  grav : Vec3 K
  U : Int → Vec3 K
  U0 : Int → Vec3 K
  p : Int → K
  p0 : Int → K
  Uf : Int → Vec3 K
  pf : Int → K
  flux : Int → K
  dens : Int → Option K
  visc : Int → Option K
  ap : Int → Option K
  H : Int → Vec3 K
  bt : Int → FvmBType

/-- Constructor: FvmPisoSolver_Imp.hpp:20-77. -/
def State.init : State K where
  dt := 0
  grav := 0
  U _ := 0
  U0 _ := 0
  p _ := 0
  p0 _ := 0
  Uf _ := 0
  pf _ := 0
  flux _ := 0
  dens _ := Option.none
  visc _ := Option.none
  ap _ := Option.none
  H _ := 0
  bt _ := .none

/-- `m[key] = value` on a map. -/
def put {α : Type} (f : Int → α) (k : Int) (v : α) : Int → α := fun i => if i = k then v else f i

/-- `m_mapIdToIndex.at(id)`: the position of the control volume, FvmPisoSolver_Imp.hpp:54-55. -/
def index (m : FvmMesh K) (id : Int) : Option Nat := m.cvs.ids.idxOf? id

/-- The pairs (control volume, face) in the order in which the two nested loops `for i … for j …` visit them. -/
def visits (m : FvmMesh K) : Option (List (Int × Int)) :=
  (m.cvs.ids.mapM fun id => (m.cvs.get? id).map fun c => c.poly.ids.map fun f => (id, f)).map List.flatten

/-- The faces of one control volume. -/
def facesOf (m : FvmMesh K) (cv : Int) : Option (List Int) := (m.cvs.get? cv).map fun c => c.poly.ids

/-- `setGravity`: 142-149. -/
def setGravity (g : Vec3 K) (s : State K) : State K := { s with grav := g }

/-- `setMaterialProperties`: 151-163. -/
def setMaterialProperties (m : FvmMesh K) (dens visc : K) (s : State K) : State K :=
  { s with dens := fun id => if id ∈ m.cvs.ids then some dens else s.dens id
           visc := fun id => if id ∈ m.cvs.ids then some visc else s.visc id }

/-- `setBoundaryVelocity`: 165-180. -/
def setBoundaryVelocity : List Int → FvmBType → Vec3 K → State K → State K
  | [], _, _, s => s
  | f :: t, b, v, s => setBoundaryVelocity t b v { s with Uf := put s.Uf f v, bt := put s.bt f b }

/-- `setBoundaryPressure`: 182-195. -/
def setBoundaryPressure : List Int → FvmBType → K → State K → State K
  | [], _, _, s => s
  | f :: t, b, v, s => setBoundaryPressure t b v { s with pf := put s.pf f v, bt := put s.bt f b }

/-- Body of the loop of `gradient`: 90-114. -/
def gradFace (m : FvmMesh K) (g : Geom K) (var varf : Int → K) (cv : Int) (acc : Vec3 K) (f : Int) : Option (Vec3 K) := do
  let F ← m.faces.get? f
  if F.hasPair then
    let v := (var cv + var (F.neighborId cv)) * (1 / 2)
    return acc + (v * g.area cv f) • g.normal cv f
  else return acc + (varf f * g.area cv f) • g.normal cv f

/-- `gradient`: 84-122. -/
def gradient (m : FvmMesh K) (g : Geom K) (var varf : Int → K) (cv : Int) : Option (Vec3 K) := do
  let fs ← facesOf m cv
  let v ← fs.foldlM (gradFace m g var varf cv) 0
  return if g.volume cv > 0 then (1 / g.volume cv) • v else v

/-! ### Momentum -/

/-- The statements on the matrix executed so far, and the three right-hand sides. -/
structure Mom (K : Type) where
  st : List (Stamp K)
  b : Nat → Vec3 K

/-- `b[i] += v`. -/
def addVec (b : Nat → Vec3 K) (i : Nat) (v : Vec3 K) : Nat → Vec3 K := fun j => if j = i then b j + v else b j

/-- The flux out of a control volume, as its owner or its neighbour sees it: 245-250, 648-653. -/
def signedFlux (m : FvmMesh K) (s : State K) (cv f : Int) : Option K := do
  let F ← m.faces.get? f
  return if F.cvId = cv then s.flux f else -s.flux f

/-- Body of the loop over faces of `calculateVelocityField`: 232-302. -/
def momentumFace (m : FvmMesh K) (g : Geom K) (s : State K) (cv : Int) (iP : Nat) (q : Mom K) (f : Int) : Option (Mom K) := do
  let F ← m.faces.get? f
  let dens ← s.dens cv
  let visc ← s.visc cv
  let n := g.normal cv f
  let area := g.area cv f
  let dist := g.dist cv f
  let flux ← signedFlux m s cv f
  let vol := g.volume cv
  if F.hasPair then
    let nb := F.neighborId cv
    let iN ← index m nb
    let c ← m.cvs.get? nb
    if c.poly.containsPolygon f then
      let area := (area + g.area nb f) * (1 / 2)
      let dist := dist + g.dist nb f
      let dens := (dens + (← s.dens nb)) * (1 / 2)
      let visc := (visc + (← s.visc nb)) * (1 / 2)
      if dist = 0 then Option.none else
      let xsi : K := 1 / 2
      return { q with st := q.st ++ [.addA iP iP ((1 - xsi) * dens * flux / vol), .addA iP iP (visc * area / dist / vol),
        .addA iP iN (xsi * dens * flux / vol), .addA iP iN (-visc * area / dist / vol)] }
    else return q
  else
    if dist = 0 then Option.none else
    return { st := q.st ++ [.addA iP iP (visc * area / dist / vol)]
             b := addVec (addVec q.b iP ((visc * area / dist / vol) • s.Uf f)) iP
                    ⟨-dens * (s.Uf f).x * area * flux * n.x / vol, -dens * (s.Uf f).y * area * flux * n.y / vol,
                     -dens * (s.Uf f).z * area * flux * n.z / vol⟩ }

/-- Body of the loop over control volumes: 217-324. -/
def momentumCell (m : FvmMesh K) (g : Geom K) (s : State K) (q : Mom K) (cv : Int) : Option (Mom K) := do
  let iP ← index m cv
  if g.volume cv ≤ 0 then return q
  let fs ← facesOf m cv
  let q ← fs.foldlM (momentumFace m g s cv iP) q
  let dens ← s.dens cv
  let gp ← gradient m g s.p s.pf cv
  let q := { q with b := addVec (addVec q.b iP (dens • s.grav)) iP gp }
  if s.dt > 0 then
    return { st := q.st ++ [.addA iP iP (dens / s.dt)], b := addVec q.b iP ((dens / s.dt) • s.U0 cv) }
  else return q

/-- A statement writes the diagonal entry `k`. -/
def writesDiag (k : Nat) : Stamp K → Bool
  | .addA i j _ => decide (i = (k : Int) ∧ j = (k : Int))
  | _ => false

/-- `m_Hu`, `m_Hv`, `m_Hw` of the control volume in row `k`: 335-358. `Eigen::SparseMatrix<Real>` is stored by columns, so that the inner iterator
runs over the entries of column `k`; entries not stored are zero and do not change the sum. -/
def hValue (A : Nat → Nat → K) (n : Nat) (b gp u : Vec3 K) (k : Nat) : Vec3 K :=
  (List.range n).foldl (fun h r => if r = k then h else h + (-A r k) • u) (b - gp)

/-- The three equations solved by `calculateVelocityField`, with the same matrix. -/
def momentumSystem (m : FvmMesh K) (g : Geom K) (s : State K) : Option (Mom K × Sys K) := do
  let q ← m.cvs.ids.foldlM (momentumCell m g s) ⟨[], fun _ => 0⟩
  let sys ← (Sys.zero .sparse m.cvs.ids.length).assemble q.st
  return (q, sys)

/-- `calculateVelocityField`: 197-359. `m_u`, `m_v`, `m_w` are not changed; `m_ap` is changed only if the diagonal entry is stored. -/
def calculateVelocityField (m : FvmMesh K) (g : Geom K) (solve : Sys K → Nat → K) (s : State K) : Option (State K) := do
  let (q, sys) ← momentumSystem m g s
  let u : Nat → Vec3 K := fun k =>
    ⟨solve { sys with b := fun i => (q.b i).x } k, solve { sys with b := fun i => (q.b i).y } k, solve { sys with b := fun i => (q.b i).z } k⟩
  let gps ← m.cvs.ids.mapM (gradient m g s.p s.pf)
  return { s with
    H := fun id => match index m id with
      | some k => hValue sys.A m.cvs.ids.length (q.b k) (gps.getD k 0) (u k) k
      | Option.none => s.H id
    ap := fun id => match index m id with
      | some k => if q.st.any (writesDiag k) then some (sys.A k k) else s.ap id
      | Option.none => s.ap id }

/-! ### Pressure -/

/-- Area, distance and mean diagonal coefficient of a face between two control volumes: 408-413, 532-537. -/
def pairVals (g : Geom K) (s : State K) (cv nb f : Int) : Option (K × K × K) := do
  let area := (g.area cv f + g.area nb f) * (1 / 2)
  let dist := g.dist cv f + g.dist nb f
  let ap := ((← s.ap cv) + (← s.ap nb)) * (1 / 2)
  if ap * dist = 0 then Option.none else return (area, dist, ap)

/-- Body of the loops of `calculatePressureField`: 382-486. -/
def pressureFace (m : FvmMesh K) (g : Geom K) (q : State K × List (Stamp K)) (v : Int × Int) : Option (State K × List (Stamp K)) := do
  let (cv, f) := v
  let (s, st) := q
  let iP ← index m cv
  let F ← m.faces.get? f
  let n := g.normal cv f
  if F.hasPair then
    let nb := F.neighborId cv
    let iN ← index m nb
    let c ← m.cvs.get? nb
    if c.poly.containsPolygon f then
      let (area, dist, ap) ← pairVals g s cv nb f
      let Hf := ((1 / 2 : K) • (s.H cv + s.H nb)).dot n
      let fl := -Hf / ap * area
      return ({ s with flux := put s.flux f fl },
        st ++ [.addA iP iP (-1 / (ap * dist) * area), .addA iP iN (1 / (ap * dist) * area), .addB iP (-fl)])
    else return q
  else
    let ap ← s.ap cv
    let area := g.area cv f
    let dist := g.dist cv f
    let Hf := (s.H cv).dot n
    match s.bt f with
    | .wallNoSlip => return q
    | .inletFlow => return ({ s with flux := put s.flux f (-((s.Uf f).dot n) * area) }, st ++ [.addB iP (-s.flux f)])
    | .inletPressure =>
      if ap * dist * area = 0 then Option.none else
      let fl := -Hf / ap * area
      return ({ s with flux := put s.flux f fl, Uf := put s.Uf f ((-fl / area) • n) },
        st ++ [.addA iP iP (-1 / (ap * dist) * area), .addB iP (-1 / (ap * dist) * area * s.pf f), .addB iP (-fl)])
    | .outlet =>
      if ap * dist * area = 0 then Option.none else
      let fl := -Hf / ap * area
      return ({ s with flux := put s.flux f fl, Uf := put s.Uf f ((-fl / area) • n) },
        st ++ [.addA iP iP (-1 / (ap * dist) * area), .addB iP (-fl)])
    | _ => return q

/-- The state and the system when the pressure equation is about to be solved: 361-489. -/
def pressureSystem (m : FvmMesh K) (g : Geom K) (s : State K) : Option (State K × Sys K) := do
  let (s', st) ← (← visits m).foldlM (pressureFace m g) (s, [])
  let sys ← (Sys.zero .sparse m.cvs.ids.length).assemble st
  return (s', sys)

/-- `calculatePressureField`: 361-503. -/
def calculatePressureField (m : FvmMesh K) (g : Geom K) (solve : Sys K → Nat → K) (s : State K) : Option (State K) := do
  let (s', sys) ← pressureSystem m g s
  return { s' with p := fun id => match index m id with
    | some k => solve sys k
    | Option.none => s'.p id }

/-- Body of the loops of `correctFlux`: 514-569. -/
def correctFluxFace (m : FvmMesh K) (g : Geom K) (s : State K) (v : Int × Int) : Option (State K) := do
  let (cv, f) := v
  let F ← m.faces.get? f
  if F.hasPair then
    let nb := F.neighborId cv
    let c ← m.cvs.get? nb
    if c.poly.containsPolygon f then
      let (area, dist, ap) ← pairVals g s cv nb f
      if F.cvId = cv then return { s with flux := put s.flux f (s.flux f - area / (ap * dist) * (s.p nb - s.p cv)) }
      else return s
    else return s
  else
    let ap ← s.ap cv
    let area := g.area cv f
    let dist := g.dist cv f
    match s.bt f with
    | .wallNoSlip => return { s with flux := put s.flux f 0, pf := put s.pf f (s.p cv) }
    | .inletFlow => return { s with pf := put s.pf f (s.p cv) }
    | .inletPressure =>
      if ap * dist = 0 then Option.none else
      return { s with flux := put s.flux f (s.flux f + area / (ap * dist) * (s.pf f - s.p cv)) }
    | .outlet =>
      if ap * dist = 0 then Option.none else
      return { s with flux := put s.flux f (s.flux f + area / (ap * dist) * s.p cv), pf := put s.pf f 0 }
    | _ => return s

/-- `correctFlux`: 505-571. -/
def correctFlux (m : FvmMesh K) (g : Geom K) (s : State K) : Option (State K) := do
  (← visits m).foldlM (correctFluxFace m g) s

/-- Body of the loop of `correctVelocityField`: 577-587. -/
def correctVelocityCell (m : FvmMesh K) (g : Geom K) (s : State K) (cv : Int) : Option (State K) := do
  let gp ← gradient m g s.p s.pf cv
  let ap ← s.ap cv
  if ap = 0 then Option.none else
  return { s with U := put s.U cv ((1 / ap) • (s.H cv - gp)) }

/-- `correctVelocityField`: 573-588. -/
def correctVelocityField (m : FvmMesh K) (g : Geom K) (s : State K) : Option (State K) := m.cvs.ids.foldlM (correctVelocityCell m g) s

/-- `p_min` of `correctPressureField`: 594-602; `big` is `numeric_limits<Real>::max()`. -/
def pMin (big : K) (p : Int → K) (ids : List Int) : K := ids.foldl (fun a id => min a (p id)) big

/-- `correctPressureField`: 590-619. The ids of control volumes and of faces are distinct. -/
def correctPressureField (big : K) (m : FvmMesh K) (s : State K) : State K :=
  let pm := pMin big s.p m.cvs.ids
  { s with p := fun id => if id ∈ m.cvs.ids then s.p id - pm else s.p id
           pf := fun f => if f ∈ m.faces.ids then s.pf f - pm else s.pf f }

/-- `setTimeInterval` and `storePreviousQuantities`: 124-140. -/
def beginStep (dt : K) (s : State K) : State K := { s with dt := dt, U0 := s.U, p0 := s.p }

/-- `iterate`: 621-635. -/
def iterate (big : K) (m : FvmMesh K) (g : Geom K) (solveU solveP : Sys K → Nat → K) (dt : K) (s : State K) : Option (State K) := do
  let s ← calculateVelocityField m g solveU (beginStep dt s)
  let s ← calculatePressureField m g solveP s
  let s ← correctFlux m g s
  let s ← correctVelocityField m g s
  return correctPressureField big m s

/-- `checkMassConservationCell`: 637-659. -/
def checkMassConservationCell (m : FvmMesh K) (s : State K) (cv : Int) : Option K := do
  (← facesOf m cv).foldlM (fun acc f => do return acc + (← signedFlux m s cv f)) 0

/-- `checkMassConservation`: 661-683. -/
def checkMassConservation (m : FvmMesh K) (s : State K) : Option K := do
  let sum ← m.cvs.ids.foldlM (fun acc cv => do return acc + |← checkMassConservationCell m s cv|) 0
  return if m.cvs.ids.length > 0 then sum / (m.cvs.ids.length : K) else sum

end Piso
end ENigMA
