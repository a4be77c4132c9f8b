import Verif.Base.Arr
import Verif.Geometry.BBox
import Mathlib.Algebra.Order.Floor.Ring

/-!
# `CGeoHashGrid`: trunk/src/geometry/GeoHashGrid.hpp, GeoHashGrid_Imp.hpp, GeoContainer_Imp.hpp
-/

namespace ENigMA
namespace HashGrid

/-! ### Cell pointers: the counting sort of `build()` -/

/-- `m_coordinateListPtr[indx + 1]++` for each point in turn (first pass):
GeoHashGrid_Imp.hpp:91-114. The argument is the list of cell indices of the points. -/
def pass1 : List Nat → Arr Nat → Option (Arr Nat)
  | [], ptr => some ptr
  | c :: t, ptr => do
    let v ← ptr.read (c + 1)
    let ptr ← ptr.write (c + 1) (v + 1)
    pass1 t ptr

/-- `for (ie = 1; ie < m_nbCells + 1; ie++) ptr[ie] += ptr[ie - 1]`: GeoHashGrid_Imp.hpp:134-137.
`k` is the number of iterations still to do, `ie` the current index. -/
def accumulate : (k ie : Nat) → Arr Nat → Option (Arr Nat)
  | 0, _, ptr => some ptr
  | k + 1, ie, ptr => do
    let a ← ptr.read (ie - 1)
    let b ← ptr.read ie
    let ptr ← ptr.write ie (b + a)
    accumulate k (ie + 1) ptr

/-- Second pass: `istor = ptr[indx]; list[istor] = i; ptr[indx]++`: GeoHashGrid_Imp.hpp:91-126. -/
def pass2 : List Nat → Nat → Arr Nat → Arr Nat → Option (Arr Nat × Arr Nat)
  | [], _, ptr, list => some (ptr, list)
  | c :: t, i, ptr, list => do
    let istor ← ptr.read c
    let list ← list.write istor i
    let ptr ← ptr.write c (istor + 1)
    pass2 t (i + 1) ptr list

/-- `for (ie = m_nbCells; ie > 0; ie--) ptr[ie] = ptr[ie - 1]`: GeoHashGrid_Imp.hpp:149-152. -/
def shift : Nat → Arr Nat → Option (Arr Nat)
  | 0, ptr => some ptr
  | ie + 1, ptr => do
    let a ← ptr.read ie
    let ptr ← ptr.write (ie + 1) a
    shift ie ptr

/-- The two passes of `build()` given the cells of the points: GeoHashGrid_Imp.hpp:87-157.
`ptr`, `list` are the vectors after `m_coordinateListPtr.resize(m_nbCells + 1)`. -/
def csr (nCells : Nat) (cells : List Nat) (ptr list : Arr Nat) : Option (Arr Nat × Arr Nat) := do
  let ptr ← pass1 cells ptr
  let ptr ← accumulate nCells 1 ptr
  let nstor ← ptr.read nCells
  let list := list.resize nstor
  let (ptr, list) ← pass2 cells 0 ptr list
  let ptr ← shift nCells ptr
  let ptr ← ptr.write 0 0
  return (ptr, list)

/-! ### Grid -/

variable {K : Type} [Field K] [LinearOrder K] [FloorRing K]

/-- `static_cast<Integer>(r)`: truncation towards zero. -/
def trunc (r : K) : Int := if 0 ≤ r then ⌊r⌋ else ⌈r⌉

/-- `std::min(std::max(0, z), n - 1)` for `n ≥ 1`. -/
def clamp (z : Int) (n : Nat) : Nat := min z.toNat (n - 1)

/-- Machine-dependent data: `eps` is `numeric_limits<Real>::epsilon()`, `big` is `numeric_limits<Real>::max()`,
`cbrt n` is `static_cast<Integer>(pow(n, 0.333))`, and `bad` is what casting a NaN or infinity to `Integer` gives:
`none` if that is treated as undefined behaviour (as the C++ standard says), `some z` if the machine yields `z`. -/
structure Machine (K : Type) where
  eps : K
  big : K
  cbrt : Nat → Nat
  bad : Option Int

/-- `static_cast<Integer>(num * (1.0 / delta))` followed by the clamping to `[0, n-1]`:
GeoHashGrid_Imp.hpp:98-105, 173-180, 187-194. With `delta = 0` the argument of the cast is NaN or infinite.
The guards against exceeding the range of `Integer` (lines 173-175, 187-189) are not modelled, `Int` is unbounded. -/
def cellCoord (m : Machine K) (num delta : K) (n : Nat) : Option Nat :=
  if delta = 0 then m.bad.map (fun z => clamp z n) else some (clamp (trunc (num * (1 / delta))) n)

/-- State of a `CGeoHashGrid`. `objs` pairs `m_geometricObjectIds[i]` with `m_geometricObjects[i]`
(GeoContainer_Imp.hpp:33-38 always extends both together). -/
structure Grid (K : Type) where
  objs : List (Int × Vec3 K)
  nX : Nat
  nY : Nat
  nZ : Nat
  nXY : Nat
  nCells : Nat
  list : Arr Nat
  ptr : Arr Nat
  box : BBox K
  orig : Vec3 K
  delta : Vec3 K

/-- Constructor: GeoHashGrid_Imp.hpp:16-26. -/
def Grid.new (m : Machine K) : Grid K :=
  { objs := [], nX := 0, nY := 0, nZ := 0, nXY := 0, nCells := 0, list := Arr.empty, ptr := Arr.empty,
    box := BBox.reset m.big, orig := 0, delta := 0 }

/-- `reset()`: GeoHashGrid_Imp.hpp:33-40, GeoContainer_Imp.hpp:26-31. The bounding box, the sizes and the steps are left as they are. -/
def Grid.reset (g : Grid K) : Grid K := { g with objs := [], list := Arr.empty, ptr := Arr.empty }

/-- `addGeometricObject`: GeoContainer_Imp.hpp:33-38. -/
def Grid.addObj (g : Grid K) (id : Int) (p : Vec3 K) : Grid K := { g with objs := g.objs ++ [(id, p)] }

/-- Cell index of a point, GeoHashGrid_Imp.hpp:93-108. -/
def Grid.cellOf (m : Machine K) (g : Grid K) (p : Vec3 K) : Option Nat := do
  let i ← cellCoord m (p.x - g.orig.x) g.delta.x g.nX
  let j ← cellCoord m (p.y - g.orig.y) g.delta.y g.nY
  let k ← cellCoord m (p.z - g.orig.z) g.delta.z g.nZ
  return i + j * g.nX + k * g.nXY

/-- The sizes, origin and step computed by `build()` before the two passes: GeoHashGrid_Imp.hpp:45-85. -/
def Grid.setup (m : Machine K) (g : Grid K) : Grid K :=
  let box := (g.objs.map (·.2)).foldl BBox.addCoordinate g.box
  let n := m.cbrt g.objs.length + 1
  let d : Vec3 K := ⟨box.max.x - box.min.x, box.max.y - box.min.y, box.max.z - box.min.z⟩
  let nX := if d.x ≤ m.eps then 1 else n
  let nY := if d.y ≤ m.eps then 1 else n
  let nZ := if d.z ≤ m.eps then 1 else n
  let dmax := max d.x (max d.y d.z)
  let box := box.grow (m.eps * dmax)
  let r := 1 / (nX : K)
  { g with
    nX := nX, nY := nY, nZ := nZ, nXY := n * n, nCells := n * n * n
    ptr := g.ptr.resize (n * n * n + 1)
    box := box
    orig := box.min
    delta := ⟨(box.max.x - box.min.x) * r, (box.max.y - box.min.y) * r, (box.max.z - box.min.z) * r⟩ }

/-- `build()`: GeoHashGrid_Imp.hpp:42-158. -/
def Grid.build (m : Machine K) (g : Grid K) : Option (Grid K) := do
  let g := g.setup m
  let cells ← (g.objs.map (·.2)).mapM (g.cellOf m)
  let (ptr, list) ← csr g.nCells cells g.ptr g.list
  return { g with ptr := ptr, list := list }

/-- Integers `lo, lo+1, …, hi` (empty if `hi < lo`): `for (i = lo; i <= hi; ++i)`. -/
def upTo (lo hi : Nat) : List Nat := List.range' lo (hi + 1 - lo)

/-- The points of cell `ie` that pass the distance filter: GeoHashGrid_Imp.hpp:207-220. -/
def Grid.readCell (g : Grid K) (q : Vec3 K) (tol : K) (ie : Nat) : Option (List Int) := do
  let s ← g.ptr.read ie
  let e ← g.ptr.read (ie + 1)
  let found ← (List.range' s (e - s)).mapM fun iptr => do
    let idx ← g.list.read iptr
    let o ← g.objs[idx]?
    return if Vec3.Within o.2 q tol then [o.1] else []
  return found.flatten

/-- `find`: GeoHashGrid_Imp.hpp:160-224. `dist <= aTolerance` is `Vec3.Within`. -/
def Grid.find (m : Machine K) (g : Grid K) (q : Vec3 K) (tol : K) : Option (List Int) := do
  let imin ← cellCoord m (q.x - tol - g.orig.x) g.delta.x g.nX
  let jmin ← cellCoord m (q.y - tol - g.orig.y) g.delta.y g.nY
  let kmin ← cellCoord m (q.z - tol - g.orig.z) g.delta.z g.nZ
  let imax ← cellCoord m (q.x + tol - g.orig.x) g.delta.x g.nX
  let jmax ← cellCoord m (q.y + tol - g.orig.y) g.delta.y g.nY
  let kmax ← cellCoord m (q.z + tol - g.orig.z) g.delta.z g.nZ
  let cells := (upTo imin imax).flatMap fun i => (upTo jmin jmax).flatMap fun j =>
    (upTo kmin kmax).map fun k => i + j * g.nX + k * g.nXY
  let found ← cells.mapM (g.readCell q tol)
  return found.flatten

/-- Add objects one by one, as every caller does. -/
def Grid.addAll (g : Grid K) : List (Int × Vec3 K) → Grid K
  | [] => g
  | o :: t => (g.addObj o.1 o.2).addAll t

/-- Build a grid for a list of (id, point) pairs. -/
def ofList (m : Machine K) (objs : List (Int × Vec3 K)) : Option (Grid K) := ((Grid.new m).addAll objs).build m

end HashGrid
end ENigMA
