import Verif.Mesh.Mesh
import Verif.Geometry.Line
import Verif.Geometry.Solids

/-!
# `CMshBasicMesher`: trunk/src/mesh/MshBasicMesher_Imp.hpp

The four `generate` functions. `nrm` is the Euclidean length. `Integer` is an unbounded integer here: the overflow of `int` is not modelled.
The nested `for` loops that add nodes and elements under the running counters `nn` and `ne` are `grid2`, `grid3` (what is added, in order) and
`addAll` (the counter).
-/

set_option linter.unusedSectionVars false

namespace ENigMA
namespace BasicMesher

/-- `mesh.addX(n, x); n++` for each of a list. -/
def addAll {α : Type} : List α → Cont α → Int → Cont α
  | [], c, _ => c
  | a :: t, c, n => addAll t (c.add n a) (n + 1)

/-- `for (i = 0; i < n; ++i)`, collecting. -/
def loop {α : Type} (n : Int) (f : Nat → List α) : List α := (List.range n.toNat).flatMap f

variable {K : Type} [Field K] [LinearOrder K] [IsStrictOrderedRing K]

/-- `normalize()` of Eigen: a vector whose squared norm is not positive is left as it is. -/
def unit (nrm : Vec3 K → K) (v : Vec3 K) : Vec3 K := if 0 < v.normSq then (nrm v)⁻¹ • v else v

/-- `if (n > 0) d = v.norm() / n; else d = 0.0;`, for example lines 39-42. -/
def spacing (nrm : Vec3 K → K) (v : Vec3 K) (n : Int) : K := if 0 < n then nrm v / n else 0

/-- The mesh of the mesher, and the values given to `setDx`, `setDy`, `setDz` (zero after `reset()`). -/
structure Gen (K : Type) where
  mesh : Mesh K
  dx : K
  dy : K
  dz : K

/-- `m_mesh.reset()`, then the nodes and the elements. -/
def build (nodes : List (Vec3 K)) (elements : List Elem) : Mesh K :=
  { (Mesh.empty : Mesh K) with nodes := addAll nodes Cont.empty 0, elements := addAll elements Cont.empty 0 }

/-- `generate(line, nu)`: lines 31-73. -/
def generateLine (nrm : Vec3 K → K) (l : GLine K) (nu : Int) : Gen K :=
  let u := unit nrm l.vec
  let du := spacing nrm l.vec nu
  { mesh := build
      (loop (nu + 1) fun i => [l.startP + (i : K) • (du • u)])
      (loop nu fun i => [{ elementType := .beam, nodeIds := [(i : Int), i + 1] }])
    dx := du, dy := 0, dz := 0 }

/-- The elements of one cell of `generate(quadrilateral, …)`: lines 118-157. -/
def quadCell (nu : Int) (decimate : Bool) (i j : Nat) : List Elem :=
  if decimate then
    [{ elementType := .triangle, nodeIds := [(nu + 1) * j + i, (nu + 1) * j + i + 1, (nu + 1) * (j + 1) + i + 1] },
     { elementType := .triangle, nodeIds := [(nu + 1) * j + i, (nu + 1) * (j + 1) + i + 1, (nu + 1) * (j + 1) + i] }]
  else
    [{ elementType := .quadrilateral,
       nodeIds := [(nu + 1) * j + i, (nu + 1) * j + i + 1, (nu + 1) * (j + 1) + i + 1, (nu + 1) * (j + 1) + i] }]

/-- `generate(quadrilateral, nu, nv, decimate)`: lines 75-162. -/
def generateQuad (nrm : Vec3 K → K) (q : Quad K) (nu nv : Int) (decimate : Bool) : Gen K :=
  let vu := q.v1 - q.v0
  let vv := q.v3 - q.v0
  let u := unit nrm vu
  let v := unit nrm vv
  let du := spacing nrm vu nu
  let dv := spacing nrm vv nv
  { mesh := build
      (loop (nv + 1) fun j => loop (nu + 1) fun i => [q.v0 + (i : K) • (du • u) + (j : K) • (dv • v)])
      (loop nv fun j => loop nu fun i => quadCell nu decimate i j)
    dx := du, dy := dv, dz := 0 }

/-- `nodeId[8]` of a cell: lines 234-243, 404-413. -/
def hexIds (nu nv : Int) (i j k : Nat) : List Int :=
  [(nu + 1) * (nv + 1) * k + (nu + 1) * j + i,
   (nu + 1) * (nv + 1) * k + (nu + 1) * j + i + 1,
   (nu + 1) * (nv + 1) * k + (nu + 1) * (j + 1) + i + 1,
   (nu + 1) * (nv + 1) * k + (nu + 1) * (j + 1) + i,
   (nu + 1) * (nv + 1) * (k + 1) + (nu + 1) * j + i,
   (nu + 1) * (nv + 1) * (k + 1) + (nu + 1) * j + i + 1,
   (nu + 1) * (nv + 1) * (k + 1) + (nu + 1) * (j + 1) + i + 1,
   (nu + 1) * (nv + 1) * (k + 1) + (nu + 1) * (j + 1) + i]

/-- The positions in `nodeId` of the nodes of the six tetrahedra: lines 245-321, 415-491. -/
def tetPositions : List (List Nat) := [[3, 0, 1, 7], [1, 0, 4, 7], [5, 1, 4, 7], [3, 1, 2, 7], [2, 1, 6, 7], [6, 1, 5, 7]]

/-- The elements of one cell: lines 245-343, 415-513. -/
def hexCell (nu nv : Int) (decimate : Bool) (i j k : Nat) : List Elem :=
  let ids := hexIds nu nv i j k
  if decimate then tetPositions.map fun t => { elementType := .tetrahedron, nodeIds := t.map fun p => ids.getD p 0 }
  else [{ elementType := .hexahedron, nodeIds := ids }]

/-- The node loops of the two three-dimensional functions: lines 207-224, 377-394. `u`, `v`, `w` are the displacements per step. -/
def nodes3 (origin u v w : Vec3 K) (nu nv nw : Int) : List (Vec3 K) :=
  loop (nw + 1) fun k => loop (nv + 1) fun j => loop (nu + 1) fun i => [origin + (i : K) • u + (j : K) • v + (k : K) • w]

/-- The element loops: lines 226-346, 396-516. -/
def cells3 (nu nv nw : Int) (decimate : Bool) : List Elem :=
  loop nw fun k => loop nv fun j => loop nu fun i => hexCell nu nv decimate i j k

/-- `generate(hexahedron, nu, nv, nw, decimate)`: lines 164-349. -/
def generateHex (nrm : Vec3 K → K) (h : Hex K) (nu nv nw : Int) (decimate : Bool) : Gen K :=
  let vu := h.v1 - h.v0
  let vv := h.v3 - h.v0
  let vw := h.v4 - h.v0
  let du := spacing nrm vu nu
  let dv := spacing nrm vv nv
  let dw := spacing nrm vw nw
  { mesh := build (nodes3 h.v0 (du • unit nrm vu) (dv • unit nrm vv) (dw • unit nrm vw) nu nv nw) (cells3 nu nv nw decimate)
    dx := du, dy := dv, dz := dw }

/-- `generate(boundingBox, meshSize, decimate)`: lines 351-519. `none` is the cast to `Integer` of a quotient by zero. -/
def generateBox [FloorRing K] (nrm : Vec3 K → K) (b : BBox K) (size : K) (decimate : Bool) : Option (Gen K) :=
  let vec := b.max - b.min
  let vu : Vec3 K := ⟨vec.x, 0, 0⟩
  let vv : Vec3 K := ⟨0, vec.y, 0⟩
  let vw : Vec3 K := ⟨0, 0, vec.z⟩
  if size = 0 then none
  else
    let nu := HashGrid.trunc (nrm vu / size)
    let nv := HashGrid.trunc (nrm vv / size)
    let nw := HashGrid.trunc (nrm vw / size)
    some
      { mesh := build (nodes3 b.min (size • unit nrm vu) (size • unit nrm vv) (size • unit nrm vw) nu nv nw) (cells3 nu nv nw decimate)
        dx := size, dy := size, dz := size }

end BasicMesher
end ENigMA
