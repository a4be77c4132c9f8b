import Verif.Mesh.Mesh

/-!
# VTK and Gnuplot files: trunk/src/post/PosVtk_Imp.hpp, PosGnuplot_Imp.hpp

A file is the list of its tokens after the two title lines and the word `ASCII`. `prt0` is the effect of writing a number with the 6 significant digits a
stream starts with and reading it back, `prt` the effect with 16 digits. Opening the file succeeds. `none` stands for an exception of `at` while
writing, and for a read past the end of `u`.
-/

set_option linter.unusedSectionVars false
set_option autoImplicit false

namespace ENigMA
namespace Vtk

/-- A token of the file. -/
inductive Tok (K : Type) where
  | word (s : String)
  | int (n : Int)
  | real (x : K)
  deriving DecidableEq, Repr

/-- `EDiscretLocation`, the two places that matter here. -/
inductive Location where
  | node | elementCenter
  deriving DecidableEq, Repr

variable {K : Type} [DecidableEq K] (prt0 prt : K → K)

/-- The point at position `i`: PosVtk_Imp.hpp:65-68. `setprecision(16)` comes after the first coordinate, and lasts: only the first number of the
file is written with 6 digits. -/
def pointLine (m : Mesh K) (i : Nat) : Option (List (Tok K)) := do
  let id ← m.nodes.idAt? i
  let v ← m.nodes.get? id
  return [.real ((if i = 0 then prt0 else prt) v.x), .real (prt v.y), .real (prt v.z)]

/-- The sizes counted for `CELLS`: PosVtk_Imp.hpp:79-102. -/
def cellSize : ElementType → Nat
  | .beam => 2
  | .triangle => 3
  | .quadrilateral => 4
  | .tetrahedron => 4
  | .hexahedron => 8
  | .triangularPrism => 6
  | _ => 0

/-- The nodes that are written for an element, and in which order; `none`: not even their number is written. PosVtk_Imp.hpp:115-165. -/
def cellOrder : ElementType → Option (List Nat)
  | .beam => some [0, 1]
  | .triangle => some [0, 1, 2]
  | .tetrahedron => some [0, 2, 1, 3]
  | .hexahedron => some [0, 1, 2, 3, 4, 5, 6, 7]
  | .triangularPrism => some [0, 1, 2, 3, 4, 5]
  | _ => none

/-- The element at position `i`: PosVtk_Imp.hpp:109-168. -/
def cellLine (m : Mesh K) (i : Nat) : Option (List Int) := do
  let id ← m.elements.idAt? i
  let e ← m.elements.get? id
  match cellOrder e.elementType with
  | none => return []
  | some js => do
    let ids ← js.mapM fun j => (e.nodeIds[j]?).bind m.nodes.indexOf?
    return (js.length : Int) :: ids

/-- `nSize`: PosVtk_Imp.hpp:71-105. -/
def cellsSize (m : Mesh K) : Option Nat := do
  let l ← (List.range m.elements.count).mapM fun i => do
    let id ← m.elements.idAt? i
    let e ← m.elements.get? id
    return cellSize e.elementType + 1
  return l.sum

/-- PosVtk_Imp.hpp:180-203. -/
def typeCode : ElementType → Int
  | .beam => 3
  | .triangle => 5
  | .quadrilateral => 9
  | .tetrahedron => 10
  | .hexahedron => 12
  | .triangularPrism => 13
  | _ => 0

/-- The type of the element at position `i`: PosVtk_Imp.hpp:174-206. -/
def typeLine (m : Mesh K) (i : Nat) : Option Int := do
  let id ← m.elements.idAt? i
  let e ← m.elements.get? id
  return typeCode e.elementType

/-- The values: PosVtk_Imp.hpp:209-227. `nodeIndex(i)` is not used, but it throws if there is no node with the id `i`. -/
def dataPart (m : Mesh K) (u : List K) (loc : Location) (nbDofs : Nat) : Option (List (Tok K)) :=
  if u ≠ [] ∧ loc = .node then do
    let ls ← (List.range m.nodes.count).mapM fun (i : Nat) => do
      let _ ← m.nodes.indexOf? (i : Int)
      if nbDofs = 1 then do
        let x ← u[i]?
        return [Tok.real (prt x)]
      else return []
    return [.word "POINT_DATA", .int m.nodes.count, .word "SCALARS", .word "fixed", .word "float", .word "LOOKUP_TABLE", .word "default"] ++ ls.flatten
  else some []

/-- `save`: PosVtk_Imp.hpp:48-231. -/
def save (m : Mesh K) (u : List K) (loc : Location) (nbDofs : Nat) : Option (List (Tok K)) := do
  let ps ← (List.range m.nodes.count).mapM (pointLine prt0 prt m)
  let size ← cellsSize m
  let cs ← (List.range m.elements.count).mapM (cellLine m)
  let ts ← (List.range m.elements.count).mapM (typeLine m)
  let ds ← dataPart prt m u loc nbDofs
  return [.word "DATASET", .word "UNSTRUCTURED_GRID", .word "POINTS", .int m.nodes.count, .word "float"] ++ ps.flatten ++
    [.word "CELLS", .int m.elements.count, .int size] ++ cs.flatten.map Tok.int ++ [.word "CELL_TYPES", .int m.elements.count] ++ ts.map Tok.int ++ ds

/-- `load`: PosVtk_Imp.hpp:28-46. The body is a `TODO`: the field stays as it is and `true` is returned. -/
def load (_file : List (Tok K)) (m : Mesh K) : Bool × Mesh K := (true, m)

/-! ### Gnuplot -/

/-- A row of a Gnuplot file: a number, a point and a value. -/
structure Row (K : Type) where
  label : Int
  point : Vec3 K
  value : K
  deriving DecidableEq

/-- The row of position `i`: PosGnuplot_Imp.hpp:40-51. The position is used as an id, and the position of that id as an id again. -/
def nodeRow (m : Mesh K) (u : List K) (i : Nat) : Option (Row K) := do
  let id ← m.nodes.indexOf? (i : Int)
  let v ← m.nodes.get? id
  let x ← u[i]?
  return ⟨id + 1, ⟨prt v.x, prt v.y, prt v.z⟩, prt x⟩

/-- `CPosGnuplot::save` for values at the nodes: PosGnuplot_Imp.hpp:36-52. -/
def gnuplot (m : Mesh K) (u : List K) : Option (List (Row K)) := (List.range m.nodes.count).mapM (nodeRow prt m u)

/-- The row of the element at position `i`: PosGnuplot_Imp.hpp:56-67. `centroid` is `mesh().elementCentroid`. -/
def elementRow (m : Mesh K) (centroid : Int → Option (Vec3 K)) (u : List K) (i : Nat) : Option (Row K) := do
  let id ← m.elements.indexOf? (i : Int)
  let c ← centroid id
  let x ← u[i]?
  return ⟨id + 1, ⟨prt c.x, prt c.y, prt c.z⟩, prt x⟩

/-- `CPosGnuplot::save` for values at the elements: PosGnuplot_Imp.hpp:54-69. -/
def gnuplotElements (m : Mesh K) (centroid : Int → Option (Vec3 K)) (u : List K) : Option (List (Row K)) :=
  (List.range m.elements.count).mapM (elementRow prt m centroid u)

end Vtk
end ENigMA
