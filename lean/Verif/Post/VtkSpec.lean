import Verif.Post.Vtk

/-!
# How a legacy VTK file of an unstructured grid is read

Written from the description of the file format, independently of the writer: `POINTS n type` and `3 n` numbers, `CELLS k size` and `size` integers that are `k` cells,
each with the number of its points first, `CELL_TYPES k` and `k` types, and possibly `POINT_DATA n` with one scalar per point.
-/

set_option linter.unusedSectionVars false
set_option autoImplicit false

namespace ENigMA
namespace Vtk

/-- What a file says. -/
structure Grid (K : Type) where
  points : List (Vec3 K)
  cells : List (Int × List Int)
  data : Option (List K)
  deriving DecidableEq

variable {K : Type}

/-- The next `n` tokens are numbers. -/
def takeReals : Nat → List (Tok K) → Option (List K × List (Tok K))
  | 0, t => some ([], t)
  | n + 1, .real x :: t => (takeReals n t).map fun p => (x :: p.1, p.2)
  | _ + 1, _ => none

/-- The next `n` tokens are integers. -/
def takeInts : Nat → List (Tok K) → Option (List Int × List (Tok K))
  | 0, t => some ([], t)
  | n + 1, .int x :: t => (takeInts n t).map fun p => (x :: p.1, p.2)
  | _ + 1, _ => none

/-- Numbers three by three. -/
def triples : List K → List (Vec3 K)
  | x :: y :: z :: l => ⟨x, y, z⟩ :: triples l
  | _ => []

/-- Exactly `k` cells, each with its number of points first. -/
def splitCells : Nat → List Int → Option (List (List Int))
  | 0, [] => some []
  | 0, _ :: _ => none
  | _ + 1, [] => none
  | k + 1, c :: l => if 0 ≤ c ∧ c ≤ l.length then (splitCells k (l.drop c.toNat)).map fun r => l.take c.toNat :: r else none

/-- The number of points of the cell types used here: line, triangle, quadrilateral, tetrahedron, hexahedron, wedge. -/
def vtkPoints (t : Int) : Option Nat :=
  if t = 3 then some 2 else if t = 5 then some 3 else if t = 9 then some 4 else if t = 10 then some 4 else if t = 12 then some 8 else if t = 13 then some 6 else none

/-- A cell has the points of its type, and they exist. -/
def cellOk (n : Int) (c : Int × List Int) : Bool := decide (vtkPoints c.1 = some c.2.length) && c.2.all fun i => decide (0 ≤ i) && decide (i < n)

/-- The end of the file: nothing, or one scalar per point. -/
def readData (n : Int) : List (Tok K) → Option (Option (List K))
  | [] => some none
  | .word "POINT_DATA" :: .int n' :: .word "SCALARS" :: .word _ :: .word "float" :: .word "LOOKUP_TABLE" :: .word "default" :: t =>
    if n' = n then
      match takeReals n.toNat t with
      | some (l, []) => some (some l)
      | _ => none
    else none
  | _ => none

/-- The types of the cells and what follows. -/
def readTypes (n k : Int) (xs : List K) (cells : List (List Int)) : List (Tok K) → Option (Grid K)
  | .word "CELL_TYPES" :: .int k' :: t =>
    if k' = k then
      match takeInts k.toNat t with
      | some (ts, t) => if (ts.zip cells).all (cellOk n) then (readData n t).map fun d => ⟨triples xs, ts.zip cells, d⟩ else none
      | none => none
    else none
  | _ => none

/-- The cells and what follows. -/
def readCells (n : Int) (xs : List K) : List (Tok K) → Option (Grid K)
  | .word "CELLS" :: .int k :: .int size :: t =>
    match takeInts size.toNat t with
    | some (is, t) =>
      match splitCells k.toNat is with
      | some cells => readTypes n k xs cells t
      | none => none
    | none => none
  | _ => none

/-- The whole file. -/
def read : List (Tok K) → Option (Grid K)
  | .word "DATASET" :: .word "UNSTRUCTURED_GRID" :: .word "POINTS" :: .int n :: .word _ :: t =>
    match takeReals (3 * n.toNat) t with
    | some (xs, t) => readCells n xs t
    | none => none
  | _ => none

/-! ### What the file of a mesh should say -/

/-- The element type that a VTK cell type stands for. -/
def kind (t : Int) : Option ElementType :=
  if t = 3 then some .beam else if t = 5 then some .triangle else if t = 9 then some .quadrilateral else if t = 10 then some .tetrahedron
  else if t = 12 then some .hexahedron else if t = 13 then some .triangularPrism else none

/-- The nodes of an element in the order of VTK: the base of a tetrahedron is listed the other way round. -/
def vtkOrder (t : ElementType) (ids : List Int) : List Int :=
  match t, ids with
  | .tetrahedron, [a, b, c, d] => [a, c, b, d]
  | _, l => l

/-- The elements that can be written: a line, triangle, tetrahedron, hexahedron or prism with the nodes of its type. -/
def Writable (e : Elem) : Prop :=
  (e.elementType = .beam ∧ e.nodeIds.length = 2) ∨ (e.elementType = .triangle ∧ e.nodeIds.length = 3) ∨ (e.elementType = .tetrahedron ∧ e.nodeIds.length = 4) ∨
    (e.elementType = .hexahedron ∧ e.nodeIds.length = 8) ∨ (e.elementType = .triangularPrism ∧ e.nodeIds.length = 6)

/-- The grid `g` is the mesh `m`, with the values `u`. -/
structure Describes [DecidableEq K] (prt0 prt : K → K) (m : Mesh K) (values : Option (List K)) (g : Grid K) : Prop where
  nbPoints : g.points.length = m.nodes.count
  point : ∀ i id v, m.nodes.idAt? i = some id → m.nodes.get? id = some v → g.points[i]? = some ⟨(if i = 0 then prt0 else prt) v.x, prt v.y, prt v.z⟩
  nbCells : g.cells.length = m.elements.count
  cell : ∀ i id e, m.elements.idAt? i = some id → m.elements.get? id = some e →
    ∃ (t : Int) (ps : List Nat), kind t = some e.elementType ∧ ps.map m.nodes.idAt? = (vtkOrder e.elementType e.nodeIds).map some ∧ g.cells[i]? = some (t, ps.map Int.ofNat)
  data : g.data = values

end Vtk
end ENigMA
