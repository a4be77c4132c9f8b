import Verif.Mesh.Mesh

/-!
# Gmsh files: trunk/src/post/PosGmsh_Imp.hpp

A file is a list of lines and a line a list of tokens. The effect of writing a number with 16 significant digits and reading it back is a function `prt`: the file holds `prt x`.
Opening the file succeeds. `none` stands for an exception of `at` while writing, and for a number that cannot be read.
-/

set_option linter.unusedSectionVars false
set_option autoImplicit false

namespace ENigMA
namespace Gmsh

/-- The section marks. None of them is part of another (`"$EndNodes"` does not contain `"$Nodes"`), so `line.find` is equality of tokens. -/
inductive Mark where
  | meshFormat | endMeshFormat | nodes | endNodes | elements | endElements | nodeData | endNodeData | elementData | endElementData
  deriving DecidableEq, Repr

/-- A token of a line; `text` is anything else that is written (the version, the name of the view). -/
inductive Tok (K : Type) where
  | mark (m : Mark)
  | text (s : String)
  | int (n : Int)
  | real (x : K)
  deriving DecidableEq, Repr

/-- What is left to read: the rest of the current line, then the following lines. -/
abbrev Stream (K : Type) := List (List (Tok K))

variable {K : Type} [DecidableEq K]

/-! ### Reading -/

/-- `>>` skips white space, line ends included. -/
def next : Stream K → Option (Tok K × Stream K)
  | [] => none
  | [] :: t => next t
  | (x :: l) :: t => some (x, l :: t)

/-- `fileGmsh >> n` for an integer. -/
def readInt (s : Stream K) : Option (Int × Stream K) :=
  match next s with
  | some (.int n, s) => some (n, s)
  | _ => none

/-- `fileGmsh >> x` for a number. -/
def readReal (s : Stream K) : Option (K × Stream K) :=
  match next s with
  | some (.real x, s) => some (x, s)
  | _ => none

/-- `findSection`: PosGmsh_Imp.hpp:29-45. -/
def findSection (k : Mark) : Stream K → Bool × Stream K
  | [] => (false, [])
  | l :: t => if Tok.mark k ∈ l then (true, t) else findSection k t

/-- The loop over the nodes: PosGmsh_Imp.hpp:69-79. -/
def readNodes : Nat → Stream K → Cont (Vec3 K) → Option (Stream K × Cont (Vec3 K))
  | 0, s, c => some (s, c)
  | n + 1, s, c => do
    let (id, s) ← readInt s
    let (x, s) ← readReal s
    let (y, s) ← readReal s
    let (z, s) ← readReal s
    readNodes n s (c.add (id - 1) ⟨x, y, z⟩)

/-- `nTags` or `nbNodeIds` integers: PosGmsh_Imp.hpp:106-109, 154-159. -/
def readInts : Nat → Stream K → Option (List Int × Stream K)
  | 0, s => some ([], s)
  | n + 1, s => do
    let (i, s) ← readInt s
    let (l, s) ← readInts n s
    return (i :: l, s)

/-- The `switch` of `load`: PosGmsh_Imp.hpp:113-150. The case 15 is never reached, because types above 6 are skipped before. -/
def ofCode (n : Int) : ElementType × Nat :=
  if n = 1 then (.beam, 2) else if n = 2 then (.triangle, 3) else if n = 3 then (.quadrilateral, 4) else if n = 4 then (.tetrahedron, 4)
  else if n = 5 then (.hexahedron, 8) else if n = 6 then (.triangularPrism, 6) else (.none, 0)

/-- The loop over the elements: PosGmsh_Imp.hpp:90-162. -/
def readElems : Nat → Stream K → Cont Elem → Option (Stream K × Cont Elem)
  | 0, s, c => some (s, c)
  | n + 1, s, c => do
    let (id, s) ← readInt s
    let (type, s) ← readInt s
    let (tags, s) ← readInt s
    if type < 1 ∨ type > 6 then
      readElems n s.tail c
    else do
      let (_, s) ← readInts tags.toNat s
      let (et, k) := ofCode type
      let (ids, s) ← readInts k s
      readElems n s (c.add (id - 1) { elementType := et, nodeIds := ids.map (· - 1) })

/-- `load`: PosGmsh_Imp.hpp:47-172. Gives the mesh of the field. -/
def load (s : Stream K) : Option (Mesh K) := do
  let (found, s) := findSection .meshFormat s
  let s := if found then (findSection .endMeshFormat s).2 else s
  let m : Mesh K := Mesh.empty
  let (found, s) := findSection .nodes s
  let (s, nodes) ← if found then do
      let (n, s) ← readInt s
      readNodes n.toNat s m.nodes
    else some (s, m.nodes)
  let (found, s) := findSection .elements s
  let (_, elements) ← if found then do
      let (n, s) ← readInt s
      readElems n.toNat s m.elements
    else some (s, m.elements)
  return { m with nodes := nodes, elements := elements }

/-! ### Writing -/

variable (prt : K → K)

/-- One line of the section of nodes: PosGmsh_Imp.hpp:191-197. -/
def nodeLine (m : Mesh K) (id : Int) : Option (List (Tok K)) := do
  let index ← m.nodes.indexOf? id
  let v ← m.nodes.get? id
  return [.int (index + 1), .real (prt v.x), .real (prt v.y), .real (prt v.z)]

/-- The `switch` of `save`: PosGmsh_Imp.hpp:213-239. -/
def code : ElementType → Int
  | .node => 15
  | .beam => 1
  | .triangle => 2
  | .quadrilateral => 3
  | .tetrahedron => 4
  | .hexahedron => 5
  | .triangularPrism => 6
  | _ => 0

/-- One line of the section of elements: PosGmsh_Imp.hpp:204-250. -/
def elemLine (m : Mesh K) (id : Int) : Option (List (Tok K)) := do
  let index ← m.elements.indexOf? id
  let e ← m.elements.get? id
  let ids ← e.nodeIds.mapM m.nodes.indexOf?
  return [.int (index + 1), .int (code e.elementType), .int 0] ++ ids.map fun i => .int (i + 1)

/-- `EDiscretLocation`. -/
inductive Location where
  | node | elementCenter
  deriving DecidableEq, Repr

/-- One line of values: PosGmsh_Imp.hpp:276-286, 310-320. Here `i` is a position, and it is used as an id. `u` is read with `u(i)`, out of range is undefined. -/
def valueLine {α : Type} (c : Cont α) (nbDofs : Nat) (u : List K) (i : Nat) : Option (List (List (Tok K))) := do
  let index ← c.indexOf? (i : Int)
  if nbDofs = 1 ∨ nbDofs = 2 ∨ nbDofs = 3 then do
    let vs ← (List.range nbDofs).mapM fun d => u[i * nbDofs + d]?
    return [.int (index + 1) :: vs.map fun x => .real (prt x)]
  else return []

/-- The values of the field: PosGmsh_Imp.hpp:254-326. -/
def values (m : Mesh K) (u : List K) (loc : Location) (nbDofs : Nat) (name : String) : Option (List (List (Tok K))) :=
  if u = [] then some [] else
  let head (n : Nat) : List (List (Tok K)) := [[.int 1], [.text name], [.int 1], [.text "0.0"], [.int 3], [.int 0], [.int nbDofs], [.int n]]
  match loc with
  | .node => do
    let ls ← (List.range m.nodes.count).mapM (valueLine prt m.nodes nbDofs u)
    return [[.mark .nodeData]] ++ head m.nodes.count ++ ls.flatten ++ [[.mark .endNodeData]]
  | .elementCenter => do
    let ls ← (List.range m.elements.count).mapM (valueLine prt m.elements nbDofs u)
    return [[.mark .elementData]] ++ head m.elements.count ++ ls.flatten ++ [[.mark .endElementData]]

/-- `save`: PosGmsh_Imp.hpp:174-332. `none`: an exception while writing. -/
def save (m : Mesh K) (u : List K) (loc : Location) (nbDofs : Nat) (name : String) : Option (Stream K) := do
  let ns ← m.nodes.ids.mapM (nodeLine prt m)
  let es ← m.elements.ids.mapM (elemLine m)
  let vs ← values prt m u loc nbDofs name
  return [[.mark .meshFormat], [.text "2.2 0 8"], [.mark .endMeshFormat], [.mark .nodes], [.int m.nodes.count]] ++ ns ++
    [[.mark .endNodes], [.mark .elements], [.int m.elements.count]] ++ es ++ [[.mark .endElements]] ++ vs

end Gmsh
end ENigMA
