import Verif.Base.SMap

/-!
# The id-indexed containers of `CMshMesh`

`CMshMesh` (trunk/src/mesh/MshMesh.hpp) holds three copies of the same four fields, one for nodes, one for
faces and one for elements: a `std::map` from ids to payloads, a `std::vector` of ids in insertion order, a
`std::map` from ids to indices, and a counter giving the next index. `Cont α` is one such group.
-/

namespace ENigMA

/-- One group of fields of `CMshMesh`: `m_nodes`, `m_nodeIds`, `m_nodeIndices`, `m_nodeIndex`
(resp. the face and element fields), trunk/src/mesh/MshMesh.hpp. -/
structure Cont (α : Type*) where
  map : SMap Int α
  ids : List Int
  indices : SMap Int Int
  counter : Int

namespace Cont
variable {α : Type*}

/-- Constructor and `reset()`: trunk/src/mesh/MshMesh_Imp.hpp:23-33, 70-95 (the part of one group). -/
def empty : Cont α := ⟨SMap.empty, [], SMap.empty, 0⟩

/-- `addNode`/`addFace`/`addElement`: trunk/src/mesh/MshMesh_Imp.hpp:107-135. -/
def add (c : Cont α) (id : Int) (a : α) : Cont α :=
  { map := c.map.insert id a
    ids := c.ids ++ [id]
    indices := c.indices.insert id c.counter
    counter := c.counter + 1 }

/-- `removeNode`/`removeFace`/`removeElement`: trunk/src/mesh/MshMesh_Imp.hpp:137-159.
`m_nodeIds.erase(std::find(...))` is undefined behaviour when the id does not occur: `none`. -/
def remove (c : Cont α) (id : Int) : Option (Cont α) :=
  if id ∈ c.ids then
    some { map := c.map.erase id
           ids := c.ids.erase id
           indices := c.indices.erase id
           counter := c.counter }
  else none

/-- `node(id)`/`face(id)`/`element(id)`, `.at` of the map, `none` = exception:
trunk/src/mesh/MshMesh_Imp.hpp:206-222. -/
def get? (c : Cont α) (id : Int) : Option α := c.map.find? id

/-- `nbNodes()`...: trunk/src/mesh/MshMesh_Imp.hpp:97-104. -/
def count (c : Cont α) : Nat := c.ids.length

/-- `nodeId(index)`..., `.at` of the vector, `none` = exception: trunk/src/mesh/MshMesh_Imp.hpp:224-231. -/
def idAt? (c : Cont α) (i : Nat) : Option Int := c.ids[i]?

/-- `nodeIndex(id)`..., `.at` of the map, `none` = exception: trunk/src/mesh/MshMesh_Imp.hpp:233-240. -/
def indexOf? (c : Cont α) (id : Int) : Option Int := c.indices.find? id

/-- `nextNodeId()`...: trunk/src/mesh/MshMesh_Imp.hpp:485-510. -/
def nextId (c : Cont α) : Int :=
  match c.map.maxKey? with
  | some k => k + 1
  | none => 0

/-- The loop `for i: indices[ids.at(i)] = i`, starting at position `i`. -/
def indexLoop : List Int → Int → SMap Int Int → SMap Int Int
  | [], _, m => m
  | id :: t, i, m => indexLoop t (i + 1) (m.insert id i)

/-- One of the three loops of `rebuildIndices()`: trunk/src/mesh/MshMesh_Imp.hpp:728-760. The counter
`m_nodeIndex` is not touched by the code. -/
def rebuild (c : Cont α) : Cont α := { c with indices := indexLoop c.ids 0 SMap.empty }

/-- In-place modification of the payloads through the iterators of the map. -/
def mapPayload (f : Int → α → α) (c : Cont α) : Cont α := { c with map := c.map.mapVal f }

end Cont

/-! ### Histories of calls -/

/-- A call that changes one container. -/
inductive Op (α : Type*) where
  | add (id : Int) (a : α)
  | remove (id : Int)
  | rebuild
  | clear
  deriving Repr, DecidableEq

namespace Cont
variable {α : Type*}

/-- Effect of one call. -/
def step (c : Cont α) : Op α → Option (Cont α)
  | .add id a => some (c.add id a)
  | .remove id => c.remove id
  | .rebuild => some c.rebuild
  | .clear => some empty

/-- Run a history from a given state; `none` if a call has undefined behaviour. -/
def runFrom (c : Cont α) : List (Op α) → Option (Cont α)
  | [] => some c
  | op :: t => (c.step op).bind (fun c' => runFrom c' t)

/-- Run a history on a freshly constructed mesh. -/
def run (h : List (Op α)) : Option (Cont α) := runFrom empty h

end Cont
end ENigMA
