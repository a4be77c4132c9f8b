import Verif.Mesh.Mesh

/-!
# `CMshMeshQuery`: trunk/src/mesh/MshMeshQuery.hpp, MshMeshQuery_Imp.hpp
-/

namespace ENigMA

/-- `CMshMeshQuery`: `m_nodeToElement`, MshMeshQuery.hpp:25-27. -/
structure MeshQuery where
  nodeToElement : SMap Int (List Int)

namespace MeshQuery

/-- The body of the inner loop of the constructor: MshMeshQuery_Imp.hpp:29-37. -/
def addOne (eid : Int) (q : MeshQuery) (n : Int) : MeshQuery :=
  match q.nodeToElement.find? n with
  | some l => if eid ∈ l then q else ⟨q.nodeToElement.insert n (l ++ [eid])⟩
  | none => ⟨q.nodeToElement.insert n [eid]⟩

/-- The outer loop of the constructor: MshMeshQuery_Imp.hpp:22-39. -/
def loop (els : Cont Elem) : List Int → MeshQuery → Option MeshQuery
  | [], q => some q
  | eid :: t, q => do
    let e ← els.get? eid
    loop els t (e.nodeIds.foldl (addOne eid) q)

/-- The constructor: MshMeshQuery_Imp.hpp:19-40. -/
def ofMesh {K : Type} (m : Mesh K) : Option MeshQuery := loop m.elements m.elements.ids ⟨SMap.empty⟩

/-- `m_nodeToElement[n]`: an empty vector is stored if there is none. -/
def touch (q : MeshQuery) (n : Int) : MeshQuery × List Int :=
  match q.nodeToElement.find? n with
  | some l => (q, l)
  | none => (⟨q.nodeToElement.insert n []⟩, [])

/-- `std::set_intersection`, as the merge that implementations perform. For ranges that are not sorted the standard leaves the behaviour undefined. -/
def setIntersection : List Int → List Int → List Int
  | [], _ => []
  | _ :: _, [] => []
  | a :: s, b :: t =>
    if a < b then setIntersection s (b :: t)
    else if b < a then setIntersection (a :: s) t
    else a :: setIntersection s t
termination_by s t => s.length + t.length

/-- `elementsSharingNode`: MshMeshQuery_Imp.hpp:47-52. The object after the call and the vector. -/
def sharingNode (q : MeshQuery) (n : Int) : MeshQuery × List Int := q.touch n

/-- `elementsSharingNodes`: MshMeshQuery_Imp.hpp:54-59. -/
def sharingNodes (q : MeshQuery) (n1 n2 : Int) : MeshQuery × List Int :=
  let (q, l1) := q.touch n1
  let (q, l2) := q.touch n2
  (q, setIntersection l1 l2)

/-- A call. -/
inductive Call
  | one (n : Int)
  | two (n1 n2 : Int)

/-- The object after a call. -/
def exec (q : MeshQuery) : Call → MeshQuery
  | .one n => (q.sharingNode n).1
  | .two n1 n2 => (q.sharingNodes n1 n2).1

end MeshQuery
end ENigMA
