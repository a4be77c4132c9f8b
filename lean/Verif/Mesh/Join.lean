import Verif.Mesh.AddMeshProps
import Verif.Mesh.FacesProps

/-!
# Joining two meshes that fit together (C157)
-/

set_option linter.unusedSectionVars false
set_option autoImplicit false

namespace ENigMA
namespace Mesh
open Cont
variable {K : Type} [Field K] [LinearOrder K] [IsStrictOrderedRing K] [FloorRing K]

/-- `a.addMesh(b); a.mergeNodes(tol);`: trunk/examples/merge/main.cpp:36-38. -/
def join (mc : HashGrid.Machine K) (a b : Mesh K) (tol : K) : Option (Mesh K) := do
  let m ← addMesh a b
  mergeNodes mc m tol

/-! ### Specification -/

/-- No two nodes of the mesh are within the tolerance, and no element has a node twice. -/
structure Proper (m : Mesh K) (tol : K) : Prop where
  apart : ∀ n n' v v', m.nodes.get? n = some v → m.nodes.get? n' = some v' → n ≠ n' → ¬ Vec3.Within v v' tol
  nodup : ∀ id e, m.elements.get? id = some e → e.nodeIds.Nodup

/-- A node of one mesh and one of the other are at the same point or farther apart than the tolerance. -/
def Fits (a b : Mesh K) (tol : K) : Prop :=
  ∀ n n' v v', a.nodes.get? n = some v → b.nodes.get? n' = some v' → Vec3.Within v v' tol → v = v'

/-- `m` has the elements of `a` and then those of `b`, with the same types and corners, and one node at every point where `a` or `b` has one. -/
structure Joined (a b m : Mesh K) : Prop where
  wf : m.WF
  count : m.elements.count = a.elements.count + b.elements.count
  left : ∀ k id e, a.elements.idAt? k = some id → a.elements.get? id = some e →
    ∃ e', m.elements.idAt? k = some id ∧ m.elements.get? id = some e' ∧ e'.elementType = e.elementType ∧ m.coords e'.nodeIds = a.coords e.nodeIds
  right : ∀ k id e, b.elements.idAt? k = some id → b.elements.get? id = some e →
    ∃ id' e', m.elements.idAt? (a.elements.count + k) = some id' ∧ m.elements.get? id' = some e' ∧ e'.elementType = e.elementType ∧ m.coords e'.nodeIds = b.coords e.nodeIds
  nodes : ∀ p, (∃ n, m.nodes.get? n = some p) ↔ (∃ n, a.nodes.get? n = some p) ∨ ∃ n, b.nodes.get? n = some p
  once : ∀ n n' p, m.nodes.get? n = some p → m.nodes.get? n' = some p → n = n'

end Mesh
end ENigMA
