import Verif.Mesh.TetSmooth

/-!
# Flipping edges of a mesh of tetrahedra

`flipEdges32` of trunk/src/mesh/MshTetrahedronMesher_Imp.hpp: three tetrahedra around an edge become two. `none` stands for an exception of `at` or a read past
the end of a vector.
-/

set_option linter.unusedSectionVars false
set_option autoImplicit false

namespace ENigMA
namespace TetFlip
open TetSmooth
variable {K : Type} [Field K] [LinearOrder K]

/-- The state of the loops: the elements, `sFlipped` and `bDeleteElement`. -/
structure St where
  els : Cont Elem
  flipped : SMap Int Bool
  del : SMap Int Bool

/-- The first node of the elements that is none of the four: MshTetrahedronMesher_Imp.hpp:1774-1800. -/
def foreign (els : Cont Elem) (n1 n2 n3 n4 : Int) : List Int → Option (Option Int)
  | [] => some none
  | id :: t => do
    let e ← els.get? id
    if e.elementType ≠ .tetrahedron then foreign els n1 n2 n3 n4 t
    else
      match e.nodeIds.find? fun n => decide (n ≠ n1) && decide (n ≠ n2) && decide (n ≠ n3) && decide (n ≠ n4) with
      | some n => some (some n)
      | none => foreign els n1 n2 n3 n4 t

variable (P : Par K)

/-- The test before the flip: MshTetrahedronMesher_Imp.hpp:1811-1860. -/
def better (p1 p2 p3 p4 p5 : Vec3 K) : Prop :=
  min (P.quality ⟨p1, p2, p3, p4⟩) (min (P.quality ⟨p1, p5, p4, p3⟩) (P.quality ⟨p5, p2, p4, p3⟩)) <
    min (P.quality ⟨p1, p2, p5, p4⟩) (P.quality ⟨p1, p2, p3, p5⟩) ∧
  large P ⟨p1, p2, p5, p4⟩ ∧ large P ⟨p1, p2, p3, p5⟩

instance decBetter (p1 p2 p3 p4 p5 : Vec3 K) : Decidable (better P p1 p2 p3 p4 p5) := by unfold better; infer_instance

/-- Three tetrahedra become two; the third element is given the node `n1` four times and marked: MshTetrahedronMesher_Imp.hpp:1805-1888. -/
def flipThree (nodes : Cont (Vec3 K)) (s : St) (i1 i2 i3 n1 n2 n3 n4 n5 : Int) : Option St := do
  let p1 ← nodes.get? n1
  let p2 ← nodes.get? n2
  let p3 ← nodes.get? n3
  let p4 ← nodes.get? n4
  let p5 ← nodes.get? n5
  if better P p1 p2 p3 p4 p5 then do
    let els ← s.els.modify i1 (setFour n1 n2 n5 n4)
    let els ← els.modify i2 (setFour n1 n2 n3 n5)
    let els ← els.modify i3 (setFour n1 n1 n1 n1)
    some ⟨els, ((s.flipped.insert i1 true).insert i2 true).insert i3 true, s.del.insert i3 true⟩
  else some s

/-- The part of the innermost loop for an edge: MshTetrahedronMesher_Imp.hpp:1770-1889. -/
def flipAround (nodes : Cont (Vec3 K)) (s : St) (n1 n2 n3 n4 : Int) : List Int → Option St
  | [i1, i2, i3] => do
    match ← foreign s.els n1 n2 n3 n4 [i1, i2, i3] with
    | none => some s
    | some n5 => flipThree P nodes s i1 i2 i3 n1 n2 n3 n4 n5
  | _ => some s

/-- One round of the innermost loop, over the edges of a face: MshTetrahedronMesher_Imp.hpp:1762-1890. `&&` reads the second mark only if the first is set. -/
def flipEdge (query : Int → Int → List Int) (boundary : SMap Int Bool) (nodes : Cont (Vec3 K)) (id n1 n2 n3 n4 : Int) (f : Face) (s : St) (k : Nat) : Option St := do
  let done ← s.flipped.find? id
  if done then some s
  else do
    let a ← f.nodeIds[k % 3]?
    let x ← boundary.find? a
    let b ← f.nodeIds[(k + 1) % 3]?
    let skip ← if x then boundary.find? b else some false
    if skip then some s else flipAround P nodes s n1 n2 n3 n4 (query a b)

/-- The innermost loop. -/
def flipEdges (query : Int → Int → List Int) (boundary : SMap Int Bool) (nodes : Cont (Vec3 K)) (id n1 n2 n3 n4 : Int) (f : Face) : List Nat → St → Option St
  | [], s => some s
  | k :: t, s => do
    let s ← flipEdge P query boundary nodes id n1 n2 n3 n4 f s k
    flipEdges query boundary nodes id n1 n2 n3 n4 f t s

/-- The loop over the faces of an element: MshTetrahedronMesher_Imp.hpp:1748-1891. -/
def flipFaces (query : Int → Int → List Int) (boundary : SMap Int Bool) (m : Mesh K) (id n1 n2 n3 n4 : Int) : List Int → St → Option St
  | [], s => some s
  | fid :: t, s => do
    let done ← s.flipped.find? id
    if done then flipFaces query boundary m id n1 n2 n3 n4 t s
    else do
      let f ← m.faces.get? fid
      if f.faceType ≠ .triangle then flipFaces query boundary m id n1 n2 n3 n4 t s
      else do
        let s ← flipEdges P query boundary m.nodes id n1 n2 n3 n4 f (List.range f.nodeIds.length) s
        flipFaces query boundary m id n1 n2 n3 n4 t s

/-- One round of the loop over the elements: MshTetrahedronMesher_Imp.hpp:1732-1892. -/
def flipElement (query : Int → Int → List Int) (boundary : SMap Int Bool) (m : Mesh K) (s : St) (id : Int) : Option St := do
  let e ← s.els.get? id
  if e.elementType ≠ .tetrahedron then some s
  else do
    let done ← s.flipped.find? id
    if done then some s
    else do
      let n1 ← e.nodeIds[0]?
      let n2 ← e.nodeIds[1]?
      let n3 ← e.nodeIds[2]?
      let n4 ← e.nodeIds[3]?
      flipFaces P query boundary m id n1 n2 n3 n4 e.faceIds s

/-- The loop over the elements. -/
def flipLoop (query : Int → Int → List Int) (boundary : SMap Int Bool) (m : Mesh K) : List Int → St → Option St
  | [], s => some s
  | id :: t, s => do
    let s ← flipElement P query boundary m s id
    flipLoop query boundary m t s

/-- `flipEdges32`: MshTetrahedronMesher_Imp.hpp:1693-1903. The lists of elements at a node are built once, before the loop. -/
def flipEdges32 [FloorRing K] (mc : HashGrid.Machine K) (m : Mesh K) : Option (Mesh K) := do
  let b ← Smooth.markBoundary m.faces m.faces.ids (Mesh.setAll false m.nodes.ids SMap.empty)
  let q ← MeshQuery.ofMesh m
  let none := Mesh.setAll false m.elements.ids SMap.empty
  let s ← flipLoop P (fun x y => (q.sharingNodes x y).2) b m m.elements.ids ⟨m.elements, none, none⟩
  let els ← Mesh.deleteLoop s.del.entries s.els
  Mesh.generateFaces mc { m with elements := els } P.tol

end TetFlip
end ENigMA
