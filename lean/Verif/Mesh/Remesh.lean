import Verif.Mesh.Smooth
import Verif.Base.Norm

/-!
# Splitting long edges

`remesh` of trunk/src/mesh/MshTriangleMesher_Imp.hpp: beams are cut into pieces of about the mesh size, pairs of triangles with a long common side are cut into four.

Not modelled: the faces that lines 532-580 and 646-650 add and change, and the loop over the faces at lines 679-693. No later line reads them, except that a face of a
triangle that was already split is looked at again before the test of `sRemeshed`, and `generateFaces` at line 695 replaces all the faces. `none` stands for an exception of `at`,
a read past the end of a vector or a division by zero.
-/

set_option linter.unusedSectionVars false
set_option autoImplicit false

namespace ENigMA
namespace Remesh
variable {K : Type} [Field K] [LinearOrder K] [FloorRing K]

/-- The loop over the pieces of a beam: MshTriangleMesher_Imp.hpp:517-572. `w` is `de * n`. -/
def cutLoop (id n2 : Int) (p1 w : Vec3 K) : List Nat → Int → Cont (Vec3 K) × Cont Elem → Option (Cont (Vec3 K) × Cont Elem)
  | [], _, s => some s
  | j :: t, prev, s => do
    let new := s.1.nextId
    let nodes := s.1.add new (p1 + ((j : K) + 1) • w)
    let els := s.2.add s.2.nextId ⟨.beam, [prev, new], []⟩
    let els ← els.modify id fun e => if 2 ≤ e.nodeIds.length then some { e with nodeIds := new :: n2 :: e.nodeIds.drop 2 } else none
    cutLoop id n2 p1 w t new (nodes, els)

/-- A beam: MshTriangleMesher_Imp.hpp:484-574. -/
def cutBeam (nrm : Vec3 K → K) (size : K) (s : Cont (Vec3 K) × Cont Elem) (id : Int) (e : Elem) : Option (Cont (Vec3 K) × Cont Elem) := do
  let n1 ← e.nodeIds[0]?
  let n2 ← e.nodeIds[1]?
  let p1 ← s.1.get? n1
  let p2 ← s.1.get? n2
  let v := p2 - p1
  if size = 0 then none
  else
    let ne := ⌊nrm v / size + 1 / 2⌋
    if 0 < ne then
      if nrm v = 0 then none
      else cutLoop id n2 p1 ((nrm v / ne) • ((nrm v)⁻¹ • v)) (List.range (ne.toNat - 1)) n1 s
    else some s

/-- The state of the loop: nodes, elements and `sRemeshed`. -/
structure St (K : Type) where
  nodes : Cont (Vec3 K)
  els : Cont Elem
  done : List Bool

/-- `sRemeshed[id]`. -/
def flag (done : List Bool) (id : Int) : Option Bool := if 0 ≤ id then done[id.toNat]? else none

/-- The node that is not on the face, unless its id is `-1`: MshTriangleMesher_Imp.hpp:603-621. -/
def apex (e : Elem) (a b : Int) : Option Int := (Smooth.third e a b).filter fun n => decide (n ≠ -1)

/-- The two triangles become four: MshTriangleMesher_Imp.hpp:625-668. -/
def cutPair (s : St K) (id1 id2 n1 n2 n3 n4 : Int) (mid : Vec3 K) : Option (St K) := do
  let new := s.nodes.nextId
  let nodes := s.nodes.add new mid
  let els ← s.els.modify id1 (Smooth.setThree n3 n1 new)
  let els ← els.modify id2 (Smooth.setThree n1 n4 new)
  let els := els.add els.nextId ⟨.triangle, [n2, n3, new], []⟩
  let els := els.add els.nextId ⟨.triangle, [n4, n2, new], []⟩
  some ⟨nodes, els, (s.done.set id1.toNat true).set id2.toNat true⟩

/-- A face of a triangle: MshTriangleMesher_Imp.hpp:578-671. -/
def cutFace (nrm : Vec3 K → K) (size : K) (faces : Cont Face) (id : Int) (s : St K) (fid : Int) : Option (St K) := do
  let f ← faces.get? fid
  if f.hasPair then do
    let g ← faces.get? f.pairFaceId
    let e ← s.els.get? id
    let d ← s.els.get? g.elementId
    let n1 ← f.nodeIds[0]?
    let n2 ← f.nodeIds[1]?
    let p1 ← s.nodes.get? n1
    let p2 ← s.nodes.get? n2
    if size * (3 / 2) < nrm (p2 - p1) then
      match apex e n1 n2, apex d n1 n2 with
      | some n3, some n4 => do
        let b1 ← flag s.done id
        if b1 then some s
        else do
          let b2 ← flag s.done g.elementId
          if b2 then some s else cutPair s id g.elementId n1 n2 n3 n4 ((2 : K)⁻¹ • (p1 + p2))
      | _, _ => some s
    else some s
  else some s

/-- The loop over the faces of a triangle: MshTriangleMesher_Imp.hpp:577-673. -/
def cutFaces (nrm : Vec3 K → K) (size : K) (faces : Cont Face) (id : Int) : List Int → St K → Option (St K)
  | [], s => some s
  | fid :: t, s => do
    let s ← cutFace nrm size faces id s fid
    cutFaces nrm size faces id t s

/-- One round of the loop over the elements: MshTriangleMesher_Imp.hpp:478-675. -/
def cutElement (nrm : Vec3 K → K) (size : K) (faces : Cont Face) (s : St K) (id : Int) : Option (St K) := do
  let e ← s.els.get? id
  match e.elementType with
  | .beam => do
    let r ← cutBeam nrm size (s.nodes, s.els) id e
    some ⟨r.1, r.2, s.done⟩
  | .triangle => cutFaces nrm size faces id e.faceIds s
  | _ => some s

/-- The loop over the elements, those that it adds included: MshTriangleMesher_Imp.hpp:476-676. `none` also stands for more than `fuel` rounds. -/
def loop (nrm : Vec3 K → K) (size : K) (faces : Cont Face) : Nat → Nat → St K → Option (St K)
  | 0, i, s => if i < s.els.ids.length then none else some s
  | fuel + 1, i, s =>
    match s.els.ids[i]? with
    | none => some s
    | some id => do
      let s ← cutElement nrm size faces s id
      loop nrm size faces fuel (i + 1) s

/-- `remesh`: MshTriangleMesher_Imp.hpp:466-698. -/
def remesh (nrm : Vec3 K → K) (mc : HashGrid.Machine K) (fuel : Nat) (m : Mesh K) (size tol : K) : Option (Mesh K) := do
  let s ← loop nrm size m.faces fuel 0 ⟨m.nodes, m.elements, m.elements.ids.map fun _ => false⟩
  Mesh.generateFaces mc { m with nodes := s.nodes, elements := s.els } tol

end Remesh
end ENigMA
