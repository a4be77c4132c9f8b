import Verif.Geometry.Rtree
import Verif.Geometry.TriTri
import Verif.Mesh.Naked

/-!
# The search for elements that cross

Model of `CMshCheckMesh::checkIntersections` (trunk/src/mesh/MshCheckMesh_Imp.hpp 48-137). `none` stands for undefined behaviour: an id that is not stored, a missing
node of an element, the vertices of a triangle object that was never given any. `vol` is the volume used by the R-tree, `eps`, `big`, `cos1` are the constants of the
tests of segments and triangles.
-/

set_option linter.unusedSectionVars false
set_option autoImplicit false

namespace ENigMA

variable {K : Type} [Field K] [LinearOrder K] [IsStrictOrderedRing K]

/-- The objects `aLine1`, `aTriangle1` (or `aLine2`, `aTriangle2`) of an element: MshCheckMesh_Imp.hpp 70-88 and 101-117. -/
inductive Shape (K : Type)
  | beam (l : GLine K) | tri (t : Tri K) | other

namespace Shape

/-- What `nLines` is increased by: lines 80, 108. -/
def nl : Shape K → Nat
  | beam _ => 1
  | _ => 0

/-- What `nTriangles` is increased by: lines 87, 115. -/
def nt : Shape K → Nat
  | tri _ => 1
  | _ => 0

/-- The line object: without a beam it is the default one, all zero (GeoLine_Imp.hpp 18-21, GeoVector.hpp 25). -/
def line : Shape K → GLine K
  | beam l => l
  | _ => ⟨0, 0, 0⟩

/-- The triangle object: without a triangle its list of vertices is empty. -/
def tri? : Shape K → Option (Tri K)
  | tri t => some t
  | _ => none

end Shape

/-- The kinds of intersection of two segments that count: MshCheckMesh_Imp.hpp 125. -/
def lineCounts (o : Option (Vec3 K × ITy)) : Bool :=
  match o with
  | some (_, .itCoincident) => true
  | some (_, .itInternal) => true
  | _ => false

/-- The kinds of intersection of two triangles that count: MshCheckMesh_Imp.hpp 132. -/
def triCounts (o : Option TriHit) : Bool :=
  match o with
  | some .edge => true
  | some .coincident => true
  | some .internal => true
  | some .swap => true
  | _ => false

namespace Mesh

/-- The line or triangle of an element: MshCheckMesh_Imp.hpp 70-88. -/
def shape (m : Mesh K) (e : Elem) : Option (Shape K) :=
  match e.elementType with
  | .beam => do
    let a ← e.nodeIds[0]?.bind m.nodes.get?
    let b ← e.nodeIds[1]?.bind m.nodes.get?
    some (.beam (GLine.mk2 a b))
  | .triangle => do
    let a ← e.nodeIds[0]?.bind m.nodes.get?
    let b ← e.nodeIds[1]?.bind m.nodes.get?
    let c ← e.nodeIds[2]?.bind m.nodes.get?
    some (.tri ⟨a, b, c⟩)
  | _ => some .other

/-- The loop over the candidates: MshCheckMesh_Imp.hpp 92-134. `nl` and `nt` are `nLines` and `nTriangles`, which are not set back between candidates. -/
def crossLoop (nrm : Vec3 K → K) (eps big cos1 : K) (m : Mesh K) (tol : K) (id : Int) (s1 : Shape K) : List Int → Nat → Nat → Option Bool
  | [], _, _ => some false
  | j :: l, nl, nt =>
    if id = j then crossLoop nrm eps big cos1 m tol id s1 l nl nt
    else do
      let e2 ← m.elements.get? j
      let s2 ← m.shape e2
      if nl + s2.nl = 2 ∧ lineCounts (s1.line.intersects nrm eps big cos1 s2.line tol) = true then some true
      else if nt + s2.nt = 2 then do
        let t1 ← s1.tri?
        let t2 ← s2.tri?
        if triCounts (t1.intersects nrm eps big cos1 t2 tol) then some true
        else crossLoop nrm eps big cos1 m tol id s1 l (nl + s2.nl) (nt + s2.nt)
      else crossLoop nrm eps big cos1 m tol id s1 l (nl + s2.nl) (nt + s2.nt)

/-- The tree of the boxes of the elements: MshCheckMesh_Imp.hpp 51-58. -/
def crossTree (vol : BBox K → K) (big : K) (m : Mesh K) : Option (Rtree.Node K) :=
  m.elements.ids.foldlM (fun t id => do
    let b ← m.elementBox big id
    Rtree.add vol id b t) Rtree.empty

/-- The loop over the elements: MshCheckMesh_Imp.hpp 62-135. -/
def crossElements (nrm : Vec3 K → K) (eps big cos1 : K) (m : Mesh K) (tol : K) (tree : Rtree.Node K) : List Int → Option Bool
  | [] => some false
  | id :: l => do
    let e ← m.elements.get? id
    let s ← m.shape e
    let b ← m.elementBox big id
    let cand ← Rtree.find [] b 0 tree
    if ← crossLoop nrm eps big cos1 m tol id s cand s.nl s.nt then some true
    else crossElements nrm eps big cos1 m tol tree l

/-- `checkIntersections(mesh, tolerance)`: MshCheckMesh_Imp.hpp 48-137. -/
def checkIntersections (vol : BBox K → K) (nrm : Vec3 K → K) (eps big cos1 : K) (m : Mesh K) (tol : K) : Option Bool := do
  let tree ← m.crossTree vol big
  m.crossElements nrm eps big cos1 tol tree m.elements.ids

end Mesh
end ENigMA
