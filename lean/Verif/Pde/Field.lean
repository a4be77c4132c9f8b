import Verif.Base.SMap
import Mathlib.Data.Int.Order.Basic
import Mathlib.Data.Prod.Lex

/-!
# `CPdeField`, `CPdeBoundaryCondition`, `CMatMaterial`: the maps

trunk/src/pde/PdeField.hpp, PdeField_Imp.hpp, PdeBoundaryCondition.hpp, PdeBoundaryCondition_Imp.hpp,
trunk/src/material/MatMaterial.hpp, MatMaterial_Imp.hpp

Values given as analytical expressions (`m_conditionFunc`, `m_propertyFunc`), the mesh and `u` are not part of this model. The
enumerators of `EConditionType` and `EPropertyType` are their integer values.
-/

namespace ENigMA

/-- `EBoundaryConditionType`: PdeBoundaryCondition.hpp:20-26. -/
inductive BcType where
  | fixedValue | zeroGradient | cyclic | heatConvective
  deriving DecidableEq, Repr

/-- `CPdeBoundaryCondition`: PdeBoundaryCondition.hpp:44-70. The location is not used by the library and is left out. -/
structure BoundaryCondition (K : Type) where
  type : BcType
  condition : SMap Int K

/-- `CMatMaterial`: MatMaterial.hpp:31-38. -/
structure Material (K : Type) where
  property : SMap Int K

namespace BoundaryCondition
variable {K : Type} [Zero K]

/-- Default constructor: PdeBoundaryCondition_Imp.hpp:24-29. -/
def empty : BoundaryCondition K := ⟨.fixedValue, SMap.empty⟩

/-- `addCondition(type, value)`: PdeBoundaryCondition_Imp.hpp:60-64. -/
def addCondition (b : BoundaryCondition K) (c : Int) (v : K) : BoundaryCondition K := { b with condition := b.condition.insert c v }

/-- `conditionValue(type)`: PdeBoundaryCondition_Imp.hpp:72-76; `operator[]` inserts zero for a missing key. -/
def conditionValue (b : BoundaryCondition K) (c : Int) : K × BoundaryCondition K :=
  match b.condition.find? c with
  | some v => (v, b)
  | none => (0, { b with condition := b.condition.insert c 0 })

end BoundaryCondition

namespace Material
variable {K : Type} [Zero K]

/-- Constructor: MatMaterial_Imp.hpp:16-19. -/
def empty : Material K := ⟨SMap.empty⟩

/-- `addProperty(type, value)`: MatMaterial_Imp.hpp:26-30. -/
def addProperty (m : Material K) (c : Int) (v : K) : Material K := { m with property := m.property.insert c v }

/-- `propertyValue(type)`: MatMaterial_Imp.hpp:38-42; `operator[]` inserts zero for a missing key. -/
def propertyValue (m : Material K) (c : Int) : K × Material K :=
  match m.property.find? c with
  | some v => (v, m)
  | none => (0, { m with property := m.property.insert c 0 })

end Material

/-- `CPdeField`, its maps: PdeField.hpp:50-80. -/
structure PdeField (K : Type) where
  nbDofs : Int
  uFixed : SMap Int K
  uSource : SMap Int K
  materials : SMap Int (Material K)
  bcNode : SMap Int (BoundaryCondition K)
  bcFace : SMap Int (BoundaryCondition K)
  bcElement : SMap (Int ×ₗ Int) (BoundaryCondition K)

namespace PdeField
variable {K : Type} [Zero K]

/-- Constructor, then `setNbDofs`: PdeField_Imp.hpp:16-24, 69-73. -/
def new (nbDofs : Int) : PdeField K := ⟨nbDofs, SMap.empty, SMap.empty, SMap.empty, SMap.empty, SMap.empty, SMap.empty⟩

/-- `setFixedValue(index, value)`: PdeField_Imp.hpp:147-151. -/
def setFixedValue (f : PdeField K) (i : Int) (v : K) : PdeField K := { f with uFixed := f.uFixed.insert i v }

/-- `setFixedValue(index, dof, value)`: PdeField_Imp.hpp:153-157. -/
def setFixedValueDof (f : PdeField K) (i d : Int) (v : K) : PdeField K := { f with uFixed := f.uFixed.insert (i * f.nbDofs + d) v }

/-- `setSource(index, value)`: PdeField_Imp.hpp:159-163. -/
def setSource (f : PdeField K) (i : Int) (v : K) : PdeField K := { f with uSource := f.uSource.insert i v }

/-- `setSource(index, dof, value)`: PdeField_Imp.hpp:165-169. -/
def setSourceDof (f : PdeField K) (i d : Int) (v : K) : PdeField K := { f with uSource := f.uSource.insert (i * f.nbDofs + d) v }

/-- `addMaterial`: PdeField_Imp.hpp:171-175. -/
def addMaterial (f : PdeField K) (i : Int) (m : Material K) : PdeField K := { f with materials := f.materials.insert i m }

/-- `hasMaterial`: PdeField_Imp.hpp:177-181. -/
def hasMaterial (f : PdeField K) (i : Int) : Bool := (f.materials.find? i).isSome

/-- `material(index)`, `std::map::at`: PdeField_Imp.hpp:183-187. -/
def material (f : PdeField K) (i : Int) : Option (Material K) := f.materials.find? i

/-- `addBCNode`: PdeField_Imp.hpp:191-195. -/
def addBCNode (f : PdeField K) (i : Int) (b : BoundaryCondition K) : PdeField K := { f with bcNode := f.bcNode.insert i b }

/-- `nodeHasBC`: PdeField_Imp.hpp:197-201. -/
def nodeHasBC (f : PdeField K) (i : Int) : Bool := (f.bcNode.find? i).isSome

/-- `nodeBC`, `std::map::at`: PdeField_Imp.hpp:203-207. -/
def nodeBC (f : PdeField K) (i : Int) : Option (BoundaryCondition K) := f.bcNode.find? i

/-- `addBCFace`: PdeField_Imp.hpp:209-213. -/
def addBCFace (f : PdeField K) (i : Int) (b : BoundaryCondition K) : PdeField K := { f with bcFace := f.bcFace.insert i b }

/-- `faceHasBC`: PdeField_Imp.hpp:215-219. -/
def faceHasBC (f : PdeField K) (i : Int) : Bool := (f.bcFace.find? i).isSome

/-- `faceBC`, `std::map::at`: PdeField_Imp.hpp:221-225. -/
def faceBC (f : PdeField K) (i : Int) : Option (BoundaryCondition K) := f.bcFace.find? i

/-- `addBCElement`: PdeField_Imp.hpp:227-231. -/
def addBCElement (f : PdeField K) (e i : Int) (b : BoundaryCondition K) : PdeField K :=
  { f with bcElement := f.bcElement.insert (toLex (e, i)) b }

/-- `elementHasBC`: PdeField_Imp.hpp:233-237. -/
def elementHasBC (f : PdeField K) (e i : Int) : Bool := (f.bcElement.find? (toLex (e, i))).isSome

/-- `elementBC`: PdeField_Imp.hpp:239-243; `operator[]` inserts a default condition for a missing key. -/
def elementBC (f : PdeField K) (e i : Int) : BoundaryCondition K × PdeField K :=
  match f.bcElement.find? (toLex (e, i)) with
  | some b => (b, f)
  | none => (.empty, { f with bcElement := f.bcElement.insert (toLex (e, i)) .empty })

/-- One call of the API, after the number of degrees of freedom has been set. -/
inductive Op (K : Type) where
  | setFixedValue (i : Int) (v : K)
  | setFixedValueDof (i d : Int) (v : K)
  | setSource (i : Int) (v : K)
  | setSourceDof (i d : Int) (v : K)
  | addMaterial (i : Int) (m : Material K)
  | addBCNode (i : Int) (b : BoundaryCondition K)
  | addBCFace (i : Int) (b : BoundaryCondition K)
  | addBCElement (e i : Int) (b : BoundaryCondition K)
  | elementBC (e i : Int)

/-- Execute one call. -/
def step (f : PdeField K) : Op K → PdeField K
  | .setFixedValue i v => f.setFixedValue i v
  | .setFixedValueDof i d v => f.setFixedValueDof i d v
  | .setSource i v => f.setSource i v
  | .setSourceDof i d v => f.setSourceDof i d v
  | .addMaterial i m => f.addMaterial i m
  | .addBCNode i b => f.addBCNode i b
  | .addBCFace i b => f.addBCFace i b
  | .addBCElement e i b => f.addBCElement e i b
  | .elementBC e i => (f.elementBC e i).2

/-- Execute a history of calls. -/
def run (f : PdeField K) (h : List (Op K)) : PdeField K := h.foldl step f

end PdeField
end ENigMA
