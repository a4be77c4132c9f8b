import Verif.Mesh.Container

/-!
# What a history of calls means, independently of the data structure

These definitions only mention the list of calls, never the container.
-/

namespace ENigMA

namespace Op
variable {α : Type*}

/-- The call changes what is stored under `id`. -/
def touches (id : Int) : Op α → Prop
  | .add i _ => i = id
  | .remove i => i = id
  | .rebuild => False
  | .clear => True

/-- The call is a removal. -/
def isRemove : Op α → Prop
  | .remove _ => True
  | _ => False

end Op

variable {α : Type*}

/-- After the calls `h`, the id is live with payload `a`: some call added `a` under `id`, and no later call
touched `id`. -/
def Live (h : List (Op α)) (id : Int) (a : α) : Prop :=
  ∃ h₁ h₂, h = h₁ ++ Op.add id a :: h₂ ∧ ∀ op ∈ h₂, ¬ op.touches id

/-- No call adds an id which is live at that moment. -/
def NoReAdd (h : List (Op α)) : Prop :=
  ∀ h₁ id a h₂, h = h₁ ++ Op.add id a :: h₂ → ∀ b, ¬ Live h₁ id b

/-- Every call that removes an id happens when the id is live. -/
def RemovesLive (h : List (Op α)) : Prop :=
  ∀ h₁ id h₂, h = h₁ ++ Op.remove id :: h₂ → ∃ b, Live h₁ id b

/-- Both ids are live and the addition that made `i` live precedes the one that made `j` live. -/
def AddedBefore (h : List (Op α)) (i j : Int) : Prop :=
  ∃ h₁ h₂ h₃ a b, h = h₁ ++ Op.add i a :: (h₂ ++ Op.add j b :: h₃) ∧
    (∀ op ∈ h₂ ++ Op.add j b :: h₃, ¬ op.touches i) ∧ (∀ op ∈ h₃, ¬ op.touches j)

end ENigMA
