import Mathlib.Logic.Function.Basic
import Mathlib.Data.List.Basic
import Mathlib.Data.Option.Basic

/-!
# `std::vector` accessed with unchecked `[]`

An array is a size and a content; reading or writing at an index `≥ size` is undefined behaviour (`none`).
-/

namespace ENigMA

/-- `std::vector<α>`; the values of `get` at indices `≥ size` are irrelevant. -/
structure Arr (α : Type*) where
  size : Nat
  get : Nat → α

namespace Arr
variable {α : Type*}

/-- `v[i]` as a value. -/
def read (v : Arr α) (i : Nat) : Option α := if i < v.size then some (v.get i) else none

/-- `v[i] = a`. -/
def write (v : Arr α) (i : Nat) (a : α) : Option (Arr α) :=
  if i < v.size then some ⟨v.size, Function.update v.get i a⟩ else none

/-- `v.resize(n)`: keeps the first elements, new ones are value-initialised. -/
def resize [Inhabited α] (v : Arr α) (n : Nat) : Arr α :=
  ⟨n, fun i => if i < v.size then v.get i else default⟩

/-- The empty vector. -/
def empty [Inhabited α] : Arr α := ⟨0, fun _ => default⟩

theorem read_of_lt {v : Arr α} {i : Nat} (h : i < v.size) : v.read i = some (v.get i) := by simp [read, h]

theorem write_of_lt {v : Arr α} {i : Nat} {a : α} (h : i < v.size) :
    v.write i a = some ⟨v.size, Function.update v.get i a⟩ := by simp [write, h]

end Arr

/-- `mapM` in `Option` succeeds when every call does. -/
theorem mapM_option_eq {α β : Type*} {f : α → Option β} {g : α → β} {l : List α}
    (h : ∀ x ∈ l, f x = some (g x)) : l.mapM f = some (l.map g) := by
  induction l with
  | nil => rfl
  | cons a t ih =>
    have ht := ih (fun x hx => h x (by simp [hx]))
    simp [List.mapM_cons, h a (by simp), ht]

/-- Conversely, `mapM` succeeding gives every call's result. -/
theorem mapM_option_some {α β : Type*} {f : α → Option β} {l : List α} {r : List β}
    (h : l.mapM f = some r) : l.length = r.length ∧ ∀ i (hi : i < l.length), f l[i] = r[i]? := by
  induction l generalizing r with
  | nil => simp at h; subst h; simp
  | cons a t ih =>
    simp only [List.mapM_cons] at h
    cases ha : f a with
    | none => simp [ha] at h
    | some b =>
      cases ht : t.mapM f with
      | none => simp [ha, ht] at h
      | some s =>
        simp [ha, ht] at h
        subst h
        obtain ⟨h1, h2⟩ := ih ht
        refine ⟨by simp [h1], ?_⟩
        intro i hi
        cases i with
        | zero => simpa using ha
        | succ i => simpa using h2 i (by simpa using hi)

end ENigMA
