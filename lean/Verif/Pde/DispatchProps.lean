import Verif.Pde.Dispatch

/-!
# For which fields an equation can be written down
-/

set_option linter.unusedSectionVars false
set_option autoImplicit false

namespace ENigMA
namespace Dispatch

/-- The unknowns of the method: one per element for finite volumes, one per node for finite differences and finite elements. -/
def unknowns (f : Fld) : Nat :=
  match f.method with
  | .fvm => f.nbElements
  | _ => f.nbNodes

/-- The fields with a complete set of operators. -/
def Complete (f : Fld) : Prop :=
  ((f.method = .fdm ∨ f.method = .fem ∨ f.method = .fvm) ∧ (f.sim = .generic ∨ f.sim = .thermal)) ∨ (f.method = .fvm ∧ f.sim = .flow)

/-- The expression uses one of the listed operators. -/
def Expr.Uses (P : Expr → Prop) : Expr → Prop
  | .scaled e => e.Uses P
  | .sum l r => l.Uses P ∨ r.Uses P
  | .diff l r => l.Uses P ∨ r.Uses P
  | e => P e

/-- `gradient` and `divergence` of two or three fields. -/
def isCoupling : Expr → Prop := fun e => e = .coupling
/-- `divergence` of one field. -/
def isDivergence : Expr → Prop := fun e => e = .divergence
/-- `c * u`. -/
def isField : Expr → Prop := fun e => e = .field

/-- Sums and differences have the type and the size of their parts. -/
theorem eval_of_leaves (f : Fld) (n : Nat) (P : MatrixType → Prop) (hP : ∀ a b, P a → P b → P (Sys.joinKind a b)) (ok : Expr → Prop)
    (hleaf : ∀ e s, ok e → eval f e = some s → (e = .ddt ∨ e = .laplacian ∨ e = .divergence ∨ e = .coupling ∨ e = .field) → s.n = n ∧ P s.kind) :
    ∀ e : Expr, ¬ e.Uses (fun g => ¬ ok g) → ∃ k, eval f e = some ⟨k, n⟩ ∧ P k := by
  intro e
  induction e with
  | ddt => intro h; have := hleaf .ddt _ (not_not.1 h) rfl (by simp); exact ⟨_, by rw [eval, ← this.1], this.2⟩
  | laplacian => intro h; have := hleaf .laplacian _ (not_not.1 h) rfl (by simp); exact ⟨_, by rw [eval, ← this.1], this.2⟩
  | divergence => intro h; have := hleaf .divergence _ (not_not.1 h) rfl (by simp); exact ⟨_, by rw [eval, ← this.1], this.2⟩
  | coupling => intro h; have := hleaf .coupling _ (not_not.1 h) rfl (by simp); exact ⟨_, by rw [eval, ← this.1], this.2⟩
  | field => intro h; have := hleaf .field _ (not_not.1 h) rfl (by simp); exact ⟨_, by rw [eval, ← this.1], this.2⟩
  | scaled e ih => intro h; exact ih h
  | sum l r ihl ihr =>
    intro h
    obtain ⟨a, ha, pa⟩ := ihl fun x => h (Or.inl x)
    obtain ⟨b, hb, pb⟩ := ihr fun x => h (Or.inr x)
    exact ⟨_, by simp [eval, ha, hb], hP a b pa pb⟩
  | diff l r ihl ihr =>
    intro h
    obtain ⟨a, ha, pa⟩ := ihl fun x => h (Or.inl x)
    obtain ⟨b, hb, pb⟩ := ihr fun x => h (Or.inr x)
    exact ⟨_, by simp [eval, ha, hb], hP a b pa pb⟩

end Dispatch

open Dispatch

/-- **C138 (complete fields).** For a field of finite differences, finite elements or finite volumes with a complete set of operators, every left-hand side
written with `ddt`, `laplacian`, `divergence` and multiples of the field (of the right size) can be formed and has one row per unknown. -/
theorem C138_complete (f : Fld) (hf : Complete f) (hu : f.uSize = unknowns f) (e : Expr) (he : ¬ e.Uses isCoupling) :
    ∃ k, eval f e = some ⟨k, unknowns f⟩ := by
  have := eval_of_leaves f (unknowns f) (fun _ => True) (fun _ _ _ _ => trivial) (fun g => ¬ isCoupling g) ?_ e ?_
  · obtain ⟨k, hk, _⟩ := this
    exact ⟨k, hk⟩
  · intro g s hg hs hl
    refine ⟨?_, trivial⟩
    rcases hl with rfl | rfl | rfl | rfl | rfl
    · obtain rfl := Option.some.inj hs
      rcases hf with ⟨h1 | h1 | h1, h2 | h2⟩ | ⟨h1, h2⟩ <;> simp [Dispatch.ddt, fdm, fvm, femDdt, unknowns, h1, h2]
    · obtain rfl := Option.some.inj hs
      rcases hf with ⟨h1 | h1 | h1, h2 | h2⟩ | ⟨h1, h2⟩ <;> simp [Dispatch.laplacian, fdm, fvm, femLaplacian, unknowns, h1, h2]
    · obtain rfl := Option.some.inj hs
      rcases hf with ⟨h1 | h1 | h1, h2 | h2⟩ | ⟨h1, h2⟩ <;> simp [Dispatch.divergence, fdm, fvm, femDivergence, unknowns, h1, h2]
    · exact absurd rfl hg
    · obtain rfl := Option.some.inj hs
      exact hu
  · simpa only [not_not] using he

/-- **C138 (finite elements for flow).** Every left-hand side without the `divergence` of a single field can be formed and has one row per node. -/
theorem C138_flow (f : Fld) (h1 : f.method = .fem) (h2 : f.sim = .flow) (hu : f.uSize = f.nbNodes) (e : Expr) (he : ¬ e.Uses isDivergence) :
    ∃ k, eval f e = some ⟨k, f.nbNodes⟩ := by
  have := eval_of_leaves f f.nbNodes (fun _ => True) (fun _ _ _ _ => trivial) (fun g => ¬ isDivergence g) ?_ e ?_
  · obtain ⟨k, hk, _⟩ := this
    exact ⟨k, hk⟩
  · intro g s hg hs hl
    refine ⟨?_, trivial⟩
    rcases hl with rfl | rfl | rfl | rfl | rfl
    · obtain rfl := Option.some.inj hs
      simp [Dispatch.ddt, femDdt, h1, h2]
    · obtain rfl := Option.some.inj hs
      simp [Dispatch.laplacian, femLaplacian, h1, h2]
    · exact absurd rfl hg
    · obtain rfl := Option.some.inj hs
      simp [Dispatch.coupling, h1, h2]
    · obtain rfl := Option.some.inj hs
      exact hu
  · simpa only [not_not] using he

/-- **C138 (declared type).** A left-hand side of finite elements that contains a `divergence` or a `gradient` of a field that has them is never declared symmetric,
whatever it is added to. -/
theorem C138_not_symmetric (f : Fld) (h1 : f.method = .fem) (e : Expr) (s : Shape)
    (he : e.Uses fun g => (g = .divergence ∧ (f.sim = .generic ∨ f.sim = .thermal)) ∨ (g = .coupling ∧ f.sim = .flow))
    (hs : eval f e = some s) : s.kind = .sparse ∨ s.kind = .dense := by
  have hj : ∀ a b : MatrixType, (a = .sparse ∨ a = .dense) ∨ (b = .sparse ∨ b = .dense) → Sys.joinKind a b = .sparse ∨ Sys.joinKind a b = .dense := by
    intro a b
    cases a <;> cases b <;> decide
  induction e generalizing s with
  | ddt => simp [Expr.Uses] at he
  | laplacian => simp [Expr.Uses] at he
  | field => simp [Expr.Uses] at he
  | divergence =>
    obtain rfl := Option.some.inj hs
    simp only [Expr.Uses, true_and, reduceCtorEq, false_and, or_false] at he
    rcases he with h2 | h2 <;> simp [Dispatch.divergence, femDivergence, h1, h2]
  | coupling =>
    obtain rfl := Option.some.inj hs
    simp only [Expr.Uses, true_and, reduceCtorEq, false_and, false_or] at he
    simp [Dispatch.coupling, h1, he]
  | scaled e ih => exact ih s he hs
  | sum l r ihl ihr =>
    simp only [eval, Option.bind_eq_bind, Option.bind_eq_some_iff] at hs
    obtain ⟨a, ha, b, hb, hs⟩ := hs
    split_ifs at hs
    obtain rfl := Option.some.inj hs
    exact hj _ _ (he.imp (fun h => ihl a h ha) fun h => ihr b h hb)
  | diff l r ihl ihr =>
    simp only [eval, Option.bind_eq_bind, Option.bind_eq_some_iff] at hs
    obtain ⟨a, ha, b, hb, hs⟩ := hs
    split_ifs at hs
    obtain rfl := Option.some.inj hs
    exact hj _ _ (he.imp (fun h => ihl a h ha) fun h => ihr b h hb)

/-- No operator exists for the field. -/
def NoOperators (f : Fld) : Prop :=
  f.method = .none ∨ f.method = .lbm ∨ f.method = .sph ∨ (f.method = .fdm ∧ (f.sim = .flow ∨ f.sim = .structural)) ∨ (f.method = .fvm ∧ f.sim = .structural) ∨
    (f.method = .bem ∧ f.sim ≠ .thermal)

/-- **C138 (missing operators).** Where no operator exists, every left-hand side made of operators is the empty system: there is no error, and the field solved
from it has no values. -/
theorem C138_missing (f : Fld) (hf : NoOperators f) (e : Expr) (he : ¬ e.Uses isField) : eval f e = some Shape.empty := by
  have := eval_of_leaves f 0 (fun k => k = .unknown) ?_ (fun g => ¬ isField g) ?_ e ?_
  · obtain ⟨k, hk, rfl⟩ := this
    exact hk
  · rintro a b rfl rfl; rfl
  · intro g s hg hs hl
    have : s = Shape.empty := by
      rcases hl with rfl | rfl | rfl | rfl | rfl
      · obtain rfl := Option.some.inj hs
        rcases hf with h | h | h | ⟨h, h' | h'⟩ | ⟨h, h'⟩ | ⟨h, h'⟩ <;> simp [Dispatch.ddt, fdm, fvm, h, *]
      · obtain rfl := Option.some.inj hs
        rcases hf with h | h | h | ⟨h, h' | h'⟩ | ⟨h, h'⟩ | ⟨h, h'⟩ <;> simp [Dispatch.laplacian, fdm, fvm, h, *]
      · obtain rfl := Option.some.inj hs
        rcases hf with h | h | h | ⟨h, h' | h'⟩ | ⟨h, h'⟩ | ⟨h, h'⟩ <;> simp [Dispatch.divergence, fdm, fvm, h, *]
      · obtain rfl := Option.some.inj hs
        rcases hf with h | h | h | ⟨h, h' | h'⟩ | ⟨h, h'⟩ | ⟨h, h'⟩ <;> simp [Dispatch.coupling, h]
      · exact absurd rfl hg
    rw [this]
    exact ⟨rfl, rfl⟩
  · simpa only [not_not] using he

/-- **C138 (transient problems that cannot be written).** For structural finite elements and for boundary elements `ddt(u) - laplacian(u)` fails on every mesh that is not
empty, and so does `laplacian(u) + divergence(u)` of a flow field of finite elements. -/
theorem C138_mismatch (f : Fld) :
    (f.method = .fem → f.sim = .structural → 0 < f.nbNodes * f.nbDofs → eval f (.diff .ddt .laplacian) = none) ∧
    (f.method = .bem → f.sim = .thermal → 0 < f.nbElements → eval f (.diff .ddt .laplacian) = none) ∧
    (f.method = .fem → f.sim = .flow → 0 < f.nbNodes → eval f (.sum .laplacian .divergence) = none) := by
  refine ⟨?_, ?_, ?_⟩
  · intro h1 h2 h3
    have : ¬ (0 = f.nbNodes * f.nbDofs) := by omega
    simp only [eval, Dispatch.ddt, Dispatch.laplacian, femDdt, femLaplacian, h1, h2, Shape.empty, Option.bind_eq_bind, Option.bind_some]
    rw [if_neg this]
  · intro h1 h2 h3
    have : ¬ (0 = f.nbElements) := by omega
    simp only [eval, Dispatch.ddt, Dispatch.laplacian, h1, h2, Shape.empty, Option.bind_eq_bind, Option.bind_some, if_true]
    rw [if_neg this]
  · intro h1 h2 h3
    have : ¬ (f.nbNodes = 0) := by omega
    simp only [eval, Dispatch.divergence, Dispatch.laplacian, femDivergence, femLaplacian, h1, h2, Shape.empty, Option.bind_eq_bind, Option.bind_some]
    rw [if_neg this]

/-- **C138 (sources).** `e = source(u, s)` works for generic finite elements, for every left-hand side; for any other field it fails unless the left-hand side is empty. -/
theorem C138_source (f : Fld) (e : Expr) :
    (f.method = .fem → f.sim = .generic → f.uSize = f.nbNodes → ¬ e.Uses isCoupling → ∃ k, withSource f e = some ⟨k, f.nbNodes⟩) ∧
    (¬ (f.method = .fem ∧ f.sim = .generic) → ∀ s, withSource f e = some s → s.n = 0) := by
  constructor
  · intro h1 h2 h3 h4
    have hun : unknowns f = f.nbNodes := by simp [unknowns, h1]
    obtain ⟨k, hk⟩ := C138_complete f (Or.inl ⟨Or.inr (Or.inl h1), Or.inl h2⟩) (by rw [hun]; exact h3) e h4
    refine ⟨k, ?_⟩
    simp [withSource, hk, hun, source, h1, h2]
  · intro h s hs
    have h0 : source f = 0 := by
      unfold source
      split
      · rename_i hm
        rw [if_neg fun h' => h ⟨hm, h'⟩]
      · rfl
    simp only [withSource, h0, Option.bind_eq_bind, Option.bind_eq_some_iff] at hs
    obtain ⟨a, _, hs⟩ := hs
    split_ifs at hs with ha
    obtain rfl := Option.some.inj hs
    exact ha

/-- A thermal field of finite elements on a mesh of 4 nodes and 2 triangles: it is complete; `ddt(T) + 2 * divergence(T) - laplacian(T)` has 4 rows and is not
declared symmetric, `ddt(T) - laplacian(T)` is; a source cannot be given. -/
example : Complete ⟨.fem, .thermal, 4, 2, 1, 4⟩ ∧
    eval ⟨.fem, .thermal, 4, 2, 1, 4⟩ (.diff (.sum .ddt (.scaled .divergence)) .laplacian) = some ⟨.sparse, 4⟩ ∧
    eval ⟨.fem, .thermal, 4, 2, 1, 4⟩ (.diff .ddt .laplacian) = some ⟨.sparseSymmetric, 4⟩ ∧
    withSource ⟨.fem, .thermal, 4, 2, 1, 4⟩ .laplacian = none ∧ withSource ⟨.fem, .generic, 4, 2, 1, 4⟩ .laplacian = some ⟨.sparseSymmetric, 4⟩ :=
  ⟨Or.inl ⟨Or.inr (Or.inl rfl), Or.inr rfl⟩, by decide, by decide, by decide, by decide⟩

/-- Fields without operators, and the fields of the mismatches. -/
example : NoOperators ⟨.sph, .flow, 4, 2, 1, 4⟩ ∧ eval ⟨.sph, .flow, 4, 2, 1, 4⟩ (.diff .ddt .laplacian) = some ⟨.unknown, 0⟩ ∧
    eval ⟨.fem, .structural, 4, 2, 2, 8⟩ .laplacian = some ⟨.sparseSymmetric, 8⟩ ∧ eval ⟨.bem, .thermal, 8, 12, 1, 12⟩ .laplacian = some ⟨.dense, 12⟩ ∧
    eval ⟨.fem, .flow, 4, 2, 1, 4⟩ (.sum .coupling .laplacian) = some ⟨.sparse, 4⟩ :=
  ⟨Or.inr (Or.inr (Or.inl rfl)), by decide, by decide, by decide, by decide⟩

end ENigMA
