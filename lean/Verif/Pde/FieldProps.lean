import Verif.Pde.Field
import Mathlib.Tactic.Ring
import Mathlib.Tactic.Linarith
import Mathlib.Tactic.NormNum
import Mathlib.Data.Rat.Defs

/-!
# C52: field bookkeeping
-/

set_option linter.unusedSectionVars false

namespace ENigMA
namespace PdeField
variable {K : Type} [Zero K]

/-! ### Specification -/

/-- The value the call gives to degree of freedom `d` of node `i`, if it sets that one: either through the two-index or through the
flat interface, in a field with `n` degrees of freedom per node. -/
def Op.fixes (n i d : Int) : Op K → Option K
  | .setFixedValueDof i' d' v => if i' = i ∧ d' = d then some v else none
  | .setFixedValue k v => if k = i * n + d then some v else none
  | _ => none

/-- The same for sources. -/
def Op.sources (n i d : Int) : Op K → Option K
  | .setSourceDof i' d' v => if i' = i ∧ d' = d then some v else none
  | .setSource k v => if k = i * n + d then some v else none
  | _ => none

/-- The material the call gives to element `i`. -/
def Op.givesMaterial (i : Int) : Op K → Option (Material K)
  | .addMaterial i' m => if i' = i then some m else none
  | _ => none

/-- The condition the call gives to node `i`. -/
def Op.givesNode (i : Int) : Op K → Option (BoundaryCondition K)
  | .addBCNode i' b => if i' = i then some b else none
  | _ => none

/-- The condition the call gives to face `i`. -/
def Op.givesFace (i : Int) : Op K → Option (BoundaryCondition K)
  | .addBCFace i' b => if i' = i then some b else none
  | _ => none

/-- Call `o` of the history sets a value and no later call does. -/
def LastSet {α : Type} (g : Op K → Option α) (h : List (Op K)) (v : α) : Prop :=
  ∃ pre o post, h = pre ++ o :: post ∧ g o = some v ∧ ∀ o' ∈ post, g o' = none

/-- A two-index call names a degree of freedom between `0` and `n - 1`. -/
def Op.DofOk (n : Int) : Op K → Prop
  | .setFixedValueDof _ d _ => 0 ≤ d ∧ d < n
  | .setSourceDof _ d _ => 0 ≤ d ∧ d < n
  | _ => True

/-- All calls do. -/
def DofsOk (n : Int) (h : List (Op K)) : Prop := ∀ o ∈ h, o.DofOk n

/-! ### Proofs -/

theorem run_append (f : PdeField K) (h h' : List (Op K)) : f.run (h ++ h') = (f.run h).run h' := List.foldl_append

theorem step_nbDofs (f : PdeField K) (o : Op K) : (f.step o).nbDofs = f.nbDofs := by
  cases o <;> try rfl
  simp only [step, elementBC]
  split <;> rfl

theorem run_nbDofs (f : PdeField K) (h : List (Op K)) : (f.run h).nbDofs = f.nbDofs := by
  induction h generalizing f with
  | nil => rfl
  | cons o t ih => rw [run, List.foldl_cons, ← run, ih, step_nbDofs]

/-- A view that each call either sets or leaves alone holds the last value set. -/
theorem last_set {α : Type} (g : Op K → Option α) (view : PdeField K → Option α) (n : Int) (P : Op K → Prop)
    (hset : ∀ f : PdeField K, f.nbDofs = n → ∀ o, P o → view (f.step o) = (g o).or (view f)) (h : List (Op K)) (hP : ∀ o ∈ h, P o) :
    ∀ f : PdeField K, f.nbDofs = n → ∀ v, view (f.run h) = some v ↔ LastSet g h v ∨ (view f = some v ∧ ∀ o ∈ h, g o = none) := by
  induction h with
  | nil =>
    intro f _ v
    constructor
    · intro h; exact Or.inr ⟨h, by simp⟩
    · rintro (⟨pre, o, post, h, -⟩ | ⟨h, -⟩)
      · simp at h
      · exact h
  | cons o t ih =>
    intro f hf v
    rw [run, List.foldl_cons, ← run, ih (fun o' h' => hP o' (by simp [h'])) (f.step o) (by rw [step_nbDofs, hf]) v,
      hset f hf o (hP o (by simp))]
    constructor
    · rintro (⟨pre, o', post, h1, h2, h3⟩ | ⟨h1, h2⟩)
      · exact Or.inl ⟨o :: pre, o', post, by simp [h1], h2, h3⟩
      · cases ho : g o with
        | some w =>
          rw [ho] at h1
          simp only [Option.some_or, Option.some.injEq] at h1
          subst h1
          exact Or.inl ⟨[], o, t, rfl, ho, h2⟩
        | none =>
          rw [ho] at h1
          exact Or.inr ⟨by simpa using h1, by simpa [ho] using h2⟩
    · rintro (⟨pre, o', post, h1, h2, h3⟩ | ⟨h1, h2⟩)
      · cases pre with
        | nil =>
          simp only [List.nil_append, List.cons.injEq] at h1
          obtain ⟨rfl, rfl⟩ := h1
          exact Or.inr ⟨by rw [h2]; rfl, h3⟩
        | cons p pre =>
          simp only [List.cons_append, List.cons.injEq] at h1
          exact Or.inl ⟨pre, o', post, h1.2, h2, h3⟩
      · exact Or.inr ⟨by rw [h2 o (by simp)]; simpa using h1, fun o' h' => h2 o' (by simp [h'])⟩

theorem dof_inj {n i i' d d' : Int} (hd : 0 ≤ d ∧ d < n) (hd' : 0 ≤ d' ∧ d' < n) : i' * n + d' = i * n + d ↔ i' = i ∧ d' = d := by
  constructor
  · intro h
    have hn : 0 < n := by omega
    have h1 : (i' * n + d') / n = i' := by
      rw [add_comm, Int.add_mul_ediv_right _ _ hn.ne', Int.ediv_eq_zero_of_lt hd'.1 hd'.2, zero_add]
    have h2 : (i * n + d) / n = i := by
      rw [add_comm, Int.add_mul_ediv_right _ _ hn.ne', Int.ediv_eq_zero_of_lt hd.1 hd.2, zero_add]
    have hi : i' = i := by rw [← h1, h, h2]
    subst hi
    exact ⟨rfl, by omega⟩
  · rintro ⟨rfl, rfl⟩; rfl

end PdeField

open PdeField
variable {K : Type} [Zero K]

/-- **C52.** After any history of calls the value prescribed for degree of freedom `d` of node `i` (the entry the discretisation
reads at row `i·n + d`) is the last value set for exactly that node and degree of freedom, and there is none if none was set. -/
theorem C52_fixedValue (n : Int) (h : List (Op K)) (hok : DofsOk n h) (i d : Int) (hd : 0 ≤ d ∧ d < n) (v : K) :
    ((PdeField.new n).run h).uFixed.find? (i * n + d) = some v ↔ LastSet (Op.fixes n i d) h v := by
  rw [last_set (Op.fixes n i d) (fun f => f.uFixed.find? (i * n + d)) n
    (Op.DofOk n) ?_ h hok (PdeField.new n) rfl v]
  · constructor
    · rintro (h | ⟨h, -⟩)
      · exact h
      · simp [PdeField.new] at h
    · exact Or.inl
  · intro f hf o ho
    cases o with
    | setFixedValue k w =>
      simp only [step, PdeField.setFixedValue, Op.fixes, SMap.find?_insert]
      by_cases hk : k = i * n + d
      · rw [if_pos hk.symm, if_pos hk]; rfl
      · rw [if_neg (fun h => hk h.symm), if_neg hk]; rfl
    | setFixedValueDof i' d' w =>
      simp only [step, PdeField.setFixedValueDof, Op.fixes, SMap.find?_insert, hf]
      have hd' : 0 ≤ d' ∧ d' < n := ho
      by_cases hk : i' * n + d' = i * n + d
      · rw [if_pos hk.symm, if_pos ((dof_inj hd hd').1 hk)]; rfl
      · rw [if_neg (fun h => hk h.symm), if_neg (fun h => hk ((dof_inj hd hd').2 h))]; rfl
    | elementBC e k => simp only [step, PdeField.elementBC, Op.fixes]; split <;> rfl
    | _ => rfl

/-- **C52.** The same for sources. -/
theorem C52_source (n : Int) (h : List (Op K)) (hok : DofsOk n h) (i d : Int) (hd : 0 ≤ d ∧ d < n) (v : K) :
    ((PdeField.new n).run h).uSource.find? (i * n + d) = some v ↔ LastSet (Op.sources n i d) h v := by
  rw [last_set (Op.sources n i d) (fun f => f.uSource.find? (i * n + d)) n
    (Op.DofOk n) ?_ h hok (PdeField.new n) rfl v]
  · constructor
    · rintro (h | ⟨h, -⟩)
      · exact h
      · simp [PdeField.new] at h
    · exact Or.inl
  · intro f hf o ho
    cases o with
    | setSource k w =>
      simp only [step, PdeField.setSource, Op.sources, SMap.find?_insert]
      by_cases hk : k = i * n + d
      · rw [if_pos hk.symm, if_pos hk]; rfl
      · rw [if_neg (fun h => hk h.symm), if_neg hk]; rfl
    | setSourceDof i' d' w =>
      simp only [step, PdeField.setSourceDof, Op.sources, SMap.find?_insert, hf]
      have hd' : 0 ≤ d' ∧ d' < n := ho
      by_cases hk : i' * n + d' = i * n + d
      · rw [if_pos hk.symm, if_pos ((dof_inj hd hd').1 hk)]; rfl
      · rw [if_neg (fun h => hk h.symm), if_neg (fun h => hk ((dof_inj hd hd').2 h))]; rfl
    | elementBC e k => simp only [step, PdeField.elementBC, Op.sources]; split <;> rfl
    | _ => rfl

/-- **C52.** Materials, node and face conditions: the last value set for that index is read back, `has…` tells whether there is one. -/
theorem C52_last_set (n : Int) (h : List (Op K)) (i : Int) :
    (∀ m, ((PdeField.new n).run h).material i = some m ↔ LastSet (Op.givesMaterial i) h m) ∧
    (∀ b, ((PdeField.new n).run h).nodeBC i = some b ↔ LastSet (Op.givesNode i) h b) ∧
    (∀ b, ((PdeField.new n).run h).faceBC i = some b ↔ LastSet (Op.givesFace i) h b) ∧
    (((PdeField.new n).run h).hasMaterial i = true ↔ ∃ o ∈ h, (Op.givesMaterial i o).isSome) ∧
    (((PdeField.new n).run h).nodeHasBC i = true ↔ ∃ o ∈ h, (Op.givesNode i o).isSome) ∧
    (((PdeField.new n).run h).faceHasBC i = true ↔ ∃ o ∈ h, (Op.givesFace i o).isSome) := by
  have hM : ∀ m, ((PdeField.new n).run h).material i = some m ↔ LastSet (Op.givesMaterial i) h m := by
    intro m
    rw [last_set (Op.givesMaterial i) (fun f => f.material i) n (fun _ => True) ?_ h (fun _ _ => trivial) (PdeField.new n) rfl m]
    · exact ⟨fun h => h.resolve_right (fun h => by simp [PdeField.new, PdeField.material] at h), Or.inl⟩
    · intro f _ o _
      cases o with
      | addMaterial k w =>
        simp only [step, PdeField.addMaterial, PdeField.material, Op.givesMaterial, SMap.find?_insert]
        by_cases hk : k = i
        · rw [if_pos hk.symm, if_pos hk]; rfl
        · rw [if_neg (fun h => hk h.symm), if_neg hk]; rfl
      | elementBC e k => simp only [step, PdeField.elementBC, Op.givesMaterial]; split <;> rfl
      | _ => rfl
  have hN : ∀ b, ((PdeField.new n).run h).nodeBC i = some b ↔ LastSet (Op.givesNode i) h b := by
    intro m
    rw [last_set (Op.givesNode i) (fun f => f.nodeBC i) n (fun _ => True) ?_ h (fun _ _ => trivial) (PdeField.new n) rfl m]
    · exact ⟨fun h => h.resolve_right (fun h => by simp [PdeField.new, PdeField.nodeBC] at h), Or.inl⟩
    · intro f _ o _
      cases o with
      | addBCNode k w =>
        simp only [step, PdeField.addBCNode, PdeField.nodeBC, Op.givesNode, SMap.find?_insert]
        by_cases hk : k = i
        · rw [if_pos hk.symm, if_pos hk]; rfl
        · rw [if_neg (fun h => hk h.symm), if_neg hk]; rfl
      | elementBC e k => simp only [step, PdeField.elementBC, Op.givesNode]; split <;> rfl
      | _ => rfl
  have hF : ∀ b, ((PdeField.new n).run h).faceBC i = some b ↔ LastSet (Op.givesFace i) h b := by
    intro m
    rw [last_set (Op.givesFace i) (fun f => f.faceBC i) n (fun _ => True) ?_ h (fun _ _ => trivial) (PdeField.new n) rfl m]
    · exact ⟨fun h => h.resolve_right (fun h => by simp [PdeField.new, PdeField.faceBC] at h), Or.inl⟩
    · intro f _ o _
      cases o with
      | addBCFace k w =>
        simp only [step, PdeField.addBCFace, PdeField.faceBC, Op.givesFace, SMap.find?_insert]
        by_cases hk : k = i
        · rw [if_pos hk.symm, if_pos hk]; rfl
        · rw [if_neg (fun h => hk h.symm), if_neg hk]; rfl
      | elementBC e k => simp only [step, PdeField.elementBC, Op.givesFace]; split <;> rfl
      | _ => rfl
  have ex : ∀ {α : Type} (g : Op K → Option α), (∃ v, LastSet g h v) ↔ ∃ o ∈ h, (g o).isSome := by
    intro α g
    constructor
    · rintro ⟨v, pre, o, post, rfl, h2, -⟩
      exact ⟨o, by simp, by simp [h2]⟩
    · clear hM hN hF
      induction h with
      | nil => rintro ⟨o, ho, -⟩; simp at ho
      | cons o t ih =>
        intro hex
        by_cases ht : ∃ o' ∈ t, (g o').isSome
        · obtain ⟨v, pre, o', post, h1, h2, h3⟩ := ih ht
          exact ⟨v, o :: pre, o', post, by simp [h1], h2, h3⟩
        · obtain ⟨o', ho', hs⟩ := hex
          rcases List.mem_cons.1 ho' with rfl | ho'
          · obtain ⟨v, hv⟩ := Option.isSome_iff_exists.1 hs
            refine ⟨v, [], o', t, rfl, hv, fun o'' h'' => ?_⟩
            by_contra hne
            exact ht ⟨o'', h'', Option.isSome_iff_ne_none.2 hne⟩
          · exact absurd ⟨o', ho', hs⟩ ht
  refine ⟨hM, hN, hF, ?_, ?_, ?_⟩
  · rw [← ex, PdeField.hasMaterial, Option.isSome_iff_exists]; exact exists_congr hM
  · rw [← ex, PdeField.nodeHasBC, Option.isSome_iff_exists]; exact exists_congr hN
  · rw [← ex, PdeField.faceHasBC, Option.isSome_iff_exists]; exact exists_congr hF

/-- The condition the call gives to `(e, i)`. -/
def PdeField.Op.givesElement (e i : Int) : Op K → Option (BoundaryCondition K)
  | .addBCElement e' i' b => if e' = e ∧ i' = i then some b else none
  | _ => none

/-- **C52.** The element condition read is the last one set for exactly that element and index, and a default one if none was. -/
theorem C52_elementBC (n : Int) (h : List (Op K)) (e i : Int) (b : BoundaryCondition K) :
    (((PdeField.new n).run h).elementBC e i).1 = b ↔
      LastSet (Op.givesElement e i) h b ∨ (b = .empty ∧ ∀ o ∈ h, Op.givesElement e i o = none) := by
  have key := last_set (Op.givesElement e i) (fun f => some (f.elementBC e i).1) n (fun _ => True) ?_ h (fun _ _ => trivial)
    (PdeField.new n) rfl b
  · simp only [Option.some.injEq] at key
    rw [key]
    have : ((PdeField.new n : PdeField K).elementBC e i).1 = .empty := rfl
    rw [this]
    exact or_congr_right (and_congr_left' eq_comm)
  · intro f _ o _
    cases o with
    | addBCElement e' i' w =>
      simp only [step, PdeField.addBCElement, PdeField.elementBC, Op.givesElement]
      by_cases hk : e' = e ∧ i' = i
      · obtain ⟨rfl, rfl⟩ := hk
        simp
      · rw [if_neg hk, SMap.find?_insert_ne _ _ (by
          intro hh
          rw [toLex_inj, Prod.mk.injEq] at hh
          exact hk ⟨hh.1.symm, hh.2.symm⟩)]
        cases f.bcElement.find? (toLex (e, i)) <;> rfl
    | elementBC e' i' =>
      simp only [step, Op.givesElement, Option.none_or, Option.some.injEq]
      by_cases hk : toLex (e, i) = toLex (e', i')
      · rw [toLex_inj, Prod.mk.injEq] at hk
        obtain ⟨rfl, rfl⟩ := hk
        cases hf : f.bcElement.find? (toLex (e, i)) <;> simp [PdeField.elementBC, hf]
      · cases hf : f.bcElement.find? (toLex (e', i')) <;> simp only [PdeField.elementBC, hf]
        rw [SMap.find?_insert_ne _ _ hk]
        cases f.bcElement.find? (toLex (e, i)) <;> rfl
    | _ =>
      simp only [step, Op.givesElement, Option.none_or, PdeField.elementBC, PdeField.setFixedValue, PdeField.setFixedValueDof,
        PdeField.setSource, PdeField.setSourceDof, PdeField.addMaterial, PdeField.addBCNode, PdeField.addBCFace]
      cases f.bcElement.find? (toLex (e, i)) <;> rfl

/-- **C52.** A condition value is the last one added, and zero if none was; adding one does not disturb the others. The same for
material properties. -/
theorem C52_conditions (b : BoundaryCondition K) (m : Material K) (c c' : Int) (v : K) (h : c' ≠ c) :
    ((b.addCondition c v).conditionValue c).1 = v ∧ ((b.addCondition c v).conditionValue c').1 = (b.conditionValue c').1 ∧
    ((BoundaryCondition.empty : BoundaryCondition K).conditionValue c).1 = 0 ∧ (b.addCondition c v).type = b.type ∧
    ((m.addProperty c v).propertyValue c).1 = v ∧ ((m.addProperty c v).propertyValue c').1 = (m.propertyValue c').1 ∧
    ((Material.empty : Material K).propertyValue c).1 = 0 := by
  simp only [BoundaryCondition.conditionValue, BoundaryCondition.addCondition, Material.propertyValue, Material.addProperty,
    SMap.find?_insert_self, SMap.find?_insert_ne _ _ h, BoundaryCondition.empty, Material.empty, SMap.find?_empty, true_and, and_true]
  refine ⟨?_, ?_⟩
  · cases b.condition.find? c' <;> rfl
  · cases m.property.find? c' <;> rfl

/-- **C52.** Reading a condition or property changes no value that is read later. -/
theorem C52_reading_is_harmless (b : BoundaryCondition K) (m : Material K) (c c' : Int) :
    ((b.conditionValue c).2.conditionValue c').1 = (b.conditionValue c').1 ∧
    ((m.propertyValue c).2.propertyValue c').1 = (m.propertyValue c').1 := by
  constructor
  · by_cases h : c' = c
    · subst h
      cases hb : b.condition.find? c' <;> simp [BoundaryCondition.conditionValue, hb]
    · cases hb : b.condition.find? c <;> simp only [BoundaryCondition.conditionValue, hb]
      rw [SMap.find?_insert_ne _ _ h]
      cases b.condition.find? c' <;> rfl
  · by_cases h : c' = c
    · subst h
      cases hb : m.property.find? c' <;> simp [Material.propertyValue, hb]
    · cases hb : m.property.find? c <;> simp only [Material.propertyValue, hb]
      rw [SMap.find?_insert_ne _ _ h]
      cases m.property.find? c' <;> rfl

/-- **C52 (disagreement).** Reading a missing element condition with `elementBC` creates one: `elementHasBC` then answers `true`
although nothing was ever set. -/
theorem C52_elementBC_creates (n : Int) (e i : Int) :
    ((PdeField.new n : PdeField K).elementHasBC e i) = false ∧
    ((PdeField.new n : PdeField K).run [.elementBC e i]).elementHasBC e i = true := by
  constructor
  · rfl
  · simp [run, step, PdeField.elementBC, PdeField.new, PdeField.elementHasBC]

/-- **C52 (disagreement).** A degree of freedom outside `0 … n-1` is not rejected: it sets the value of another node. -/
theorem C52_dof_out_of_range : ∃ h : List (Op ℚ), ¬ DofsOk 2 h ∧
    ((PdeField.new 2).run h).uFixed.find? (1 * 2 + 0) = some 7 ∧ ∀ o ∈ h, ∀ v, o ≠ .setFixedValueDof 1 0 v := by
  refine ⟨[.setFixedValueDof 0 2 7], ?_, by decide +kernel, by simp⟩
  intro h
  have : (0 : Int) ≤ 2 ∧ (2 : Int) < 2 := h (.setFixedValueDof 0 2 7) (by simp)
  omega

/-! ### Non-vacuity -/

/-- A history on a field with two degrees of freedom per node. -/
def fieldHistory : List (Op ℚ) :=
  [.setFixedValueDof 1 0 5, .addBCNode 3 .empty, .setFixedValueDof 1 1 6, .setFixedValue 2 8, .setSourceDof 1 0 9]

example : DofsOk 2 fieldHistory := by
  intro o ho
  simp only [fieldHistory, List.mem_cons, List.not_mem_nil, or_false] at ho
  rcases ho with rfl | rfl | rfl | rfl | rfl <;> simp [Op.DofOk]

example : ((PdeField.new 2).run fieldHistory).uFixed.find? (1 * 2 + 0) = some 8 ∧
    ((PdeField.new 2).run fieldHistory).uFixed.find? (1 * 2 + 1) = some 6 ∧
    ((PdeField.new 2).run fieldHistory).uFixed.find? (0 * 2 + 1) = none ∧
    ((PdeField.new 2).run fieldHistory).nodeHasBC 3 = true := by decide +kernel

end ENigMA
