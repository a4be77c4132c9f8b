import Verif.Mesh.TetMesherStart
import Verif.Mesh.TriangleMesherProps

/-!
# The mesher of solids: the number of rounds, and closed surfaces
-/

set_option linter.unusedSectionVars false
set_option autoImplicit false

namespace ENigMA
namespace TetMesher
open TriMesher (Err R lift nodeAt pushNew markInterior Pass bind_ok pure_ok lift_ok nodeAt_ok NF NF.bind NF.left nf_pure nf_ok nf_lift nf_nodeAt nf_foldlM)

variable {K : Type} [Field K] [LinearOrder K] [IsStrictOrderedRing K]

/-! ### The number of rounds -/

theorem pass_more {P : Par K} {c : Pass K} (fuel : Nat) : ∀ (i : Nat) (st : St K) (k : Nat), NF (pass P c fuel i st) → pass P c (fuel + k) i st = pass P c fuel i st := by
  induction fuel with
  | zero => intro i st k h; simp [NF, pass] at h
  | succ fuel ih =>
    intro i st k h
    rw [Nat.add_right_comm]
    unfold pass at h ⊢
    cases he : st.front[i]? with
    | none => rfl
    | some e =>
      rw [he] at h
      simp only at h ⊢
      split_ifs at h ⊢ with h1 h2 h3
      · exact ih _ _ _ h
      · rfl
      · rfl
      · cases ha : advance P c (tick P st) i e with
        | error e => rfl
        | ok st1 =>
          rw [ha] at h
          exact ih _ _ _ h

theorem runPasses_more {P : Par K} {fuel k : Nat} (cs : List (Pass K)) : ∀ st : St K, NF (runPasses P fuel cs st) → runPasses P (fuel + k) cs st = runPasses P fuel cs st := by
  induction cs with
  | nil => intro st _; rfl
  | cons c cs ih =>
    intro st h
    unfold runPasses at h ⊢
    rw [pass_more fuel 0 st k h.left]
    cases h1 : pass P c fuel 0 st with
    | error e => rfl
    | ok s1 =>
      rw [h1] at h
      exact ih s1 h

theorem bind_more {A B : Type} {x x' : R A} {f f' : A → R B} (h : NF (x >>= f)) (hx : NF x → x' = x) (hf : ∀ a, NF (f a) → f' a = f a) :
    (x' >>= f') = (x >>= f) := by
  rw [hx h.left]
  cases x with
  | error e => rfl
  | ok a => exact hf a h

theorem rounds_more {P : Par K} {fuel k : Nat} (is : List Nat) : ∀ st : St K, NF (rounds P fuel is st) → rounds P (fuel + k) is st = rounds P fuel is st := by
  induction is with
  | nil => intro st _; rfl
  | cons i is ih =>
    intro st h
    unfold rounds at h ⊢
    by_cases h1 : unfinished st = true
    · rw [if_pos h1] at h
      rw [if_pos h1, if_pos h1]
      exact bind_more h (fun _ => rfl) fun s1 h2 => bind_more h2 (runPasses_more _ _) ih
    · rw [if_neg h1, if_neg h1]

theorem passes_more {P : Par K} {fuel : Nat} {st : St K} (k : Nat) (h : NF (passes P fuel st)) : passes P (fuel + k) st = passes P fuel st := by
  unfold passes at h ⊢
  generalize List.range 12 = is at h ⊢
  generalize (firstPasses : List (Pass K)) = cs at h ⊢
  exact bind_more h (runPasses_more _ _) fun s1 h2 => bind_more h2 (rounds_more _ _) fun _ _ => rfl

theorem addTris_closed {P : Par K} {src : Mesh K} {ids : SMap Int Nat} (l : List Int) : ∀ st st' : St K, addTris P src ids l st = .ok st' →
    ∀ id ∈ l, ∀ el, src.elements.get? id = some el → el.elementType = .triangle →
      el.nodeIds.length = 3 ∧ el.faceIds.length = 3 ∧ ∀ f ∈ el.faceIds, ∃ x, src.faces.get? f = some x ∧ x.hasPair = true := by
  have hnb : ∀ f r, neighbour src ids f = .ok r → ∃ x, src.faces.get? f = some x ∧ x.hasPair = true := by
    intro f r h
    unfold neighbour at h
    simp only [bind_ok, lift_ok] at h
    obtain ⟨x, hx, h⟩ := h
    split_ifs at h with h1
    exact ⟨x, hx, h1⟩
  induction l with
  | nil => intro st st' _ id hid; simp at hid
  | cons i t ih =>
    intro st st' h
    unfold addTris at h
    simp only [bind_ok, lift_ok] at h
    obtain ⟨el, hel, h⟩ := h
    obtain ⟨ty, ns, fs⟩ := el
    simp only at h
    split_ifs at h with h1
    · split at h
      · rename_i a b c fa fb fc
        simp only [bind_ok] at h
        obtain ⟨e, he, p, hp, q, hq, r, hr, st1, hst1, h⟩ := h
        intro id hid el' hel' hty
        rcases List.mem_cons.1 hid with rfl | hid
        · rw [hel] at hel'
          simp only [Option.some.injEq] at hel'
          subst hel'
          refine ⟨rfl, rfl, ?_⟩
          intro f hf
          simp only [List.mem_cons, List.not_mem_nil, or_false] at hf
          rcases hf with rfl | rfl | rfl
          · exact hnb _ _ hp
          · exact hnb _ _ hq
          · exact hnb _ _ hr
        · exact ih _ _ h id hid el' hel' hty
      · simp at h
    · intro id hid el' hel' hty
      rcases List.mem_cons.1 hid with rfl | hid
      · rw [hel] at hel'
        simp only [Option.some.injEq] at hel'
        subst hel'
        exact absurd hty h1
      · exact ih _ _ h id hid el' hel' hty

end TetMesher
end ENigMA
