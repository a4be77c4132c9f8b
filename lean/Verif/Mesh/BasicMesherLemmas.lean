import Verif.Mesh.BasicMesher
import Verif.Mesh.FacesLemmas
import Verif.Base.Norm
import Mathlib.Data.List.GetD

/-! # Lemmas on the structured meshers -/

set_option linter.unusedSectionVars false

namespace ENigMA
namespace BasicMesher
open Mesh

variable {K : Type} [Field K] [LinearOrder K] [IsStrictOrderedRing K]

theorem addAll_filled {α : Type} (l : List α) : ∀ (c : Cont α) (fs : List α), Filled c fs → Filled (addAll l c fs.length) (fs ++ l) := by
  induction l with
  | nil => intro c fs h; simpa [addAll] using h
  | cons a t ih =>
    intro c fs h
    have h1 := h.add a
    rw [h.nextId] at h1
    have := ih _ _ h1
    simp only [List.length_append, List.length_singleton, List.append_assoc, List.singleton_append] at this
    exact_mod_cast this

theorem build_filled (ns : List (Vec3 K)) (es : List Elem) : Filled (build ns es).nodes ns ∧ Filled (build ns es).elements es :=
  ⟨addAll_filled ns Cont.empty [] filled_empty, addAll_filled es Cont.empty [] filled_empty⟩

theorem filled_count {α : Type} {c : Cont α} {fs : List α} (h : Filled c fs) : c.count = fs.length := by
  simp [Cont.count, h.ids, iota]

/-- A built mesh whose elements only name existing nodes is consistent. -/
theorem build_ok (ns : List (Vec3 K)) (es : List Elem) (h : ∀ e ∈ es, ∀ x ∈ e.nodeIds, 0 ≤ x ∧ x < ns.length) :
    (build ns es).WF ∧ (build ns es).nodes.RoundTrip ∧ (build ns es).elements.RoundTrip ∧
      (build ns es).nodes.ids = iota ns.length ∧ (build ns es).elements.ids = iota es.length := by
  obtain ⟨h1, h2⟩ := build_filled ns es
  refine ⟨⟨h1.ok, filled_empty.ok, h2.ok, ?_, ?_⟩, h1.synced.roundTrip, h2.synced.roundTrip, h1.ids, h2.ids⟩
  · intro id f hf; simp [build, Mesh.empty, Cont.empty, Cont.get?] at hf
  · intro id e he x hx
    rw [h1.ids, mem_iota]
    have : e ∈ es := by
      rcases lt_or_ge id 0 with hneg | hpos
      · rw [h2.neg id hneg] at he; cases he
      · obtain ⟨k, rfl⟩ := Int.eq_ofNat_of_zero_le hpos
        rw [h2.get] at he
        exact List.mem_of_getElem? he
    exact h e this x hx

theorem loop_length {α : Type} (n : Nat) (f : Nat → List α) (w : Nat) (h : ∀ i < n, (f i).length = w) : (loop (n : Int) f).length = n * w := by
  unfold loop
  rw [Int.toNat_natCast, List.length_flatMap]
  have : (List.range n).map (fun i => (f i).length) = List.replicate n w := by
    apply List.ext_getElem (by simp)
    intro i h1 h2
    simp only [List.getElem_map, List.getElem_range, List.getElem_replicate]
    exact h i (by simpa using h1)
  rw [this]; simp

theorem flatMap_range_get {α : Type} (f : Nat → List α) (w : Nat) : ∀ (n : Nat), (∀ i < n, (f i).length = w) → ∀ j < n, ∀ i < w,
    ((List.range n).flatMap f)[w * j + i]? = (f j)[i]? := by
  intro n
  induction n with
  | zero => intro _ j hj; omega
  | succ n ih =>
    intro h j hj i hi
    have hlen : ((List.range n).flatMap f).length = n * w := by
      have := loop_length n f w (fun i hi => h i (by omega))
      simpa [loop] using this
    rw [List.range_succ, List.flatMap_append, List.flatMap_singleton]
    rcases Nat.lt_succ_iff_lt_or_eq.1 hj with hj' | rfl
    · rw [List.getElem?_append_left, ih (fun i hi => h i (by omega)) j hj' i hi]
      rw [hlen]
      calc w * j + i < w * j + w := by omega
        _ = (j + 1) * w := by ring
        _ ≤ n * w := Nat.mul_le_mul_right _ hj'
    · rw [List.getElem?_append_right (by rw [hlen, Nat.mul_comm]; omega), hlen]
      congr 1
      rw [Nat.mul_comm]; omega

theorem loop_get {α : Type} (n : Nat) (f : Nat → List α) (w : Nat) (h : ∀ i < n, (f i).length = w) (j : Nat) (hj : j < n) (i : Nat) (hi : i < w) :
    (loop (n : Int) f)[w * j + i]? = (f j)[i]? := by
  unfold loop; rw [Int.toNat_natCast]; exact flatMap_range_get f w n h j hj i hi

theorem mem_loop {α : Type} (n : Nat) (f : Nat → List α) (a : α) : a ∈ loop (n : Int) f ↔ ∃ i < n, a ∈ f i := by
  simp [loop]

theorem step_eq {nrm : Vec3 K → K} (hn : IsNorm nrm) (v : Vec3 K) (n : Nat) (h : 0 < n) :
    spacing nrm v n • unit nrm v = (1 / (n : K)) • v := by
  have hn0 : (n : K) ≠ 0 := by exact_mod_cast h.ne'
  unfold spacing unit
  rw [if_pos (by exact_mod_cast h)]
  by_cases hv : v = 0
  · subst hv
    simp [hn.zero, Vec3.normSq]
  · have hp : 0 < v.normSq := lt_of_le_of_ne (Vec3.normSq_nonneg v) fun h => hv (Vec3.normSq_eq_zero.1 h.symm)
    have hne := (hn.pos hv).ne'
    rw [if_pos hp]
    ext <;> simp <;> field_simp

/-- The elements of a built mesh. -/
theorem build_get {ns : List (Vec3 K)} {es : List Elem} (x : Int) (e : Elem) :
    (build ns es).elements.get? x = some e ↔ ∃ k : Nat, x = k ∧ es[k]? = some e := by
  have h2 := (build_filled ns es).2
  constructor
  · intro he
    rcases lt_or_ge x 0 with hneg | hpos
    · rw [h2.neg x hneg] at he; cases he
    · obtain ⟨k, rfl⟩ := Int.eq_ofNat_of_zero_le hpos
      rw [h2.get] at he
      exact ⟨k, rfl, he⟩
  · rintro ⟨k, rfl, h⟩
    rw [h2.get, h]

/-- Positions in a loop whose body yields `w` items. -/
theorem loop_get_iff {α : Type} (n : Nat) (f : Nat → List α) (w : Nat) (h : ∀ i < n, (f i).length = w) (x : Nat) (a : α) :
    (loop (n : Int) f)[x]? = some a ↔ ∃ j < n, ∃ i < w, x = w * j + i ∧ (f j)[i]? = some a := by
  constructor
  · intro hx
    have hlt := (List.getElem?_eq_some_iff.1 hx).1
    rw [loop_length n f w h] at hlt
    have hw : 0 < w := Nat.pos_of_ne_zero fun h0 => by simp [h0] at hlt
    refine ⟨x / w, Nat.div_lt_of_lt_mul (by rwa [Nat.mul_comm]), x % w, Nat.mod_lt _ hw, (Nat.div_add_mod x w).symm, ?_⟩
    rw [← hx, ← loop_get n f w h _ (Nat.div_lt_of_lt_mul (by rwa [Nat.mul_comm])) _ (Nat.mod_lt _ hw), Nat.div_add_mod]
  · rintro ⟨j, hj, i, hi, rfl, hx⟩
    rw [loop_get n f w h j hj i hi, hx]

/-- Ids of grid points are distinct, in two dimensions. -/
theorem id2_inj {nu : Nat} {i j i' j' : Nat} (hi : i ≤ nu) (hi' : i' ≤ nu)
    (h : ((nu : Int) + 1) * j + i = ((nu : Int) + 1) * j' + i') : i = i' ∧ j = j' := by
  have h' : (nu + 1) * j + i = (nu + 1) * j' + i' := by exact_mod_cast h
  have h1 : ((nu + 1) * j + i) % (nu + 1) = ((nu + 1) * j' + i') % (nu + 1) := by rw [h']
  have h2 : ((nu + 1) * j + i) / (nu + 1) = ((nu + 1) * j' + i') / (nu + 1) := by rw [h']
  rw [Nat.mul_add_mod, Nat.mul_add_mod, Nat.mod_eq_of_lt (by omega), Nat.mod_eq_of_lt (by omega)] at h1
  rw [Nat.mul_add_div (by omega), Nat.mul_add_div (by omega), Nat.div_eq_of_lt (by omega), Nat.div_eq_of_lt (by omega)] at h2
  exact ⟨h1, by simpa using h2⟩

theorem id2_lt {nu nv : Nat} {i j : Nat} (hi : i ≤ nu) (hj : j ≤ nv) : (nu + 1) * j + i < (nv + 1) * (nu + 1) := by
  calc (nu + 1) * j + i < (nu + 1) * j + (nu + 1) := by omega
    _ = (j + 1) * (nu + 1) := by ring
    _ ≤ (nv + 1) * (nu + 1) := Nat.mul_le_mul_right _ (by omega)

end BasicMesher
end ENigMA
