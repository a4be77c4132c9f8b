import Verif.Sle.System
import Verif.Pde.Equation
import Mathlib.Data.Int.Order.Basic
import Mathlib.Tactic.Ring
import Mathlib.Tactic.Linarith

/-!
# Assembly of a linear system entry by entry

The discretisation operators fill a `CSleSystem` by a sequence of `matrixA.coeffRef(i, j) += v`, `matrixA.coeffRef(i, j) = v` and
`vectorB[i] += v`. A `Stamp` is one such statement; the models of the operators produce the stamps in the order in which the code
executes them. An index outside the matrix (an assertion or an out-of-bounds write of Eigen) is `none`.
-/

set_option linter.unusedSectionVars false

namespace ENigMA

/-- One statement writing to the system. -/
inductive Stamp (K : Type) where
  /-- `matrixA.coeffRef(i, j) += v` -/
  | addA (i j : Int) (v : K)
  /-- `matrixA.coeffRef(i, j) = v` -/
  | setA (i j : Int) (v : K)
  /-- `vectorB[i] += v` -/
  | addB (i : Int) (v : K)

namespace Stamp
variable {K : Type} [Field K]

/-- All indices of the statement are inside a system of size `n`. -/
def Ok (n : Nat) : Stamp K → Prop
  | addA i j _ => Equation.InRange i n ∧ Equation.InRange j n
  | setA i j _ => Equation.InRange i n ∧ Equation.InRange j n
  | addB i _ => Equation.InRange i n

instance (n : Nat) (st : Stamp K) : Decidable (st.Ok n) := by cases st <;> (unfold Ok; infer_instance)

/-- The row written. -/
def line : Stamp K → Int
  | addA i _ _ => i
  | setA i _ _ => i
  | addB i _ => i

/-- Effect of a statement on the matrix entry `(i, j)` holding `x`. -/
def onA (i j : Nat) (x : K) : Stamp K → K
  | addA i' j' v => if i' = i ∧ j' = j then x + v else x
  | setA i' j' v => if i' = i ∧ j' = j then v else x
  | addB _ _ => x

/-- Effect of a statement on entry `i` of the right-hand side holding `x`. -/
def onB (i : Nat) (x : K) : Stamp K → K
  | addA _ _ _ => x
  | setA _ _ _ => x
  | addB i' v => if i' = i then x + v else x

end Stamp

namespace Sys
variable {K : Type} [Field K]

/-- Execute one statement. -/
def stamp (s : Sys K) (st : Stamp K) : Option (Sys K) :=
  if st.Ok s.n then
    match st with
    | .addA i j v => some { s with A := fun r c => if r = i.toNat ∧ c = j.toNat then s.A r c + v else s.A r c }
    | .setA i j v => some { s with A := fun r c => if r = i.toNat ∧ c = j.toNat then v else s.A r c }
    | .addB i v => some { s with b := fun r => if r = i.toNat then s.b r + v else s.b r }
  else none

/-- Execute a sequence of statements. -/
def assemble : List (Stamp K) → Sys K → Option (Sys K)
  | [], s => some s
  | st :: t, s => do assemble t (← s.stamp st)

/-- A system after `matrixA.resize(n, n); matrixA.setZero(); vectorB.resize(n); vectorB.setZero()`. -/
def zero (kind : MatrixType) (n : Nat) : Sys K := ⟨kind, n, fun _ _ => 0, fun _ => 0⟩

theorem stamp_spec (s : Sys K) (st : Stamp K) (h : st.Ok s.n) : ∃ s', s.stamp st = some s' ∧ s'.n = s.n ∧ s'.kind = s.kind ∧
    (∀ i j, s'.A i j = st.onA i j (s.A i j)) ∧ (∀ i, s'.b i = st.onB i (s.b i)) := by
  unfold stamp
  rw [if_pos h]
  cases st with
  | addA i j v =>
    obtain ⟨i', rfl⟩ := Int.eq_ofNat_of_zero_le h.1.1
    obtain ⟨j', rfl⟩ := Int.eq_ofNat_of_zero_le h.2.1
    refine ⟨_, rfl, rfl, rfl, fun r c => ?_, fun r => rfl⟩
    simp only [Stamp.onA, Int.toNat_natCast, Nat.cast_inj]
    exact if_congr (by constructor <;> rintro ⟨rfl, rfl⟩ <;> exact ⟨rfl, rfl⟩) rfl rfl
  | setA i j v =>
    obtain ⟨i', rfl⟩ := Int.eq_ofNat_of_zero_le h.1.1
    obtain ⟨j', rfl⟩ := Int.eq_ofNat_of_zero_le h.2.1
    refine ⟨_, rfl, rfl, rfl, fun r c => ?_, fun r => rfl⟩
    simp only [Stamp.onA, Int.toNat_natCast, Nat.cast_inj]
    exact if_congr (by constructor <;> rintro ⟨rfl, rfl⟩ <;> exact ⟨rfl, rfl⟩) rfl rfl
  | addB i v =>
    obtain ⟨i', rfl⟩ := Int.eq_ofNat_of_zero_le (show 0 ≤ i from h.1)
    refine ⟨_, rfl, rfl, rfl, fun r c => rfl, fun r => ?_⟩
    simp only [Stamp.onB, Int.toNat_natCast, Nat.cast_inj]
    exact if_congr (by constructor <;> rintro rfl <;> rfl) rfl rfl

theorem assemble_spec (l : List (Stamp K)) : ∀ s : Sys K, (∀ st ∈ l, st.Ok s.n) →
    ∃ s', s.assemble l = some s' ∧ s'.n = s.n ∧ s'.kind = s.kind ∧
      (∀ i j, s'.A i j = l.foldl (fun x st => st.onA i j x) (s.A i j)) ∧
      (∀ i, s'.b i = l.foldl (fun x st => st.onB i x) (s.b i)) := by
  induction l with
  | nil => intro s _; exact ⟨s, rfl, rfl, rfl, fun _ _ => rfl, fun _ => rfl⟩
  | cons st t ih =>
    intro s hs
    obtain ⟨s1, h1, h2, h3, h4, h5⟩ := stamp_spec s st (hs st (by simp))
    obtain ⟨s', g1, g2, g3, g4, g5⟩ := ih s1 (fun st' h => by rw [h2]; exact hs st' (by simp [h]))
    refine ⟨s', ?_, g2.trans h2, g3.trans h3, ?_, ?_⟩
    · simp only [assemble, h1, Option.bind_eq_bind, Option.bind_some, g1]
    · intro i j; rw [g4, h4]; rfl
    · intro i; rw [g5, h5]; rfl

theorem assemble_none {l : List (Stamp K)} {s : Sys K} {st : Stamp K} (h : st ∈ l) (hbad : ¬ st.Ok s.n) : s.assemble l = none := by
  induction l generalizing s with
  | nil => simp at h
  | cons st' t ih =>
    rw [assemble]
    by_cases hok : st'.Ok s.n
    · obtain ⟨s1, h1, h2, -⟩ := stamp_spec s st' hok
      simp only [h1, Option.bind_eq_bind, Option.bind_some]
      rcases List.mem_cons.1 h with rfl | h
      · exact absurd hok hbad
      · exact ih h (by rw [h2]; exact hbad)
    · simp [stamp, hok]

/-- Statements of other rows do not matter. -/
theorem foldA_other (l : List (Stamp K)) (i j : Nat) (x : K) (h : ∀ st ∈ l, st.line ≠ (i : Int)) :
    l.foldl (fun x st => st.onA i j x) x = x := by
  induction l generalizing x with
  | nil => rfl
  | cons st t ih =>
    rw [List.foldl_cons, ih _ (fun st' h' => h st' (by simp [h']))]
    have := h st (by simp)
    cases st <;> simp only [Stamp.onA, Stamp.line] at this ⊢ <;> exact if_neg (fun hh => this hh.1)

theorem foldB_other (l : List (Stamp K)) (i : Nat) (x : K) (h : ∀ st ∈ l, st.line ≠ (i : Int)) :
    l.foldl (fun x st => st.onB i x) x = x := by
  induction l generalizing x with
  | nil => rfl
  | cons st t ih =>
    rw [List.foldl_cons, ih _ (fun st' h' => h st' (by simp [h']))]
    have := h st (by simp)
    cases st <;> simp only [Stamp.onB, Stamp.line] at this ⊢ <;> exact if_neg this

/-- If every row `r` writes only to itself, then an entry of row `i` is determined by the statements of row `i`. -/
theorem foldA_rows (f : Nat → List (Stamp K)) (n : Nat) (hf : ∀ r < n, ∀ st ∈ f r, st.line = (r : Int)) (i j : Nat) (hi : i < n) (x : K) :
    ((List.range n).flatMap f).foldl (fun x st => st.onA i j x) x = (f i).foldl (fun x st => st.onA i j x) x := by
  have hsplit : List.range n = List.range i ++ i :: (List.range' (i + 1) (n - i - 1)) := by
    rw [List.range_eq_range', List.range_eq_range', ← List.range'_succ, show n - i - 1 + 1 = n - i by omega]
    have := List.range'_append (s := 0) (m := i) (n := n - i) (step := 1)
    simp only [Nat.zero_add, Nat.one_mul] at this
    rw [this]; congr 1; omega
  rw [hsplit, List.flatMap_append, List.flatMap_cons, List.foldl_append, List.foldl_append]
  rw [foldA_other _ i j _ (fun st hst => by
    obtain ⟨r, hr, hst⟩ := List.mem_flatMap.1 hst
    rw [List.mem_range'_1] at hr
    rw [hf r (by omega) st hst]; omega)]
  congr 1
  exact foldA_other _ i j _ (fun st hst => by
    obtain ⟨r, hr, hst⟩ := List.mem_flatMap.1 hst
    rw [List.mem_range] at hr
    rw [hf r (by omega) st hst]; omega)

theorem foldB_rows (f : Nat → List (Stamp K)) (n : Nat) (hf : ∀ r < n, ∀ st ∈ f r, st.line = (r : Int)) (i : Nat) (hi : i < n) (x : K) :
    ((List.range n).flatMap f).foldl (fun x st => st.onB i x) x = (f i).foldl (fun x st => st.onB i x) x := by
  have hsplit : List.range n = List.range i ++ i :: (List.range' (i + 1) (n - i - 1)) := by
    rw [List.range_eq_range', List.range_eq_range', ← List.range'_succ, show n - i - 1 + 1 = n - i by omega]
    have := List.range'_append (s := 0) (m := i) (n := n - i) (step := 1)
    simp only [Nat.zero_add, Nat.one_mul] at this
    rw [this]; congr 1; omega
  rw [hsplit, List.flatMap_append, List.flatMap_cons, List.foldl_append, List.foldl_append]
  rw [foldB_other _ i _ (fun st hst => by
    obtain ⟨r, hr, hst⟩ := List.mem_flatMap.1 hst
    rw [List.mem_range'_1] at hr
    rw [hf r (by omega) st hst]; omega)]
  congr 1
  exact foldB_other _ i _ (fun st hst => by
    obtain ⟨r, hr, hst⟩ := List.mem_flatMap.1 hst
    rw [List.mem_range] at hr
    rw [hf r (by omega) st hst]; omega)

/-- A row with at most three entries. -/
theorem row_three (s : Sys K) (x : Nat → K) (i j1 j2 j3 : Nat) (a b c : K) (h1 : j1 < s.n) (h2 : j2 < s.n) (h3 : j3 < s.n)
    (h : ∀ j < s.n, s.A i j = (if j = j1 then a else 0) + (if j = j2 then b else 0) + (if j = j3 then c else 0)) :
    s.row x i = a * x j1 + b * x j2 + c * x j3 := by
  rw [row, Finset.sum_congr rfl (fun j hj => by rw [h j (Finset.mem_range.1 hj)])]
  simp only [add_mul, ite_mul, zero_mul, Finset.sum_add_distrib, Finset.sum_ite_eq', Finset.mem_range, h1, h2, h3, if_true]

end Sys
end ENigMA
