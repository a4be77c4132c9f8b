import Verif.Pde.Fdm
import Verif.Pde.EquationProps
import Mathlib.Tactic.FieldSimp

/-!
# C21, C55: the finite-difference operators
-/

set_option linter.unusedSectionVars false

namespace ENigMA
namespace Fdm
open Equation
variable {K : Type} [Field K]

theorem fill_spec (l : List Int) : ∀ fx : List Bool, (∀ i ∈ l, InRange i fx.length) →
    ∃ fx', isFixed.fill l fx = some fx' ∧ fx'.length = fx.length ∧
      ∀ i : Nat, i < fx.length → fx'[i]? = if (i : Int) ∈ l then some true else fx[i]? := by
  induction l with
  | nil => intro fx _; exact ⟨fx, rfl, rfl, by simp⟩
  | cons k t ih =>
    intro fx h
    have hk := h k (by simp)
    obtain ⟨k', rfl⟩ := Int.eq_ofNat_of_zero_le hk.1
    have hk' : k' < fx.length := by have := hk.2; omega
    obtain ⟨fx', h1, h2, h3⟩ := ih (fx.set (k' : Int).toNat true) (by simpa using fun i hi => h i (by simp [hi]))
    refine ⟨fx', by rw [isFixed.fill, if_pos hk]; exact h1, by simpa using h2, ?_⟩
    intro i hi
    rw [h3 i (by simpa using hi)]
    simp only [List.mem_cons, Int.toNat_natCast, List.getElem?_set]
    by_cases hik : i = k'
    · subst hik; simp [hk']
    · have : ¬ ((i : Int) = (k' : Int)) := by omega
      have hki : ¬ k' = i := fun h => hik h.symm
      simp only [this, false_or, if_neg hki]

theorem isFixed_eq (f : EqField K) (n : Nat) (hf : IndicesOk f.uFixed n) :
    isFixed f n = some ((List.range n).map fun i => (prescribed f i).isSome) := by
  obtain ⟨fx', h1, h2, h3⟩ := fill_spec f.uFixed.keys (List.replicate n false) (by
    intro i hi
    rw [SMap.mem_keys] at hi
    obtain ⟨v, hv⟩ := Option.isSome_iff_exists.1 hi
    rw [List.length_replicate]; exact hf i v hv)
  rw [isFixed, h1]
  congr 1
  rw [List.length_replicate] at h2 h3
  apply List.ext_getElem?
  intro i
  by_cases hi : i < n
  · rw [h3 i hi]
    have : ((List.range n).map fun i => (prescribed f i).isSome)[i]? = some (prescribed f i).isSome := by simp [hi]
    rw [this, if_congr (SMap.mem_keys f.uFixed (i : Int)) rfl rfl, prescribed]
    cases hx : (f.uFixed.find? (i : Int)).isSome <;> simp [hi]
  · rw [List.getElem?_eq_none (by omega), List.getElem?_eq_none (by simp; omega)]

theorem rows_eq (g : Nat → Option (List (Stamp K))) (h : Nat → List (Stamp K)) (l : List Nat) (hg : ∀ i ∈ l, g i = some (h i)) :
    rows g l = some (l.flatMap h) := by
  induction l with
  | nil => rfl
  | cons i t ih =>
    simp only [rows, hg i (by simp), ih (fun j hj => hg j (by simp [hj])), Option.bind_eq_bind, Option.bind_some, List.flatMap_cons]
    rfl

/-- The general scheme: an operator whose rows write to themselves. -/
theorem assemble_rows (n : Nat) (kind : MatrixType) (h : Nat → List (Stamp K))
    (hline : ∀ i < n, ∀ st ∈ h i, st.line = (i : Int)) (hok : ∀ i < n, ∀ st ∈ h i, st.Ok n) :
    ∃ s, (Sys.zero kind n).assemble ((List.range n).flatMap h) = some s ∧ s.n = n ∧ s.kind = kind ∧
      (∀ i < n, ∀ j, s.A i j = (h i).foldl (fun x st => st.onA i j x) 0) ∧
      (∀ i < n, s.b i = (h i).foldl (fun x st => st.onB i x) 0) := by
  obtain ⟨s, h1, h2, h3, h4, h5⟩ := Sys.assemble_spec ((List.range n).flatMap h) (Sys.zero kind n) (by
    intro st hst
    obtain ⟨i, hi, hst⟩ := List.mem_flatMap.1 hst
    exact hok i (List.mem_range.1 hi) st hst)
  refine ⟨s, h1, h2, h3, ?_, ?_⟩
  · intro i hi j; rw [h4, Sys.foldA_rows h n hline i j hi]; rfl
  · intro i hi; rw [h5, Sys.foldB_rows h n hline i hi]; rfl

theorem onA_add {i c : Nat} {e : Int} (h : e = (c : Int)) {j : Nat} {v w : K} :
    Stamp.onA i j w (.addA (i : Int) e v) = w + if j = c then v else 0 := by
  subst h
  simp only [Stamp.onA]
  by_cases h : j = c
  · simp [h]
  · rw [if_neg (by omega), if_neg h, add_zero]

/-- The statements of row `i` of `laplacian`. -/
def lapRow (f : EqField K) (n : Nat) (dx : K) (ii : Nat) : List (Stamp K) :=
  let i : Int := ii
  if ii = 0 then
    match prescribed f ii with
    | some v => [.addA i i (-2 / (dx * dx)), .addA i (i + 1) (1 / (dx * dx)), .addB i (-1 / (dx * dx) * v)]
    | none => [.addA i i (-1 / (dx * dx)), .addA i (i + 1) (1 / (dx * dx))]
  else if ii + 1 < n then
    [.addA i (i - 1) (1 / (dx * dx)), .addA i i (-2 / (dx * dx)), .addA i (i + 1) (1 / (dx * dx))]
  else
    match prescribed f ii with
    | some v => [.addA i (i - 1) (1 / (dx * dx)), .addA i i (-2 / (dx * dx)), .addB i (-1 / (dx * dx) * v)]
    | none => [.addA i (i - 1) (1 / (dx * dx)), .addA i i (-1 / (dx * dx))]

theorem laplacian_spec (f : EqField K) (n : Nat) (dx : K) (hn : 2 ≤ n) (hf : IndicesOk f.uFixed n) :
    ∃ s, laplacian f n dx = some s ∧ s.n = n ∧ s.kind = .sparse ∧
      (∀ i < n, ∀ j, s.A i j = (lapRow f n dx i).foldl (fun x st => st.onA i j x) 0) ∧
      (∀ i < n, s.b i = (lapRow f n dx i).foldl (fun x st => st.onB i x) 0) := by
  have hrows : rows (laplacianRow f ((List.range n).map fun i => (prescribed f i).isSome) n dx) (List.range n) =
      some ((List.range n).flatMap (lapRow f n dx)) := by
    apply rows_eq
    intro i hi
    rw [List.mem_range] at hi
    have hget : ((List.range n).map fun i => (prescribed f i).isSome)[i]? = some (prescribed f i).isSome := by simp [hi]
    simp only [laplacianRow, hget, Option.bind_eq_bind, Option.bind_some, lapRow]
    cases hp : prescribed f i with
    | none =>
      by_cases h0 : i = 0
      · simp [h0]
      · by_cases h1 : i + 1 < n
        · simp [h0, h1]
        · simp [h0, show i + 1 = n by omega]
    | some v =>
      have hv : fixedAt f i = v := by rw [fixedAt]; rw [prescribed] at hp; rw [hp]; rfl
      by_cases h0 : i = 0
      · subst h0; rw [hv]; simp
      · by_cases h1 : i + 1 < n
        · simp [h0, h1]
        · simp [h0, show i + 1 = n by omega, hv]
  have hboth : ∀ i < n, ∀ st ∈ lapRow f n dx i, st.line = (i : Int) ∧ st.Ok n := by
    intro i hi st hst
    simp only [lapRow] at hst
    split_ifs at hst with h0 h1
    · cases hp : prescribed f i <;> rw [hp] at hst <;> simp only [List.mem_cons, List.not_mem_nil, or_false] at hst <;>
        rcases hst with rfl | rfl | rfl <;> refine ⟨rfl, ?_⟩ <;> simp only [Stamp.Ok, InRange] <;> omega
    · simp only [List.mem_cons, List.not_mem_nil, or_false] at hst
      rcases hst with rfl | rfl | rfl <;> refine ⟨rfl, ?_⟩ <;> simp only [Stamp.Ok, InRange] <;> omega
    · cases hp : prescribed f i <;> rw [hp] at hst <;> simp only [List.mem_cons, List.not_mem_nil, or_false] at hst <;>
        rcases hst with rfl | rfl | rfl <;> refine ⟨rfl, ?_⟩ <;> simp only [Stamp.Ok, InRange] <;> omega
  obtain ⟨s, h1, h2⟩ := assemble_rows n .sparse (lapRow f n dx) (fun i hi st hst => (hboth i hi st hst).1)
    (fun i hi st hst => (hboth i hi st hst).2)
  refine ⟨s, ?_, h2⟩
  simp only [laplacian, isFixed_eq f n hf, Option.bind_eq_bind, Option.bind_some, hrows, h1]

end Fdm

open Fdm Equation
variable {K : Type} [Field K]

/-- **C21.** For every grid of `n ≥ 2` nodes the finite-difference Laplacian is defined, and its rows are, with `x` the unknowns:
`(x_{i-1} - 2x_i + x_{i+1})/dx²` inside, `(x_1 - x_0)/dx²` and `(x_{n-2} - x_{n-1})/dx²` at free ends (zero gradient), and
`(v - 2x_0 + x_1)/dx²`, `(x_{n-2} - 2x_{n-1} + v)/dx²` (as `row - rhs`) at ends with a prescribed value `v`. -/
theorem C21_laplacian_rows (f : EqField K) (n : Nat) (dx : K) (hn : 2 ≤ n) (hf : IndicesOk f.uFixed n) :
    ∃ s, laplacian f n dx = some s ∧ s.n = n ∧
      (∀ x i, 0 < i → i + 1 < n → s.row x i = (x (i - 1) - 2 * x i + x (i + 1)) / (dx * dx) ∧ s.b i = 0) ∧
      (∀ x, prescribed f 0 = none → s.row x 0 = (x 1 - x 0) / (dx * dx) ∧ s.b 0 = 0) ∧
      (∀ x v, prescribed f 0 = some v → s.row x 0 - s.b 0 = (v - 2 * x 0 + x 1) / (dx * dx)) ∧
      (∀ x, prescribed f (n - 1) = none → s.row x (n - 1) = (x (n - 2) - x (n - 1)) / (dx * dx) ∧ s.b (n - 1) = 0) ∧
      (∀ x v, prescribed f (n - 1) = some v → s.row x (n - 1) - s.b (n - 1) = (x (n - 2) - 2 * x (n - 1) + v) / (dx * dx)) := by
  obtain ⟨s, h1, h2, -, h3, h4⟩ := laplacian_spec f n dx hn hf
  refine ⟨s, h1, h2, ?_, ?_, ?_, ?_, ?_⟩
  · intro x i hi0 hi
    have hrow : ∀ j < s.n, s.A i j = (if j = i - 1 then 1 / (dx * dx) else 0) + (if j = i then -2 / (dx * dx) else 0) +
        (if j = i + 1 then 1 / (dx * dx) else 0) := by
      intro j _
      rw [h3 i (by omega) j]
      simp only [lapRow, if_neg (show ¬ i = 0 by omega), if_pos hi, List.foldl_cons, List.foldl_nil]
      rw [onA_add (show (i : Int) - 1 = ((i - 1 : Nat) : Int) by omega), onA_add (show (i : Int) = ((i : Nat) : Int) from rfl),
        onA_add (show (i : Int) + 1 = ((i + 1 : Nat) : Int) by omega), zero_add]
    refine ⟨?_, ?_⟩
    · rw [Sys.row_three s x i (i - 1) i (i + 1) _ _ _ (by omega) (by omega) (by omega) hrow]; ring
    · rw [h4 i (by omega)]
      simp only [lapRow, if_neg (show ¬ i = 0 by omega), if_pos hi, List.foldl_cons, List.foldl_nil, Stamp.onB]
  · intro x hp
    have hrow : ∀ j < s.n, s.A 0 j = (if j = 0 then -1 / (dx * dx) else 0) + (if j = 1 then 1 / (dx * dx) else 0) +
        (if j = 0 then 0 else 0) := by
      intro j _
      rw [h3 0 (by omega) j]
      simp only [lapRow, if_true, hp, List.foldl_cons, List.foldl_nil]
      rw [onA_add (show ((0 : Nat) : Int) = ((0 : Nat) : Int) from rfl), onA_add (show ((0 : Nat) : Int) + 1 = ((1 : Nat) : Int) from rfl)]
      simp [Stamp.onA]
    refine ⟨?_, ?_⟩
    · rw [Sys.row_three s x 0 0 1 0 _ _ _ (by omega) (by omega) (by omega) hrow]; ring
    · rw [h4 0 (by omega)]
      simp only [lapRow, if_true, hp, List.foldl_cons, List.foldl_nil, Stamp.onB]
  · intro x v hp
    have hrow : ∀ j < s.n, s.A 0 j = (if j = 0 then -2 / (dx * dx) else 0) + (if j = 1 then 1 / (dx * dx) else 0) +
        (if j = 0 then 0 else 0) := by
      intro j _
      rw [h3 0 (by omega) j]
      simp only [lapRow, if_true, hp, List.foldl_cons, List.foldl_nil]
      rw [onA_add (show ((0 : Nat) : Int) = ((0 : Nat) : Int) from rfl), onA_add (show ((0 : Nat) : Int) + 1 = ((1 : Nat) : Int) from rfl)]
      simp [Stamp.onA]
    have hb : s.b 0 = -1 / (dx * dx) * v := by
      rw [h4 0 (by omega)]
      simp only [lapRow, if_true, hp, List.foldl_cons, List.foldl_nil, Stamp.onB, zero_add]
    rw [Sys.row_three s x 0 0 1 0 _ _ _ (by omega) (by omega) (by omega) hrow, hb]; ring
  · intro x hp
    have hl1 : ¬ n - 1 = 0 := by omega
    have hl2 : ¬ n - 1 + 1 < n := by omega
    have hrow : ∀ j < s.n, s.A (n - 1) j = (if j = n - 2 then 1 / (dx * dx) else 0) + (if j = n - 1 then -1 / (dx * dx) else 0) +
        (if j = 0 then 0 else 0) := by
      intro j _
      rw [h3 (n - 1) (by omega) j]
      simp only [lapRow, if_neg hl1, if_neg hl2, hp, List.foldl_cons, List.foldl_nil]
      rw [onA_add (show ((n - 1 : Nat) : Int) - 1 = ((n - 2 : Nat) : Int) by omega),
        onA_add (show ((n - 1 : Nat) : Int) = ((n - 1 : Nat) : Int) from rfl)]
      simp [Stamp.onA]
    refine ⟨?_, ?_⟩
    · rw [Sys.row_three s x (n - 1) (n - 2) (n - 1) 0 _ _ _ (by omega) (by omega) (by omega) hrow]; ring
    · rw [h4 (n - 1) (by omega)]
      simp only [lapRow, if_neg hl1, if_neg hl2, hp, List.foldl_cons, List.foldl_nil, Stamp.onB]
  · intro x v hp
    have hl1 : ¬ n - 1 = 0 := by omega
    have hl2 : ¬ n - 1 + 1 < n := by omega
    have hrow : ∀ j < s.n, s.A (n - 1) j = (if j = n - 2 then 1 / (dx * dx) else 0) + (if j = n - 1 then -2 / (dx * dx) else 0) +
        (if j = 0 then 0 else 0) := by
      intro j _
      rw [h3 (n - 1) (by omega) j]
      simp only [lapRow, if_neg hl1, if_neg hl2, hp, List.foldl_cons, List.foldl_nil]
      rw [onA_add (show ((n - 1 : Nat) : Int) - 1 = ((n - 2 : Nat) : Int) by omega),
        onA_add (show ((n - 1 : Nat) : Int) = ((n - 1 : Nat) : Int) from rfl)]
      simp [Stamp.onA]
    have hb : s.b (n - 1) = -1 / (dx * dx) * v := by
      rw [h4 (n - 1) (by omega)]
      simp only [lapRow, if_neg hl1, if_neg hl2, hp, List.foldl_cons, List.foldl_nil, Stamp.onB, zero_add, if_true]
    rw [Sys.row_three s x (n - 1) (n - 2) (n - 1) 0 _ _ _ (by omega) (by omega) (by omega) hrow, hb]; ring

/-- **C21.** On samples of a quadratic `a + b·t + c·t²` at equally spaced points every interior row gives exactly `2c`. -/
theorem C21_quadratic (f : EqField K) (n : Nat) (dx : K) (hn : 2 ≤ n) (hdx : dx ≠ 0) (hf : IndicesOk f.uFixed n) (t0 a b c : K) :
    ∃ s, laplacian f n dx = some s ∧
      ∀ i, 0 < i → i + 1 < n → s.row (fun k => a + b * (t0 + (k : K) * dx) + c * (t0 + (k : K) * dx) ^ 2) i = 2 * c := by
  obtain ⟨s, h1, -, h3, -⟩ := C21_laplacian_rows f n dx hn hf
  refine ⟨s, h1, fun i hi0 hi => ?_⟩
  rw [(h3 _ i hi0 hi).1]
  obtain ⟨k, rfl⟩ : ∃ k, i = k + 1 := ⟨i - 1, by omega⟩
  simp only [Nat.add_sub_cancel]
  push_cast
  field_simp
  ring

/-- **C21.** If neither end has a prescribed value, constants are in the kernel: every row of every constant is zero. -/
theorem C21_constants (f : EqField K) (n : Nat) (dx : K) (hn : 2 ≤ n) (hf : IndicesOk f.uFixed n)
    (h0 : prescribed f 0 = none) (h1 : prescribed f (n - 1) = none) :
    ∃ s, laplacian f n dx = some s ∧ ∀ c : K, ∀ i < n, s.row (fun _ => c) i = 0 ∧ s.b i = 0 := by
  obtain ⟨s, g1, -, g3, g4, -, g6, -⟩ := C21_laplacian_rows f n dx hn hf
  refine ⟨s, g1, fun c i hi => ?_⟩
  rcases Nat.eq_zero_or_pos i with rfl | hpos
  · obtain ⟨a, b⟩ := g4 (fun _ => c) h0
    exact ⟨by rw [a]; ring, b⟩
  · by_cases hlast : i + 1 < n
    · obtain ⟨a, b⟩ := g3 (fun _ => c) i hpos hlast
      exact ⟨by rw [a]; ring, b⟩
    · have : i = n - 1 := by omega
      subst this
      obtain ⟨a, b⟩ := g6 (fun _ => c) h1
      exact ⟨by rw [a]; ring, b⟩

/-- **C21.** If both ends have the same prescribed value `c`, the constant field `c` solves the homogeneous system. -/
theorem C21_dirichlet_constants (f : EqField K) (n : Nat) (dx : K) (hn : 2 ≤ n) (hf : IndicesOk f.uFixed n) (c : K)
    (h0 : prescribed f 0 = some c) (h1 : prescribed f (n - 1) = some c) :
    ∃ s, laplacian f n dx = some s ∧ s.Solves (fun _ => c) := by
  obtain ⟨s, g1, g2, g3, -, g5, -, g7⟩ := C21_laplacian_rows f n dx hn hf
  refine ⟨s, g1, fun i hi => ?_⟩
  rw [g2] at hi
  rcases Nat.eq_zero_or_pos i with rfl | hpos
  · have := g5 (fun _ => c) c h0
    rw [← sub_eq_zero, this]; ring
  · by_cases hlast : i + 1 < n
    · obtain ⟨a, b⟩ := g3 (fun _ => c) i hpos hlast
      rw [a, b]; ring
    · have : i = n - 1 := by omega
      subst this
      have := g7 (fun _ => c) c h1
      rw [← sub_eq_zero, this]; ring

/-- **C21.** The matrix of the finite-difference Laplacian is symmetric. -/
theorem C21_symmetric (f : EqField K) (n : Nat) (dx : K) (hn : 2 ≤ n) (hf : IndicesOk f.uFixed n) :
    ∃ s, laplacian f n dx = some s ∧ s.Symmetric := by
  obtain ⟨s, h1, h2, -, h3, -⟩ := laplacian_spec f n dx hn hf
  refine ⟨s, h1, ?_⟩
  -- the matrix is tridiagonal with off-diagonal entries `1/dx²`
  have hoff : ∀ i < n, ∀ j < n, i ≠ j → s.A i j = if i + 1 = j ∨ j + 1 = i then 1 / (dx * dx) else 0 := by
    intro i hi j hj hij
    rw [h3 i hi j]
    have e1 : ¬ ((i : Int) = (j : Int)) := by omega
    simp only [lapRow]
    split_ifs with c0 c1 c2 c3
    · cases prescribed f i <;> simp only [List.foldl_cons, List.foldl_nil, Stamp.onA, e1] <;>
        simp [show (i : Int) + 1 = j by omega]
    · cases prescribed f i <;> simp only [List.foldl_cons, List.foldl_nil, Stamp.onA, e1] <;>
        simp [show ¬ (i : Int) + 1 = j by omega]
    · simp only [List.foldl_cons, List.foldl_nil, Stamp.onA, e1]
      rcases c3 with c3 | c3
      · simp [show (i : Int) + 1 = j by omega, show ¬ (i : Int) - 1 = j by omega]
      · simp [show ¬ (i : Int) + 1 = j by omega, show (i : Int) - 1 = j by omega]
    · simp only [List.foldl_cons, List.foldl_nil, Stamp.onA, e1]
      simp [show ¬ (i : Int) + 1 = j by omega, show ¬ (i : Int) - 1 = j by omega]
    · cases prescribed f i <;> simp only [List.foldl_cons, List.foldl_nil, Stamp.onA, e1] <;>
        simp [show (i : Int) - 1 = j by omega]
    · cases prescribed f i <;> simp only [List.foldl_cons, List.foldl_nil, Stamp.onA, e1] <;>
        simp [show ¬ (i : Int) - 1 = j by omega]
  intro i hi j hj
  rw [h2] at hi hj
  by_cases hij : i = j
  · rw [hij]
  · rw [hoff i hi j hj hij, hoff j hj i hi (Ne.symm hij)]
    exact if_congr or_comm rfl rfl

/-- Sum of squared jumps between neighbouring nodes. -/
def jumpEnergy (x : Nat → K) (n : Nat) : K := ∑ i ∈ Finset.range (n - 1), (x (i + 1) - x i) ^ 2

/-- **C21.** Energy identity: `xᵀ A x · dx² = -Σ (x_{i+1} - x_i)²`, minus `x_0²` (and `x_{n-1}²`) where the first (last) node has a
prescribed value. -/
theorem C21_energy (f : EqField K) (n : Nat) (dx : K) (hn : 2 ≤ n) (hdx : dx ≠ 0) (hf : IndicesOk f.uFixed n) :
    ∃ s, laplacian f n dx = some s ∧ ∀ x : Nat → K,
      (∑ i ∈ Finset.range n, x i * s.row x i) * (dx * dx) = -jumpEnergy x n
        - (if (prescribed f 0).isSome then x 0 ^ 2 else 0) - (if (prescribed f (n - 1)).isSome then x (n - 1) ^ 2 else 0) := by
  obtain ⟨s, g1, g2, g3, g4, g5, g6, g7⟩ := C21_laplacian_rows f n dx hn hf
  obtain ⟨s', e1, -, -, -, hb⟩ := laplacian_spec f n dx hn hf
  rw [g1, Option.some.injEq] at e1
  subst e1
  refine ⟨s, g1, fun x => ?_⟩
  obtain ⟨m, rfl⟩ : ∃ m, n = m + 1 := ⟨n - 1, by omega⟩
  simp only [Nat.add_sub_cancel, jumpEnergy] at *
  have hterm : ∀ i ∈ Finset.range (m + 1), x i * s.row x i * (dx * dx) =
      (if i < m then x i * (x (i + 1) - x i) else 0) - (if 0 < i then x i * (x i - x (i - 1)) else 0) -
      ((if i = 0 then (if (prescribed f 0).isSome then x 0 ^ 2 else 0) else 0) +
       (if i = m then (if (prescribed f m).isSome then x m ^ 2 else 0) else 0)) := by
    intro i hi
    rw [Finset.mem_range] at hi
    have hd : dx * dx ≠ 0 := mul_ne_zero hdx hdx
    rcases Nat.eq_zero_or_pos i with rfl | hpos
    · rw [if_pos (show 0 < m by omega), if_neg (lt_irrefl 0), if_pos rfl, if_neg (show ¬ 0 = m by omega)]
      cases hp : prescribed f 0 with
      | none =>
        rw [(g4 x hp).1]
        simp only [Option.isSome_none, Bool.false_eq_true, if_false]
        field_simp; ring
      | some v =>
        have h := g5 x v hp
        have hb0 : s.b 0 = -1 / (dx * dx) * v := by
          rw [hb 0 (by omega)]
          simp only [lapRow, if_true, hp, List.foldl_cons, List.foldl_nil, Stamp.onB, zero_add]
        rw [hb0, sub_eq_iff_eq_add] at h
        rw [h]
        simp only [Option.isSome_some, if_true]
        field_simp; ring
    · by_cases hlast : i < m
      · rw [(g3 x i hpos (by omega)).1, if_pos hlast, if_pos hpos, if_neg (by omega), if_neg (by omega)]
        field_simp; ring
      · have him : i = m := by omega
        subst him
        rw [if_neg hlast, if_pos hpos, if_neg (by omega), if_pos rfl]
        have hi2 : i + 1 - 2 = i - 1 := by omega
        rw [hi2] at g6 g7
        cases hp : prescribed f i with
        | none =>
          rw [(g6 x hp).1]
          simp only [Option.isSome_none, Bool.false_eq_true, if_false]
          field_simp; ring
        | some v =>
          have h := g7 x v hp
          have hbm : s.b i = -1 / (dx * dx) * v := by
            rw [hb i (by omega)]
            simp only [lapRow, if_neg (show ¬ i = 0 by omega), if_neg (show ¬ i + 1 < i + 1 by omega), hp, List.foldl_cons,
              List.foldl_nil, Stamp.onB, zero_add, if_true]
          rw [hbm, sub_eq_iff_eq_add] at h
          rw [h]
          simp only [Option.isSome_some, if_true]
          field_simp; ring
  rw [Finset.sum_mul, Finset.sum_congr rfl hterm, Finset.sum_sub_distrib, Finset.sum_sub_distrib, Finset.sum_add_distrib,
    Finset.sum_range_succ (fun i => if i < m then x i * (x (i + 1) - x i) else 0),
    Finset.sum_range_succ' (fun i => if 0 < i then x i * (x i - x (i - 1)) else 0), Finset.sum_ite_eq', Finset.sum_ite_eq']
  have h1 : ∑ i ∈ Finset.range m, (if i < m then x i * (x (i + 1) - x i) else 0) = ∑ i ∈ Finset.range m, x i * (x (i + 1) - x i) :=
    Finset.sum_congr rfl fun i hi => if_pos (Finset.mem_range.1 hi)
  have h2 : ∑ i ∈ Finset.range m, (if 0 < i + 1 then x (i + 1) * (x (i + 1) - x (i + 1 - 1)) else 0) =
      ∑ i ∈ Finset.range m, x (i + 1) * (x (i + 1) - x i) :=
    Finset.sum_congr rfl fun i _ => by rw [if_pos (Nat.succ_pos i)]; rfl
  have h3 : ∑ i ∈ Finset.range m, x i * (x (i + 1) - x i) - ∑ i ∈ Finset.range m, x (i + 1) * (x (i + 1) - x i) =
      -∑ i ∈ Finset.range m, (x (i + 1) - x i) ^ 2 := by
    rw [← Finset.sum_sub_distrib, ← Finset.sum_neg_distrib]
    exact Finset.sum_congr rfl fun i _ => by ring
  rw [h1, h2, if_neg (lt_irrefl m), if_neg (lt_irrefl 0), if_pos (Finset.mem_range.2 (by omega)), if_pos (Finset.mem_range.2 (by omega))]
  linear_combination h3

/-- **C21.** If at least one end has a prescribed value the system has at most one solution, whatever the right-hand side: over an
ordered field the matrix is definite. -/
theorem C21_unique [LinearOrder K] [IsStrictOrderedRing K] (f : EqField K) (n : Nat) (dx : K) (hn : 2 ≤ n) (hdx : dx ≠ 0)
    (hf : IndicesOk f.uFixed n) (hfix : (prescribed f 0).isSome ∨ (prescribed f (n - 1)).isSome) :
    ∃ s, laplacian f n dx = some s ∧ ∀ x y : Nat → K, (∀ i < n, s.row x i = s.row y i) → ∀ i < n, x i = y i := by
  obtain ⟨s, g1, g2⟩ := C21_energy f n dx hn hdx hf
  refine ⟨s, g1, fun x y hxy => ?_⟩
  have hz := g2 (fun i => x i - y i)
  have hrow0 : ∀ i < n, s.row (fun i => x i - y i) i = 0 := by
    intro i hi
    have := hxy i hi
    simp only [Sys.row] at this ⊢
    simp only [mul_sub, Finset.sum_sub_distrib, this, sub_self]
  rw [Finset.sum_eq_zero (fun i hi => by rw [hrow0 i (Finset.mem_range.1 hi), mul_zero]), zero_mul] at hz
  set z : Nat → K := fun i => x i - y i with hzdef
  have hj : ∀ i ∈ Finset.range (n - 1), 0 ≤ (z (i + 1) - z i) ^ 2 := fun i _ => sq_nonneg _
  have hjs : 0 ≤ jumpEnergy z n := Finset.sum_nonneg hj
  have ha : 0 ≤ (if (prescribed f 0).isSome then z 0 ^ 2 else 0) := by split_ifs <;> positivity
  have hb : 0 ≤ (if (prescribed f (n - 1)).isSome then z (n - 1) ^ 2 else 0) := by split_ifs <;> positivity
  have e1 : jumpEnergy z n = 0 := by linarith
  have e2 : (if (prescribed f 0).isSome then z 0 ^ 2 else 0) = 0 := by linarith
  have e3 : (if (prescribed f (n - 1)).isSome then z (n - 1) ^ 2 else 0) = 0 := by linarith
  have hstep : ∀ i, i + 1 < n → z (i + 1) = z i := by
    intro i hi
    have := (Finset.sum_eq_zero_iff_of_nonneg hj).1 e1 i (Finset.mem_range.2 (by omega))
    exact sub_eq_zero.1 (pow_eq_zero_iff (two_ne_zero) |>.1 this)
  have hconst : ∀ i < n, z i = z 0 := by
    intro i
    induction i with
    | zero => intro _; rfl
    | succ i ih => intro hi; rw [hstep i hi, ih (by omega)]
  have hz0 : z 0 = 0 := by
    rcases hfix with h | h
    · rw [if_pos h] at e2; exact pow_eq_zero_iff (two_ne_zero) |>.1 e2
    · rw [if_pos h] at e3
      rw [← hconst (n - 1) (by omega)]; exact pow_eq_zero_iff (two_ne_zero) |>.1 e3
  intro i hi
  have := hconst i hi
  rw [hz0] at this
  exact sub_eq_zero.1 this

/-- **C55.** `ddt` gives the identity matrix and, as right-hand side, the prescribed value at a fixed node and the current value at
any other. -/
theorem C55_ddt (f : EqField K) (n : Nat) (hf : IndicesOk f.uFixed n) (hu : n ≤ f.u.size) :
    ∃ s, ddt f n = some s ∧ s.n = n ∧ (∀ x, ∀ i < n, s.row x i = x i) ∧
      (∀ i < n, s.b i = (prescribed f i).getD (f.u.at' i)) := by
  have hrows : rows (ddtRow f ((List.range n).map fun i => (prescribed f i).isSome)) (List.range n) =
      some ((List.range n).flatMap fun i : Nat => [Stamp.addA (i : Int) (i : Int) 1, .addB (i : Int) ((prescribed f i).getD (f.u.at' i))]) := by
    apply rows_eq
    intro i hi
    rw [List.mem_range] at hi
    have hget : ((List.range n).map fun i => (prescribed f i).isSome)[i]? = some (prescribed f i).isSome := by simp [hi]
    simp only [ddtRow, hget, Option.bind_eq_bind, Option.bind_some, uAt, if_pos (show i < f.u.size by omega), fixedAt]
    rw [prescribed]
    cases f.uFixed.find? (i : Int) <;> simp
  obtain ⟨s, h1, h2, h3, h4, h5⟩ := assemble_rows n .sparse
    (fun i => [Stamp.addA (i : Int) (i : Int) 1, .addB (i : Int) ((prescribed f i).getD (f.u.at' i))])
    (by intro i _ st hst; simp at hst; rcases hst with rfl | rfl <;> rfl)
    (by intro i hi st hst; simp at hst; rcases hst with rfl | rfl <;> simp [Stamp.Ok, InRange, hi])
  refine ⟨s, ?_, h2, ?_, ?_⟩
  · simp only [ddt, isFixed_eq f n hf, Option.bind_eq_bind, Option.bind_some, hrows, h1]
  · intro x i hi
    rw [Sys.row_three s x i i i i 1 0 0 (by omega) (by omega) (by omega)]
    · ring
    · intro j _
      rw [h4 i hi j]
      simp only [List.foldl_cons, List.foldl_nil]
      rw [onA_add (show (i : Int) = ((i : Nat) : Int) from rfl)]
      simp [Stamp.onA]
  · intro i hi
    rw [h5 i hi]
    simp [Stamp.onB]

/-- The statements of row `i` of `divergence`. -/
def divRow (diag : Bool) (f : EqField K) (n : Nat) (dx : K) (ii : Nat) : List (Stamp K) :=
  let i : Int := ii
  let d : List (Stamp K) := if diag then [.setA i i 1] else []
  if ii = 0 then
    match prescribed f ii with
    | some v => d ++ [.addB i (-(f.u.at' 1 - v) / dx)]
    | none => d
  else if ii + 1 < n then
    [.addA i (i - 1) (-1 / (2 * dx)), .addA i (i + 1) (1 / (2 * dx))]
  else
    match prescribed f ii with
    | some v => d ++ [.addB i (-(v - f.u.at' (n - 2)) / dx)]
    | none => d

theorem divergence_spec (diag : Bool) (f : EqField K) (n : Nat) (dx : K) (hn : 2 ≤ n) (hf : IndicesOk f.uFixed n) (hu : n ≤ f.u.size) :
    ∃ s, divergence diag f n dx = some s ∧ s.n = n ∧ s.kind = .sparse ∧
      (∀ i < n, ∀ j, s.A i j = (divRow diag f n dx i).foldl (fun x st => st.onA i j x) 0) ∧
      (∀ i < n, s.b i = (divRow diag f n dx i).foldl (fun x st => st.onB i x) 0) := by
  have hrows : rows (divergenceRow diag f ((List.range n).map fun i => (prescribed f i).isSome) n dx) (List.range n) =
      some ((List.range n).flatMap (divRow diag f n dx)) := by
    apply rows_eq
    intro i hi
    rw [List.mem_range] at hi
    have hget : ((List.range n).map fun i => (prescribed f i).isSome)[i]? = some (prescribed f i).isSome := by simp [hi]
    simp only [divergenceRow, hget, Option.bind_eq_bind, Option.bind_some, divRow]
    cases hp : prescribed f i with
    | none =>
      by_cases h0 : i = 0
      · simp [h0]
      · by_cases h1 : i + 1 < n
        · simp [h0, h1]
        · simp [h0, show i + 1 = n by omega]
    | some v =>
      have hv : fixedAt f i = v := by rw [fixedAt]; rw [prescribed] at hp; rw [hp]; rfl
      by_cases h0 : i = 0
      · subst h0; rw [hv]; simp [uAt, show 1 < f.u.size by omega]
      · by_cases h1 : i + 1 < n
        · simp [h0, h1]
        · simp [h0, show i + 1 = n by omega, hv, uAt, show i - 1 = n - 2 by omega, show n - 2 < f.u.size by omega]
  have hboth : ∀ i < n, ∀ st ∈ divRow diag f n dx i, st.line = (i : Int) ∧ st.Ok n := by
    intro i hi st hst
    simp only [divRow] at hst
    cases diag <;> split_ifs at hst with h0 h1
    all_goals first
      | (cases hp : prescribed f i <;> rw [hp] at hst <;> simp at hst <;>
          rcases hst with rfl | rfl <;> refine ⟨rfl, ?_⟩ <;> simp only [Stamp.Ok, InRange] <;> omega)
      | (cases hp : prescribed f i <;> rw [hp] at hst <;> simp at hst <;>
          subst hst <;> refine ⟨rfl, ?_⟩ <;> simp only [Stamp.Ok, InRange] <;> omega)
      | (simp at hst; rcases hst with rfl | rfl <;> refine ⟨rfl, ?_⟩ <;> simp only [Stamp.Ok, InRange] <;> omega)
      | skip
    all_goals
      cases hp : prescribed f i <;> rw [hp] at hst <;> simp at hst
    all_goals
      first
        | (rcases hst with rfl | rfl <;> refine ⟨rfl, ?_⟩ <;> simp only [Stamp.Ok, InRange] <;> omega)
        | (subst hst; refine ⟨rfl, ?_⟩; simp only [Stamp.Ok, InRange]; omega)
  obtain ⟨s, h1, h2⟩ := assemble_rows n .sparse (divRow diag f n dx) (fun i hi st hst => (hboth i hi st hst).1)
    (fun i hi st hst => (hboth i hi st hst).2)
  refine ⟨s, ?_, h2⟩
  simp only [divergence, isFixed_eq f n hf, Option.bind_eq_bind, Option.bind_some, hrows, h1]

/-- **C55.** Interior rows of `divergence` are the central difference, exact on quadratics: on samples of `a + b·t + c·t²` they give
the derivative `b + 2c·t_i`. -/
theorem C55_divergence_interior (diag : Bool) (f : EqField K) (n : Nat) (dx : K) (hn : 2 ≤ n) (hdx : dx ≠ 0) (h2 : (2 : K) ≠ 0)
    (hf : IndicesOk f.uFixed n) (hu : n ≤ f.u.size) (t0 a b c : K) :
    ∃ s, divergence diag f n dx = some s ∧ s.n = n ∧ ∀ i, 0 < i → i + 1 < n → s.b i = 0 ∧
      (∀ x, s.row x i = (x (i + 1) - x (i - 1)) / (2 * dx)) ∧
      s.row (fun k => a + b * (t0 + (k : K) * dx) + c * (t0 + (k : K) * dx) ^ 2) i = b + 2 * c * (t0 + (i : K) * dx) := by
  obtain ⟨s, h1, hn', -, h3, h4⟩ := divergence_spec diag f n dx hn hf hu
  refine ⟨s, h1, hn', fun i hi0 hi => ?_⟩
  have hrow : ∀ x, s.row x i = (x (i + 1) - x (i - 1)) / (2 * dx) := by
    intro x
    rw [Sys.row_three s x i (i - 1) (i + 1) i (-1 / (2 * dx)) (1 / (2 * dx)) 0 (by omega) (by omega) (by omega)]
    · ring
    · intro j _
      rw [h3 i (by omega) j]
      simp only [divRow, if_neg (show ¬ i = 0 by omega), if_pos hi, List.foldl_cons, List.foldl_nil]
      rw [onA_add (show (i : Int) - 1 = ((i - 1 : Nat) : Int) by omega), onA_add (show (i : Int) + 1 = ((i + 1 : Nat) : Int) by omega)]
      simp
  refine ⟨?_, hrow, ?_⟩
  · rw [h4 i (by omega)]
    simp only [divRow, if_neg (show ¬ i = 0 by omega), if_pos hi, List.foldl_cons, List.foldl_nil, Stamp.onB]
  · rw [hrow]
    obtain ⟨k, rfl⟩ : ∃ k, i = k + 1 := ⟨i - 1, by omega⟩
    simp only [Nat.add_sub_cancel]
    push_cast
    field_simp
    ring

/-- **C55.** End rows of the thermal `divergence` (no diagonal entry): the residual is the explicit one-sided difference between the
prescribed value and the neighbour's current value, and zero if the end is free. -/
theorem C55_divergence_ends_thermal (f : EqField K) (n : Nat) (dx : K) (hn : 2 ≤ n) (hf : IndicesOk f.uFixed n) (hu : n ≤ f.u.size) :
    ∃ s, divergence false f n dx = some s ∧ ∀ x : Nat → K,
      s.residual x 0 = (match prescribed f 0 with | some v => (f.u.at' 1 - v) / dx | none => 0) ∧
      s.residual x (n - 1) = (match prescribed f (n - 1) with | some v => (v - f.u.at' (n - 2)) / dx | none => 0) := by
  obtain ⟨s, h1, hn', -, h3, h4⟩ := divergence_spec false f n dx hn hf hu
  refine ⟨s, h1, fun x => ⟨?_, ?_⟩⟩
  · have hA : ∀ j, s.A 0 j = 0 := by
      intro j
      rw [h3 0 (by omega) j]
      cases hp : prescribed f 0 <;> simp [divRow, hp, Stamp.onA]
    rw [Sys.residual, Sys.row, Finset.sum_eq_zero (fun j _ => by rw [hA, zero_mul]), h4 0 (by omega)]
    cases hp : prescribed f 0
    · simp [divRow, hp]
    · simp [divRow, hp, Stamp.onB]; ring
  · have hl1 : ¬ n - 1 = 0 := by omega
    have hl2 : ¬ n - 1 + 1 < n := by omega
    have hA : ∀ j, s.A (n - 1) j = 0 := by
      intro j
      rw [h3 (n - 1) (by omega) j]
      cases hp : prescribed f (n - 1) <;> simp only [divRow, if_neg hl1, if_neg hl2, hp] <;> simp [Stamp.onA]
    rw [Sys.residual, Sys.row, Finset.sum_eq_zero (fun j _ => by rw [hA, zero_mul]), h4 (n - 1) (by omega)]
    cases hp : prescribed f (n - 1) <;> simp only [divRow, if_neg hl1, if_neg hl2, hp]
    · simp
    · simp [Stamp.onB]; ring

/-- **C55 (disagreement).** The generic `divergence` also puts a one on the diagonal of the end rows, so the residual there is the
one-sided difference *plus the unknown itself*: the rows of the ends do not approximate the derivative. -/
theorem C55_divergence_ends_generic (f : EqField K) (n : Nat) (dx : K) (hn : 2 ≤ n) (hf : IndicesOk f.uFixed n) (hu : n ≤ f.u.size) :
    ∃ s, divergence true f n dx = some s ∧ ∀ x : Nat → K,
      s.residual x 0 = x 0 + (match prescribed f 0 with | some v => (f.u.at' 1 - v) / dx | none => 0) ∧
      s.residual x (n - 1) = x (n - 1) + (match prescribed f (n - 1) with | some v => (v - f.u.at' (n - 2)) / dx | none => 0) := by
  obtain ⟨s, h1, hn', -, h3, h4⟩ := divergence_spec true f n dx hn hf hu
  refine ⟨s, h1, fun x => ⟨?_, ?_⟩⟩
  · have hrow : s.row x 0 = x 0 := by
      rw [Sys.row_three s x 0 0 0 0 1 0 0 (by omega) (by omega) (by omega)]
      · ring
      · intro j _
        rw [h3 0 (by omega) j]
        cases hp : prescribed f 0 <;> simp [divRow, hp, Stamp.onA] <;> exact if_congr (by omega) rfl rfl
    rw [Sys.residual, hrow, h4 0 (by omega)]
    cases hp : prescribed f 0
    · simp [divRow, hp, Stamp.onB]
    · simp [divRow, hp, Stamp.onB]; ring
  · have hl1 : ¬ n - 1 = 0 := by omega
    have hl2 : ¬ n - 1 + 1 < n := by omega
    have hrow : s.row x (n - 1) = x (n - 1) := by
      rw [Sys.row_three s x (n - 1) (n - 1) (n - 1) (n - 1) 1 0 0 (by omega) (by omega) (by omega)]
      · ring
      · intro j _
        rw [h3 (n - 1) (by omega) j]
        have e : (((n - 1 : Nat) : Int) = (j : Int)) ↔ j = n - 1 := by omega
        cases hp : prescribed f (n - 1) <;> simp only [divRow, if_neg hl1, if_neg hl2, hp] <;> simp [Stamp.onA, e]
    rw [Sys.residual, hrow, h4 (n - 1) (by omega)]
    cases hp : prescribed f (n - 1) <;> simp only [divRow, if_neg hl1, if_neg hl2, hp]
    · simp [Stamp.onB]
    · simp [Stamp.onB]; ring

/-- **C21 (disagreement).** On a one-node mesh the operator writes outside the matrix. -/
theorem C21_one_node (f : EqField K) (dx : K) : laplacian f 1 dx = none := by
  cases h : isFixed f 1 with
  | none => simp [laplacian, h]
  | some fx =>
    simp only [laplacian, h, Option.bind_eq_bind, Option.bind_some]
    cases hr : rows (laplacianRow f fx 1 dx) (List.range 1) with
    | none => rfl
    | some l =>
      simp only [Option.bind_some]
      refine Sys.assemble_none (st := .addA 0 1 (1 / (dx * dx))) ?_ (by simp [Stamp.Ok, InRange, Sys.zero])
      simp only [List.range_one, rows, laplacianRow, Option.bind_eq_bind] at hr
      cases hg : fx[0]? with
      | none => rw [hg] at hr; simp at hr
      | some d =>
        rw [hg] at hr
        cases d <;> simp at hr <;> rw [← hr] <;> simp

/-! ### Non-vacuity -/

/-- Four nodes, the first one fixed to 3. -/
def fdmField : EqField ℚ := ⟨.fdm, SMap.empty.insert 0 3, SMap.empty, ⟨4, fun i => (i : ℚ) ^ 2⟩⟩

theorem fdmField_ok : IndicesOk fdmField.uFixed 4 := by
  intro i v h
  have : i = 0 := by
    by_contra hne
    rw [fdmField, SMap.find?_insert_ne _ _ hne] at h
    simp at h
  subst this
  exact ⟨by decide, by decide⟩

example : prescribed fdmField 0 = some 3 ∧ prescribed fdmField 3 = none ∧ 4 ≤ fdmField.u.size := by decide +kernel

example : (laplacian fdmField 4 (1 / 2)).map (fun s => [s.A 0 0, s.A 0 1, s.b 0, s.A 1 0, s.A 1 1, s.A 3 2, s.A 3 3]) =
    some [-8, 4, -12, 4, -8, 4, -4] := by decide +kernel

example : (ddt fdmField 4).map (fun s => (s.A 2 2, s.b 0, s.b 2)) = some (1, 3, 4) := by decide +kernel

example : (divergence true fdmField 4 (1 / 2)).map (fun s => (s.A 0 0, s.b 0, s.A 1 0, s.A 1 2)) = some (1, 4, -1, 1) := by
  decide +kernel

end ENigMA
