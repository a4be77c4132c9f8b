import Verif.Pde.EquationLemmas
import Mathlib.Algebra.Order.Field.Basic
import Mathlib.Tactic.LinearCombination
import Mathlib.Algebra.Order.Ring.Rat
import Mathlib.Algebra.Order.BigOperators.Group.Finset

/-!
# Imposing boundary conditions on a linear system

* `C19`: `setElimination` followed by `solve`.
* `C20`: `setPenaltyFactor`.
* `C54`: `setSources`.
-/

set_option linter.unusedSectionVars false

namespace ENigMA
open Equation
variable {K : Type} [Field K]

/-- Every index at which the field prescribes a value (or has a source) is a row of the system. -/
def IndicesOk (m : SMap Int K) (n : Nat) : Prop := ∀ i v, m.find? i = some v → 0 ≤ i ∧ i < (n : Int)

theorem IndicesOk.inRange {m : SMap Int K} {n : Nat} (h : IndicesOk m n) : ∀ e ∈ m.entries, InRange e.1 n :=
  fun e he => h e.1 e.2 ((m.find?_eq_some_iff _ _).2 he)

/-- **C20.** For FEM and FDM fields `setPenaltyFactor` makes the row of every fixed degree of freedom read
`p·x_i + Σ_{j≠i} a_ij x_j = p·value` and changes no other row. -/
theorem C20_setPenaltyFactor (e : Equation K) (f : EqField K) (p : K) (hm : f.method = .fem ∨ f.method = .fdm)
    (hf : IndicesOk f.uFixed e.sys.n) :
    ∃ e', e.setPenaltyFactor f p = some e' ∧ e'.sys.n = e.sys.n ∧ e'.sys.kind = e.sys.kind ∧
      (∀ i : Nat, prescribed f i = none → e'.sys.b i = e.sys.b i ∧ ∀ x, e'.sys.row x i = e.sys.row x i) ∧
      (∀ (i : Nat) v, prescribed f i = some v → e'.sys.b i = p * v ∧
        ∀ x, e'.sys.row x i = p * x i + ∑ j ∈ (Finset.range e.sys.n).erase i, e.sys.A i j * x j) := by
  obtain ⟨s', h1, h2, h3, h4, h5⟩ := penaltyLoop_spec p f.uFixed.entries f.uFixed.keys_nodup e.sys hf.inRange
  refine ⟨{ e with sys := s' }, by simp [setPenaltyFactor, hm, h1], h2, h3, ?_, ?_⟩
  · intro i hi
    obtain ⟨a, b⟩ := h4 i (fun ent he h => by
      have := (f.uFixed.find?_eq_some_iff _ _).2 he
      rw [h] at this
      rw [prescribed, this] at hi; simp at hi)
    exact ⟨a, fun x => by simp only [Sys.row, h2, b]⟩
  · intro i v hv
    obtain ⟨a, b⟩ := h5 i v ((f.uFixed.find?_eq_some_iff _ _).1 hv)
    refine ⟨a, fun x => ?_⟩
    have hi : i < e.sys.n := by have := (hf _ _ hv).2; omega
    simp only [Sys.row, h2, b]
    rw [← Finset.add_sum_erase _ _ (Finset.mem_range.2 hi)]
    congr 1
    · simp
    · apply Finset.sum_congr rfl
      intro j hj
      rw [if_neg (Finset.ne_of_mem_erase hj)]

/-- **C20.** For the other discretisation methods nothing changes. -/
theorem C20_other_methods (e : Equation K) (f : EqField K) (p : K) (hm : f.method ≠ .fem) (hm' : f.method ≠ .fdm) :
    e.setPenaltyFactor f p = some e := by simp [setPenaltyFactor, hm, hm']

/-- **C20.** The error made at a fixed degree of freedom by any solution of the penalised system is the off-diagonal part of its
row divided by the penalty factor. -/
theorem C20_deviation [LinearOrder K] [IsStrictOrderedRing K] (e e' : Equation K) (f : EqField K) (p : K) (hp : 0 < p)
    (hm : f.method = .fem ∨ f.method = .fdm)
    (hf : IndicesOk f.uFixed e.sys.n) (he' : e.setPenaltyFactor f p = some e') (x : Nat → K) (hx : e'.sys.Solves x)
    (i : Nat) (v : K) (hv : prescribed f i = some v) :
    |x i - v| = |∑ j ∈ (Finset.range e.sys.n).erase i, e.sys.A i j * x j| / p ∧
    |x i - v| ≤ (∑ j ∈ (Finset.range e.sys.n).erase i, |e.sys.A i j| * |x j|) / p := by
  obtain ⟨e'', h1, h2, -, -, h5⟩ := C20_setPenaltyFactor e f p hm hf
  rw [h1, Option.some.injEq] at he'
  subst he'
  have hi : i < e.sys.n := by have := (hf _ _ hv).2; omega
  obtain ⟨a, b⟩ := h5 i v hv
  have h := hx i (by rw [h2]; exact hi)
  rw [a, b] at h
  have h6 : x i - v = -(∑ j ∈ (Finset.range e.sys.n).erase i, e.sys.A i j * x j) / p := by
    rw [eq_div_iff hp.ne']; linear_combination h
  have h7 : |x i - v| = |∑ j ∈ (Finset.range e.sys.n).erase i, e.sys.A i j * x j| / p := by
    rw [h6, abs_div, abs_neg, abs_of_pos hp]
  refine ⟨h7, ?_⟩
  rw [h7]
  apply div_le_div_of_nonneg_right _ hp.le
  refine (Finset.abs_sum_le_sum_abs _ _).trans (le_of_eq ?_)
  exact Finset.sum_congr rfl fun j _ => abs_mul _ _

/-- **C54.** `setSources` adds every source to the right-hand side of its own row and changes nothing else. -/
theorem C54_setSources (e : Equation K) (f : EqField K) (hf : IndicesOk f.uSource e.sys.n) :
    ∃ e', e.setSources f = some e' ∧ e'.sys.n = e.sys.n ∧ e'.sys.kind = e.sys.kind ∧ e'.sys.A = e.sys.A ∧
      e'.elim = e.elim ∧ e'.del = e.del ∧
      ∀ i : Nat, e'.sys.b i = e.sys.b i + (f.uSource.find? (i : Int)).getD 0 := by
  obtain ⟨s', h1, h2, h3, h3', h4, h5⟩ := sourceLoop_spec f.uSource.entries f.uSource.keys_nodup e.sys hf.inRange
  refine ⟨{ e with sys := s' }, by simp [setSources, h1], h2, h3, h3', rfl, rfl, ?_⟩
  intro i
  cases hs : f.uSource.find? (i : Int) with
  | some v => simpa using h5 i v ((f.uSource.find?_eq_some_iff _ _).1 hs)
  | none =>
    simp only [Option.getD_none, add_zero]
    refine h4 i (fun ent he h => ?_)
    have := (f.uSource.find?_eq_some_iff _ _).2 he
    rw [h, hs] at this; simp at this

/-- A fresh equation's elimination in closed form. -/
theorem setElimination_spec (junk : Nat → K) (s : Sys K) (f : EqField K) (hm : f.method = .fem) (hf : IndicesOk f.uFixed s.n) :
    ∃ e', (Equation.new s).setElimination junk f = some e' ∧ e'.elim = true ∧
      e'.del = (List.range s.n).map (fun i => !(prescribed f i).isNone) ∧
      e'.sys.kind = s.kind ∧ e'.sys.n = (freeDofs f s.n).length ∧
      (∀ i < s.n, prescribed f i = none → e'.sys.b (rank (fun i => (prescribed f i).isNone) i) =
        s.b i - ∑ j ∈ Finset.range s.n, (match prescribed f j with | some v => s.A i j * v | none => 0)) ∧
      (∀ i < s.n, ∀ j < s.n, prescribed f i = none → prescribed f j = none →
        e'.sys.A (rank (fun i => (prescribed f i).isNone) i) (rank (fun i => (prescribed f i).isNone) j) = s.A i j) := by
  set q : Nat → Bool := fun i => (prescribed f i).isNone with hq
  have hdl : (resizeBool ([] : List Bool) s.n).length = s.n := by simp [resizeBool]
  obtain ⟨s', del', h1, h2, h3, h4, h5, h6, h7⟩ := elimLoop_spec f.uFixed.entries s (resizeBool [] s.n) hf.inRange hdl
  have hdel : del' = (List.range s.n).map (fun i => !q i) := by
    apply List.ext_getElem?
    intro i
    by_cases hi : i < s.n
    · rw [h7 i hi]
      have hr : (resizeBool ([] : List Bool) s.n)[i]? = some false := by simp [resizeBool, hi]
      have hg : ((List.range s.n).map (fun i => !q i))[i]? = some (!q i) := by simp [hi]
      rw [hr, hg]
      cases hp : prescribed f i with
      | none =>
        rw [if_neg]
        · simp [hq, hp]
        · rintro ⟨ent, he, h⟩
          have := (f.uFixed.find?_eq_some_iff _ _).2 he
          rw [h] at this
          rw [prescribed, this] at hp; simp at hp
      | some v =>
        rw [if_pos ⟨((i : Int), v), (f.uFixed.find?_eq_some_iff _ _).1 hp, rfl⟩]
        simp [hq, hp]
    · rw [List.getElem?_eq_none (by omega), List.getElem?_eq_none (by simp; omega)]
  have ho : oldToNew (del'.take s'.n) 0 = ((List.range s.n).map (rank q), rank q s.n) := by
    rw [List.take_of_length_le (by omega), hdel, List.range_eq_range']
    have := oldToNew_eq q s.n 0
    simpa [rank, sel] using this
  obtain ⟨b', hb1, hb2, -⟩ := copyB_spec s' q s.n (List.range s.n) (by simp) junk
  obtain ⟨a', ha1, ha2, -⟩ := copyA_spec s' q s.n (positions s.n) (by
    intro p hp
    simp only [positions, List.mem_flatMap, List.mem_map, List.mem_range] at hp
    obtain ⟨j, hj, i, hi, rfl⟩ := hp
    exact ⟨hi, hj⟩) (fun _ _ => 0)
  refine ⟨{ sys := { kind := s'.kind, n := rank q s.n, A := a', b := b' }, del := del', elim := true }, ?_, rfl, hdel, h3, rfl, ?_, ?_⟩
  · simp only [setElimination, hm, if_true, Equation.new, h1, Option.bind_eq_bind, Option.bind_some, ho]
    rw [h2]
    rw [hdel, hb1]
    simp only [Option.bind_some]
    rw [ha1]
    rfl
  · intro i hi hp
    have := hb2 i (by simpa using hi) (by simp [hq, hp])
    refine this.trans ?_
    rw [h5, sum_entries _ f.uFixed.keys_nodup s.n hf.inRange (fun j v => s.A i j * v)]
    rfl
  · intro i hi j hj hpi hpj
    have := ha2 (i, j) (by
      simp only [positions, List.mem_flatMap, List.mem_map, List.mem_range]
      exact ⟨j, hj, i, hi, rfl⟩) (by simp [hq, hpi]) (by simp [hq, hpj])
    exact this.trans (by rw [h4])

/-- **C19.** `setElimination` on a FEM field is exact: the reduced system has one unknown per free degree of freedom, and `x` solves
it if and only if the vector `w` that agrees with `x` on the free and with the prescribed values on the fixed degrees of freedom
satisfies every free row of the original system. -/
theorem C19_setElimination (junk : Nat → K) (s : Sys K) (f : EqField K) (hm : f.method = .fem) (hf : IndicesOk f.uFixed s.n) :
    ∃ e', (Equation.new s).setElimination junk f = some e' ∧ e'.elim = true ∧ e'.sys.kind = s.kind ∧
      e'.sys.n = (freeDofs f s.n).length ∧
      ∀ x w : Nat → K, (∀ k i, (freeDofs f s.n)[k]? = some i → w i = x k) →
        (∀ i v, prescribed f i = some v → w i = v) →
        (e'.sys.Solves x ↔ ∀ i < s.n, prescribed f i = none → s.row w i = s.b i) := by
  obtain ⟨e', h1, h2, -, h3, h4, h5, h6⟩ := setElimination_spec junk s f hm hf
  refine ⟨e', h1, h2, h3, h4, ?_⟩
  intro x w hx hw
  set q : Nat → Bool := fun i => (prescribed f i).isNone with hq
  have hqn : ∀ i, q i = true ↔ prescribed f i = none := by intro i; simp [hq]
  have hsel : freeDofs f s.n = sel q s.n := rfl
  have hrow : ∀ i < s.n, prescribed f i = none →
      (e'.sys.row x (rank q i) = e'.sys.b (rank q i) ↔ s.row w i = s.b i) := by
    intro i hi hp
    have hr : e'.sys.row x (rank q i) = ∑ j ∈ Finset.range s.n, if q j then s.A i j * w j else 0 := by
      rw [← sum_sel q (fun j => s.A i j * w j), Sys.row, h4]
      apply Finset.sum_congr rfl
      intro k hk
      obtain ⟨j, hj, hqj, hrj, hget⟩ := sel_rank (q := q) (n := s.n) (Finset.mem_range.1 hk)
      have hA := h6 i hi j hj hp ((hqn j).1 hqj)
      rw [hrj] at hA
      rw [hA, hget, Option.getD_some, hx k j (hsel ▸ hget)]
    rw [hr, h5 i hi hp, eq_sub_iff_add_eq, ← Finset.sum_add_distrib, Sys.row]
    have : ∀ j ∈ Finset.range s.n, ((if q j = true then s.A i j * w j else 0) +
        match prescribed f j with | some v => s.A i j * v | none => 0) = s.A i j * w j := by
      intro j _
      cases hpj : prescribed f j with
      | none => simp [hq, hpj]
      | some v => simp [hq, hpj, hw j v hpj]
    rw [Finset.sum_congr rfl this]
  constructor
  · intro h i hi hp
    exact (hrow i hi hp).1 (h _ (by rw [h4]; exact rank_lt hi ((hqn i).2 hp)))
  · intro h k hk
    rw [h4] at hk
    obtain ⟨i, hi, hqi, hri, -⟩ := sel_rank (q := q) (n := s.n) hk
    rw [← hri]
    exact (hrow i hi ((hqn i).1 hqi)).2 (h i hi ((hqn i).1 hqi))

/-- **C19.** `solve` after `setElimination` writes back exactly that vector: `u` has one component per original degree of freedom,
the solver's value at each free one and the prescribed value at each fixed one. With a solver that solves the reduced system, every
free row of the original system holds. -/
theorem C19_solve (solver : Sys K → Nat → K) (junk junk' : Nat → K) (s : Sys K) (f : EqField K) (hm : f.method = .fem)
    (hk : s.kind ≠ .unknown) (hf : IndicesOk f.uFixed s.n) :
    ∃ e' f', (Equation.new s).setElimination junk f = some e' ∧ e'.solve solver junk' f = some f' ∧
      f'.u.size = s.n ∧ f'.uFixed = f.uFixed ∧
      (∀ i < s.n, ∀ v, prescribed f i = some v → f'.u.at' i = v) ∧
      (∀ k i, (freeDofs f s.n)[k]? = some i → f'.u.at' i = solver e'.sys k) ∧
      (e'.sys.Solves (solver e'.sys) → ∀ i < s.n, prescribed f i = none → s.row f'.u.at' i = s.b i) := by
  obtain ⟨e', h1, h2, h3, h4, h5, h6, h7⟩ := setElimination_spec junk s f hm hf
  obtain ⟨e'', g1, -, -, -, g5⟩ := C19_setElimination junk s f hm hf
  rw [h1, Option.some.injEq] at g1
  subst g1
  set q : Nat → Bool := fun i => (prescribed f i).isNone with hq
  have hlen : e'.del.length = s.n := by rw [h3]; simp
  have hx : sysSolve solver e'.sys = ⟨e'.sys.n, solver e'.sys⟩ := by rw [sysSolve, if_neg (by rw [h4]; exact hk)]
  have hn2o : newToOld e'.del 0 = sel q s.n := by
    rw [h3, List.range_eq_range', sel, List.range_eq_range']
    exact newToOld_eq q s.n 0
  obtain ⟨u1, s1, s2, s3⟩ := scatter_spec ⟨e'.sys.n, solver e'.sys⟩ q s.n (List.range e'.sys.n) (by
    intro k hk; rw [List.mem_range, h5] at hk; exact hk) ⟨s.n, junk'⟩ rfl
  obtain ⟨u2, t1, t2, t3, t4⟩ := setFixedLoop_spec f.uFixed.entries f.uFixed.keys_nodup u1 (by rw [s2]; exact hf.inRange)
  have hfix : ∀ i < s.n, ∀ v, prescribed f i = some v → u2.at' i = v :=
    fun i _ v hv => t4 i v ((f.uFixed.find?_eq_some_iff _ _).1 hv)
  have hfree : ∀ k i, (freeDofs f s.n)[k]? = some i → u2.at' i = solver e'.sys k := by
    intro k i hki
    have hklt : k < rank q s.n := (List.getElem?_eq_some_iff.1 hki).1
    obtain ⟨i', hi', hqi', hri', hget'⟩ := sel_rank (q := q) hklt
    have : i = i' := by
      have h : (sel q s.n)[k]? = some i := hki
      rw [hget'] at h; simpa using h.symm
    subst this
    rw [t3 i (fun ent he h => by
      have := (f.uFixed.find?_eq_some_iff _ _).2 he
      rw [h] at this
      have hp : prescribed f i = some ent.2 := this
      simp [hq, hp] at hqi')]
    have := s3 i hi' hqi' (by rw [List.mem_range, h5, hri']; exact hklt)
    rw [this, hri']
  refine ⟨e', { f with u := u2 }, h1, ?_, by rw [t2, s2], rfl, hfix, hfree, ?_⟩
  · simp only [solve, h2, if_true, hx, hn2o, hlen, s1, t1, Option.bind_eq_bind, Option.bind_some]
    rfl
  · intro hs
    refine (g5 _ u2.at' hfree ?_).1 hs
    intro i v hv
    exact hfix i (by have := (hf _ _ hv).2; omega) v hv

/-- **C19.** Fields discretised otherwise are left alone. -/
theorem C19_other_methods (junk : Nat → K) (e : Equation K) (f : EqField K) (hm : f.method ≠ .fem) :
    e.setElimination junk f = some e := by simp [setElimination, hm]

/-! ### Non-vacuity -/

/-- Three unknowns, the middle one fixed to 2 (and a source at 0). -/
def eqField3 : EqField ℚ := ⟨.fem, SMap.empty.insert 1 2, SMap.empty.insert 0 5, ⟨0, fun _ => 0⟩⟩

/-- A 3×3 system. -/
def eqSys3 : Sys ℚ := ⟨.sparse, 3, fun i j => if i = j then 2 else 1, fun i => (i : ℚ) + 1⟩

theorem eqField3_ok : IndicesOk eqField3.uFixed eqSys3.n := by
  intro i v h
  have : i = 1 := by
    by_contra hne
    rw [eqField3, SMap.find?_insert_ne _ _ hne] at h
    simp at h
  subst this
  exact ⟨by decide, by decide⟩

example : eqField3.method = .fem ∧ eqSys3.kind ≠ .unknown ∧ freeDofs eqField3 3 = [0, 2] ∧
    ((Equation.new eqSys3).setElimination (fun _ => 0) eqField3).map (fun e => (e.sys.n, e.sys.b 0, e.sys.b 1, e.sys.A 0 1, e.sys.A 1 1))
      = some (2, -1, 1, 1, 2) := by decide +kernel

example : ((Equation.new eqSys3).setPenaltyFactor eqField3 1000).map
    (fun e => (e.sys.b 0, e.sys.b 1, e.sys.A 1 0, e.sys.A 1 1, e.sys.A 0 1)) = some (1, 2000, 1, 1000, 1) := by decide +kernel

example : ((Equation.new eqSys3).setSources eqField3).map (fun e => (e.sys.b 0, e.sys.b 1)) = some (6, 2) := by decide +kernel

example : IndicesOk eqField3.uSource eqSys3.n := by
  intro i v h
  have : i = 0 := by
    by_contra hne
    rw [eqField3, SMap.find?_insert_ne _ _ hne] at h
    simp at h
  subst this
  exact ⟨by decide, by decide⟩

/-! ### Calling `setElimination` again -/

/-- A field with no fixed value at all. -/
def eqFieldFree : EqField ℚ := ⟨.fem, SMap.empty, SMap.empty, ⟨0, fun _ => 0⟩⟩

/-- **C19 (disagreement).** The marks of an earlier elimination are kept in `m_bDeleteIndex`, so eliminating a second time with a
field that fixes nothing removes an equation of a free unknown: two unknowns remain after the first call, one after the second. -/
theorem C19_second_call_drops_equation :
    ∃ e1 e2, (Equation.new eqSys3).setElimination (fun _ => 0) eqField3 = some e1 ∧ e1.sys.n = 2 ∧
      e1.setElimination (fun _ => 0) eqFieldFree = some e2 ∧ (freeDofs eqFieldFree e1.sys.n).length = 2 ∧ e2.sys.n = 1 := by
  have h : ((Equation.new eqSys3).setElimination (fun _ => 0) eqField3).isSome := by decide +kernel
  obtain ⟨e1, h1⟩ := Option.isSome_iff_exists.1 h
  have hn : ((Equation.new eqSys3).setElimination (fun _ => 0) eqField3).map (fun e => e.sys.n) = some 2 := by decide +kernel
  have h' : (((Equation.new eqSys3).setElimination (fun _ => 0) eqField3).bind
      (fun e => e.setElimination (fun _ => 0) eqFieldFree)).map (fun e => e.sys.n) = some 1 := by decide +kernel
  rw [h1] at hn h'
  simp only [Option.map_some, Option.some.injEq, Option.bind_some, Option.map_eq_some_iff] at hn h'
  obtain ⟨e2, h2, h3⟩ := h'
  refine ⟨e1, e2, h1, hn, h2, ?_, h3⟩
  rw [hn]; decide +kernel

end ENigMA
