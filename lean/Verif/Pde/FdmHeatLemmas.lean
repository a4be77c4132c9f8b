import Verif.Pde.FdmHeat
import Verif.Pde.FdmProps
import Verif.Sle.SystemProps
import Mathlib.LinearAlgebra.FiniteDimensional.Lemmas
import Mathlib.Algebra.Order.Field.Basic
import Mathlib.Data.Finset.Max

/-!
# Lemmas for C142 and C143
-/

set_option linter.unusedSectionVars false
set_option autoImplicit false

namespace ENigMA
open Equation

/-- A square system whose homogeneous system has only the trivial solution has a solution. -/
theorem Sys.exists_of_trivial {K : Type} [Field K] (s : Sys K) (h : ∀ z : Nat → K, (∀ i < s.n, s.row z i = 0) → ∀ i < s.n, z i = 0) :
    ∃ x, s.Solves x := by
  let ext : (Fin s.n → K) → Nat → K := fun x i => if hi : i < s.n then x ⟨i, hi⟩ else 0
  have hext : ∀ x (i : Fin s.n), ext x i = x i := fun x i => by simp [ext]
  have hrow : ∀ x i, s.row (ext x) i = ∑ j : Fin s.n, s.A i j * x j := by
    intro x i
    simp only [Sys.row]
    rw [Finset.sum_range]
    exact Finset.sum_congr rfl fun j _ => by rw [hext]
  let T : (Fin s.n → K) →ₗ[K] (Fin s.n → K) :=
    { toFun := fun x i => ∑ j : Fin s.n, s.A i j * x j
      map_add' := fun x y => by
        funext i
        simp only [Pi.add_apply]
        rw [← Finset.sum_add_distrib]; exact Finset.sum_congr rfl fun j _ => by ring
      map_smul' := fun k x => by
        funext i
        simp only [Pi.smul_apply, smul_eq_mul, RingHom.id_apply]
        rw [Finset.mul_sum]; exact Finset.sum_congr rfl fun j _ => by ring }
  have hT : ∀ x (i : Fin s.n), T x i = s.row (ext x) i := fun x i => by rw [hrow]; rfl
  have hinj : Function.Injective T := by
    rw [← LinearMap.ker_eq_bot, LinearMap.ker_eq_bot']
    intro x hx
    have h0 := h (ext x) (fun i hi => by
      have : T x ⟨i, hi⟩ = 0 := by rw [hx]; rfl
      rwa [hT] at this)
    funext i
    have := h0 i i.2
    rwa [hext] at this
  obtain ⟨x, hx⟩ := (LinearMap.injective_iff_surjective.1 hinj) fun i => s.b i
  refine ⟨ext x, fun i hi => ?_⟩
  have := congrFun hx ⟨i, hi⟩
  rwa [hT] at this

theorem Sys.assemble_kind {K : Type} [Field K] (l : List (Stamp K)) : ∀ s s' : Sys K, s.assemble l = some s' → s'.kind = s.kind := by
  induction l with
  | nil => intro s s' h; rw [Sys.assemble, Option.some.injEq] at h; rw [h]
  | cons st t ih =>
    intro s s' h
    simp only [Sys.assemble, Option.bind_eq_bind, Option.bind_eq_some_iff] at h
    obtain ⟨r, h1, h2⟩ := h
    rw [ih r s' h2]
    unfold Sys.stamp at h1
    split at h1
    · cases st <;> simp only [Option.some.injEq] at h1 <;> rw [← h1]
    · exact absurd h1 (by simp)

/-- `solve` of an equation without elimination: prescribed values where there are some, the solution of the system elsewhere. -/
theorem Equation.solve_plain {K : Type} [Field K] (solver : Sys K → Nat → K) (junk : Nat → K) (s : Sys K) (f : EqField K) (hk : s.kind ≠ .unknown)
    (hf : IndicesOk f.uFixed s.n) : ∃ u : EVec K, (Equation.new s).solve solver junk f = some { f with u := u } ∧ u.size = s.n ∧
      ∀ i, u.at' i = (prescribed f i).getD (solver s i) := by
  obtain ⟨u, h1, h2, h3, h4⟩ := setFixedLoop_spec f.uFixed.entries f.uFixed.keys_nodup ⟨s.n, solver s⟩ hf.inRange
  refine ⟨u, ?_, h2, fun i => ?_⟩
  · have hs : sysSolve solver (Equation.new s).sys = ⟨s.n, solver s⟩ := if_neg hk
    unfold Equation.solve
    rw [if_neg (by simp [Equation.new]), hs, h1]
    rfl
  · cases hp : prescribed f i with
    | some v => exact h4 i v ((f.uFixed.find?_eq_some_iff _ _).1 hp)
    | none =>
      refine h3 i fun e he hi => ?_
      have := (f.uFixed.find?_eq_some_iff e.1 e.2).2 he
      rw [hi] at this
      rw [prescribed, this] at hp
      cases hp

namespace FdmHeat
variable {K : Type} [Field K]

/-- What the scheme takes for the value before node `i`: the value of the node before; at the first node the prescribed value, or without one the value of the node itself. -/
def before (f : EqField K) (x : Nat → K) (i : Nat) : K := if i = 0 then (prescribed f 0).getD (x 0) else x (i - 1)

/-- What the scheme takes for the value after node `i`. -/
def after (f : EqField K) (n : Nat) (x : Nat → K) (i : Nat) : K := if i + 1 = n then (prescribed f i).getD (x i) else x (i + 1)

theorem laplacian_residual (f : EqField K) (n : Nat) (dx : K) (hn : 2 ≤ n) (hf : IndicesOk f.uFixed n) :
    ∃ s, Fdm.laplacian f n dx = some s ∧ s.n = n ∧ s.kind = .sparse ∧
      ∀ x, ∀ i < n, s.residual x i = (before f x i - 2 * x i + after f n x i) / (dx * dx) := by
  obtain ⟨s, h1, h2, h3, h4, h5, h6, h7⟩ := C21_laplacian_rows f n dx hn hf
  have hk : s.kind = .sparse := by
    unfold Fdm.laplacian at h1
    simp only [Option.bind_eq_bind, Option.bind_eq_some_iff] at h1
    obtain ⟨fx, -, r, -, h⟩ := h1
    exact Sys.assemble_kind _ _ _ h
  refine ⟨s, h1, h2, hk, fun x i hi => ?_⟩
  unfold Sys.residual before after
  rcases Nat.eq_zero_or_pos i with rfl | hpos
  · rw [if_pos rfl, if_neg (by omega)]
    cases hp : prescribed f 0 with
    | none => obtain ⟨a, b⟩ := h4 x hp; rw [a, b, Option.getD_none]; ring
    | some v => rw [h5 x v hp, Option.getD_some]
  · rw [if_neg (by omega)]
    by_cases hl : i + 1 = n
    · rw [if_pos hl]
      have e : i = n - 1 := by omega
      have e2 : n - 2 = i - 1 := by omega
      cases hp : prescribed f i with
      | none => obtain ⟨a, b⟩ := h6 x (e ▸ hp); rw [e2, ← e] at a; rw [← e] at b; rw [a, b, Option.getD_none]; ring
      | some v => have a := h7 x v (e ▸ hp); rw [e2, ← e] at a; rw [a, Option.getD_some]
    · rw [if_neg hl]
      obtain ⟨a, b⟩ := h3 x i hpos (by omega)
      rw [a, b, sub_zero]

theorem ddt_residual (f : EqField K) (n : Nat) (hf : IndicesOk f.uFixed n) (hu : n ≤ f.u.size) :
    ∃ s, Fdm.ddt f n = some s ∧ s.n = n ∧ s.kind = .sparse ∧
      ∀ x, ∀ i < n, s.residual x i = x i - (prescribed f i).getD (f.u.at' i) := by
  obtain ⟨s, h1, h2, h3, h4⟩ := C55_ddt f n hf hu
  have hk : s.kind = .sparse := by
    unfold Fdm.ddt at h1
    simp only [Option.bind_eq_bind, Option.bind_eq_some_iff] at h1
    obtain ⟨fx, -, r, -, h⟩ := h1
    exact Sys.assemble_kind _ _ _ h
  exact ⟨s, h1, h2, hk, fun x i hi => by rw [Sys.residual, h3 x i hi, h4 i hi]⟩

theorem assignZero (s : Sys K) : s.assignReal 0 = s := by
  cases s; simp [Sys.assignReal]

/-- What `steady` does, in terms of its system. -/
theorem steady_run (solver : Sys K → Nat → K) (hS : Sound solver) (junk : Nat → K) (n : Nat) (dx : K) (hn : 2 ≤ n) (hdx : dx ≠ 0) (f : EqField K)
    (hf : IndicesOk f.uFixed n) (hex : ∃ x : Nat → K, ∀ i < n, before f x i - 2 * x i + after f n x i = 0) :
    ∃ (u : EVec K) (x : Nat → K), steady solver junk n dx f = some { f with u := u } ∧ u.size = n ∧ (∀ i, u.at' i = (prescribed f i).getD (x i)) ∧
      ∀ i < n, before f x i - 2 * x i + after f n x i = 0 := by
  obtain ⟨s, h1, h2, h3, h4⟩ := laplacian_residual f n dx hn hf
  have hd : dx * dx ≠ 0 := mul_ne_zero hdx hdx
  have hsol : ∀ x, s.Solves x ↔ ∀ i < n, before f x i - 2 * x i + after f n x i = 0 := fun x => by
    unfold Sys.Solves
    rw [h2]
    refine forall_congr' fun i => forall_congr' fun hi => ?_
    rw [← sub_eq_zero, show s.row x i - s.b i = s.residual x i from rfl, h4 x i hi, div_eq_zero_iff]
    simp only [hd, or_false]
  obtain ⟨u, g1, g2, g3⟩ := Equation.solve_plain solver junk s f (by rw [h3]; decide) (by rw [h2]; exact hf)
  refine ⟨u, solver s, ?_, by rw [g2, h2], g3, (hsol _).1 (hS s (hex.imp fun x hx => (hsol x).2 hx))⟩
  simp only [steady, h1, Option.bind_eq_bind, Option.bind_some, assignZero, g1]

/-- One equation of a step, for the solution `x` of the system and the old values. -/
def Balance (n : Nat) (dx : K) (P : Par K) (f : EqField K) (x : Nat → K) : Prop :=
  ∀ i < n, P.rc / P.dt * (x i - (prescribed f i).getD (f.u.at' i)) = P.k * ((before f x i - 2 * x i + after f n x i) / (dx * dx))

section ordered
variable [LinearOrder K] [IsStrictOrderedRing K]

/-- The largest value is bounded by the sources of the values. -/
theorem max_principle (n : Nat) (c k : K) (hc : 0 < c) (hk : 0 ≤ k) (x o l r : Nat → K) (M : K)
    (h : ∀ i < n, c * (x i - o i) = k * (l i - 2 * x i + r i)) (ho : ∀ i < n, o i ≤ M)
    (hl : ∀ i < n, l i ≤ M ∨ ∃ j < n, l i ≤ x j) (hr : ∀ i < n, r i ≤ M ∨ ∃ j < n, r i ≤ x j) : ∀ i < n, x i ≤ M := by
  intro i0 hi0
  obtain ⟨i, hi, hmax⟩ := Finset.exists_max_image (Finset.range n) x ⟨i0, Finset.mem_range.2 hi0⟩
  rw [Finset.mem_range] at hi
  have hmax : ∀ j < n, x j ≤ x i := fun j hj => hmax j (Finset.mem_range.2 hj)
  refine (hmax i0 hi0).trans ?_
  by_contra hlt
  rw [not_le] at hlt
  have hl' : l i ≤ x i := by
    rcases hl i hi with h | ⟨j, hj, h⟩
    · exact h.trans hlt.le
    · exact h.trans (hmax j hj)
  have hr' : r i ≤ x i := by
    rcases hr i hi with h | ⟨j, hj, h⟩
    · exact h.trans hlt.le
    · exact h.trans (hmax j hj)
  have h1 : 0 < c * (x i - o i) := mul_pos hc (by have := ho i hi; linarith)
  have h2 : k * (l i - 2 * x i + r i) ≤ 0 := mul_nonpos_of_nonneg_of_nonpos hk (by linarith)
  have := h i hi
  linarith

/-- Two-sided. -/
theorem abs_principle (n : Nat) (c k : K) (hc : 0 < c) (hk : 0 ≤ k) (x o l r : Nat → K) (M : K)
    (h : ∀ i < n, c * (x i - o i) = k * (l i - 2 * x i + r i)) (ho : ∀ i < n, |o i| ≤ M)
    (hl : ∀ i < n, |l i| ≤ M ∨ ∃ j < n, l i = x j) (hr : ∀ i < n, |r i| ≤ M ∨ ∃ j < n, r i = x j) : ∀ i < n, |x i| ≤ M := by
  intro i hi
  refine abs_le'.2 ⟨max_principle n c k hc hk x o l r M h (fun i hi => (abs_le'.1 (ho i hi)).1) (fun i hi => ?_) (fun i hi => ?_) i hi,
    max_principle n c k hc hk (fun i => -x i) (fun i => -o i) (fun i => -l i) (fun i => -r i) M (fun i hi => by have := h i hi; linear_combination -this)
      (fun i hi => (abs_le'.1 (ho i hi)).2) (fun i hi => ?_) (fun i hi => ?_) i hi⟩
  · exact (hl i hi).imp (fun h => (abs_le'.1 h).1) fun ⟨j, hj, e⟩ => ⟨j, hj, e.le⟩
  · exact (hr i hi).imp (fun h => (abs_le'.1 h).1) fun ⟨j, hj, e⟩ => ⟨j, hj, e.le⟩
  · exact (hl i hi).imp (fun h => (abs_le'.1 h).2) fun ⟨j, hj, e⟩ => ⟨j, hj, by rw [e]⟩
  · exact (hr i hi).imp (fun h => (abs_le'.1 h).2) fun ⟨j, hj, e⟩ => ⟨j, hj, by rw [e]⟩

/-- The neighbours of a difference of two vectors. -/
theorem before_diff (f : EqField K) (n : Nat) (x y : Nat → K) (i : Nat) (hi : i < n) : |before f x i - before f y i| ≤ 0 ∨
    ∃ j < n, before f x i - before f y i = x j - y j := by
  unfold before
  split
  · cases prescribed f 0 with
    | none => exact Or.inr ⟨0, by omega, rfl⟩
    | some v => left; simp
  · exact Or.inr ⟨i - 1, by omega, rfl⟩

theorem after_diff (f : EqField K) (n : Nat) (x y : Nat → K) (i : Nat) (hi : i < n) : |after f n x i - after f n y i| ≤ 0 ∨
    ∃ j < n, after f n x i - after f n y i = x j - y j := by
  unfold after
  split
  · cases prescribed f i with
    | none => exact Or.inr ⟨i, hi, rfl⟩
    | some v => left; simp
  · exact Or.inr ⟨i + 1, by omega, rfl⟩

/-- What `step` does, in terms of its system: the system always has exactly one solution. -/
theorem step_run (solver : Sys K → Nat → K) (hS : Sound solver) (junk : Nat → K) (n : Nat) (dx : K) (hn : 2 ≤ n) (hdx : dx ≠ 0) (P : Par K) (hrc : 0 < P.rc)
    (hdt : 0 < P.dt) (hk : 0 ≤ P.k) (f : EqField K) (hf : IndicesOk f.uFixed n) (hu : n ≤ f.u.size) :
    ∃ (u : EVec K) (x : Nat → K), step solver junk n dx P f = some { f with u := u } ∧ u.size = n ∧ (∀ i, u.at' i = (prescribed f i).getD (x i)) ∧
      Balance n dx P f x ∧ ∀ y, Balance n dx P f y → ∀ i < n, y i = x i := by
  obtain ⟨l, h1, h2, h3, h4⟩ := laplacian_residual f n dx hn hf
  obtain ⟨d, g1, g2, g3, g4⟩ := ddt_residual f n hf hu
  have hc : 0 < P.rc / P.dt := div_pos hrc hdt
  have hk2 : 0 ≤ P.k / (dx * dx) := div_nonneg hk (mul_self_nonneg dx)
  obtain ⟨s, e1, e2, e3⟩ := (C18_residuals (Sys.smul (P.rc / P.dt) d) (Sys.smul P.k l) (show d.n = l.n by rw [h2, g2]) 0 (fun _ => 0) (fun _ => 0)).2.1
  have e3 : ∀ x i, s.residual x i = P.rc / P.dt * d.residual x i - P.k * l.residual x i := fun x i => by
    obtain ⟨s', a1, -, a3⟩ := (C18_residuals (Sys.smul (P.rc / P.dt) d) (Sys.smul P.k l) (show d.n = l.n by rw [h2, g2]) 0 (fun _ => 0) x).2.1
    rw [e1, Option.some.injEq] at a1
    subst a1
    rw [a3 i, (C18_residuals d l (show d.n = l.n by rw [h2, g2]) (P.rc / P.dt) (fun _ => 0) x).2.2.1.2 i,
      (C18_residuals l l rfl P.k (fun _ => 0) x).2.2.1.2 i]
  have hn' : s.n = n := by rw [e2]; exact g2
  have hkind : s.kind = .sparse := by
    unfold Sys.sub at e1
    split at e1
    · rw [Option.some.injEq] at e1
      rw [← e1]
      simp only [Sys.smul, g3, h3]
      rfl
    · cases e1
  have hres : ∀ x, ∀ i < n, s.residual x i = P.rc / P.dt * (x i - (prescribed f i).getD (f.u.at' i)) -
      P.k * ((before f x i - 2 * x i + after f n x i) / (dx * dx)) := fun x i hi => by rw [e3, g4 x i hi, h4 x i hi]
  have hsol : ∀ x, s.Solves x ↔ Balance n dx P f x := fun x => by
    unfold Sys.Solves Balance
    rw [hn']
    refine forall_congr' fun i => forall_congr' fun hi => ?_
    rw [← sub_eq_zero, show s.row x i - s.b i = s.residual x i from rfl, hres x i hi, sub_eq_zero]
  have huniq : ∀ x y, Balance n dx P f x → Balance n dx P f y → ∀ i < n, x i = y i := by
    intro x y hx hy i hi
    have := abs_principle n (P.rc / P.dt) (P.k / (dx * dx)) hc hk2 (fun i => x i - y i) (fun _ => 0) (fun i => before f x i - before f y i)
      (fun i => after f n x i - after f n y i) 0 (fun i hi => by have a := hx i hi; have b := hy i hi; linear_combination a - b) (fun i _ => by simp)
      (before_diff f n x y) (after_diff f n x y) i hi
    exact sub_eq_zero.1 (abs_nonpos_iff.1 this)
  have hex : ∃ x, s.Solves x := by
    refine s.exists_of_trivial fun z hz i hi => ?_
    rw [hn'] at hi hz
    have hz' : ∀ i < n, s.residual z i = s.residual (fun _ => 0) i := fun i hi => by
      rw [Sys.residual, Sys.residual, hz i hi]
      simp [Sys.row]
    have := abs_principle n (P.rc / P.dt) (P.k / (dx * dx)) hc hk2 z (fun _ => 0) (fun i => before f z i - before f (fun _ => 0) i)
      (fun i => after f n z i - after f n (fun _ => 0) i) 0 (fun i hi => by
        have a := hz' i hi
        rw [hres z i hi, hres (fun _ => 0) i hi] at a
        linear_combination a) (fun i _ => by simp)
      (fun i hi => (before_diff f n z (fun _ => 0) i hi).imp id fun ⟨j, hj, e⟩ => ⟨j, hj, by rw [e, sub_zero]⟩)
      (fun i hi => (after_diff f n z (fun _ => 0) i hi).imp id fun ⟨j, hj, e⟩ => ⟨j, hj, by rw [e, sub_zero]⟩) i hi
    exact abs_nonpos_iff.1 this
  obtain ⟨u, k1, k2, k3⟩ := Equation.solve_plain solver junk s f (by rw [hkind]; decide) (by rw [hn']; exact hf)
  have hb := (hsol _).1 (hS s hex)
  refine ⟨u, solver s, ?_, by rw [k2, hn'], k3, hb, fun y hy i hi => huniq y _ hy hb i hi⟩
  simp only [step, h1, g1, Option.bind_eq_bind, Option.bind_some, e1, assignZero, k1]

end ordered
end FdmHeat
end ENigMA
