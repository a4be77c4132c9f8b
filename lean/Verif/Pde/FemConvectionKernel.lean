import Verif.Pde.FemConvectionLemmas
import Mathlib.Tactic.FieldSimp
import Mathlib.Tactic.Positivity

/-! # The equations on an evenly divided line have one solution -/

set_option linter.unusedSectionVars false
set_option autoImplicit false

namespace ENigMA
namespace FemConvection
open FdmConvection (Flow)
open FdmHeat (Sound)
open FvmHeat (Plain plain_ok plain_none)
variable {K : Type} [Field K] [LinearOrder K] [IsStrictOrderedRing K]

/-- The quotients met when the equations are eliminated from the far end. -/
structure Quotient (c q : K) : Prop where
  lo : c ≤ 1 → 0 ≤ q
  hi : 1 < c → (1 - c) / (2 + c) ≤ q ∧ q ≤ 0
  bound : (1 + c) * q < 2 - c

theorem Quotient.first {c : K} (hc : 0 ≤ c) : Quotient c ((1 - c) / (2 + c)) := by
  have h2 : 0 < 2 + c := by linarith
  refine ⟨fun h => div_nonneg (by linarith) h2.le, fun h => ⟨le_rfl, div_nonpos_of_nonpos_of_nonneg (by linarith) h2.le⟩, ?_⟩
  rw [mul_div_assoc', div_lt_iff₀ h2]
  linarith [show (2 - c) * (2 + c) - (1 + c) * (1 - c) = 3 by ring]

theorem Quotient.next {c q : K} (hc : 0 ≤ c) (h : Quotient c q) : 0 < 4 - (1 + c) * q ∧ Quotient c ((1 - c) / (4 - (1 + c) * q)) := by
  have h2 : 0 < 2 + c := by linarith
  have hb := h.bound
  have hd : 2 + c < 4 - (1 + c) * q := by linarith
  have hd0 : 0 < 4 - (1 + c) * q := by linarith
  refine ⟨hd0, fun h1 => div_nonneg (by linarith) hd0.le, fun h1 => ⟨?_, div_nonpos_of_nonpos_of_nonneg (by linarith) hd0.le⟩, ?_⟩
  · rw [div_le_div_iff₀ h2 hd0]
    have := mul_le_mul_of_nonneg_left hd.le (show 0 ≤ c - 1 by linarith)
    linarith
  · rw [mul_div_assoc', div_lt_iff₀ hd0]
    rcases le_or_gt c 1 with h1 | h1
    · have hlow : (2 - c) * (2 + c) ≤ (2 - c) * (4 - (1 + c) * q) := mul_le_mul_of_nonneg_left hd.le (by linarith)
      linarith [show (2 - c) * (2 + c) - (1 + c) * (1 - c) = 3 by ring]
    · obtain ⟨ql, qh⟩ := h.hi h1
      rw [div_le_iff₀ h2] at ql
      rcases le_or_gt c 2 with h3 | h3
      · have : (2 - c) * (2 + c) ≤ (2 - c) * (4 - (1 + c) * q) := mul_le_mul_of_nonneg_left hd.le (by linarith)
        linarith [show (2 - c) * (2 + c) - (1 + c) * (1 - c) = 3 by ring]
      · have e : (1 + c) * (1 - c) ≤ (1 + c) * q * (2 + c) := by
          have := mul_le_mul_of_nonneg_left ql (show 0 ≤ 1 + c by linarith)
          linarith [show (1 + c) * (q * (2 + c)) = (1 + c) * q * (2 + c) by ring]
        have e2 : 0 ≤ (1 + c) * (1 - c) * (-1) := by
          have := mul_nonneg (show 0 ≤ 1 + c by linarith) (show 0 ≤ c - 1 by linarith)
          linarith
        -- multiply by 2 + c
        have key : (1 + c) * (1 - c) * (2 + c) < (2 - c) * (4 - (1 + c) * q) * (2 + c) := by
          have f : (c - 2) * ((1 + c) * (1 - c)) ≤ (c - 2) * ((1 + c) * q * (2 + c)) := mul_le_mul_of_nonneg_left e (by linarith)
          have p : 0 < c * c - c - 2 + 2 := by
            have := mul_pos (show 0 < c by linarith) (show 0 < c - 1 by linarith)
            linarith [show c * (c - 1) = c * c - c by ring]
          have id1 : (2 - c) * (4 - (1 + c) * q) * (2 + c) = 4 * (4 - c * c) + (c - 2) * ((1 + c) * q * (2 + c)) := by ring
          have id2 : (c - 2) * ((1 + c) * (1 - c)) - (1 + c) * (1 - c) * (2 + c) = -4 * (1 - c * c) := by ring
          rw [id1]
          linarith
        exact lt_of_mul_lt_mul_right key h2.le

/-- Elimination from the far end. -/
theorem sweep (m : Nat) (c : K) (hc : 0 ≤ c) (z : Nat → K) (h0 : (2 - c) * z 0 + (1 + c) * z 1 = 0) (hi : ∀ i < m, (1 - c) * z i + 4 * z (i + 1) + (1 + c) * z (i + 2) = 0)
    (hn : (1 - c) * z m + (2 + c) * z (m + 1) = 0) : ∀ i < m + 2, z i = 0 := by
  have back : ∀ j ≤ m, ∃ q, Quotient c q ∧ z (m - j + 1) = -q * z (m - j) := by
    intro j
    induction j with
    | zero =>
      intro _
      refine ⟨_, Quotient.first hc, ?_⟩
      have h2 : (2 + c) ≠ 0 := by linarith
      rw [Nat.sub_zero]
      field_simp
      linear_combination hn
    | succ j ih =>
      intro hj
      obtain ⟨q, hq, hz⟩ := ih (by omega)
      obtain ⟨hd, hq'⟩ := hq.next hc
      refine ⟨_, hq', ?_⟩
      have e := hi (m - (j + 1)) (by omega)
      rw [show m - (j + 1) + 2 = m - j + 1 by omega, hz, show m - j = m - (j + 1) + 1 by omega] at e
      have hd' := hd.ne'
      rw [← mul_right_inj' hd', show (4 - (1 + c) * q) * (-((1 - c) / (4 - (1 + c) * q)) * z (m - (j + 1))) = (4 - (1 + c) * q) / (4 - (1 + c) * q) * (-(1 - c) * z (m - (j + 1))) by ring, div_self hd']
      linear_combination e
  have z0 : z 0 = 0 := by
    obtain ⟨q, hq, hz⟩ := back m le_rfl
    rw [Nat.sub_self, Nat.zero_add] at hz
    rw [hz] at h0
    have hb := hq.bound
    have : (2 - c - (1 + c) * q) * z 0 = 0 := by linear_combination h0
    exact (mul_eq_zero.1 this).resolve_left (by linarith)
  intro i
  induction i with
  | zero => intro _; exact z0
  | succ i ih =>
    intro hlt
    obtain ⟨q, -, hz⟩ := back (m - i) (by omega)
    rw [show m - (m - i) = i by omega] at hz
    rw [hz, ih (by omega), mul_zero]

/-- Either direction of the flow. -/
theorem sweep_any (m : Nat) (c : K) (z : Nat → K) (h0 : (2 - c) * z 0 + (1 + c) * z 1 = 0) (hi : ∀ i < m, (1 - c) * z i + 4 * z (i + 1) + (1 + c) * z (i + 2) = 0)
    (hn : (1 - c) * z m + (2 + c) * z (m + 1) = 0) : ∀ i < m + 2, z i = 0 := by
  rcases le_or_gt 0 c with hc | hc
  · exact sweep m c hc z h0 hi hn
  · have := sweep m (-c) (by linarith) (fun i => z (m + 1 - i)) (by simp only [Nat.sub_zero, Nat.add_sub_cancel]; linear_combination hn)
      (fun i hlt => by
        have e := hi (m - 1 - i) (by omega)
        rw [show m - 1 - i + 1 = m + 1 - (i + 1) by omega, show m - 1 - i + 2 = m + 1 - i by omega, show m - 1 - i = m + 1 - (i + 2) by omega] at e
        linear_combination e)
      (by simp only [show m + 1 - m = 1 by omega, Nat.sub_self]; linear_combination h0)
    intro i hlt
    have := this (m + 1 - i) (by omega)
    rwa [show m + 1 - (m + 1 - i) = i by omega] at this

/-- On an evenly divided line the homogeneous equations have only the zero solution. -/
theorem kernel (m : Nat) (h : K) (hh : 0 < h) (P : Flow K) (hrc : 0 < P.rc) (hdt : 0 < P.dt) (z : Nat → K) (H : ∀ i < m + 2, node (m + 1) (fun _ => h) P (fun _ => 0) z i = 0) :
    ∀ i < m + 2, z i = 0 := by
  have ha : P.rc * h / (6 * P.dt) ≠ 0 := (by positivity : (0 : K) < P.rc * h / (6 * P.dt)).ne'
  have e1 : ∀ i, first (fun _ => h) P (fun _ => 0) z i = P.rc * h / (6 * P.dt) * ((2 - 3 * way P / h) * z i + (1 + 3 * way P / h) * z (i + 1)) := fun i => by
    unfold first way; field_simp; ring
  have e2 : ∀ i, second (fun _ => h) P (fun _ => 0) z i = P.rc * h / (6 * P.dt) * ((1 - 3 * way P / h) * z i + (2 + 3 * way P / h) * z (i + 1)) := fun i => by
    unfold second way; field_simp; ring
  refine sweep_any m (3 * way P / h) z ?_ (fun i hi => ?_) ?_
  · have := H 0 (by omega)
    rw [node, if_pos (by omega), if_neg (by omega), add_zero, e1] at this
    exact (mul_eq_zero.1 this).resolve_left ha
  · have := H (i + 1) (by omega)
    rw [node, if_pos (by omega), if_pos (by omega), Nat.add_sub_cancel, e1, e2, ← mul_add] at this
    have := (mul_eq_zero.1 this).resolve_left ha
    linear_combination this
  · have := H (m + 1) (by omega)
    rw [node, if_neg (by omega), if_pos (by omega), Nat.add_sub_cancel, zero_add, e2] at this
    exact (mul_eq_zero.1 this).resolve_left ha

theorem node_sub (n : Nat) (h : Nat → K) (P : Flow K) (o x y : Nat → K) (i : Nat) : node n h P o x i - node n h P o y i = node n h P (fun _ => 0) (fun j => x j - y j) i := by
  unfold node first second
  split_ifs <;> ring

/-- A step on an evenly divided line. -/
theorem step_run {nrm : Vec3 K → K} {mesh : Mesh K} {m : Nat} {h : K} (L : Line nrm mesh (m + 1) fun _ => h) (solver : Sys K → Nat → K) (hS : Sound solver) (junk : Nat → K)
    (P : Flow K) (hrc : 0 < P.rc) (hdt : 0 < P.dt) (f : EqField K) (hf : Plain f) :
    ∃ u : EVec K, step nrm solver junk mesh P f = some { f with u := u } ∧ u.size = m + 2 ∧ Carried (m + 1) (fun _ => h) P f.u.at' u.at' ∧
      ∀ y, Carried (m + 1) (fun _ => h) P f.u.at' y → ∀ i < m + 2, y i = u.at' i := by
  obtain ⟨d, g, s, e1, e2, e3, e4, e5, e6⟩ := system L P f.u.at'
  have hh := L.pos 0 (by omega)
  have hu : ∀ x y : Nat → K, (∀ i < m + 2, node (m + 1) (fun _ => h) P f.u.at' x i = 0) → (∀ i < m + 2, node (m + 1) (fun _ => h) P f.u.at' y i = 0) → ∀ i < m + 2, x i = y i := by
    intro x y hx hy i hi
    have := kernel m h hh P hrc hdt (fun j => x j - y j) (fun i hi => by rw [← node_sub _ _ P f.u.at', hx i hi, hy i hi, sub_zero]) i hi
    exact sub_eq_zero.1 this
  have hker : ∀ z : Nat → K, (∀ i < s.n, s.row z i = 0) → ∀ i < s.n, z i = 0 := by
    intro z hz
    rw [e4] at hz ⊢
    refine kernel m h hh P hrc hdt z fun i hi => ?_
    have := hz i hi
    rw [FvmHeat.residual_row, e6 z i hi, e6 _ i hi, node_sub] at this
    simpa using this
  obtain ⟨u, h1, h2, h3⟩ := FvmHeat.solve_run solver hS junk s e5 f hf hker
  rw [FvmHeat.solves_residual, e4] at h3
  have h4 : ∀ i < m + 2, node (m + 1) (fun _ => h) P f.u.at' u.at' i = 0 := fun i hi => (e6 _ i hi).symm.trans (h3 i hi)
  refine ⟨u, ?_, h2.trans e4, (carried_iff _ _ _ _ _).2 h4, fun y hy i hi => hu _ _ ((carried_iff _ _ _ _ _).1 hy) h4 i hi⟩
  simp only [step, e1, e2, e3, Option.bind_eq_bind, Option.bind_some]
  exact h1

end FemConvection
end ENigMA
