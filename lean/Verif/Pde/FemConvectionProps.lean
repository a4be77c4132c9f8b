import Verif.Pde.FemConvectionKernel
import Verif.Pde.FdmHeatExamples

/-! # Heat convection along a line with finite elements: C151 -/

set_option linter.unusedSectionVars false
set_option autoImplicit false

namespace ENigMA
open FemConvection
open FdmConvection (Flow)
open FdmHeat (Sound anySolver anySolver_sound)
open FvmHeat (Plain)
variable {K : Type} [Field K] [LinearOrder K] [IsStrictOrderedRing K]

/-- **C151, the mesh.** The lines of the mesher are such rows of beams, evenly divided. -/
theorem C151_mesher {nrm : Vec3 K → K} (hn : IsNorm nrm) (l : GLine K) (hl : l.Ok) (hne : l.startP ≠ l.endP) (n : Nat) (h0 : 0 < n) :
    Line nrm (BasicMesher.generateLine nrm l n).mesh n fun _ => nrm (l.endP - l.startP) / n := by
  obtain ⟨h1, h2, -, h4, h5, -, -, -, h9, h10⟩ := C29_line hn l hl n h0
  refine ⟨h1, h2, h4, h5, fun i hi => (h9 i hi).1, fun i hi => ?_, fun i hi => ?_⟩
  · rw [← h10]; exact (h9 i hi).2
  · exact div_pos (hn.pos (sub_ne_zero.2 hne.symm)) (by exact_mod_cast h0)

/-- **C151, one step, partial.** On an evenly divided line, for every velocity of either sign, every heat capacity and every time step, a step succeeds, with a value for every node; the result satisfies the
weighed equations and is the only one to do so. Missing: on an unevenly divided line there may be no result (`C151_uneven`), and nothing is prescribed where the flow enters (`C151_linear`, `C151_inlet`). -/
theorem C151_step_partial {nrm : Vec3 K → K} {mesh : Mesh K} {n : Nat} {h : K} (hn : 0 < n) (L : Line nrm mesh n fun _ => h) (solver : Sys K → Nat → K) (hS : Sound solver)
    (junk : Nat → K) (P : Flow K) (hrc : 0 < P.rc) (hdt : 0 < P.dt) (f : EqField K) (hf : Plain f) :
    ∃ u : EVec K, step nrm solver junk mesh P f = some { f with u := u } ∧ u.size = n + 1 ∧ Carried n (fun _ => h) P f.u.at' u.at' ∧
      ∀ y, Carried n (fun _ => h) P f.u.at' y → ∀ i ≤ n, y i = u.at' i := by
  obtain ⟨m, rfl⟩ : ∃ m, n = m + 1 := ⟨n - 1, by omega⟩
  obtain ⟨u, h1, h2, h3, h4⟩ := step_run L solver hS junk P hrc hdt f hf
  exact ⟨u, h1, h2, h3, fun y hy i hi => h4 y hy i (by omega)⟩

/-- **C151, any number of steps.** The loop succeeds, and each step satisfies the equations with the step before. -/
theorem C151_steps {nrm : Vec3 K → K} {mesh : Mesh K} {n : Nat} {h : K} (hn : 0 < n) (L : Line nrm mesh n fun _ => h) (solver : Sys K → Nat → K) (hS : Sound solver)
    (junk : Nat → K) (P : Flow K) (hrc : 0 < P.rc) (hdt : 0 < P.dt) (f : EqField K) (hf : Plain f) (k : Nat) :
    ∃ u : EVec K, steps nrm solver junk mesh P k f = some { f with u := u } ∧
      ∃ u' : EVec K, steps nrm solver junk mesh P (k + 1) f = some { f with u := u' } ∧ u'.size = n + 1 ∧ Carried n (fun _ => h) P u.at' u'.at' := by
  induction k with
  | zero =>
    obtain ⟨u, h1, h2, h3, -⟩ := C151_step_partial hn L solver hS junk P hrc hdt f hf
    exact ⟨f.u, rfl, u, by simpa [steps] using h1, h2, h3⟩
  | succ k ih =>
    obtain ⟨u, -, u', h1, h2, -⟩ := ih
    obtain ⟨w, w1, w2, w3, -⟩ := C151_step_partial hn L solver hS junk P hrc hdt { f with u := u' } hf
    refine ⟨u', h1, w, ?_, w2, w3⟩
    rw [steps, h1, Option.bind_some, w1]

/-- **C151, linear profiles.** A profile that is linear along the line is carried exactly: after `k` steps it is the profile shifted by `k` times the way of the flow in a step, at every node, also the one
where the flow enters. A constant (`b = 0`) stays. -/
theorem C151_linear {nrm : Vec3 K → K} {mesh : Mesh K} {n : Nat} {h : K} (hn : 0 < n) (L : Line nrm mesh n fun _ => h) (solver : Sys K → Nat → K) (hS : Sound solver)
    (junk : Nat → K) (P : Flow K) (hrc : 0 < P.rc) (hdt : 0 < P.dt) (f : EqField K) (hf : Plain f) (a b : K) (hlin : ∀ i ≤ n, f.u.at' i = a + b * (i * h)) (k : Nat) :
    ∃ u : EVec K, steps nrm solver junk mesh P k f = some { f with u := u } ∧ ∀ i ≤ n, u.at' i = a + b * (i * h - k * (P.v * P.dt / P.rc)) := by
  induction k with
  | zero => exact ⟨f.u, rfl, fun i hi => by rw [hlin i hi]; simp⟩
  | succ k ih =>
    obtain ⟨u, h1, h2⟩ := ih
    obtain ⟨w, w1, -, -, w4⟩ := C151_step_partial hn L solver hS junk P hrc hdt { f with u := u } hf
    refine ⟨w, by rw [steps, h1, Option.bind_some, w1], fun i hi => ?_⟩
    refine (w4 (fun i => a + b * (i * h - ((k + 1 : Nat) : K) * (P.v * P.dt / P.rc))) (fun φ => ?_) i hi).symm
    refine Finset.sum_eq_zero fun e he => ?_
    have he := Finset.mem_range.1 he
    simp only
    rw [h2 e (by omega), h2 (e + 1) (by omega)]
    unfold product
    push_cast
    field_simp
    ring

/-- **C151, the inlet.** So the temperatures do not stay between those of the start: from a profile that rises along the flow and is nowhere negative, starting at zero, one step makes the first node negative,
although nothing colder than zero is on the line or prescribed. -/
theorem C151_inlet {nrm : Vec3 K → K} {mesh : Mesh K} {n : Nat} {h : K} (hn : 0 < n) (L : Line nrm mesh n fun _ => h) (solver : Sys K → Nat → K) (hS : Sound solver)
    (junk : Nat → K) (P : Flow K) (hrc : 0 < P.rc) (hdt : 0 < P.dt) (hv : 0 < P.v) (f : EqField K) (hf : Plain f) (b : K) (hb : 0 < b) (hlin : ∀ i ≤ n, f.u.at' i = b * (i * h))
    (f' : EqField K) (hs : step nrm solver junk mesh P f = some f') : (∀ i ≤ n, 0 ≤ f.u.at' i) ∧ f'.u.at' 0 < 0 := by
  obtain ⟨u, h1, h2⟩ := C151_linear hn L solver hS junk P hrc hdt f hf 0 b (fun i hi => by rw [hlin i hi, zero_add]) 1
  have : steps nrm solver junk mesh P 1 f = some f' := by simpa [steps] using hs
  rw [this, Option.some.injEq] at h1
  subst h1
  have hh := L.pos 0 hn
  refine ⟨fun i hi => by rw [hlin i hi]; positivity, ?_⟩
  rw [h2 0 (by omega)]
  have : 0 < b * (P.v * P.dt / P.rc) := by positivity
  simp only [Nat.cast_zero, zero_mul, Nat.cast_one, one_mul, zero_sub, zero_add, mul_neg]
  linarith

/-- **C151, balance.** What the line gains in a step is what the flow brings in at the first node less what it takes out at the last, with the temperatures after the step. -/
theorem C151_balance {n : Nat} {h : Nat → K} (P : Flow K) (hdt : 0 < P.dt) (o x : Nat → K) (hc : Carried n h P o x) :
    P.rc * (held n h x - held n h o) = P.dt * (P.v * x 0 - P.v * x n) := by
  have key := hc fun _ => 1
  have e : ∑ e ∈ Finset.range n, (P.rc * product (h e) 1 1 (x e - o e) (x (e + 1) - o (e + 1)) / P.dt + P.v * ((1 + 1) / 2 * (x (e + 1) - x e))) =
      P.rc / P.dt * (held n h x - held n h o) + P.v * ∑ e ∈ Finset.range n, (x (e + 1) - x e) := by
    unfold held
    rw [← Finset.sum_sub_distrib, Finset.mul_sum, Finset.mul_sum, ← Finset.sum_add_distrib]
    refine Finset.sum_congr rfl fun e _ => ?_
    unfold product
    ring
  rw [e, Finset.sum_range_sub] at key
  field_simp at key
  linear_combination key

/-- **C151, no growth of its own.** The integral of the square of the temperature does not grow by more than what the flow brings in at the first node less what it takes out at the last: for every step and velocity,
and on unevenly divided lines too. -/
theorem C151_energy {n : Nat} {h : Nat → K} (hpos : ∀ e < n, 0 < h e) (P : Flow K) (hrc : 0 < P.rc) (hdt : 0 < P.dt) (o x : Nat → K) (hc : Carried n h P o x) :
    ∑ e ∈ Finset.range n, product (h e) (x e) (x (e + 1)) (x e) (x (e + 1)) ≤
      ∑ e ∈ Finset.range n, product (h e) (o e) (o (e + 1)) (o e) (o (e + 1)) + P.v * P.dt / P.rc * (x 0 ^ 2 - x n ^ 2) := by
  have key := hc x
  have e : ∑ e ∈ Finset.range n, (P.rc * product (h e) (x e) (x (e + 1)) (x e - o e) (x (e + 1) - o (e + 1)) / P.dt + P.v * ((x e + x (e + 1)) / 2 * (x (e + 1) - x e))) =
      P.rc / (2 * P.dt) * (∑ e ∈ Finset.range n, product (h e) (x e) (x (e + 1)) (x e) (x (e + 1)) - ∑ e ∈ Finset.range n, product (h e) (o e) (o (e + 1)) (o e) (o (e + 1)) +
        ∑ e ∈ Finset.range n, product (h e) (x e - o e) (x (e + 1) - o (e + 1)) (x e - o e) (x (e + 1) - o (e + 1))) + P.v / 2 * ∑ e ∈ Finset.range n, (x (e + 1) ^ 2 - x e ^ 2) := by
    rw [← Finset.sum_sub_distrib, ← Finset.sum_add_distrib, Finset.mul_sum, Finset.mul_sum, ← Finset.sum_add_distrib]
    refine Finset.sum_congr rfl fun e _ => ?_
    unfold product
    field_simp
    ring
  rw [e, Finset.sum_range_sub fun e => x e ^ 2] at key
  have hnn : 0 ≤ ∑ e ∈ Finset.range n, product (h e) (x e - o e) (x (e + 1) - o (e + 1)) (x e - o e) (x (e + 1) - o (e + 1)) := by
    refine Finset.sum_nonneg fun e he => ?_
    have := hpos e (Finset.mem_range.1 he)
    unfold product
    refine mul_nonneg (by positivity) ?_
    nlinarith [sq_nonneg (x e - o e + (x (e + 1) - o (e + 1))), sq_nonneg (x e - o e), sq_nonneg (x (e + 1) - o (e + 1))]
  have h2 : (P.rc / (2 * P.dt)) * ((∑ e ∈ Finset.range n, product (h e) (x e) (x (e + 1)) (x e) (x (e + 1)) - ∑ e ∈ Finset.range n, product (h e) (o e) (o (e + 1)) (o e) (o (e + 1)) +
        ∑ e ∈ Finset.range n, product (h e) (x e - o e) (x (e + 1) - o (e + 1)) (x e - o e) (x (e + 1) - o (e + 1))) + P.v * P.dt / P.rc * (x n ^ 2 - x 0 ^ 2)) = 0 := by
    rw [← key]
    field_simp
  have h3 := (mul_eq_zero.1 h2).resolve_left (by positivity)
  linarith

/-- **C151, unevenly divided lines.** Two beams, the second three times as long as the first, and a step in which the flow passes the first: the step ends without an error, but what it leaves does not satisfy the
equations, whatever the solver, unless the three values happen to lie on a line; and then there are infinitely many results. -/
theorem C151_uneven {nrm : Vec3 K → K} {mesh : Mesh K} {h : Nat → K} (L : Line nrm mesh 2 h) (h3 : h 1 = 3 * h 0) (solver : Sys K → Nat → K) (junk : Nat → K)
    (P : Flow K) (hrc : 0 < P.rc) (hdt : 0 < P.dt) (hv : P.v * P.dt = P.rc * h 0) (f : EqField K) (hf : Plain f) :
    (3 * f.u.at' 0 + f.u.at' 2 ≠ 4 * f.u.at' 1 → (¬ ∃ x, Carried 2 h P f.u.at' x) ∧ ∃ f', step nrm solver junk mesh P f = some f') ∧
      ∀ x t, Carried 2 h P f.u.at' x → Carried 2 h P f.u.at' fun i => x i + if i = 0 then 4 * t else if i = 1 then t else 0 := by
  have hh := L.pos 0 (by omega)
  have hv' : P.v = P.rc * h 0 / P.dt := by field_simp; exact hv
  refine ⟨fun hne => ⟨?_, ?_⟩, fun x t hx φ => ?_⟩
  · rintro ⟨x, hx⟩
    have := hx fun i => if i = 0 then -6 else if i = 1 then 3 else -2
    rw [Finset.sum_range_succ, Finset.sum_range_one] at this
    simp only [product, h3, hv', if_true, Nat.zero_add, one_ne_zero, if_false, show (1 + 1 : Nat) = 2 from rfl, OfNat.ofNat_ne_zero, OfNat.ofNat_ne_one] at this
    have hk : P.rc * h 0 / (6 * P.dt) * (9 * f.u.at' 0 - 12 * f.u.at' 1 + 3 * f.u.at' 2) = 0 := by
      rw [← this]; field_simp; ring
    have := (mul_eq_zero.1 hk).resolve_left (by positivity)
    exact hne (by linarith)
  · obtain ⟨d, g, s, e1, e2, e3, e4, e5, e6⟩ := system L P f.u.at'
    obtain ⟨u, q1, -⟩ := Equation.solve_plain solver junk s f e5 (FvmHeat.plain_ok hf _)
    refine ⟨{ f with u := u }, ?_⟩
    simp only [step, e1, e2, e3, Option.bind_eq_bind, Option.bind_some, FdmHeat.assignZero]
    exact q1
  · have := hx φ
    rw [Finset.sum_range_succ, Finset.sum_range_one] at this ⊢
    refine Eq.trans ?_ this
    simp only [product, h3, hv', if_true, Nat.zero_add, one_ne_zero, if_false, show (1 + 1 : Nat) = 2 from rfl, OfNat.ofNat_ne_zero, OfNat.ofNat_ne_one]
    field_simp
    ring

/-! ### The hypotheses are met -/

/-- The line from 0 to 1, divided into four. -/
noncomputable def unitLine : Mesh ℝ := (BasicMesher.generateLine realNorm (GLine.mk2 0 ⟨1, 0, 0⟩) (4 : Nat)).mesh

theorem unitLine_ok : Line realNorm unitLine 4 fun _ => 1 / 4 := by
  have h := C151_mesher isNorm_real (GLine.mk2 0 ⟨1, 0, 0⟩) (mk2_ok _ _) (by simp [GLine.mk2, Vec3.ext_iff]) 4 (by norm_num)
  have e : realNorm ((GLine.mk2 (0 : Vec3 ℝ) ⟨1, 0, 0⟩).endP - (GLine.mk2 (0 : Vec3 ℝ) ⟨1, 0, 0⟩).startP) = 1 :=
    isNorm_real.eq_of_sq zero_le_one (by simp [GLine.mk2, Vec3.normSq, Vec3.dot])
  rw [e] at h
  exact_mod_cast h

/-- The profile `T = s` on it, with a step of half a beam. -/
noncomputable def ramp : EqField ℝ := ⟨.fem, .empty, .empty, ⟨5, fun i => i * (1 / 4)⟩⟩

/-- After two steps every value is lower by a quarter: -1/4 at the inlet, 3/4 at the outlet. -/
example : ∃ u : EVec ℝ, steps realNorm anySolver (fun _ => 0) unitLine ⟨1, 1, 1 / 8⟩ 2 ramp = some { ramp with u := u } ∧ u.at' 0 = -1 / 4 ∧ u.at' 4 = 3 / 4 := by
  obtain ⟨u, h1, h2⟩ := C151_linear (by norm_num) unitLine_ok anySolver anySolver_sound (fun _ => 0) ⟨1, 1, 1 / 8⟩ one_pos (by norm_num) ramp rfl 0 1 (fun i _ => by simp [ramp]) 2
  refine ⟨u, h1, ?_, ?_⟩
  · rw [h2 0 (by norm_num)]; norm_num
  · rw [h2 4 (by norm_num)]; norm_num

example (f' : EqField ℝ) (h : step realNorm anySolver (fun _ => 0) unitLine ⟨1, 1, 1 / 8⟩ ramp = some f') :=
  C151_inlet (by norm_num) unitLine_ok anySolver anySolver_sound (fun _ => 0) ⟨1, 1, 1 / 8⟩ one_pos (by norm_num) one_pos ramp rfl 1 one_pos (fun i _ => by simp [ramp]) f' h
example (k : Nat) := C151_steps (by norm_num) unitLine_ok anySolver anySolver_sound (fun _ => 0) ⟨1, -3, 1 / 8⟩ one_pos (by norm_num) ramp rfl k
example : ∃ x, Carried 4 (fun _ => 1 / 4) ⟨1, 1, 1 / 8⟩ ramp.u.at' x ∧ (1 : ℝ) * (held 4 (fun _ => 1 / 4) x - held 4 (fun _ => 1 / 4) ramp.u.at') = 1 / 8 * (1 * x 0 - 1 * x 4) := by
  obtain ⟨u, -, -, h3, -⟩ := C151_step_partial (by norm_num) unitLine_ok anySolver anySolver_sound (fun _ => 0) ⟨1, 1, 1 / 8⟩ one_pos (by norm_num) ramp rfl
  have := C151_energy (fun e he => unitLine_ok.pos e he) _ one_pos (by norm_num) _ _ h3
  exact ⟨_, h3, C151_balance _ (by norm_num) _ _ h3⟩

/-- Two beams of the lengths 1 and 3. -/
def unevenLine : Mesh ℚ := BasicMesher.build [⟨0, 0, 0⟩, ⟨1, 0, 0⟩, ⟨4, 0, 0⟩] [{ elementType := .beam, nodeIds := [0, 1] }, { elementType := .beam, nodeIds := [1, 2] }]

theorem unevenLine_ok : Line (fun v : Vec3 ℚ => |v.x|) unevenLine 2 fun i => if i = 0 then 1 else 3 := by
  obtain ⟨h1, h2, -, h4, h5⟩ := BasicMesher.build_ok (K := ℚ) [⟨0, 0, 0⟩, ⟨1, 0, 0⟩, ⟨4, 0, 0⟩] [{ elementType := .beam, nodeIds := [0, 1] }, { elementType := .beam, nodeIds := [1, 2] }]
    (by decide)
  refine ⟨h1, h2, h4, h5, fun i hi => ?_, fun i hi => ?_, fun i hi => ?_⟩
  · interval_cases i <;> decide
  · interval_cases i
    · exact ⟨⟨0, 0, 0⟩, ⟨1, 0, 0⟩, by decide, by decide, by norm_num⟩
    · exact ⟨⟨1, 0, 0⟩, ⟨4, 0, 0⟩, by decide, by decide, by norm_num⟩
  · interval_cases i <;> norm_num

example (solver : Sys ℚ → Nat → ℚ) : ∃ f', step (fun v : Vec3 ℚ => |v.x|) solver (fun _ => 0) unevenLine ⟨1, 1, 1⟩ ⟨.fem, .empty, .empty, ⟨3, fun i => if i = 0 then 1 else 0⟩⟩ = some f' :=
  ((C151_uneven unevenLine_ok (by norm_num) solver (fun _ => 0) ⟨1, 1, 1⟩ one_pos one_pos (by norm_num) ⟨.fem, .empty, .empty, ⟨3, fun i => if i = 0 then 1 else 0⟩⟩ rfl).1 (by norm_num)).2

end ENigMA
