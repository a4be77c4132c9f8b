import Verif.Pde.FemHeatTimeLimit
import Verif.Pde.FemHeatExamples
import Mathlib.Analysis.SpecialFunctions.Integrals.Basic

/-!
# C145: overshoot, the meaning of the mean, and cases that meet the hypotheses
-/

set_option linter.unusedSectionVars false
set_option autoImplicit false

namespace ENigMA
open Matrix FemOp FemThermalOp Fem FemHeat FdmHeat BasicMesher Mesh
variable {K : Type} [Field K] [LinearOrder K] [IsStrictOrderedRing K]

namespace FemHeat

theorem quadratic (a b c x : ℝ) : ∫ t in (0 : ℝ)..x, (a + b * t + c * t ^ 2) = a * x + b * x ^ 2 / 2 + c * x ^ 3 / 3 := by
  have h : ∀ t ∈ Set.uIcc 0 x, HasDerivAt (fun t : ℝ => a * t + b * t ^ 2 / 2 + c * t ^ 3 / 3) (a + b * t + c * t ^ 2) t := fun t _ => by
    have h1 := (hasDerivAt_id t).const_mul a
    have h2 := ((hasDerivAt_pow 2 t).const_mul b).div_const 2
    have h3 := ((hasDerivAt_pow 3 t).const_mul c).div_const 3
    refine ((h1.add h2).add h3).congr_deriv ?_
    simp
    ring
  rw [intervalIntegral.integral_eq_sub_of_hasDerivAt h ((by fun_prop : Continuous fun t : ℝ => a + b * t + c * t ^ 2).intervalIntegrable _ _)]
  ring

theorem cubic (a b c d : ℝ) : ∫ t in (0 : ℝ)..1, (a + b * t + c * t ^ 2 + d * t ^ 3) = a + b / 2 + c / 3 + d / 4 := by
  have h : ∀ t ∈ Set.uIcc (0 : ℝ) 1, HasDerivAt (fun t : ℝ => a * t + b * t ^ 2 / 2 + c * t ^ 3 / 3 + d * t ^ 4 / 4) (a + b * t + c * t ^ 2 + d * t ^ 3) t := fun t _ => by
    have h1 := (hasDerivAt_id t).const_mul a
    have h2 := ((hasDerivAt_pow 2 t).const_mul b).div_const 2
    have h3 := ((hasDerivAt_pow 3 t).const_mul c).div_const 3
    have h4 := ((hasDerivAt_pow 4 t).const_mul d).div_const 4
    refine (((h1.add h2).add h3).add h4).congr_deriv ?_
    simp
    ring
  rw [intervalIntegral.integral_eq_sub_of_hasDerivAt h ((by fun_prop : Continuous fun t : ℝ => a + b * t + c * t ^ 2 + d * t ^ 3).intervalIntegrable _ _)]
  ring

/-- `meanProduct` is the mean over a beam. -/
theorem meanProduct_beam (u u' v v' : ℝ) : meanProduct [u, u'] [v, v'] = ∫ t in (0 : ℝ)..1, ((1 - t) * u + t * u') * ((1 - t) * v + t * v') := by
  have : ∀ t : ℝ, ((1 - t) * u + t * u') * ((1 - t) * v + t * v') = u * v + (u * (v' - v) + (u' - u) * v) * t + (u' - u) * (v' - v) * t ^ 2 := fun t => by ring
  simp only [this]
  rw [quadratic]
  simp [meanProduct]
  ring

/-- `meanProduct` is the mean over a triangle: twice the integral over the triangle with the corners (0, 0), (1, 0), (0, 1). -/
theorem meanProduct_triangle (u u' u'' v v' v'' : ℝ) : meanProduct [u, u', u''] [v, v', v''] =
    2 * ∫ s in (0 : ℝ)..1, ∫ t in (0 : ℝ)..(1 - s), ((1 - s - t) * u + s * u' + t * u'') * ((1 - s - t) * v + s * v' + t * v'') := by
  have h1 : ∀ s t : ℝ, ((1 - s - t) * u + s * u' + t * u'') * ((1 - s - t) * v + s * v' + t * v'') =
      ((u + s * (u' - u)) * (v + s * (v' - v))) + ((u + s * (u' - u)) * (v'' - v) + (u'' - u) * (v + s * (v' - v))) * t + (u'' - u) * (v'' - v) * t ^ 2 := fun s t => by ring
  simp only [h1, quadratic]
  have h2 : ∀ s : ℝ, (u + s * (u' - u)) * (v + s * (v' - v)) * (1 - s) + ((u + s * (u' - u)) * (v'' - v) + (u'' - u) * (v + s * (v' - v))) * (1 - s) ^ 2 / 2 +
      (u'' - u) * (v'' - v) * (1 - s) ^ 3 / 3 =
      (u * v + (u * (v'' - v) + (u'' - u) * v) / 2 + (u'' - u) * (v'' - v) / 3) +
      (-(u * v) + (u * (v' - v) + (u' - u) * v) + (((u' - u) * (v'' - v) + (u'' - u) * (v' - v)) - 2 * (u * (v'' - v) + (u'' - u) * v)) / 2 - (u'' - u) * (v'' - v)) * s +
      (-(u * (v' - v) + (u' - u) * v) + (u' - u) * (v' - v) + ((u * (v'' - v) + (u'' - u) * v) - 2 * ((u' - u) * (v'' - v) + (u'' - u) * (v' - v))) / 2 + (u'' - u) * (v'' - v)) * s ^ 2 +
      (-((u' - u) * (v' - v)) + ((u' - u) * (v'' - v) + (u'' - u) * (v' - v)) / 2 - (u'' - u) * (v'' - v) / 3) * s ^ 3 := fun s => by ring
  simp only [h2]
  rw [cubic]
  simp [meanProduct]
  ring

/-- A rod of one beam of length one. -/
def shortRod : Mesh K := build [⟨0, 0, 0⟩, ⟨1, 0, 0⟩] [⟨.beam, [0, 1], []⟩]

/-- At temperature one, the right end held at zero from now on. -/
def quenched : EqField K := ⟨.fem, SMap.empty.insert 1 0, .empty, ⟨2, fun _ => 1⟩⟩

theorem unit_norm {nrm : Vec3 K → K} (hn : IsNorm nrm) : nrm ((⟨1, 0, 0⟩ : Vec3 K) - ⟨0, 0, 0⟩) = 1 := by
  rw [show ((⟨1, 0, 0⟩ : Vec3 K) - ⟨0, 0, 0⟩) = ⟨1, 0, 0⟩ by ext <;> simp]
  have h := hn.sq ⟨1, 0, 0⟩
  have h0 := hn.nonneg ⟨1, 0, 0⟩
  have : nrm ⟨1, 0, 0⟩ * nrm ⟨1, 0, 0⟩ = 1 := by rw [h]; simp [Vec3.normSq, Vec3.dot]
  nlinarith

theorem shortRod_good {nrm : Vec3 K → K} (hn : IsNorm nrm) : Good nrm (shortRod : Mesh K) := by
  obtain ⟨h1, h2, -⟩ := build_ok ([⟨0, 0, 0⟩, ⟨1, 0, 0⟩] : List (Vec3 K)) [⟨.beam, [0, 1], []⟩] (by simp)
  refine ⟨h1, h2, fun id e he => ?_, List.Perm.refl _, fun id h => ?_⟩
  · have := built_element he
    simp only [List.mem_cons, List.not_mem_nil, or_false] at this
    subst this
    exact ⟨[⟨0, 0, 0⟩, ⟨1, 0, 0⟩], rfl, .beam _ _ (by rw [unit_norm hn]; exact one_pos)⟩
  · have h' : id ∈ [(0 : Int), 1] := h
    have hc : (shortRod : Mesh K).nodes.count = 2 := rfl
    rw [hc]
    simp only [List.mem_cons, List.not_mem_nil, or_false] at h'
    omega

end FemHeat

/-- **C145, overshoot.** Temperatures do not stay between the initial and the prescribed ones: a rod of one beam at temperature one whose right end is set to zero gets, with `rho = Cp = k = 1`, the
temperature `3 / (2 + 6 dt)` at the left end. With time steps shorter than 1/6 that is more than any initial or prescribed temperature. -/
theorem C145_overshoot {nrm : Vec3 K → K} (hn : IsNorm nrm) (r : K) (solver : Sys K → Nat → K) (hS : Sound solver) (junk junk' : Nat → K) (pf : PdeField K) (hno : NoConditions pf shortRod)
    (dt : K) (hdt : 0 < dt) :
    ∃ f', step nrm r solver junk junk' shortRod pf ⟨1, 1, dt⟩ quenched = some f' ∧ f'.u.at' 0 = 3 / (2 + 6 * dt) ∧ f'.u.at' 1 = 0 ∧ (dt < 1 / 6 → 1 < f'.u.at' 0) := by
  have hpre : ∀ i : Nat, Equation.prescribed (quenched : EqField K) i = if i = 1 then some 0 else none := fun i => by
    simp only [Equation.prescribed, quenched, SMap.find?_insert, SMap.find?_empty]
    norm_cast
  have hok : IndicesOk (quenched : EqField K).uFixed (shortRod : Mesh K).nodes.count := fun i v h => by
    have hc : (shortRod : Mesh K).nodes.count = 2 := rfl
    simp only [quenched, SMap.find?_insert, SMap.find?_empty] at h
    rw [hc]
    split_ifs at h <;> omega
  have g := shortRod_good hn
  obtain ⟨f', h1, h2, -, -, h5⟩ := step_run hn r solver hS junk junk' shortRod g pf hno ⟨1, 1, dt⟩ one_pos hdt zero_le_one quenched rfl hok
  have hH : Holds (shortRod : Mesh K) (quenched : EqField K).u.at' (fun _ => 1) := fun i id _ => rfl
  obtain ⟨φ', hφ', -⟩ := nodal_surj (shortRod : Mesh K) g.wf f'.u.at'
  obtain ⟨m1, w1⟩ := h5 _ φ' hH hφ'
  have z1 : φ' 1 = 0 := m1 1 1 0 rfl (by rw [hpre]; rfl)
  have e0 : f'.u.at' 0 = φ' 0 := (hφ' 0 0 rfl).symm
  have e1 : f'.u.at' 1 = φ' 1 := (hφ' 1 1 rfl).symm
  have hw := w1 (fun x => if x = 0 then 1 else 0) (fun i id hi hp => by
    obtain ⟨rfl, hlt⟩ := built_index hi
    rw [hpre] at hp
    have : i = 1 := by
      by_contra hne
      rw [if_neg hne] at hp
      exact hp rfl
    subst this
    rfl)
  have hmass : ∀ φ ψ : Int → K, mass nrm (shortRod : Mesh K) φ ψ = ((φ 0 + φ 1) * (ψ 0 + ψ 1) + (φ 0 * ψ 0 + φ 1 * ψ 1)) / 6 := fun φ ψ => by
    show List.sum [elementForm (.of (Fem.beamDdt (nrm ((⟨1, 0, 0⟩ : Vec3 K) - ⟨0, 0, 0⟩)) 1 1)) [φ 0, φ 1] [ψ 0, ψ 1]] = _
    rw [elementForm_of, vec2, vec2, unit_norm hn]
    simp [beamDdt, dotProduct, mulVec, Fin.sum_univ_two]
    ring
  have hstiff : ∀ φ ψ : Int → K, stiff nrm r (shortRod : Mesh K) φ ψ = (φ 1 - φ 0) * (ψ 1 - ψ 0) := fun φ ψ => by
    show -List.sum [elementForm (.of (Fem.beamLaplacian 1 (nrm ((⟨1, 0, 0⟩ : Vec3 K) - ⟨0, 0, 0⟩)) 1)) [φ 0, φ 1] [ψ 0, ψ 1]] = _
    rw [elementForm_of, vec2, vec2, unit_norm hn]
    simp [beamLaplacian, dotProduct, mulVec, Fin.sum_univ_two]
    ring
  rw [hmass, hmass, hstiff, z1] at hw
  have hd : (0 : K) < 2 + 6 * dt := by linarith
  have hval : f'.u.at' 0 = 3 / (2 + 6 * dt) := by
    rw [e0, eq_div_iff hd.ne']
    have hdt0 := hdt.ne'
    simp at hw
    field_simp at hw
    linarith
  refine ⟨f', h1, hval, by rw [e1, z1], fun h => ?_⟩
  rw [hval, lt_div_iff₀ hd]
  linarith

/-- The overshoot in numbers: with `dt = 1/12` the left end goes from 1 to 6/5. -/
example (r : ℝ) : ∃ f', step realNorm r anySolver (fun _ => 0) (fun _ => 0) shortRod plain ⟨1, 1, 1 / 12⟩ quenched = some f' ∧ f'.u.at' 0 = 6 / 5 := by
  obtain ⟨f', h1, h2, -⟩ := C145_overshoot isNorm_real r anySolver anySolver_sound (fun _ => 0) (fun _ => 0) plain (plain_ok _) (1 / 12) (by norm_num)
  exact ⟨f', h1, by rw [h2]; norm_num⟩

namespace FemHeat

theorem fan_good : Good realNorm fan := by
  obtain ⟨h1, h2, h3, -⟩ := fan_ok
  refine ⟨h1, h2, h3, List.Perm.refl _, fun id h => ?_⟩
  have h' : id ∈ [(0 : Int), 1, 2, 3, 4] := h
  have hc : fan.nodes.count = 5 := rfl
  rw [hc]
  simp only [List.mem_cons, List.not_mem_nil, or_false] at h'
  omega

theorem fan_covered : Covered fan := by
  intro x hx
  have h' : x ∈ [(0 : Int), 1, 2, 3, 4] := hx
  simp only [List.mem_cons, List.not_mem_nil, or_false] at h'
  rcases h' with rfl | rfl | rfl | rfl | rfl
  · exact ⟨0, _, rfl, by simp⟩
  · exact ⟨0, _, rfl, by simp⟩
  · exact ⟨1, _, rfl, by simp⟩
  · exact ⟨2, _, rfl, by simp⟩
  · exact ⟨0, _, rfl, by simp⟩

end FemHeat

/-- The node inside the fan: whatever its initial temperature, it tends to 9, the value of the steady result. -/
example (r : ℝ) (u : Nat → ℝ) : ∃ q C : ℝ, 0 ≤ q ∧ q < 1 ∧ ∀ n, ∃ f', steps realNorm r anySolver (fun _ => 0) (fun _ => 0) fan plain ⟨1, 1, 1 / 10⟩ n { fanCorners with u := ⟨5, u⟩ } = some f' ∧
    (f'.u.at' 4 - 9) * (f'.u.at' 4 - 9) ≤ C * q ^ n := by
  obtain ⟨h1, h2, h3, h4⟩ := fan_ok
  obtain ⟨h5, h6⟩ := fanCorners_ok
  obtain ⟨q, q0, q1, hq⟩ := C145_limit isNorm_real r anySolver anySolver_sound (fun _ => 0) (fun _ => 0) fan fan_good fan_covered plain (plain_ok _) ⟨1, 1, 1 / 10⟩ one_pos (by norm_num) one_pos
    fanCorners h5 h6
  obtain ⟨fs, s1, s2⟩ := hq { fanCorners with u := ⟨5, u⟩ } rfl rfl
  obtain ⟨C, hC⟩ := s2 4 (by decide)
  refine ⟨q, C, q0, q1, fun n => ?_⟩
  obtain ⟨f', e1, e2⟩ := hC n
  refine ⟨f', e1, ?_⟩
  obtain ⟨χ, hχ, -⟩ := nodal_surj fan h1 fs.u.at'
  obtain ⟨φ, hφ, -⟩ := nodal_surj fan h1 f'.u.at'
  have := e2 χ φ hχ hφ
  rw [hφ 4 4 rfl, hχ 4 4 rfl] at this
  have hval : fs.u.at' 4 = 9 := by
    have hpre : ∀ i : Nat, Equation.prescribed { fanCorners with u := ⟨5, u⟩ } i = Equation.prescribed fanCorners i := fun i => rfl
    obtain ⟨f'', a1, -, a2⟩ := C144_patch_triangles isNorm_real r anySolver anySolver_sound (fun _ => 0) (fun _ => 0) fan h1 h2 h3 ⟨0, 0, 1⟩ h4 plain (plain_ok _) { fanCorners with u := ⟨5, u⟩ } rfl h5
      (fun id hid => by
        have a0 : ∀ i : Nat, i < 4 → Anchored fan { fanCorners with u := ⟨5, u⟩ } i := fun i hi => by
          interval_cases i
          · exact .fixed 0 0 1 rfl (by rw [hpre, fanCorners_prescribed]; simp)
          · exact .fixed 1 1 9 rfl (by rw [hpre, fanCorners_prescribed]; simp)
          · exact .fixed 2 2 21 rfl (by rw [hpre, fanCorners_prescribed]; simp)
          · exact .fixed 3 3 13 rfl (by rw [hpre, fanCorners_prescribed]; simp)
        have h' : id ∈ [(0 : Int), 1, 2, 3, 4] := hid
        simp only [List.mem_cons, List.not_mem_nil, or_false] at h'
        rcases h' with rfl | rfl | rfl | rfl | rfl
        · exact a0 0 (by omega)
        · exact a0 1 (by omega)
        · exact a0 2 (by omega)
        · exact a0 3 (by omega)
        · exact .element 0 _ 0 4 rfl (by simp) (by simp) (a0 0 (by omega))) 1 ⟨2, 3, 0⟩
      (fun i id p v hi hp hv => by
        obtain ⟨rfl, -⟩ := built_index hi
        rw [hpre, fanCorners_prescribed] at hv
        split_ifs at hv with h h h h <;> (subst h; cases hv; cases hp; norm_num [Vec3.dot]))
      (fun i id hi hp => by
        obtain ⟨rfl, hlt⟩ := built_index hi
        rw [hpre, fanCorners_prescribed] at hp
        split_ifs at hp with h h' h'' h'''
        have : i = 4 := by simp at hlt; omega
        subst this
        show List.Perm [(0 : Int), 1, 2, 3] [1, 2, 3, 0]
        decide)
    rw [s1, Option.some.injEq] at a1
    subst a1
    rw [a2 4 4 ⟨1, 2, 0⟩ rfl rfl]; norm_num [Vec3.dot]
  rw [hval] at this
  exact this

/-- The other theorems on the fan. -/
example (r : ℝ) (n : Nat) := C145_forgets isNorm_real r anySolver anySolver_sound (fun _ => 0) (fun _ => 0) fan fan_good plain (plain_ok _) ⟨1, 1, 1 / 10⟩ one_pos (by norm_num) zero_le_one
  fanCorners { fanCorners with u := ⟨5, fun i => i⟩ } rfl rfl rfl fanCorners_ok.1 n

example (r : ℝ) (n : Nat) := C145_energy isNorm_real r anySolver anySolver_sound (fun _ => 0) (fun _ => 0) fan fan_good plain (plain_ok _) ⟨1, 1, 1 / 10⟩ one_pos (by norm_num) one_pos
  fanCorners rfl fanCorners_ok.1 n

example (r : ℝ) := C145_step isNorm_real r anySolver anySolver_sound (fun _ => 0) (fun _ => 0) fan fan_good plain (plain_ok _) ⟨1, 1, 1 / 10⟩ one_pos (by norm_num) zero_le_one
  fanCorners rfl fanCorners_ok.1

example (r : ℝ) (n : Nat) := C145_insulated isNorm_real r anySolver anySolver_sound (fun _ => 0) (fun _ => 0) fan fan_good plain (plain_ok _) ⟨1, 1, 1 / 10⟩ one_pos (by norm_num) zero_le_one
  ⟨.fem, .empty, .empty, ⟨5, fun i => i⟩⟩ rfl (fun i => SMap.find?_empty i) n

end ENigMA
