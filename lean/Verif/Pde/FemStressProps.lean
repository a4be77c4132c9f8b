import Verif.Pde.FemStressLemmas
import Verif.Pde.FemHeatPatchFlat
import Verif.Pde.FdmHeatExamples

/-!
# C153: stresses of plates with finite elements

`FemStress.run` is the program of example 5.6: `laplacian(u) = 0`, forces, eliminated supports, solve. `IsNorm nrm` says that `nrm` is the length of vectors, `Sound solver` that the linear solver solves every system that has
a solution.
-/

set_option linter.unusedSectionVars false
set_option autoImplicit false

namespace ENigMA
open FemOp FemStructuralOp FemStress
open FdmHeat (Sound anySolver anySolver_sound)
variable {K : Type} [Field K] [LinearOrder K] [IsStrictOrderedRing K]

namespace FemStress

theorem held_balanced {m : Mesh K} {f : EqField K} (h : Held m f) : Balanced m f := by
  intro ψ h1 h2
  refine Finset.sum_eq_zero fun i hi => ?_
  obtain ⟨x, hx⟩ := idAt_of_lt m i (Finset.mem_range.1 hi)
  have hm : x ∈ m.nodes.ids := List.mem_of_getElem? hx
  rw [hx, Option.map_some, Option.getD_some, h ψ h1 h2 x hm 0 (by norm_num), h ψ h1 h2 x hm 1 (by norm_num)]
  ring

theorem admissible_sub {m : Mesh K} {f : EqField K} {φ ψ : Int → Nat → K} (h1 : Meets m f φ) (h2 : Meets m f ψ) : Admissible m f fun id k => φ id k - ψ id k :=
  fun id k v h => by
    show φ id k - ψ id k = 0
    rw [h1 id k v h, h2 id k v h, sub_self]

theorem difference {nrm : Vec3 K → K} (hn : IsNorm nrm) {mat : Material K} {made : Int → Made K} {th : Int → K} {m : Mesh K} (g : Plate mat made th m) {f : EqField K} {φ ψ : Int → Nat → K}
    (h1 : Meets m f φ) (h2 : Meets m f ψ) (h3 : Equilibrium mat th m f φ) (h4 : Equilibrium mat th m f ψ) : Unstrained m fun id k => φ id k - ψ id k := by
  obtain ⟨-, -, -, -, -, -, -, e7⟩ := stiffness hn g
  rw [← (e7 _).2]
  have ha := admissible_sub h1 h2
  have := elastic_comb hn g 1 (-1) φ ψ (fun id k => φ id k - ψ id k)
  rw [comb_sub, h3 _ ha, h4 _ ha] at this
  rw [this]
  ring

theorem rigid_unstrained (m : Mesh K) (a b ω : K) : Unstrained m fun id k => if k = 0 then a - ω * (place m id).y else b + ω * (place m id).x := by
  intro id e x y z _ _ _ hD
  simp only [strain, gradX, gradY, if_pos, one_ne_zero, if_false, Prod.mk.injEq]
  refine ⟨?_, ?_, ?_⟩
  · rw [div_eq_zero_iff]; left; ring
  · rw [div_eq_zero_iff]; left; ring
  · rw [← add_div, div_eq_zero_iff]; left; ring

end FemStress

/-- **C153, the result.** If the forces do no work on the motions without strain that the supports allow, the program ends with displacements that are as prescribed and in equilibrium: on every displacement that
keeps the supports, the stresses do the same work as the forces. If the supports allow no motion without strain, no other displacements are. -/
theorem C153_result {nrm : Vec3 K → K} (hn : IsNorm nrm) {mat : Material K} {made : Int → Made K} {th : Int → K} {m : Mesh K} (g : Plate mat made th m) (f : EqField K) (hf : Given m f)
    (solver : Sys K → Nat → K) (hS : Sound solver) (junk junk' : Nat → K) :
    (Balanced m f → ∃ f', run nrm solver junk junk' mat made m f = some f' ∧ f'.u.size = m.nodes.count * 2 ∧ ∀ φ, Holds m f'.u.at' φ → Meets m f φ ∧ Equilibrium mat th m f φ) ∧
    (Held m f → ∃ f', run nrm solver junk junk' mat made m f = some f' ∧ f'.u.size = m.nodes.count * 2 ∧ ∀ φ, Meets m f φ ∧ Equilibrium mat th m f φ ↔ Holds m f'.u.at' φ) := by
  refine ⟨fun hb => run_spec hn g f hf hb solver hS junk junk', fun hh => ?_⟩
  obtain ⟨f', h1, h2, h3⟩ := run_spec hn g f hf (held_balanced hh) solver hS junk junk'
  refine ⟨f', h1, h2, fun ψ => ⟨fun ⟨h4, h5⟩ => ?_, h3 ψ⟩⟩
  obtain ⟨φ, hφ⟩ := holds_exists m g.wf f'.u.at'
  obtain ⟨h6, h7⟩ := h3 φ hφ
  intro i id k hi hk
  have := hh _ (difference hn g h4 h6 h5 h7) (admissible_sub h4 h6) id (List.mem_of_getElem? hi) k hk
  rw [← hφ i id k hi hk]
  exact sub_eq_zero.1 this

/-- **C153, fails.** If the forces do work on a motion without strain that the supports allow, nothing is in equilibrium; the program still ends, with a result, for every solver. -/
theorem C153_unbalanced {nrm : Vec3 K → K} (hn : IsNorm nrm) {mat : Material K} {made : Int → Made K} {th : Int → K} {m : Mesh K} (g : Plate mat made th m) (f : EqField K) (hf : Given m f)
    (hb : ¬Balanced m f) (solver : Sys K → Nat → K) (junk junk' : Nat → K) :
    (¬∃ φ, Equilibrium mat th m f φ) ∧ ∃ f', run nrm solver junk junk' mat made m f = some f' ∧ f'.u.size = m.nodes.count * 2 := by
  constructor
  · rintro ⟨φ, hφ⟩
    exact hb fun ψ h1 h2 => by rw [← hφ ψ h2]; exact elastic_unstrained φ ψ h1
  · obtain ⟨s, h1, h2, h3, -, -, -⟩ := loaded hn g f hf solver junk junk'
    obtain ⟨e', f', a1, a2, a3, -⟩ := C19_solve solver junk junk' s f hf.fem (by rw [h3]; decide) (by rw [h2]; exact hf.fixed)
    refine ⟨f', ?_, a3.trans h2⟩
    rw [h1, a1]
    exact a2

/-- **C153, least energy.** Of all displacements that are as prescribed, the result has the least potential energy: half the work of the stresses on their strains, less the work of the forces. Another with the same
energy differs from it by a motion without strain. -/
theorem C153_least_energy {nrm : Vec3 K → K} (hn : IsNorm nrm) {mat : Material K} {made : Int → Made K} {th : Int → K} {m : Mesh K} (g : Plate mat made th m) (f : EqField K) (hf : Given m f)
    (hb : Balanced m f) (solver : Sys K → Nat → K) (hS : Sound solver) (junk junk' : Nat → K) :
    ∃ f', run nrm solver junk junk' mat made m f = some f' ∧ ∀ φ, Holds m f'.u.at' φ → ∀ ψ, Meets m f ψ →
      elastic mat th m φ φ / 2 - work m f φ ≤ elastic mat th m ψ ψ / 2 - work m f ψ ∧
      (elastic mat th m φ φ / 2 - work m f φ = elastic mat th m ψ ψ / 2 - work m f ψ ↔ Unstrained m fun id k => ψ id k - φ id k) := by
  obtain ⟨f', h1, h2, h3⟩ := run_spec hn g f hf hb solver hS junk junk'
  refine ⟨f', h1, fun φ hφ ψ hψ => ?_⟩
  obtain ⟨h4, h5⟩ := h3 φ hφ
  obtain ⟨-, -, -, -, -, -, -, e7⟩ := stiffness hn g
  have hd := h5 _ (admissible_sub hψ h4)
  have e1 := elastic_comb hn g 1 (-1) ψ φ (fun id k => ψ id k - φ id k)
  have e2 := elastic_comb hn g 1 (-1) ψ φ ψ
  have e3 := elastic_comb hn g 1 (-1) ψ φ φ
  have e4 := work_comb m f 1 (-1) ψ φ
  rw [comb_sub] at e1 e2 e3 e4
  rw [elastic_symm hn g _ ψ] at e2
  rw [elastic_symm hn g _ φ] at e3
  have s1 := elastic_symm hn g ψ φ
  obtain ⟨p1, p2⟩ := e7 fun id k => ψ id k - φ id k
  have key : elastic mat th m ψ ψ / 2 - work m f ψ - (elastic mat th m φ φ / 2 - work m f φ) = elastic mat th m (fun id k => ψ id k - φ id k) (fun id k => ψ id k - φ id k) / 2 := by
    rw [e1, e2, e3, s1]
    rw [e3, e4, s1] at hd
    linear_combination hd
  refine ⟨by linarith, ?_⟩
  rw [← p2]
  constructor <;> intro h <;> linarith

/-- **C153, work and energy.** If all prescribed displacements are zero, the forces do the same work on the result as its stresses: the work is not negative, and zero only for a result without strain. -/
theorem C153_clapeyron {nrm : Vec3 K → K} (hn : IsNorm nrm) {mat : Material K} {made : Int → Made K} {th : Int → K} {m : Mesh K} (g : Plate mat made th m) (f : EqField K) (hf : Given m f)
    (hb : Balanced m f) (hz : ∀ id k v, Fixed m f id k v → v = 0) (solver : Sys K → Nat → K) (hS : Sound solver) (junk junk' : Nat → K) :
    ∃ f', run nrm solver junk junk' mat made m f = some f' ∧ ∀ φ, Holds m f'.u.at' φ →
      work m f φ = elastic mat th m φ φ ∧ 0 ≤ work m f φ ∧ (work m f φ = 0 ↔ Unstrained m φ) := by
  obtain ⟨f', h1, h2, h3⟩ := run_spec hn g f hf hb solver hS junk junk'
  refine ⟨f', h1, fun φ hφ => ?_⟩
  obtain ⟨h4, h5⟩ := h3 φ hφ
  obtain ⟨-, -, -, -, -, -, -, e7⟩ := stiffness hn g
  have := h5 φ fun id k v h => by rw [h4 id k v h]; exact hz id k v h
  rw [← this]
  exact ⟨rfl, e7 φ⟩

/-- **C153, reciprocity.** With the same supports, held still, the forces of one load case do the same work on the result of another as the forces of the other on the result of the one. -/
theorem C153_reciprocity {nrm : Vec3 K → K} (hn : IsNorm nrm) {mat : Material K} {made : Int → Made K} {th : Int → K} {m : Mesh K} (g : Plate mat made th m) (f f₂ : EqField K) (hf : Given m f)
    (hf₂ : Given m f₂) (hb : Balanced m f) (hb₂ : Balanced m f₂) (hz : ∀ id k v, Fixed m f id k v → v = 0) (hsame : ∀ id k v, Fixed m f id k v ↔ Fixed m f₂ id k v)
    (solver : Sys K → Nat → K) (hS : Sound solver) (junk junk' : Nat → K) :
    ∃ f' f₂', run nrm solver junk junk' mat made m f = some f' ∧ run nrm solver junk junk' mat made m f₂ = some f₂' ∧ ∀ φ φ₂, Holds m f'.u.at' φ → Holds m f₂'.u.at' φ₂ →
      work m f φ₂ = work m f₂ φ := by
  obtain ⟨f', h1, h2, h3⟩ := run_spec hn g f hf hb solver hS junk junk'
  obtain ⟨f₂', k1, k2, k3⟩ := run_spec hn g f₂ hf₂ hb₂ solver hS junk junk'
  refine ⟨f', f₂', h1, k1, fun φ φ₂ hφ hφ₂ => ?_⟩
  obtain ⟨h4, h5⟩ := h3 φ hφ
  obtain ⟨k4, k5⟩ := k3 φ₂ hφ₂
  rw [← h5 φ₂ fun id k v h => by rw [k4 id k v ((hsame id k v).1 h)]; exact hz id k v h,
    ← k5 φ fun id k v h => by rw [h4 id k v ((hsame id k v).2 h)]; exact hz id k v ((hsame id k v).2 h)]
  exact elastic_symm hn g φ φ₂

/-- **C153, load cases add up.** If the forces and the prescribed displacements of a third load case are `a` times those of a first and `b` times those of a second, its result is `a` times the first result and `b` times the
second. -/
theorem C153_superposition {nrm : Vec3 K → K} (hn : IsNorm nrm) {mat : Material K} {made : Int → Made K} {th : Int → K} {m : Mesh K} (g : Plate mat made th m) (a b : K) (f₁ f₂ f₃ : EqField K)
    (hf₁ : Given m f₁) (hf₂ : Given m f₂) (hf₃ : Given m f₃) (hh : Held m f₃)
    (hfix : ∀ id k v, Fixed m f₃ id k v → ∃ v₁ v₂, Fixed m f₁ id k v₁ ∧ Fixed m f₂ id k v₂ ∧ v = a * v₁ + b * v₂)
    (hfix₁ : ∀ id k v, Fixed m f₁ id k v → ∃ v', Fixed m f₃ id k v') (hfix₂ : ∀ id k v, Fixed m f₂ id k v → ∃ v', Fixed m f₃ id k v')
    (hload : ∀ i < m.nodes.count, ∀ k < 2, force f₃ i k = a * force f₁ i k + b * force f₂ i k) (solver : Sys K → Nat → K) (hS : Sound solver) (junk junk' : Nat → K) :
    ∃ f₁' f₂' f₃', run nrm solver junk junk' mat made m f₁ = some f₁' ∧ run nrm solver junk junk' mat made m f₂ = some f₂' ∧ run nrm solver junk junk' mat made m f₃ = some f₃' ∧
      ∀ i < m.nodes.count * 2, f₃'.u.at' i = a * f₁'.u.at' i + b * f₂'.u.at' i := by
  have hh₁ : Held m f₁ := fun ψ h1 h2 => hh ψ h1 fun id k v h => by obtain ⟨v₁, -, h3, -⟩ := hfix id k v h; exact h2 id k v₁ h3
  have hh₂ : Held m f₂ := fun ψ h1 h2 => hh ψ h1 fun id k v h => by obtain ⟨-, v₂, -, h3, -⟩ := hfix id k v h; exact h2 id k v₂ h3
  obtain ⟨f₁', h1, h2, h3⟩ := (C153_result hn g f₁ hf₁ solver hS junk junk').2 hh₁
  obtain ⟨f₂', k1, k2, k3⟩ := (C153_result hn g f₂ hf₂ solver hS junk junk').2 hh₂
  obtain ⟨f₃', l1, l2, l3⟩ := (C153_result hn g f₃ hf₃ solver hS junk junk').2 hh
  refine ⟨f₁', f₂', f₃', h1, k1, l1, fun i hi => ?_⟩
  obtain ⟨φ₁, hφ₁⟩ := holds_exists m g.wf f₁'.u.at'
  obtain ⟨φ₂, hφ₂⟩ := holds_exists m g.wf f₂'.u.at'
  obtain ⟨h4, h5⟩ := (h3 φ₁).2 hφ₁
  obtain ⟨k4, k5⟩ := (k3 φ₂).2 hφ₂
  have hw : ∀ ψ, work m f₃ ψ = a * work m f₁ ψ + b * work m f₂ ψ := fun ψ => by
    simp only [work, Finset.mul_sum, ← Finset.sum_add_distrib]
    refine Finset.sum_congr rfl fun j hj => ?_
    rw [hload j (Finset.mem_range.1 hj) 0 (by norm_num), hload j (Finset.mem_range.1 hj) 1 (by norm_num)]
    cases m.nodes.idAt? j <;> simp
    ring
  have := (l3 fun id k => a * φ₁ id k + b * φ₂ id k).1 ⟨fun id k v h => by
    obtain ⟨v₁, v₂, e1, e2, rfl⟩ := hfix id k v h
    show a * φ₁ id k + b * φ₂ id k = _
    rw [h4 id k v₁ e1, k4 id k v₂ e2], fun ψ hψ => by
    rw [elastic_comb hn g, hw, h5 ψ fun id k v h => by obtain ⟨v', h'⟩ := hfix₁ id k v h; exact hψ id k v' h',
      k5 ψ fun id k v h => by obtain ⟨v', h'⟩ := hfix₂ id k v h; exact hψ id k v' h']⟩
  obtain ⟨x, hx⟩ := row_of_lt m 2 i hi
  have hr : i % 2 < 2 := Nat.mod_lt _ (by norm_num)
  have e := this (i / 2) x (i % 2) hx hr
  simp only [hφ₁ (i / 2) x (i % 2) hx hr, hφ₂ (i / 2) x (i % 2) hx hr, show i / 2 * 2 + i % 2 = i by omega] at e
  exact e.symm

/-- **C153, rigid motions.** If the supports are moved by a rigid motion of the plane and there are no forces, the whole plate makes that motion. -/
theorem C153_rigid {nrm : Vec3 K → K} (hn : IsNorm nrm) {mat : Material K} {made : Int → Made K} {th : Int → K} {m : Mesh K} (g : Plate mat made th m) (f : EqField K) (hf : Given m f)
    (hh : Held m f) (hno : ∀ i < m.nodes.count, ∀ k < 2, force f i k = 0) (a b ω : K)
    (hfix : ∀ id k v, Fixed m f id k v → v = if k = 0 then a - ω * (place m id).y else b + ω * (place m id).x) (solver : Sys K → Nat → K) (hS : Sound solver) (junk junk' : Nat → K) :
    ∃ f', run nrm solver junk junk' mat made m f = some f' ∧ ∀ i id, m.nodes.idAt? i = some id →
      f'.u.at' (i * 2) = a - ω * (place m id).y ∧ f'.u.at' (i * 2 + 1) = b + ω * (place m id).x := by
  obtain ⟨f', h1, h2, h3⟩ := (C153_result hn g f hf solver hS junk junk').2 hh
  refine ⟨f', h1, fun i id hi => ?_⟩
  have := (h3 _).1 ⟨fun id k v h => (hfix id k v h).symm, fun ψ _ => by
    rw [elastic_symm hn g, elastic_unstrained _ _ (rigid_unstrained m a b ω)]
    refine (Finset.sum_eq_zero fun j hj => ?_).symm
    rw [hno j (Finset.mem_range.1 hj) 0 (by norm_num), hno j (Finset.mem_range.1 hj) 1 (by norm_num)]
    cases m.nodes.idAt? j <;> simp⟩
  exact ⟨(this i id 0 hi (by norm_num)).symm, (this i id 1 hi (by norm_num)).symm⟩

/-! ### Cases that meet the hypotheses -/

namespace FemStress

/-- A material with modulus 2 and Poisson coefficient 1/2. -/
def rubber : Material K := ((Material.empty).addProperty 4 2).addProperty 5 (1 / 2)

/-- Node 5 of `stressPlate` is held, node 9 may slide along the ground, a force `c` pushes node 7 sideways. -/
def pushed (c : K) : EqField K := ⟨.fem, ((SMap.empty.insert 0 0).insert 1 0).insert 3 0, SMap.empty.insert 4 c, ⟨6, fun _ => 0⟩⟩

/-- The same, without supports. -/
def loose : EqField K := ⟨.fem, .empty, SMap.empty.insert 4 3, ⟨6, fun _ => 0⟩⟩

/-- Node 9 is moved up, and nothing is loaded. -/
def moved : EqField K := ⟨.fem, ((SMap.empty.insert 0 0).insert 1 0).insert 3 2, .empty, ⟨6, fun _ => 0⟩⟩

theorem plate_ok : Plate (rubber : Material ℝ) (fun _ => .plain) (fun _ => 1) stressPlate := by
  have hm : modulus (rubber : Material ℝ) = 2 := by
    simp [modulus, rubber, Material.addProperty, SMap.find?_insert]
  have hp : poisson (rubber : Material ℝ) = 1 / 2 := by
    simp [poisson, rubber, Material.addProperty, SMap.find?_insert]
  refine ⟨stressPlate_ok.1, stressPlate_ok.2, ?_, ?_, by rw [hm]; norm_num, by rw [hp]; norm_num, fun _ => one_pos⟩
  · intro id p h
    simp only [stressPlate, Cont.get?_add] at h
    split_ifs at h <;> simp [Cont.empty, Cont.get?] at h <;> rw [← h]
  · intro id e h
    simp only [stressPlate, Cont.get?_add] at h
    split_ifs at h
    · simp only [Option.some.injEq] at h
      subst h
      exact ⟨by simp, fun _ => rfl⟩
    · simp [Cont.empty, Cont.get?] at h

theorem places : place (stressPlate : Mesh K) 5 = ⟨0, 0, 0⟩ ∧ place (stressPlate : Mesh K) 9 = ⟨2, 0, 0⟩ ∧ place (stressPlate : Mesh K) 7 = ⟨0, 1, 0⟩ := by
  refine ⟨?_, ?_, ?_⟩ <;> simp [place, stressPlate, Cont.get?_add]

theorem given_of (a b : SMap Int K) (ha : ∀ i v, a.find? i = some v → i = 0 ∨ i = 1 ∨ i = 3) (hb : ∀ i v, b.find? i = some v → i = 4) : Given (stressPlate : Mesh K) ⟨.fem, a, b, ⟨6, fun _ => 0⟩⟩ :=
  ⟨rfl, fun i v h => by rcases ha i v h with rfl | rfl | rfl <;> (show _ ∧ _ < ((6 : Nat) : Int); decide), fun i v h => by rw [hb i v h]; show _ ∧ _ < ((6 : Nat) : Int); decide⟩

theorem pushed_given (c : K) : Given (stressPlate : Mesh K) (pushed c) :=
  given_of _ _ (fun i v h => by simp only [SMap.find?_insert, SMap.find?_empty] at h; split_ifs at h <;> simp_all) fun i v h => by simp only [SMap.find?_insert, SMap.find?_empty] at h; split_ifs at h; assumption

theorem loose_given : Given (stressPlate : Mesh K) loose :=
  given_of _ _ (fun i v h => by simp at h) fun i v h => by simp only [SMap.find?_insert, SMap.find?_empty] at h; split_ifs at h; assumption

theorem moved_given : Given (stressPlate : Mesh K) moved :=
  given_of _ _ (fun i v h => by simp only [SMap.find?_insert, SMap.find?_empty] at h; split_ifs at h <;> simp_all) fun i v h => by simp at h

theorem held_of (f : EqField K) (h0 : ∃ v, Fixed (stressPlate : Mesh K) f 5 0 v) (h1 : ∃ v, Fixed (stressPlate : Mesh K) f 5 1 v) (h2 : ∃ v, Fixed (stressPlate : Mesh K) f 9 1 v) :
    Held (stressPlate : Mesh K) f := by
  intro ψ hu ha
  obtain ⟨v0, h0⟩ := h0
  obtain ⟨v1, h1⟩ := h1
  obtain ⟨v2, h2⟩ := h2
  obtain ⟨p5, p9, p7⟩ := places (K := K)
  have h := hu 3 ⟨.triangle, [5, 9, 7], []⟩ 5 9 7 rfl rfl rfl (by rw [p5, p9, p7]; norm_num [area2])
  rw [p5, p9, p7] at h
  simp only [strain, gradX, gradY, area2, Prod.mk.injEq, ha 5 0 v0 h0, ha 5 1 v1 h1, ha 9 1 v2 h2] at h
  norm_num at h
  obtain ⟨e1, e2, e3⟩ := h
  intro id hid k hk
  have hid : id ∈ [(5 : Int), 9, 7] := hid
  simp only [List.mem_cons, List.not_mem_nil, or_false] at hid
  have hk : k = 0 ∨ k = 1 := by omega
  rcases hid with rfl | rfl | rfl <;> rcases hk with rfl | rfl
  · exact ha 5 0 v0 h0
  · exact ha 5 1 v1 h1
  · exact e1
  · exact ha 9 1 v2 h2
  · exact e3
  · exact e2

theorem pushed_held (c : K) : Held (stressPlate : Mesh K) (pushed c) :=
  held_of _ ⟨0, 0, rfl, by norm_num, by simp [pushed, SMap.find?_insert]⟩ ⟨0, 0, rfl, by norm_num, by simp [pushed, SMap.find?_insert]⟩ ⟨0, 1, rfl, by norm_num, by simp [pushed, SMap.find?_insert]⟩

theorem moved_held : Held (stressPlate : Mesh K) moved :=
  held_of _ ⟨0, 0, rfl, by norm_num, by simp [moved, SMap.find?_insert]⟩ ⟨0, 0, rfl, by norm_num, by simp [moved, SMap.find?_insert]⟩ ⟨2, 1, rfl, by norm_num, by simp [moved, SMap.find?_insert]⟩

theorem pushed_zero (c : K) (id : Int) (k : Nat) (v : K) (h : Fixed (stressPlate : Mesh K) (pushed c) id k v) : v = 0 := by
  obtain ⟨i, -, -, h⟩ := h
  simp only [pushed, SMap.find?_insert, SMap.find?_empty] at h
  split_ifs at h <;> simp_all

/-- The force does work on a motion of the unsupported plate. -/
theorem loose_unbalanced : ¬Balanced (stressPlate : Mesh K) loose := by
  intro h
  have := h _ (rigid_unstrained stressPlate 1 0 0) fun id k v ⟨i, _, _, hv⟩ => by simp [loose] at hv
  simp only [work, show (stressPlate : Mesh K).nodes.count = 3 from rfl, Finset.sum_range_succ, Finset.sum_range_zero,
    show (stressPlate : Mesh K).nodes.idAt? 0 = some 5 from rfl, show (stressPlate : Mesh K).nodes.idAt? 1 = some 9 from rfl, show (stressPlate : Mesh K).nodes.idAt? 2 = some 7 from rfl,
    force, loose, SMap.find?_insert, SMap.find?_empty] at this
  norm_num at this

end FemStress

noncomputable example := (C153_result isNorm_real plate_ok (pushed 3) (pushed_given 3) anySolver anySolver_sound (fun _ => 0) (fun _ => 0)).2 (pushed_held 3)
noncomputable example := C153_unbalanced isNorm_real plate_ok loose loose_given loose_unbalanced anySolver (fun _ => 0) (fun _ => 0)
noncomputable example := C153_least_energy isNorm_real plate_ok (pushed 3) (pushed_given 3) (held_balanced (pushed_held 3)) anySolver anySolver_sound (fun _ => 0) (fun _ => 0)
noncomputable example := C153_clapeyron isNorm_real plate_ok (pushed 3) (pushed_given 3) (held_balanced (pushed_held 3)) (pushed_zero 3) anySolver anySolver_sound (fun _ => 0) (fun _ => 0)
noncomputable example := C153_reciprocity isNorm_real plate_ok (pushed 3) (pushed 5) (pushed_given 3) (pushed_given 5) (held_balanced (pushed_held 3)) (held_balanced (pushed_held 5)) (pushed_zero 3)
  (fun _ _ _ => Iff.rfl) anySolver anySolver_sound (fun _ => 0) (fun _ => 0)
noncomputable example := C153_superposition isNorm_real plate_ok 2 3 (pushed 3) (pushed 5) (pushed 21) (pushed_given 3) (pushed_given 5) (pushed_given 21) (pushed_held 21)
  (fun id k v h => ⟨v, v, h, h, by rw [pushed_zero 21 id k v h]; norm_num⟩) (fun _ _ v h => ⟨v, h⟩) (fun _ _ v h => ⟨v, h⟩)
  (fun i _ k _ => by simp only [force, pushed, SMap.find?_insert, SMap.find?_empty]; split_ifs <;> norm_num) anySolver anySolver_sound (fun _ => 0) (fun _ => 0)
noncomputable example := C153_rigid isNorm_real plate_ok moved moved_given moved_held (fun i _ k _ => by simp [force, moved]) 0 0 1 (fun id k v h => by
  obtain ⟨i, hi, hk, hv⟩ := h
  have hi3 : i < 3 := (List.getElem?_eq_some_iff.1 hi).1
  obtain ⟨p5, p9, p7⟩ := places (K := ℝ)
  have : (i = 0 ∨ i = 1 ∨ i = 2) ∧ (k = 0 ∨ k = 1) := by omega
  obtain ⟨rfl | rfl | rfl, rfl | rfl⟩ := this <;> cases hi <;> simp [moved, SMap.find?_insert] at hv <;> simp [p5, p9, p7, ← hv]) anySolver anySolver_sound (fun _ => 0) (fun _ => 0)

end ENigMA
