import Verif.Sph.Particles
import Mathlib.Algebra.Order.Ring.Rat
import Mathlib.Algebra.Order.BigOperators.Group.List
import Mathlib.Data.List.Range
import Mathlib.Tactic.Linarith
import Mathlib.Tactic.FieldSimp

/-!
# C65: the step of the SPH particles
-/

set_option linter.unusedSectionVars false

namespace ENigMA
open SphParticles

namespace SphParticles
variable {K : Type} [Field K] [LinearOrder K] [IsStrictOrderedRing K]

theorem foldl_add {α : Type} (f : α → K) (l : List α) (a : K) : l.foldl (fun s j => s + f j) a = a + (l.map f).sum := by
  induction l generalizing a with
  | nil => simp
  | cons x l ih => rw [List.foldl_cons, ih]; simp; ring

/-- What the in-place loop leaves: an invariant of the values, and what was written at each index. -/
theorem diffuse_inv (lap : Vec3 K → K) (near : Nat → List Nat) (s : State K) (P : Nat → K → Prop)
    (hstep : ∀ u : Nat → K, (∀ i, P i (u i)) → ∀ i, P i (diffuse lap near s u i i)) (l : List Nat) (u : Nat → K) (hu : ∀ i, P i (u i)) :
    ∀ i, P i (l.foldl (diffuse lap near s) u i) := by
  induction l generalizing u with
  | nil => exact hu
  | cons k l ih =>
    rw [List.foldl_cons]
    refine ih _ fun i => ?_
    by_cases h : i = k
    · subst h; exact hstep u hu i
    · have : diffuse lap near s u k i = u i := by simp [diffuse, Function.update, h]
      rw [this]; exact hu i

end SphParticles

variable {K : Type} [Field K] [LinearOrder K] [IsStrictOrderedRing K]

/-- C65: the density of a particle is the sum over its neighbours of mass times kernel, so it is not negative when the masses and the kernel are not. -/
theorem C65_density (w lap : Vec3 K → K) (near near' : Nat → List Nat) (s : State K) (i : Nat) (hi : i < s.n) :
    (solve w lap near near' s).density i = ((near i).map fun j => s.mass j * w (s.node j - s.node i)).sum ∧
    ((∀ v, 0 ≤ w v) → (∀ j, 0 ≤ s.mass j) → 0 ≤ (solve w lap near near' s).density i) := by
  have h : (solve w lap near near' s).density i = ((near i).map fun j => s.mass j * w (s.node j - s.node i)).sum := by
    show (if _ then _ else _) = _
    rw [if_pos hi, foldl_add, zero_add]
  refine ⟨h, fun hw hm => ?_⟩
  rw [h]
  refine List.sum_nonneg fun x hx => ?_
  obtain ⟨j, _, rfl⟩ := List.mem_map.1 hx
  exact mul_nonneg (hm j) (hw _)

/-- C65: after every step every prescribed value of the field holds. -/
theorem C65_fixed (w lap : Vec3 K → K) (near near' : Nat → List Nat) (s : State K) (i : Nat) (hi : i < s.n) (v : K) (hv : s.fixed i = some v) :
    (solve w lap near near' s).u i = v := by
  have key : ∀ (s : State K) (l : List Nat) (u : Nat → K), s.fixed i = some v → (i ∈ l ∨ u i = v) → l.foldl (diffuse lap near' s) u i = v := by
    intro s l
    induction l with
    | nil => intro u _ h; simpa using h
    | cons k l ih =>
      intro u hf h
      rw [List.foldl_cons]
      refine ih _ hf ?_
      by_cases hk : i = k
      · right; subst hk; simp [diffuse, hf]
      · rcases h with h | h
        · left; simpa [hk] using h
        · right; simp [diffuse, Function.update, hk, h]
  exact key _ _ _ hv (Or.inl (List.mem_range.2 hi))

/-- C65: a constant field stays constant, whatever the neighbours, the densities and the kernel. -/
theorem C65_constant (w lap : Vec3 K → K) (near near' : Nat → List Nat) (s : State K) (c : K) (hu : ∀ i, s.u i = c)
    (hf : ∀ i v, s.fixed i = some v → v = c) : ∀ i, (solve w lap near near' s).u i = c := by
  refine diffuse_inv lap near' _ (fun _ x => x = c) (fun u hu i => ?_) _ _ hu
  simp only [diffuse, Function.update_self]
  split
  · rename_i v hv; exact hf i v hv
  · have : flux lap near' (advectParticles (calculateDensity w near s)) u i = 0 := by
      rw [flux, foldl_add, zero_add]
      refine List.sum_eq_zero fun x hx => ?_
      obtain ⟨j, _, rfl⟩ := List.mem_map.1 hx
      simp [hu]
    rw [this, hu]; simp

/-- C65, maximum principle: when the kernel's Laplacian is not negative and the time step is small enough for the density and the neighbours of each particle,
no value of the field leaves the interval of the values and prescribed values before the step. -/
theorem C65_maximum (lap : Vec3 K → K) (near : Nat → List Nat) (s : State K) (lo hi : K) (hu : ∀ i, lo ≤ s.u i ∧ s.u i ≤ hi)
    (hf : ∀ i v, s.fixed i = some v → lo ≤ v ∧ v ≤ hi) (hlap : ∀ v, 0 ≤ lap v) (hd : ∀ i, 0 < s.density i)
    (hk : ∀ i, 0 ≤ s.conductivity i * s.dt)
    (hdt : ∀ i, s.conductivity i * s.dt * ((near i).map fun j => lap (s.node j - s.node i) / s.density j).sum ≤ 1) :
    ∀ i, lo ≤ (addDiffusion lap near s).u i ∧ (addDiffusion lap near s).u i ≤ hi := by
  refine diffuse_inv lap near s (fun _ x => lo ≤ x ∧ x ≤ hi) (fun u hu i => ?_) _ _ hu
  simp only [diffuse, Function.update_self]
  split
  · rename_i v hv; exact hf i v hv
  · have hfl : flux lap near s u i = ((near i).map fun j => lap (s.node j - s.node i) / s.density j * (u j - u i)).sum := by
      rw [flux, foldl_add, zero_add]
      congr 1
      refine List.map_congr_left fun j _ => ?_
      ring
    have hb : ∀ l : List Nat, (l.map fun j => lap (s.node j - s.node i) / s.density j).sum * (lo - u i) ≤
        (l.map fun j => lap (s.node j - s.node i) / s.density j * (u j - u i)).sum ∧
        (l.map fun j => lap (s.node j - s.node i) / s.density j * (u j - u i)).sum ≤
        (l.map fun j => lap (s.node j - s.node i) / s.density j).sum * (hi - u i) := by
      intro l
      induction l with
      | nil => simp
      | cons j l ih =>
        have hc : 0 ≤ lap (s.node j - s.node i) / s.density j := div_nonneg (hlap _) (hd j).le
        simp only [List.map_cons, List.sum_cons]
        constructor
        · have := mul_le_mul_of_nonneg_left (sub_le_sub_right (hu j).1 (u i)) hc
          nlinarith [ih.1]
        · have := mul_le_mul_of_nonneg_left (sub_le_sub_right (hu j).2 (u i)) hc
          nlinarith [ih.2]
    obtain ⟨b1, b2⟩ := hb (near i)
    have hS : s.conductivity i * s.dt * ((near i).map fun j => lap (s.node j - s.node i) / s.density j).sum ≤ 1 := hdt i
    rw [← hfl] at b1 b2
    generalize ((near i).map fun j => lap (s.node j - s.node i) / s.density j).sum = S at *
    generalize flux lap near s u i = F at *
    have hk := hk i
    have e : s.conductivity i * F * s.dt = s.conductivity i * s.dt * F := by ring
    rw [e]
    have c1 := mul_le_mul_of_nonneg_left b1 hk
    have c2 := mul_le_mul_of_nonneg_left b2 hk
    have h1 := (hu i).1
    have h2 := (hu i).2
    generalize s.conductivity i * s.dt = k at *
    constructor
    · have : k * S * (u i - lo) ≤ 1 * (u i - lo) := mul_le_mul_of_nonneg_right hS (by linarith)
      nlinarith
    · have : k * S * (hi - u i) ≤ 1 * (hi - u i) := mul_le_mul_of_nonneg_right hS (by linarith)
      nlinarith

namespace SphParticles

/-- Three particles on a line. -/
def three : State ℚ :=
  { n := 3, mass := fun _ => 1, density := fun _ => 2, conductivity := fun _ => 1, velocity := fun _ => ⟨0, 1, 0⟩,
    node := fun i => ⟨i, 0, 0⟩, u := fun i => if i = 1 then 5 else 1, fixed := fun i => if i = 0 then some 1 else none,
    boundary := ⟨⟨0, 0, 0⟩, ⟨2, 2, 2⟩⟩, cyclic := true, dt := 1 / 4 }

/-- All of them are neighbours. -/
def near3 : Nat → List Nat := fun _ => [0, 1, 2]

end SphParticles

/-- Non-vacuity: the hypotheses on a state with different values, and the result is not the initial field. -/
example : (∀ i ∈ [0, 1, 2], 0 < three.density i ∧ 0 ≤ three.conductivity i * three.dt ∧
      three.conductivity i * three.dt * ((near3 i).map fun j => (1 : ℚ) / three.density j).sum ≤ 1) ∧
    (addDiffusion (fun _ => 1) near3 three).u 1 = 4 ∧ (addDiffusion (fun _ => 1) near3 three).u 0 = 1 := by decide +kernel

/-- C65: with cyclic boundaries every coordinate of every particle is inside the box after every step, whatever the velocities and the time step. -/
theorem C65_cyclic (s : State K) (hc : s.cyclic = true) (hb : s.boundary.min.x ≤ s.boundary.max.x ∧ s.boundary.min.y ≤ s.boundary.max.y ∧
      s.boundary.min.z ≤ s.boundary.max.z) (i : Nat) (hi : i < s.n) :
    let p := (advectParticles s).node i
    (s.boundary.min.x ≤ p.x ∧ p.x ≤ s.boundary.max.x) ∧ (s.boundary.min.y ≤ p.y ∧ p.y ≤ s.boundary.max.y) ∧
    (s.boundary.min.z ≤ p.z ∧ p.z ≤ s.boundary.max.z) := by
  have hw : ∀ lo hi x : K, lo ≤ hi → lo ≤ wrap lo hi x ∧ wrap lo hi x ≤ hi := by
    intro lo hi x h
    unfold wrap
    split_ifs with h1 h2
    · exact ⟨le_rfl, h⟩
    · exact ⟨h, le_rfl⟩
    · exact ⟨(not_le.1 h2).le, (not_le.1 h1).le⟩
  intro p
  have hp : p = (advectParticles s).node i := rfl
  simp only [advectParticles, hi, hc, if_true] at hp
  rw [hp]
  exact ⟨hw _ _ _ hb.1, hw _ _ _ hb.2.1, hw _ _ _ hb.2.2⟩

example : three.cyclic = true ∧ three.boundary.min.x ≤ three.boundary.max.x ∧ 1 < three.n := by decide +kernel

/-- C65, motion: without cyclic boundaries a particle whose velocity has equal second and third components moves by velocity times time step. The full property
is for every velocity: see `C65_swapped`. -/
theorem C65_advect_partial (s : State K) (hc : s.cyclic = false) (i : Nat) (hi : i < s.n) (hv : (s.velocity i).y = (s.velocity i).z) :
    (advectParticles s).node i = s.node i + s.dt • s.velocity i := by
  simp only [advectParticles, hi, hc, if_true]
  ext
  · simp; ring
  · simp [hv]; ring
  · simp [hv]; ring

example : (setInitialVelocity three ⟨3, 1, 1⟩).velocity 2 = ⟨3, 1, 1⟩ := by decide +kernel

/-- C65 fails: the code adds the third component of the velocity to the second coordinate and the second to the third. -/
theorem C65_swapped : ∃ s : State ℚ, s.cyclic = false ∧ 0 < s.n ∧ s.velocity 0 = ⟨0, 1, 0⟩ ∧ s.dt = 1 / 4 ∧ s.node 0 = ⟨0, 0, 0⟩ ∧
    (advectParticles s).node 0 = ⟨0, 0, 1 / 4⟩ := ⟨{ three with cyclic := false }, by decide +kernel⟩

/-- C65 fails: with cyclic boundaries a particle at rest on the lower face of the box is moved to the upper face, and back by the next step. -/
theorem C65_cyclic_rest (s : State K) (hc : s.cyclic = true) (i : Nat) (hi : i < s.n) (hv : s.velocity i = 0)
    (hx : (s.node i).x = s.boundary.min.x) (hlt : s.boundary.min.x < s.boundary.max.x) :
    ((advectParticles s).node i).x = s.boundary.max.x ∧ ((advectParticles (advectParticles s)).node i).x = s.boundary.min.x := by
  have h1 : ((advectParticles s).node i).x = s.boundary.max.x := by
    simp only [advectParticles, hi, hc, if_true, hv, hx]
    simp [wrap, hlt]
  refine ⟨h1, ?_⟩
  have h2 : ∀ t : State K, t.cyclic = true → i < t.n → t.velocity i = 0 → (t.node i).x = t.boundary.max.x →
      ((advectParticles t).node i).x = t.boundary.min.x := by
    intro t a b c d
    simp only [advectParticles, a, b, c, d, if_true]
    simp [wrap]
  exact h2 (advectParticles s) hc hi hv h1

example : let s := init three 1 1 (1 / 4) true
    s.cyclic = true ∧ 0 < s.n ∧ s.velocity 0 = 0 ∧ (s.node 0).x = s.boundary.min.x ∧ s.boundary.min.x < s.boundary.max.x := by decide +kernel

end ENigMA
