import Verif.Sph.Heat
import Mathlib.LinearAlgebra.Matrix.ToLinearEquiv

/-!
# C156: heat conduction with particles at rest
-/

set_option linter.unusedSectionVars false
set_option autoImplicit false

namespace ENigMA
open SphParticles
variable {K : Type} [Field K] [LinearOrder K] [IsStrictOrderedRing K]

namespace SphParticles

/-- What all states of the program have in common. -/
structure Same (mass diff dt : K) (s t : State K) : Prop where
  n : t.n = s.n
  node : ∀ i, t.node i = s.node i
  mass : ∀ i < s.n, t.mass i = mass
  conductivity : ∀ i < s.n, t.conductivity i = diff
  velocity : ∀ i < s.n, t.velocity i = 0
  fixed : t.fixed = s.fixed
  cyclic : t.cyclic = false
  dt : t.dt = dt

theorem same_init (mass diff dt : K) (s : State K) : Same mass diff dt s (init s mass diff dt false) :=
  ⟨rfl, fun _ => rfl, fun i hi => if_pos hi, fun i hi => if_pos hi, fun i hi => if_pos hi, rfl, rfl, rfl⟩

theorem same_solve (w lap : Vec3 K → K) {near : Nat → List Nat} {mass diff dt : K} {s t : State K} (h : Same mass diff dt s t) : Same mass diff dt s (solve w lap near near t) := by
  refine ⟨h.n, fun i => ?_, h.mass, h.conductivity, h.velocity, h.fixed, h.cyclic, h.dt⟩
  show (if i < t.n then _ else t.node i) = _
  split
  · next hi =>
    rw [h.n] at hi
    show (if t.cyclic = true then _ else _) = _
    rw [h.cyclic, if_neg (by simp)]
    show (⟨(t.node i).x + (t.velocity i).x * t.dt, (t.node i).y + (t.velocity i).z * t.dt, (t.node i).z + (t.velocity i).y * t.dt⟩ : Vec3 K) = _
    rw [h.velocity i hi, h.node i]
    ext <;> simp
  · exact h.node i

theorem density_solve (w lap : Vec3 K → K) {near : Nat → List Nat} {mass diff dt : K} {s t : State K} (hin : ∀ i < s.n, ∀ j ∈ near i, j < s.n) (h : Same mass diff dt s t) (i : Nat) (hi : i < s.n) :
    (solve w lap near near t).density i = densityAt w near mass s i := by
  rw [(C65_density w lap near near t i (h.n ▸ hi)).1, densityAt]
  congr 1
  refine List.map_congr_left fun j hj => ?_
  rw [h.mass j (hin i hi j hj), h.node, h.node]

theorem fold_congr (near : Nat → List Nat) (n : Nat) (hin : ∀ i < n, ∀ j ∈ near i, j < n) (v v' : (Nat → K) → Nat → K)
    (hv : ∀ u u' : Nat → K, (∀ j < n, u j = u' j) → ∀ i < n, v u i = v' u' i) (l : List Nat) (hl : ∀ i ∈ l, i < n) : ∀ u u' : Nat → K, (∀ j < n, u j = u' j) →
    ∀ i < n, l.foldl (fun u i => Function.update u i (v u i)) u i = l.foldl (fun u i => Function.update u i (v' u i)) u' i := by
  induction l with
  | nil => exact fun _ _ h => h
  | cons k l ih =>
    intro u u' h
    rw [List.foldl_cons, List.foldl_cons]
    refine ih (fun i hi => hl i (by simp [hi])) _ _ fun j hj => ?_
    by_cases hjk : j = k
    · rw [hjk, Function.update_self, Function.update_self]
      exact hv u u' h k (hl k (by simp))
    · rw [Function.update_of_ne hjk, Function.update_of_ne hjk, h j hj]

theorem u_solve (w lap : Vec3 K → K) {near : Nat → List Nat} {mass diff dt : K} {s t : State K} (hin : ∀ i < s.n, ∀ j ∈ near i, j < s.n) (h : Same mass diff dt s t) (u : Nat → K) (hu : ∀ j < s.n, t.u j = u j) :
    ∀ i < s.n, (solve w lap near near t).u i = sweep near (share w lap near mass diff dt s) s.fixed s.n u i := by
  have hn := h.n
  show ∀ i < s.n, (List.range t.n).foldl (diffuse lap near (advectParticles (calculateDensity w near t))) t.u i = _
  rw [hn]
  refine fold_congr near s.n hin _ _ ?_ _ (fun i hi => List.mem_range.1 hi) _ _ hu
  intro u u' huu i hi
  have hs := same_solve w lap (near := near) h
  have hd := density_solve w lap hin h
  show (match (solve w lap near near t).fixed i with | some v => v | none => u i + (solve w lap near near t).conductivity i * flux lap near (advectParticles (calculateDensity w near t)) u i * (solve w lap near near t).dt) = val near _ s.fixed i u'
  unfold val
  rw [hs.fixed]
  cases hp : s.fixed i with
  | some v => rfl
  | none =>
    dsimp only
    rw [hs.conductivity i hi, hs.dt, flux, foldl_add, zero_add, huu i hi]
    congr 1
    have : ∀ l : List Nat, diff * (l.map fun j => (u j - u' i) / (advectParticles (calculateDensity w near t)).density j * lap ((advectParticles (calculateDensity w near t)).node j - (advectParticles (calculateDensity w near t)).node i)).sum * dt =
        (l.map fun j => diff * dt * ((u j - u' i) / (solve w lap near near t).density j * lap ((solve w lap near near t).node j - (solve w lap near near t).node i))).sum := fun l => by
      induction l with
      | nil => simp
      | cons j l ih =>
        simp only [List.map_cons, List.sum_cons, ← ih]
        show diff * ((u j - u' i) / (solve w lap near near t).density j * lap ((solve w lap near near t).node j - (solve w lap near near t).node i) + _) * dt = _
        ring
    rw [this]
    congr 1
    refine List.map_congr_left fun j hj => ?_
    rw [hd j (hin i hi j hj), hs.node, hs.node, huu j (hin i hi j hj), share]
    ring

/-- The program is the repetition of the sweep. -/
theorem heat_run (w lap : Vec3 K → K) {near : Nat → List Nat} (mass diff dt : K) (s : State K) (hin : ∀ i < s.n, ∀ j ∈ near i, j < s.n) (k : Nat) :
    Same mass diff dt s (heat w lap near mass diff dt k s) ∧
      ∀ i < s.n, (heat w lap near mass diff dt k s).u i = (sweep near (share w lap near mass diff dt s) s.fixed s.n)^[k] s.u i := by
  induction k with
  | zero => exact ⟨same_init mass diff dt s, fun _ _ => rfl⟩
  | succ k ih =>
    have e : heat w lap near mass diff dt (k + 1) s = solve w lap near near (heat w lap near mass diff dt k s) := Function.iterate_succ_apply' _ _ _
    rw [e, Function.iterate_succ_apply']
    exact ⟨same_solve w lap ih.1, u_solve w lap hin ih.1 _ ih.2⟩

theorem Stable.toShares {w lap : Vec3 K → K} {near : Nat → List Nat} {mass diff dt : K} {s : State K} (g : Stable w lap near mass diff dt s) : Shares near (share w lap near mass diff dt s) s.n := ⟨g.inside, g.shares, g.step⟩

/-- A field that is balanced is not changed by a sweep. -/
theorem sweep_balanced {near : Nat → List Nat} {c : Nat → Nat → K} {fixed : Nat → Option K} {n : Nat} (hin : ∀ i < n, ∀ j ∈ near i, j < n) (u : Nat → K) (h : Balanced near c fixed n u) :
    ∀ i < n, sweep near c fixed n u i = u i := by
  intro i
  induction i using Nat.strong_induction_on with
  | _ i ih =>
    intro hi
    rw [sweep_eq _ _ _ _ _ _ hi]
    have hz : ∀ j < n, (if j < i then sweep near c fixed n u j else u j) = u j := fun j hj => by
      split
      · next hji => exact ih j hji hj
      · rfl
    obtain ⟨h1, h2⟩ := h i hi
    cases hp : fixed i with
    | some v => rw [val_some hp, h1 v hp]
    | none =>
      unfold val
      rw [hp]
      dsimp only
      rw [hz i hi, List.map_congr_left (g := fun j => c i j * (u j - u i)) fun j hj => by rw [hz j (hin i hi j hj)], h2 hp, add_zero]

theorem iter_balanced {near : Nat → List Nat} {c : Nat → Nat → K} {fixed : Nat → Option K} {n : Nat} (hin : ∀ i < n, ∀ j ∈ near i, j < n) (u : Nat → K) (h : Balanced near c fixed n u) (k : Nat) :
    ∀ i < n, (sweep near c fixed n)^[k] u i = u i := by
  induction k with
  | zero => exact fun _ _ => rfl
  | succ k ih =>
    intro i hi
    rw [Function.iterate_succ_apply']
    have hb : Balanced near c fixed n ((sweep near c fixed n)^[k] u) := fun i hi => by
      obtain ⟨h1, h2⟩ := h i hi
      refine ⟨fun v hv => by rw [ih i hi]; exact h1 v hv, fun hp => ?_⟩
      rw [List.map_congr_left (g := fun j => c i j * (u j - u i)) fun j hj => by rw [ih j (hin i hi j hj), ih i hi]]
      exact h2 hp
    rw [sweep_balanced hin _ hb i hi, ih i hi]

end SphParticles

/-- **C156, at rest.** The particles never move, and from the first step on their density is the kernel sum. -/
theorem C156_rest (w lap : Vec3 K → K) (near : Nat → List Nat) (mass diff dt : K) (s : State K) (hin : ∀ i < s.n, ∀ j ∈ near i, j < s.n) (k : Nat) :
    (∀ i, (heat w lap near mass diff dt k s).node i = s.node i) ∧ (0 < k → ∀ i < s.n, (heat w lap near mass diff dt k s).density i = densityAt w near mass s i) ∧
      (0 < k → ∀ i < s.n, ∀ v, s.fixed i = some v → (heat w lap near mass diff dt k s).u i = v) := by
  have h := heat_run w lap mass diff dt s hin k
  refine ⟨h.1.node, fun hk i hi => ?_, fun hk i hi v hv => ?_⟩
  · obtain ⟨k, rfl⟩ : ∃ k', k = k' + 1 := ⟨k - 1, by omega⟩
    have e : heat w lap near mass diff dt (k + 1) s = solve w lap near near (heat w lap near mass diff dt k s) := Function.iterate_succ_apply' _ _ _
    rw [e]
    exact density_solve w lap hin (heat_run w lap mass diff dt s hin k).1 i hi
  · obtain ⟨k, rfl⟩ : ∃ k', k = k' + 1 := ⟨k - 1, by omega⟩
    rw [h.2 i hi, Function.iterate_succ_apply', sweep_eq _ _ _ _ _ _ hi, val_some hv]

/-- **C156, bounds.** With a short enough step, temperatures between two bounds stay there through any number of steps. -/
theorem C156_bounds (w lap : Vec3 K → K) (near : Nat → List Nat) (mass diff dt : K) (s : State K) (g : Stable w lap near mass diff dt s) (lo hi : K)
    (hu : ∀ i < s.n, lo ≤ s.u i ∧ s.u i ≤ hi) (hf : ∀ i < s.n, ∀ v, s.fixed i = some v → lo ≤ v ∧ v ≤ hi) (k : Nat) :
    ∀ i < s.n, lo ≤ (heat w lap near mass diff dt k s).u i ∧ (heat w lap near mass diff dt k s).u i ≤ hi := fun i hi => by
  rw [(heat_run w lap mass diff dt s g.inside k).2 i hi]
  exact iter_bounds g.toShares _ _ hf k s.u hu i hi

/-- **C156, steady state.** If moreover all particles hang together with one of prescribed value, exactly one field is balanced, and whatever the initial temperatures are, the program approaches it geometrically. -/
theorem C156_limit (w lap : Vec3 K → K) (near : Nat → List Nat) (mass diff dt : K) (s : State K) (g : Stable w lap near mass diff dt s)
    (hr : ∀ i < s.n, Reached near (share w lap near mass diff dt s) s.fixed i) :
    ∃ y, Balanced near (share w lap near mass diff dt s) s.fixed s.n y ∧ (∀ z, Balanced near (share w lap near mass diff dt s) s.fixed s.n z → ∀ i < s.n, z i = y i) ∧
      ∃ (N : Nat) (q : K), 0 ≤ q ∧ q < 1 ∧ 0 < N ∧ ∀ (u : Nat → K) (M : K), (∀ i < s.n, |u i - y i| ≤ M) → ∀ k, ∀ i < s.n, |(heat w lap near mass diff dt (k * N) { s with u := u }).u i - y i| ≤ q ^ k * M := by
  set c := share w lap near mass diff dt s with hc
  have gs : Shares near c s.n := g.toShares
  obtain ⟨N, q, hq0, hq1, hN, hdec⟩ := all_decay gs hr
  have hpow := power_decay gs N q hdec hq0
  have key : ∀ (u y : Nat → K) (M : K), Balanced near c s.fixed s.n y → (∀ i < s.n, |u i - y i| ≤ M) → ∀ k, ∀ i < s.n, |(sweep near c s.fixed s.n)^[k * N] u i - y i| ≤ q ^ k * M := by
    intro u y M hy hM k i hi
    have h1 := iter_diff (fixed := s.fixed) gs (k * N) u y (fun _ => M) hM i hi
    rw [iter_balanced g.inside y hy (k * N) i hi] at h1
    have h2 := iter_scale (fixed := s.fixed) gs M (k * N) (fun _ => M) (fun _ => 1) (fun _ _ => le_of_eq (mul_one M).symm) i hi
    have hM0 : 0 ≤ M := (abs_nonneg _).trans (hM i hi)
    have h3 := mul_le_mul_of_nonneg_left (hpow k i hi) hM0
    linarith
  have huniq : ∀ y z : Nat → K, Balanced near c s.fixed s.n y → Balanced near c s.fixed s.n z → ∀ i < s.n, z i = y i := by
    intro y z hy hz i hi
    let M := ∑ j ∈ Finset.range s.n, |z j - y j|
    have hle : ∀ j < s.n, |z j - y j| ≤ M := fun j hj => Finset.single_le_sum (f := fun j => |z j - y j|) (fun _ _ => abs_nonneg _) (Finset.mem_range.2 hj)
    by_contra hne
    have hpos : 0 < |z i - y i| := abs_pos.2 (sub_ne_zero.2 hne)
    obtain ⟨j, hj, hmax⟩ := Finset.exists_max_image (Finset.range s.n) (fun j => |z j - y j|) ⟨i, Finset.mem_range.2 hi⟩
    have h1 := key z y |z j - y j| hy (fun k hk => hmax k (Finset.mem_range.2 hk)) 1 j (Finset.mem_range.1 hj)
    rw [iter_balanced g.inside z hz _ j (Finset.mem_range.1 hj), pow_one] at h1
    have h2 := hpos.trans_le (hmax i (Finset.mem_range.2 hi))
    have h3 := mul_lt_mul_of_pos_right hq1 h2
    linarith
  -- existence
  have hex : ∃ y, Balanced near c s.fixed s.n y := by
    let A : Matrix (Fin s.n) (Fin s.n) K := fun i j => if (s.fixed i).isSome then (if i = j then 1 else 0) else
      ((near i).map fun k => c i k * ((if k = (j : Nat) then 1 else 0) - (if (i : Nat) = j then 1 else 0))).sum
    have hswap : ∀ (l : List Nat) (i : Nat), i < s.n → (∀ k ∈ l, k < s.n) → ∀ x : Nat → K, ∑ j : Fin s.n, (l.map fun k => c i k * ((if k = (j : Nat) then 1 else 0) - (if i = (j : Nat) then 1 else 0))).sum * x j =
        (l.map fun k => c i k * (x k - x i)).sum := fun l i hi hl x => by
      induction l with
      | nil => simp
      | cons k l ih =>
        simp only [List.map_cons, List.sum_cons, add_mul, Finset.sum_add_distrib]
        rw [ih fun m hm => hl m (by simp [hm])]
        congr 1
        have e1 : ∀ m < s.n, ∑ j : Fin s.n, (if m = (j : Nat) then (1 : K) else 0) * x j = x m := fun m hm => by
          rw [Finset.sum_eq_single (⟨m, hm⟩ : Fin s.n)]
          · simp
          · intro b _ hb
            rw [if_neg (fun h => hb (Fin.ext h.symm)), zero_mul]
          · intro h
            exact absurd (Finset.mem_univ _) h
        have e2 : ∀ j : Fin s.n, c i k * ((if k = (j : Nat) then (1 : K) else 0) - (if i = (j : Nat) then 1 else 0)) * x j = c i k * ((if k = (j : Nat) then (1 : K) else 0) * x j) - c i k * ((if i = (j : Nat) then (1 : K) else 0) * x j) := fun j => by ring
        simp only [e2]
        rw [Finset.sum_sub_distrib, ← Finset.mul_sum, ← Finset.mul_sum, e1 k (hl k (by simp)), e1 i hi]
        ring
    have hA : ∀ (x : Nat → K) (i : Fin s.n), (A.mulVec fun j : Fin s.n => x j) i = if (s.fixed i).isSome then x i else ((near i).map fun k => c i k * (x k - x i)).sum := fun x i => by
      simp only [Matrix.mulVec, dotProduct, A]
      by_cases h : (s.fixed i).isSome
      · simp only [if_pos h, ite_mul, one_mul, zero_mul, Finset.sum_ite_eq, Finset.mem_univ, if_true]
      · simp only [if_neg h]
        exact hswap (near i) i i.2 (g.inside i i.2) x
    let ext : (Fin s.n → K) → Nat → K := fun v i => if h : i < s.n then v ⟨i, h⟩ else 0
    have hext : ∀ v : Fin s.n → K, (fun i : Fin s.n => ext v i) = v := fun v => by funext i; simp [ext]
    have hdet : A.det ≠ 0 := fun h0 => by
      obtain ⟨v, hv, hv0⟩ := Matrix.exists_mulVec_eq_zero_iff.2 h0
      apply hv
      -- a balanced field with zero prescribed values vanishes
      have hb : Balanced near c (still s.fixed) s.n (ext v) := fun i hi => by
        have h1 := hA (ext v) ⟨i, hi⟩
        rw [hext, hv0] at h1
        refine ⟨fun w hw => ?_, fun hp => ?_⟩
        · obtain ⟨w', hw', rfl⟩ := Option.map_eq_some_iff.1 hw
          dsimp only at h1
          rw [if_pos (by rw [hw']; rfl)] at h1
          exact h1.symm
        · have hp' : s.fixed i = none := Option.map_eq_none_iff.1 hp
          dsimp only at h1
          rw [if_neg (by rw [hp']; simp)] at h1
          exact h1.symm
      have hz : ∀ i < s.n, ext v i = 0 := by
        intro i hi
        by_contra hne
        obtain ⟨j, hj, hmax⟩ := Finset.exists_max_image (Finset.range s.n) (fun j => |ext v j|) ⟨i, Finset.mem_range.2 hi⟩
        have hb0 : Balanced near c (still s.fixed) s.n (fun _ => 0) := fun i _ => ⟨fun w hw => by obtain ⟨_, _, rfl⟩ := Option.map_eq_some_iff.1 hw; rfl, fun _ => by simp⟩
        have h1 := iter_diff (fixed := still s.fixed) gs N (ext v) (fun _ => 0) (fun _ => |ext v j|) (fun k hk => by rw [sub_zero]; exact hmax k (Finset.mem_range.2 hk)) j (Finset.mem_range.1 hj)
        rw [iter_balanced g.inside _ hb N j (Finset.mem_range.1 hj), iter_balanced g.inside _ hb0 N j (Finset.mem_range.1 hj), sub_zero] at h1
        have hss : still (still s.fixed) = still s.fixed := by funext i; unfold still; cases s.fixed i <;> rfl
        rw [hss] at h1
        have h2 := iter_scale (fixed := s.fixed) gs |ext v j| N (fun _ => |ext v j|) (fun _ => 1) (fun _ _ => le_of_eq (mul_one _).symm) j (Finset.mem_range.1 hj)
        have h3 := mul_le_mul_of_nonneg_left (hdec j (Finset.mem_range.1 hj)) (abs_nonneg (ext v j))
        have h4 : 0 < |ext v j| := (abs_pos.2 hne).trans_le (hmax i (Finset.mem_range.2 hi))
        have h5 := mul_lt_mul_of_pos_left hq1 h4
        linarith
      rw [← hext v]
      funext i
      exact hz i i.2
    let rhs : Fin s.n → K := fun i => (s.fixed i).getD 0
    refine ⟨ext (A⁻¹.mulVec rhs), fun i hi => ?_⟩
    have h1 := hA (ext (A⁻¹.mulVec rhs)) ⟨i, hi⟩
    rw [hext, Matrix.mulVec_mulVec, Matrix.mul_nonsing_inv _ (isUnit_iff_ne_zero.2 hdet), Matrix.one_mulVec] at h1
    dsimp only [rhs] at h1
    refine ⟨fun v hv => ?_, fun hp => ?_⟩
    · rw [hv] at h1
      exact h1.symm
    · rw [hp] at h1
      exact h1.symm
  obtain ⟨y, hy⟩ := hex
  refine ⟨y, hy, fun z hz => huniq y z hy hz, N, q, hq0, hq1, hN, fun u M hM k i hi => ?_⟩
  have := key u y M hy hM k i hi
  have hrun := (heat_run w lap mass diff dt { s with u := u } g.inside (k * N)).2 i hi
  rw [hrun]
  exact this

/-- Three particles on a line, the first and the last with prescribed values 0 and 4. -/
def bar : State ℚ := { three with cyclic := false, node := fun i => ⟨i, 0, 0⟩, u := fun _ => 1, fixed := fun i => if i = 0 then some 0 else if i = 2 then some 4 else none }

/-- The neighbours of particle `i`. -/
def barNear (i : Nat) : List Nat := if i = 1 then [0, 1, 2] else if i = 0 then [0, 1] else [1, 2]

example : (heat (fun _ => 1) (fun _ => 1) barNear 1 (1 / 2) 1 1 bar).u 1 = 3 / 4 ∧ (heat (fun _ => 1) (fun _ => 1) barNear 1 (1 / 2) 1 2 bar).u 1 = 11 / 8 := by decide +kernel

theorem bar_stable : Stable (fun _ => (1 : ℚ)) (fun _ => 1) barNear 1 (1 / 2) 1 bar where
  inside := by decide +kernel
  shares := by decide +kernel
  step := by decide +kernel

example : (∀ i < bar.n, 0 ≤ bar.u i ∧ bar.u i ≤ 4) ∧ bar.fixed 0 = some 0 ∧ bar.fixed 2 = some 4 := by decide +kernel

example : ∀ i < bar.n, Reached barNear (share (fun _ => (1 : ℚ)) (fun _ => 1) barNear 1 (1 / 2) 1 bar) bar.fixed i := by
  have h0 : Reached barNear (share (fun _ => (1 : ℚ)) (fun _ => 1) barNear 1 (1 / 2) 1 bar) bar.fixed 0 := .fixed 0 0 rfl
  intro i hi
  have : i < 3 := hi
  rcases (show i = 0 ∨ i = 1 ∨ i = 2 by omega) with rfl | rfl | rfl
  · exact h0
  · exact .link 1 0 (by decide +kernel) (by decide +kernel) h0
  · exact .fixed 2 4 rfl

/-- **C156, mass.** The share of a neighbour is divided by its density but not multiplied by its mass: `t` times the mass has the same effect on all temperatures as the conductivity divided by `t`. -/
theorem C156_mass (w lap : Vec3 K → K) (near : Nat → List Nat) (mass diff dt t : K) (ht : t ≠ 0) (s : State K) (hin : ∀ i < s.n, ∀ j ∈ near i, j < s.n) (k : Nat) :
    ∀ i < s.n, (heat w lap near (t * mass) diff dt k s).u i = (heat w lap near mass (diff / t) dt k s).u i := by
  intro i hi
  rw [(heat_run w lap _ _ _ s hin k).2 i hi, (heat_run w lap _ _ _ s hin k).2 i hi]
  have : share w lap near (t * mass) diff dt s = share w lap near mass (diff / t) dt s := by
    funext i j
    have hd : densityAt w near (t * mass) s j = densityAt w near mass s j * t := by
      unfold densityAt
      rw [← sum_mul_const]
      congr 1
      refine List.map_congr_left fun k _ => ?_
      ring
    rw [share, share, hd]
    by_cases h0 : densityAt w near mass s j = 0
    · rw [h0]; simp
    · field_simp
  rw [this]

/-- **C156, fails: heat.** The temperatures are changed in place, so later particles already see the new values of earlier ones and heat is made from nothing: two insulated particles of the same density, cold and hot by one degree,
that exchange the share `c` in a step, have together `c * c` degrees more after it. -/
theorem C156_heat_created (w lap : Vec3 K → K) (mass diff dt : K) (s : State K) (hn : s.n = 2) (hf : s.fixed 0 = none ∧ s.fixed 1 = none) (hu : s.u 0 = 0 ∧ s.u 1 = 1) (c : K)
    (h01 : share w lap (fun i => [1 - i]) mass diff dt s 0 1 = c) (h10 : share w lap (fun i => [1 - i]) mass diff dt s 1 0 = c) :
    (heat w lap (fun i => [1 - i]) mass diff dt 1 s).u 0 + (heat w lap (fun i => [1 - i]) mass diff dt 1 s).u 1 = s.u 0 + s.u 1 + c * c := by
  have hin : ∀ i < s.n, ∀ j ∈ [1 - i], j < s.n := fun i _ j hj => by rw [List.mem_singleton.1 hj, hn]; omega
  have h := (heat_run w lap (near := fun i => [1 - i]) mass diff dt s hin 1).2
  rw [h 0 (by omega), h 1 (by omega), Function.iterate_one, hn, sweep_eq _ _ _ _ _ _ (show 0 < 2 by omega), sweep_eq _ _ _ _ _ _ (show 1 < 2 by omega)]
  simp only [val, hf.1, hf.2, List.map_cons, List.map_nil, List.sum_cons, List.sum_nil, Nat.sub_self, Nat.sub_zero, h01, h10, hu.1, hu.2]
  simp only [lt_irrefl, if_false, zero_lt_one, if_true, show ¬ (1 : Nat) < 0 by omega]
  rw [sweep_eq _ _ _ _ _ _ (show 0 < 2 by omega)]
  simp only [val, hf.1, List.map_cons, List.map_nil, List.sum_cons, List.sum_nil, Nat.sub_zero, h01, hu.1, hu.2, show ¬ (1 : Nat) < 0 by omega, lt_irrefl, if_false]
  ring

example : let s : State ℚ := { bar with n := 2, u := fun i => i, fixed := fun _ => none }
    (s.n = 2 ∧ s.fixed 0 = none ∧ s.fixed 1 = none ∧ s.u 0 = 0 ∧ s.u 1 = 1) ∧
      share (fun _ => 1) (fun _ => 1) (fun i => [1 - i]) 1 (1 / 2) 1 s 0 1 = 1 / 2 ∧ share (fun _ => 1) (fun _ => 1) (fun i => [1 - i]) 1 (1 / 2) 1 s 1 0 = 1 / 2 := by decide +kernel

end ENigMA
