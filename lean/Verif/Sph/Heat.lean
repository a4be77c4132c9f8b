import Verif.Sph.ParticlesProps
import Mathlib.Algebra.Order.BigOperators.Group.Finset

/-!
# Heat conduction with particles at rest (C156)
-/

set_option linter.unusedSectionVars false
set_option autoImplicit false

namespace ENigMA
namespace SphParticles
variable {K : Type} [Field K] [LinearOrder K] [IsStrictOrderedRing K]

/-- `sParticles.init(T, mass, diff, h, dt); for (i < k) sParticles.solve(T);`: trunk/examples/sphheat/main.cpp:88-96, 199-207. After `init` the particles are at rest, so the neighbours `near` are the same in all steps. -/
def heat (w lap : Vec3 K → K) (near : Nat → List Nat) (mass diff dt : K) (k : Nat) (s : State K) : State K :=
  (solve w lap near near)^[k] (init s mass diff dt false)

/-! ### Specification -/

/-- The density at particle `i`. -/
def densityAt (w : Vec3 K → K) (near : Nat → List Nat) (mass : K) (s : State K) (i : Nat) : K := ((near i).map fun j => mass * w (s.node j - s.node i)).sum

/-- What a degree at particle `j` changes particle `i` by in one step. -/
def share (w lap : Vec3 K → K) (near : Nat → List Nat) (mass diff dt : K) (s : State K) (i j : Nat) : K :=
  diff * dt * (lap (s.node j - s.node i) / densityAt w near mass s j)

/-- The neighbours of particles are particles, no share is negative, and the step is so short that the shares of a particle add up to one at most. -/
structure Stable (w lap : Vec3 K → K) (near : Nat → List Nat) (mass diff dt : K) (s : State K) : Prop where
  inside : ∀ i < s.n, ∀ j ∈ near i, j < s.n
  shares : ∀ i < s.n, ∀ j ∈ near i, 0 ≤ share w lap near mass diff dt s i j
  step : ∀ i < s.n, ((near i).map (share w lap near mass diff dt s i)).sum ≤ 1

/-- Particles with a prescribed value, and those that have a positive share from one that hangs together with a prescribed value. -/
inductive Reached (near : Nat → List Nat) (c : Nat → Nat → K) (fixed : Nat → Option K) : Nat → Prop
  | fixed (i : Nat) (v : K) (h : fixed i = some v) : Reached near c fixed i
  | link (i j : Nat) (hj : j ∈ near i) (hc : 0 < c i j) (h : Reached near c fixed j) : Reached near c fixed i

/-- The values do not change in a step: those prescribed are as prescribed, and at all others what the neighbours give and take adds up to zero. -/
def Balanced (near : Nat → List Nat) (c : Nat → Nat → K) (fixed : Nat → Option K) (n : Nat) (u : Nat → K) : Prop :=
  ∀ i < n, (∀ v, fixed i = some v → u i = v) ∧ (fixed i = none → ((near i).map fun j => c i j * (u j - u i)).sum = 0)

/-! ### The sweep -/

/-- The new value of a particle. -/
def val (near : Nat → List Nat) (c : Nat → Nat → K) (fixed : Nat → Option K) (i : Nat) (z : Nat → K) : K :=
  match fixed i with
  | some v => v
  | none => z i + ((near i).map fun j => c i j * (z j - z i)).sum

/-- The particles with numbers below `m` are changed one after the other. -/
def sweep (near : Nat → List Nat) (c : Nat → Nat → K) (fixed : Nat → Option K) (m : Nat) (u : Nat → K) : Nat → K :=
  (List.range m).foldl (fun u i => Function.update u i (val near c fixed i u)) u

theorem sweep_succ (near : Nat → List Nat) (c : Nat → Nat → K) (fixed : Nat → Option K) (m : Nat) (u : Nat → K) :
    sweep near c fixed (m + 1) u = Function.update (sweep near c fixed m u) m (val near c fixed m (sweep near c fixed m u)) := by
  unfold sweep
  rw [List.range_succ, List.foldl_append]
  rfl

theorem sweep_ge (near : Nat → List Nat) (c : Nat → Nat → K) (fixed : Nat → Option K) (u : Nat → K) (m i : Nat) (h : m ≤ i) : sweep near c fixed m u i = u i := by
  induction m with
  | zero => rfl
  | succ m ih => rw [sweep_succ, Function.update_of_ne (by omega), ih (by omega)]

theorem sweep_lt (near : Nat → List Nat) (c : Nat → Nat → K) (fixed : Nat → Option K) (u : Nat → K) (m i : Nat) (h : i < m) : sweep near c fixed m u i = sweep near c fixed (i + 1) u i := by
  induction m with
  | zero => omega
  | succ m ih =>
    by_cases hi : i = m
    · rw [hi]
    · rw [sweep_succ, Function.update_of_ne hi, ih (by omega)]

/-- Every particle sees the new values of those before it and the old ones of the others. -/
theorem sweep_eq (near : Nat → List Nat) (c : Nat → Nat → K) (fixed : Nat → Option K) (u : Nat → K) (m i : Nat) (h : i < m) :
    sweep near c fixed m u i = val near c fixed i fun j => if j < i then sweep near c fixed m u j else u j := by
  rw [sweep_lt near c fixed u m i h, sweep_succ, Function.update_self]
  congr 1
  funext j
  split
  · next hj => rw [sweep_lt near c fixed u i j hj, sweep_lt near c fixed u m j (by omega)]
  · next hj => exact sweep_ge near c fixed u i j (by omega)

section
variable {near : Nat → List Nat} {c : Nat → Nat → K} {fixed : Nat → Option K} {n : Nat}

/-- A relation of three fields is kept by a sweep if it is kept at every particle. -/
theorem sweep_three {f₁ f₂ f₃ : Nat → Option K} (P : K → K → K → Prop)
    (hval : ∀ i < n, ∀ x y z : Nat → K, (∀ j < n, P (x j) (y j) (z j)) → P (val near c f₁ i x) (val near c f₂ i y) (val near c f₃ i z)) (u v y : Nat → K) (h : ∀ j < n, P (u j) (v j) (y j)) :
    ∀ i < n, P (sweep near c f₁ n u i) (sweep near c f₂ n v i) (sweep near c f₃ n y i) := by
  intro i
  induction i using Nat.strong_induction_on with
  | _ i ih =>
    intro hi
    rw [sweep_eq _ _ _ _ _ _ hi, sweep_eq _ _ _ _ _ _ hi, sweep_eq _ _ _ _ _ _ hi]
    refine hval i hi _ _ _ fun j hj => ?_
    by_cases hji : j < i
    · simp only [if_pos hji]; exact ih j hji hj
    · simp only [if_neg hji]; exact h j hj

theorem val_none {i : Nat} (h : fixed i = none) (z : Nat → K) : val near c fixed i z = (1 - ((near i).map (c i)).sum) * z i + ((near i).map fun j => c i j * z j).sum := by
  unfold val
  rw [h]
  dsimp only
  have : ∀ l : List Nat, (l.map fun j => c i j * (z j - z i)).sum = (l.map fun j => c i j * z j).sum - (l.map (c i)).sum * z i := fun l => by
    induction l with
    | nil => simp
    | cons j l ih => simp only [List.map_cons, List.sum_cons, ih]; ring
  rw [this]
  ring

theorem sum_le_sum {l : List Nat} {f g : Nat → K} (h : ∀ j ∈ l, f j ≤ g j) : (l.map f).sum ≤ (l.map g).sum := List.sum_le_sum h

theorem sum_mul_const (l : List Nat) (f : Nat → K) (t : K) : (l.map fun j => f j * t).sum = (l.map f).sum * t := by
  induction l with
  | nil => simp
  | cons j l ih => simp only [List.map_cons, List.sum_cons, ih]; ring

/-- The conditions on the shares. -/
structure Shares (near : Nat → List Nat) (c : Nat → Nat → K) (n : Nat) : Prop where
  inside : ∀ i < n, ∀ j ∈ near i, j < n
  nonneg : ∀ i < n, ∀ j ∈ near i, 0 ≤ c i j
  sum : ∀ i < n, ((near i).map (c i)).sum ≤ 1

theorem val_some {i : Nat} {v : K} (h : fixed i = some v) (z : Nat → K) : val near c fixed i z = v := by unfold val; rw [h]

theorem sweep_bounds (g : Shares near c n) (lo hi : K) (hf : ∀ i < n, ∀ v, fixed i = some v → lo ≤ v ∧ v ≤ hi) (u : Nat → K) (h : ∀ j < n, lo ≤ u j ∧ u j ≤ hi) :
    ∀ i < n, lo ≤ sweep near c fixed n u i ∧ sweep near c fixed n u i ≤ hi :=
  sweep_three (f₁ := fixed) (f₂ := fixed) (f₃ := fixed) (fun x _ _ => lo ≤ x ∧ x ≤ hi) (fun i hi' z _ _ hz => by
    cases hp : fixed i with
    | some v =>
      rw [val_some hp]
      exact hf i hi' v hp
    | none =>
      rw [val_none hp]
      have h1 := sub_nonneg.2 (g.sum i hi')
      have h2 : (((near i).map fun j => c i j * lo).sum : K) ≤ ((near i).map fun j => c i j * z j).sum := sum_le_sum fun j hj => mul_le_mul_of_nonneg_left (hz j (g.inside i hi' j hj)).1 (g.nonneg i hi' j hj)
      have h3 : (((near i).map fun j => c i j * z j).sum : K) ≤ ((near i).map fun j => c i j * hi).sum := sum_le_sum fun j hj => mul_le_mul_of_nonneg_left (hz j (g.inside i hi' j hj)).2 (g.nonneg i hi' j hj)
      rw [sum_mul_const] at h2 h3
      have h4 := mul_le_mul_of_nonneg_left (hz i hi').1 h1
      have h5 := mul_le_mul_of_nonneg_left (hz i hi').2 h1
      constructor <;> linarith) u u u h

/-- Zero at the particles with prescribed values. -/
def still (fixed : Nat → Option K) (i : Nat) : Option K := (fixed i).map fun _ => 0

theorem abs_sum_le (l : List Nat) (f : Nat → K) : |(l.map f).sum| ≤ (l.map fun j => |f j|).sum := by
  induction l with
  | nil => simp
  | cons j l ih =>
    simp only [List.map_cons, List.sum_cons]
    exact (abs_add_le _ _).trans (by linarith)

theorem sum_sub (l : List Nat) (f g : Nat → K) : (l.map f).sum - (l.map g).sum = (l.map fun j => f j - g j).sum := by
  induction l with
  | nil => simp
  | cons j l ih => simp only [List.map_cons, List.sum_cons, ← ih]; ring

/-- The difference of two fields. -/
theorem sweep_diff (g : Shares near c n) (u v y : Nat → K) (h : ∀ j < n, |u j - v j| ≤ y j) :
    ∀ i < n, |sweep near c fixed n u i - sweep near c fixed n v i| ≤ sweep near c (still fixed) n y i :=
  sweep_three (f₁ := fixed) (f₂ := fixed) (f₃ := still fixed) (fun a b e => |a - b| ≤ e) (fun i hi a b e hz => by
    cases hp : fixed i with
    | some v =>
      rw [val_some hp, val_some hp, val_some (v := 0) (by rw [still, hp]; rfl), sub_self, abs_zero]
    | none =>
      rw [val_none hp, val_none hp, val_none (by rw [still, hp]; rfl)]
      have h1 := sub_nonneg.2 (g.sum i hi)
      have e1 : (1 - ((near i).map (c i)).sum) * a i + ((near i).map fun j => c i j * a j).sum - ((1 - ((near i).map (c i)).sum) * b i + ((near i).map fun j => c i j * b j).sum) =
          (1 - ((near i).map (c i)).sum) * (a i - b i) + ((near i).map fun j => c i j * a j - c i j * b j).sum := by
        rw [← sum_sub]
        ring
      rw [e1]
      refine (abs_add_le _ _).trans (add_le_add ?_ ?_)
      · rw [abs_mul, abs_of_nonneg h1]
        exact mul_le_mul_of_nonneg_left (hz i hi) h1
      · refine (abs_sum_le _ _).trans (sum_le_sum fun j hj => ?_)
        rw [← mul_sub, abs_mul, abs_of_nonneg (g.nonneg i hi j hj)]
        exact mul_le_mul_of_nonneg_left (hz j (g.inside i hi j hj)) (g.nonneg i hi j hj)) u v y h

/-- Larger values stay larger, and zero prescribed values keep multiples. -/
theorem sweep_scale (g : Shares near c n) (q : K) (u v : Nat → K) (h : ∀ j < n, u j ≤ q * v j) : ∀ i < n, sweep near c (still fixed) n u i ≤ q * sweep near c (still fixed) n v i :=
  sweep_three (f₁ := still fixed) (f₂ := still fixed) (f₃ := still fixed) (fun a b _ => a ≤ q * b) (fun i hi a b _ hz => by
    cases hp : fixed i with
    | some v =>
      rw [val_some (v := 0) (by rw [still, hp]; rfl), val_some (v := 0) (by rw [still, hp]; rfl), mul_zero]
    | none =>
      rw [val_none (by rw [still, hp]; rfl), val_none (by rw [still, hp]; rfl)]
      have h1 := sub_nonneg.2 (g.sum i hi)
      have h2 := mul_le_mul_of_nonneg_left (hz i hi) h1
      have h3 : (((near i).map fun j => c i j * a j).sum : K) ≤ ((near i).map fun j => c i j * b j * q).sum := sum_le_sum fun j hj => by
        have := mul_le_mul_of_nonneg_left (hz j (g.inside i hi j hj)) (g.nonneg i hi j hj)
        linarith
      rw [sum_mul_const] at h3
      linarith) u v v h

theorem iter_scale (g : Shares near c n) (q : K) (k : Nat) : ∀ u v : Nat → K, (∀ j < n, u j ≤ q * v j) →
    ∀ i < n, (sweep near c (still fixed) n)^[k] u i ≤ q * (sweep near c (still fixed) n)^[k] v i := by
  induction k with
  | zero => exact fun u v h => h
  | succ k ih =>
    intro u v h
    rw [Function.iterate_succ_apply, Function.iterate_succ_apply]
    exact ih _ _ (sweep_scale g q u v h)

theorem iter_diff (g : Shares near c n) (k : Nat) : ∀ u v y : Nat → K, (∀ j < n, |u j - v j| ≤ y j) →
    ∀ i < n, |(sweep near c fixed n)^[k] u i - (sweep near c fixed n)^[k] v i| ≤ (sweep near c (still fixed) n)^[k] y i := by
  induction k with
  | zero => exact fun u v y h => h
  | succ k ih =>
    intro u v y h
    rw [Function.iterate_succ_apply, Function.iterate_succ_apply, Function.iterate_succ_apply]
    exact ih _ _ _ (sweep_diff g u v y h)

theorem iter_bounds (g : Shares near c n) (lo hi : K) (hf : ∀ i < n, ∀ v, fixed i = some v → lo ≤ v ∧ v ≤ hi) (k : Nat) : ∀ u : Nat → K, (∀ j < n, lo ≤ u j ∧ u j ≤ hi) →
    ∀ i < n, lo ≤ (sweep near c fixed n)^[k] u i ∧ (sweep near c fixed n)^[k] u i ≤ hi := by
  induction k with
  | zero => exact fun u h => h
  | succ k ih =>
    intro u h
    rw [Function.iterate_succ_apply]
    exact ih _ (sweep_bounds g lo hi hf u h)

/-- The sum over the neighbours when one of them is lower. -/
theorem sum_drop (l : List Nat) (a : Nat → K) (z : Nat → K) (j : Nat) (hj : j ∈ l) (δ : K) (ha : ∀ k ∈ l, 0 ≤ a k) (hz : ∀ k ∈ l, z k ≤ 1) (hδ : z j ≤ 1 - δ) :
    (l.map fun k => a k * z k).sum ≤ (l.map a).sum - a j * δ := by
  induction l with
  | nil => cases hj
  | cons k l ih =>
    simp only [List.map_cons, List.sum_cons]
    have h0 := mul_le_mul_of_nonneg_left (hz k (by simp)) (ha k (by simp))
    by_cases hk : k = j
    · subst hk
      have h1 := mul_le_mul_of_nonneg_left hδ (ha k (by simp))
      have h2 : ((l.map fun k => a k * z k).sum : K) ≤ (l.map a).sum := sum_le_sum fun i hi => by
        have := mul_le_mul_of_nonneg_left (hz i (by simp [hi])) (ha i (by simp [hi]))
        linarith
      linarith
    · have := ih (by simpa [Ne.symm hk] using hj) (fun i hi => ha i (by simp [hi])) (fun i hi => hz i (by simp [hi]))
      linarith

/-- With zero prescribed values, what every reached particle has left of one. -/
theorem reached_decay (g : Shares near c n) (i : Nat) (h : Reached near c fixed i) : i < n →
    ∃ (N : Nat) (δ : K), 0 < δ ∧ ∀ k, N ≤ k → (sweep near c (still fixed) n)^[k] (fun _ => 1) i ≤ 1 - δ := by
  have hone : ∀ k, ∀ i < n, (0 : K) ≤ (sweep near c (still fixed) n)^[k] (fun _ => 1) i ∧ (sweep near c (still fixed) n)^[k] (fun _ => (1 : K)) i ≤ 1 := fun k =>
    iter_bounds g 0 1 (fun i hi v hv => by
      unfold still at hv
      obtain ⟨w, -, rfl⟩ := Option.map_eq_some_iff.1 hv
      exact ⟨le_rfl, zero_le_one⟩) k _ fun _ _ => ⟨zero_le_one, le_rfl⟩
  induction h with
  | fixed i v h =>
    refine fun hi => ⟨1, 1, one_pos, fun k hk => ?_⟩
    obtain ⟨k, rfl⟩ : ∃ k', k = k' + 1 := ⟨k - 1, by omega⟩
    rw [Function.iterate_succ_apply', sweep_eq _ _ _ _ _ _ hi, val_some (v := 0) (by rw [still, h]; rfl), sub_self]
  | link i j hj hc _ ih =>
    intro hi
    obtain ⟨N, δ, hδ, hd⟩ := ih (g.inside i hi j hj)
    refine ⟨N + 1, min 1 (c i j * δ), lt_min one_pos (mul_pos hc hδ), fun k hk => ?_⟩
    obtain ⟨k, rfl⟩ : ∃ k', k = k' + 1 := ⟨k - 1, by omega⟩
    have hw := hone (k + 1)
    have hdk := hd (k + 1) (by omega)
    rw [Function.iterate_succ_apply'] at hw hdk ⊢
    rw [sweep_eq _ _ _ _ _ _ hi]
    cases hp : fixed i with
    | some v =>
      rw [val_some (v := 0) (by rw [still, hp]; rfl)]
      have := min_le_left 1 (c i j * δ)
      linarith
    | none =>
      rw [val_none (by rw [still, hp]; rfl)]
      have h1 := sub_nonneg.2 (g.sum i hi)
      have hz : ∀ m < n, (if m < i then sweep near c (still fixed) n ((sweep near c (still fixed) n)^[k] fun _ => 1) m else (sweep near c (still fixed) n)^[k] (fun _ => (1 : K)) m) ≤ 1 := fun m hm => by
        split
        · exact (hw m hm).2
        · exact (hone k m hm).2
      have h2 := sum_drop (near i) (c i) (fun m => if m < i then sweep near c (still fixed) n ((sweep near c (still fixed) n)^[k] fun _ => 1) m else (sweep near c (still fixed) n)^[k] (fun _ => (1 : K)) m) j hj δ
        (g.nonneg i hi) (fun m hm => hz m (g.inside i hi m hm)) (by
          split
          · exact hdk
          · exact hd k (by omega))
      have h3 := mul_le_mul_of_nonneg_left (hz i hi) h1
      have h4 := min_le_right 1 (c i j * δ)
      linarith

/-- If all particles are reached, a number of sweeps takes a part of all of them. -/
theorem all_decay (g : Shares near c n) (h : ∀ i < n, Reached near c fixed i) :
    ∃ (N : Nat) (q : K), 0 ≤ q ∧ q < 1 ∧ 0 < N ∧ ∀ i < n, (sweep near c (still fixed) n)^[N] (fun _ => 1) i ≤ q := by
  have key : ∀ m, m ≤ n → ∃ (N : Nat) (q : K), 0 ≤ q ∧ q < 1 ∧ ∀ k, N ≤ k → ∀ i < m, (sweep near c (still fixed) n)^[k] (fun _ => 1) i ≤ q := by
    intro m
    induction m with
    | zero => exact fun _ => ⟨0, 0, le_rfl, zero_lt_one, fun _ _ i hi => by omega⟩
    | succ m ih =>
      intro hm
      obtain ⟨N, q, h1, h2, h3⟩ := ih (by omega)
      obtain ⟨N', δ, hδ, h4⟩ := reached_decay g m (h m hm) hm
      refine ⟨max N N', max q (1 - δ), le_max_of_le_left h1, max_lt h2 (by linarith), fun k hk i hi => ?_⟩
      by_cases him : i = m
      · rw [him]; exact (h4 k (le_of_max_le_right hk)).trans (le_max_right _ _)
      · exact (h3 k (le_of_max_le_left hk) i (by omega)).trans (le_max_left _ _)
  obtain ⟨N, q, h1, h2, h3⟩ := key n le_rfl
  exact ⟨N + 1, q, h1, h2, by omega, fun i hi => h3 _ (by omega) i hi⟩

theorem power_decay (g : Shares near c n) (N : Nat) (q : K) (h : ∀ i < n, (sweep near c (still fixed) n)^[N] (fun _ => 1) i ≤ q) (hq : 0 ≤ q) :
    ∀ k, ∀ i < n, (sweep near c (still fixed) n)^[k * N] (fun _ => 1) i ≤ q ^ k := by
  intro k
  induction k with
  | zero => intro i _; simp
  | succ k ih =>
    intro i hi
    rw [Nat.succ_mul, Nat.add_comm, Function.iterate_add_apply]
    have := iter_scale (fixed := fixed) g (q ^ k) N ((sweep near c (still fixed) n)^[k * N] fun _ => 1) (fun _ => 1) (fun j hj => (ih j hj).trans (le_of_eq (mul_one _).symm)) i hi
    refine this.trans ?_
    rw [pow_succ]
    exact mul_le_mul_of_nonneg_left (h i hi) (pow_nonneg hq k)

end
end SphParticles
end ENigMA
