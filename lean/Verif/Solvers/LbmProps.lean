import Verif.Solvers.Lbm
import Mathlib.Algebra.Order.Ring.Rat
import Mathlib.Algebra.Field.Rat
import Mathlib.Algebra.CharZero.Defs
import Mathlib.Tactic.FieldSimp
import Mathlib.Tactic.Linarith
import Mathlib.Tactic.Ring
import Mathlib.Tactic.FinCases

/-!
# C48: the lattice Boltzmann step conserves mass and momentum
-/

set_option linter.unusedSectionVars false

namespace ENigMA
open Lbm

namespace Lbm

variable {K : Type} [Field K]

/-- Mass, and the two components of momentum, of nine populations. -/
def mass (f : Fin 9 → K) : K := f 0 + f 1 + f 2 + f 3 + f 4 + f 5 + f 6 + f 7 + f 8

/-- Momentum along `x`: the directions 1, 5, 8 go right and 3, 6, 7 left. -/
def momX (f : Fin 9 → K) : K := f 1 + f 5 + f 8 - f 3 - f 6 - f 7

/-- Momentum along `y`: the directions 2, 5, 6 go up and 4, 7, 8 down. -/
def momY (f : Fin 9 → K) : K := f 2 + f 5 + f 6 - f 4 - f 7 - f 8

theorem sum9 (f : Fin 9 → K) : ∑ k, f k = mass f := by
  simp [Fin.sum_univ_succ, mass, Fin.succ]; ring

theorem sum9x (f : Fin 9 → K) : ∑ k, ((e k).1 : K) * f k = momX f := by
  simp [Fin.sum_univ_succ, momX, e, Fin.succ]; ring

theorem sum9y (f : Fin 9 → K) : ∑ k, ((e k).2 : K) * f k = momY f := by
  simp [Fin.sum_univ_succ, momY, e, Fin.succ]; ring

end Lbm

variable {K : Type} [Field K] [CharZero K]

/-- C48: the nine equilibrium populations sum to the density, their first moment is density times velocity, and their second moment is the pressure
`rho / 3` plus `rho u u`. -/
theorem C48_equilibrium (rho : K) (u : K × K) :
    mass (fun k => feq2 k rho u) = rho ∧ momX (fun k => feq2 k rho u) = rho * u.1 ∧ momY (fun k => feq2 k rho u) = rho * u.2 ∧
    (∑ k, ((e k).1 : K) * (e k).1 * feq2 k rho u = rho / 3 + rho * u.1 * u.1) ∧
    (∑ k, ((e k).1 : K) * (e k).2 * feq2 k rho u = rho * u.1 * u.2) ∧
    (∑ k, ((e k).2 : K) * (e k).2 * feq2 k rho u = rho / 3 + rho * u.2 * u.2) := by
  refine ⟨?_, ?_, ?_, ?_, ?_, ?_⟩
  · simp [mass, feq2, w, e]; field_simp; ring
  · simp [momX, feq2, w, e]; field_simp; ring
  · simp [momY, feq2, w, e]; field_simp; ring
  · simp [Fin.sum_univ_succ, feq2, w, e, Fin.succ]; field_simp; ring
  · simp [Fin.sum_univ_succ, feq2, w, e, Fin.succ]; field_simp; ring
  · simp [Fin.sum_univ_succ, feq2, w, e, Fin.succ]; field_simp; ring

/-- C48: relaxation towards the equilibrium of the node's own density and velocity conserves mass and momentum, for every relaxation time. -/
theorem C48_collision (tau rho : K) (u : K × K) (f : Fin 9 → K) (h0 : mass f = rho) (hx : momX f = rho * u.1) (hy : momY f = rho * u.2) :
    mass (collide tau rho u f) = mass f ∧ momX (collide tau rho u f) = momX f ∧ momY (collide tau rho u f) = momY f := by
  obtain ⟨e0, ex, ey, -⟩ := C48_equilibrium rho u
  refine ⟨?_, ?_, ?_⟩
  · have : mass (collide tau rho u f) = mass f + (mass (fun k => feq2 k rho u) - mass f) / tau := by simp only [mass, collide]; ring
    rw [this, e0, h0]; simp
  · have : momX (collide tau rho u f) = momX f + (momX (fun k => feq2 k rho u) - momX f) / tau := by simp only [momX, collide]; ring
    rw [this, ex, hx]; simp
  · have : momY (collide tau rho u f) = momY f + (momY (fun k => feq2 k rho u) - momY f) / tau := by simp only [momY, collide]; ring
    rw [this, ey, hy]; simp

/-- Non-vacuity: unequal populations with their own density and velocity. -/
example : let f : Fin 9 → ℚ := fun k => k.val + 1
    mass f = 45 ∧ momX f = 45 * (-2 / 45) ∧ momY f = 45 * (-2 / 15) := by decide +kernel

/-- C48: bounce-back at a marked node conserves mass and reverses momentum; it changes no other node. -/
theorem C48_bounce (s : State K) (i j : Int) :
    (s.inside i j → s.B i j = 1 → mass ((bounce s).F i j) = mass (s.F i j) ∧ momX ((bounce s).F i j) = -momX (s.F i j) ∧
      momY ((bounce s).F i j) = -momY (s.F i j)) ∧
    (s.B i j ≠ 1 → (bounce s).F i j = s.F i j) := by
  refine ⟨fun hi hb => ?_, fun hb => ?_⟩
  · have : (bounce s).F i j = fun k => s.F i j (op k) := by funext k; simp [bounce, hi, hb]
    rw [this]
    refine ⟨?_, ?_, ?_⟩ <;> simp only [mass, momX, momY, op] <;> ring
  · funext k; simp [bounce, hb]

example : let s : State ℚ := { (new 2 2 : State ℚ) with B := fun _ _ => 1, F := fun _ _ k => k.val }
    s.inside 1 1 ∧ s.B 1 1 = 1 ∧ momX ((bounce s).F 1 1) = 2 := by decide +kernel

namespace Lbm

/-- The density and the velocity of a node are those of its populations. -/
structure Cons (s : State K) (i j : Int) : Prop where
  mass : mass (s.f i j) = s.rho i j
  momX : momX (s.f i j) = s.rho i j * (s.u i j).1
  momY : momY (s.f i j) = s.rho i j * (s.u i j).2

/-- The populations an unmarked inner node receives. -/
theorem evolve_f_inner (tau : K) (s : State K) {i j : Int} (h : s.inner i j) (k : Fin 9) :
    (evolve tau s).f i j k = (bounce (stream tau s)).F i j k := by
  have h1 : ¬(0 ≤ i ∧ i ≤ (s.nx : Int) ∧ j = s.ny) := by
    rintro ⟨_, _, rfl⟩; exact absurd h.2.2.2 (lt_irrefl _)
  have h' : (bounce (stream tau s)).inner i j := h
  exact (if_neg h1).trans (if_pos h')

theorem evolve_rho_inner (tau : K) (s : State K) {i j : Int} (h : s.inner i j) :
    (evolve tau s).rho i j = mass ((evolve tau s).f i j) := by
  have h1 : ¬(0 ≤ i ∧ i ≤ (s.nx : Int) ∧ j = s.ny) := by
    rintro ⟨_, _, rfl⟩; exact absurd h.2.2.2 (lt_irrefl _)
  have h' : (bounce (stream tau s)).inner i j := h
  rw [show (evolve tau s).f i j = (bounce (stream tau s)).F i j from funext (evolve_f_inner tau s h), ← sum9]
  exact (if_neg h1).trans (if_pos h')

theorem evolve_u_inner (tau : K) (s : State K) {i j : Int} (h : s.inner i j) :
    (evolve tau s).u i j = (momX ((evolve tau s).f i j) / mass ((evolve tau s).f i j), momY ((evolve tau s).f i j) / mass ((evolve tau s).f i j)) := by
  have h' : (bounce (stream tau s)).inner i j := h
  rw [show (evolve tau s).f i j = (bounce (stream tau s)).F i j from funext (evolve_f_inner tau s h), ← sum9, ← sum9x, ← sum9y]
  exact if_pos h'

theorem evolve_u_outer (tau : K) (s : State K) {i j : Int} (h : ¬s.inner i j) : (evolve tau s).u i j = s.u i j := by
  have h' : ¬(bounce (stream tau s)).inner i j := h
  exact if_neg h'

theorem evolve_rho_wall (tau : K) (s : State K) {i j : Int} (h : ¬s.inner i j) (hj : j ≠ s.ny) : (evolve tau s).rho i j = s.rho i j := by
  have h' : ¬(bounce (stream tau s)).inner i j := h
  exact (if_neg (fun t => hj t.2.2)).trans (if_neg h')

theorem evolve_f_wall (tau : K) (s : State K) {i j : Int} (h : ¬s.inner i j) (hj : j ≠ s.ny) : (evolve tau s).f i j = s.f i j := by
  have h' : ¬(bounce (stream tau s)).inner i j := h
  funext k
  exact (if_neg (fun t => hj t.2.2)).trans (if_neg h')

/-- The upper row, in terms of the row below it after the step. -/
theorem evolve_top (tau : K) (s : State K) {i : Int} (h0 : 0 ≤ i) (h1 : i ≤ s.nx) :
    (evolve tau s).rho i s.ny = (evolve tau s).rho i (s.ny - 1) ∧
    ∀ k, (evolve tau s).f i s.ny k = feq2 k ((evolve tau s).rho i (s.ny - 1)) ((evolve tau s).u i s.ny) + (evolve tau s).f i (s.ny - 1) k -
      feq2 k ((evolve tau s).rho i (s.ny - 1)) ((evolve tau s).u i (s.ny - 1)) := by
  have hb : ¬(0 ≤ i ∧ i ≤ (s.nx : Int) ∧ (s.ny : Int) - 1 = s.ny) := by omega
  have e1 : (evolve tau s).rho i (s.ny - 1) = (macros (bounce (stream tau s))).rho i (s.ny - 1) := by
    exact if_neg hb
  have e2 : (evolve tau s).f i (s.ny - 1) = (macros (bounce (stream tau s))).f i (s.ny - 1) := by
    funext k
    exact if_neg hb
  refine ⟨?_, fun k => ?_⟩
  · rw [e1]
    exact if_pos ⟨h0, h1, rfl⟩
  · rw [e1, e2]
    exact if_pos ⟨h0, h1, rfl⟩

end Lbm

/-- C48: after every step the density of an inner node is the sum of its populations and, when it is not zero, density times velocity is their first moment,
whatever the state before the step. -/
theorem C48_step (tau : K) (s : State K) (i j : Int) (h : s.inner i j) :
    (evolve tau s).rho i j = mass ((evolve tau s).f i j) ∧ ((evolve tau s).rho i j ≠ 0 → Cons (evolve tau s) i j) := by
  refine ⟨evolve_rho_inner tau s h, fun hr => ?_⟩
  have hm := evolve_rho_inner tau s h
  have hu := evolve_u_inner tau s h
  rw [hm] at hr
  refine ⟨hm.symm, ?_, ?_⟩
  · rw [hu, hm]; field_simp
  · rw [hu, hm]; field_simp

/-- C48: streaming loses nothing: when the eight neighbours of a node are inner nodes and neither they nor the node are marked for bounce-back, the populations
that leave the node in a step arrive at the neighbours, and together they carry the node's mass and momentum, for every relaxation time. -/
theorem C48_streaming (tau : K) (s : State K) (i j : Int) (hc : Cons s i j)
    (hn : ∀ k, s.inner (i + (e k).1) (j + (e k).2)) (hb : ∀ k, s.B (i + (e k).1) (j + (e k).2) ≠ 1) :
    let g := fun k => (evolve tau s).f (i + (e k).1) (j + (e k).2) k
    mass g = mass (s.f i j) ∧ momX g = momX (s.f i j) ∧ momY g = momY (s.f i j) := by
  intro g
  have : g = collide tau (s.rho i j) (s.u i j) (s.f i j) := by
    funext k
    have hi' : (stream tau s).inner (i + (e k).1) (j + (e k).2) := hn k
    show (evolve tau s).f _ _ k = _
    rw [evolve_f_inner tau s (hn k)]
    rw [(C48_bounce (stream tau s) _ _).2 (hb k)]
    show (if _ then _ else _) = _
    rw [if_pos (hn k)]
    simp
  rw [this]
  exact C48_collision tau _ _ _ hc.mass hc.momX hc.momY

/-- Non-vacuity: the state after `init()` on a grid of four by four cells. -/
example : let s : State ℚ := init (new 4 4)
    (∀ k, s.inner (2 + (e k).1) (2 + (e k).2) ∧ s.B (2 + (e k).1) (2 + (e k).2) ≠ 1) ∧
    mass (s.f 2 2) = s.rho 2 2 ∧ momX (s.f 2 2) = s.rho 2 2 * (s.u 2 2).1 := by decide +kernel

/-- C48: the velocity of the nodes on the four sides is never changed by a step, so the lid keeps the velocity it was given, after any number of steps. -/
theorem C48_lid (taus : List K) (s : State K) (i j : Int) (h : ¬s.inner i j) :
    (taus.foldl (fun s t => evolve t s) s).u i j = s.u i j := by
  induction taus generalizing s with
  | nil => rfl
  | cons t ts ih => rw [List.foldl_cons, ih (evolve t s) h, evolve_u_outer t s h]

example : ¬(new 4 4 : State ℚ).inner 2 4 := by decide

/-- C48: the fluid at rest stays at rest: after `init()` and any marking of nodes for bounce-back, any number of steps with any relaxation times leaves
density one, velocity zero and the equilibrium populations at every node. -/
theorem C48_rest (taus : List K) (s0 : State K) (hy : 1 ≤ s0.ny) (marks : List (Int × Int × Int)) :
    let s := marks.foldl (fun s m => setBoundary s m.1 m.2.1 m.2.2) (init s0)
    let t := taus.foldl (fun s t => evolve t s) s
    ∀ i j, s0.inside i j → t.rho i j = 1 ∧ t.u i j = (0, 0) ∧ ∀ k, t.f i j k = w k := by
  intro s t
  have wf : ∀ k, feq2 k (1 : K) (0, 0) = w k := by intro k; simp [feq2]
  have wop : ∀ k, (w (op k) : K) = w k := by intro k; fin_cases k <;> rfl
  have wsum : mass (w : Fin 9 → K) = 1 := by simp only [mass, w]; norm_num
  have wx : momX (w : Fin 9 → K) = 0 := by simp only [momX, w]; ring
  have wy : momY (w : Fin 9 → K) = 0 := by simp only [momY, w]; ring
  let Rest : State K → Prop := fun s => s.nx = s0.nx ∧ s.ny = s0.ny ∧
    ∀ i j, s0.inside i j → s.rho i j = 1 ∧ s.u i j = (0, 0) ∧ ∀ k, s.f i j k = w k
  have hmarks : ∀ (l : List (Int × Int × Int)) (s : State K), Rest s → Rest (l.foldl (fun s m => setBoundary s m.1 m.2.1 m.2.2) s) := by
    intro l
    induction l with
    | nil => exact fun s h => h
    | cons m l ih => exact fun s h => ih _ h
  have hinit : Rest (init s0) := by
    refine ⟨rfl, rfl, fun i j h => ?_⟩
    refine ⟨?_, ?_, fun k => ?_⟩
    · show (if _ then _ else _) = _; rw [if_pos h]
    · show (if _ then _ else _) = _; rw [if_pos h]
    · show (if _ then _ else _) = _; rw [if_pos h, wf]
  have hstep : ∀ (tau : K) (s : State K), Rest s → Rest (evolve tau s) := by
    rintro tau s ⟨hx, hy', hr⟩
    have hinner : ∀ i j, s.inner i j → (evolve tau s).f i j = w := by
      intro i j h
      funext k
      rw [evolve_f_inner tau s h]
      have hs : ∀ k, (stream tau s).F i j k = w k := by
        intro k
        show (if _ then _ else _) = _
        rw [if_pos h]
        have hin : s0.inside (i - (e k).1) (j - (e k).2) := by
          obtain ⟨a, b, c, d⟩ := h
          rw [hx] at b; rw [hy'] at d
          have : -1 ≤ (e k).1 ∧ (e k).1 ≤ 1 ∧ -1 ≤ (e k).2 ∧ (e k).2 ≤ 1 := by fin_cases k <;> decide
          refine ⟨?_, ?_, ?_, ?_⟩ <;> omega
        obtain ⟨r1, r2, r3⟩ := hr _ _ hin
        simp only [collide, r1, r2, r3, wf]
        simp
      show (if _ then _ else _) = _
      split_ifs
      · rw [hs, wop]
      · rw [hs]
    have hlow : ∀ i j, s0.inside i j → j ≠ s.ny → (evolve tau s).rho i j = 1 ∧ (evolve tau s).u i j = (0, 0) ∧ ∀ k, (evolve tau s).f i j k = w k := by
      intro i j h hj
      by_cases hi : s.inner i j
      · have hf := hinner i j hi
        refine ⟨?_, ?_, fun k => by rw [hf]⟩
        · rw [evolve_rho_inner tau s hi, hf, wsum]
        · rw [evolve_u_inner tau s hi, hf, wsum, wx, wy]; simp
      · obtain ⟨r1, r2, r3⟩ := hr i j h
        refine ⟨?_, ?_, fun k => ?_⟩
        · rw [evolve_rho_wall tau s hi hj, r1]
        · rw [evolve_u_outer tau s hi, r2]
        · rw [evolve_f_wall tau s hi hj, r3]
    refine ⟨hx, hy', fun i j h => ?_⟩
    by_cases hj : j = s.ny
    · subst hj
      have hi : ¬s.inner i s.ny := fun h => absurd h.2.2.2 (lt_irrefl _)
      have hu : (evolve tau s).u i s.ny = (0, 0) := by rw [evolve_u_outer tau s hi, (hr _ _ h).2.1]
      have hin : s0.inside i (s.ny - 1) := by
        obtain ⟨a, b, c, d⟩ := h
        refine ⟨a, b, ?_, ?_⟩ <;> omega
      obtain ⟨r1, r2, r3⟩ := hlow _ _ hin (by omega)
      obtain ⟨t1, t2⟩ := evolve_top tau s h.1 (by rw [hx]; exact h.2.1)
      refine ⟨by rw [t1, r1], hu, fun k => ?_⟩
      rw [t2, r1, r2, r3, hu]; ring
    · exact hlow i j h hj
  have hrun : ∀ (l : List K) (s : State K), Rest s → Rest (l.foldl (fun s t => evolve t s) s) := by
    intro l
    induction l with
    | nil => exact fun s h => h
    | cons m l ih => exact fun s h => ih _ (hstep m s h)
  exact (hrun taus s (hmarks marks _ hinit)).2.2

/-- Non-vacuity: the conclusion at a node, after two steps of different relaxation times with a wall node marked. -/
example : (new 4 3 : State ℚ).inside 2 2 ∧ 1 ≤ (new 4 3 : State ℚ).ny := by decide

/-- C48, the whole solver: start from a state that is consistent below the lid (as `init()` leaves it, whatever velocity the lid is then given), make one or
more steps with any relaxation times, during which no density becomes zero. Then at every node, the lid included, the density is the sum of the populations
and density times velocity their first moment. -/
theorem C48_history (taus : List K) (hne : taus ≠ []) (s : State K) (hy : 1 ≤ s.ny)
    (hs : ∀ i j, s.inside i j → j < s.ny → Cons s i j)
    (hz : ∀ l, l <+: taus → l ≠ [] → ∀ i j, s.inner i j → (l.foldl (fun s t => evolve t s) s).rho i j ≠ 0) :
    ∀ i j, s.inside i j → Cons (taus.foldl (fun s t => evolve t s) s) i j := by
  have hstep : ∀ (tau : K) (s' : State K), s'.nx = s.nx → s'.ny = s.ny → (∀ i j, s.inside i j → j < s.ny → Cons s' i j) →
      (∀ i j, s.inner i j → (evolve tau s').rho i j ≠ 0) → ∀ i j, s.inside i j → Cons (evolve tau s') i j := by
    intro tau s' hx hy' hc hz
    have hlow : ∀ i j, s.inside i j → j < s.ny → Cons (evolve tau s') i j := by
      intro i j h hj
      by_cases hi : s'.inner i j
      · exact (C48_step tau s' i j hi).2 (hz i j ⟨hi.1, hx ▸ hi.2.1, hi.2.2.1, hj⟩)
      · have hj' : j ≠ s'.ny := by rw [hy']; omega
        obtain ⟨a, b, c⟩ := hc i j h hj
        refine ⟨?_, ?_, ?_⟩
        · rw [evolve_f_wall tau s' hi hj', evolve_rho_wall tau s' hi hj', a]
        · rw [evolve_f_wall tau s' hi hj', evolve_rho_wall tau s' hi hj', evolve_u_outer tau s' hi, b]
        · rw [evolve_f_wall tau s' hi hj', evolve_rho_wall tau s' hi hj', evolve_u_outer tau s' hi, c]
    intro i j h
    by_cases hj : j < s.ny
    · exact hlow i j h hj
    · have hj' : j = s'.ny := by have := h.2.2.2; omega
      subst hj'
      have hin : s.inside i (s'.ny - 1) := by
        obtain ⟨a, b, c, d⟩ := h
        refine ⟨a, b, ?_, ?_⟩ <;> omega
      obtain ⟨a, b, c⟩ := hlow _ _ hin (by omega)
      obtain ⟨t1, t2⟩ := evolve_top tau s' h.1 (by rw [hx]; exact h.2.1)
      have e1 := C48_equilibrium ((evolve tau s').rho i (s'.ny - 1)) ((evolve tau s').u i s'.ny)
      have e2 := C48_equilibrium ((evolve tau s').rho i (s'.ny - 1)) ((evolve tau s').u i (s'.ny - 1))
      have hf : (evolve tau s').f i s'.ny = fun k => feq2 k ((evolve tau s').rho i (s'.ny - 1)) ((evolve tau s').u i s'.ny) +
          (evolve tau s').f i (s'.ny - 1) k - feq2 k ((evolve tau s').rho i (s'.ny - 1)) ((evolve tau s').u i (s'.ny - 1)) := funext t2
      have lin0 : ∀ a b c : Fin 9 → K, mass (fun k => a k + b k - c k) = mass a + mass b - mass c := by
        intro a b c; simp only [mass]; ring
      have linX : ∀ a b c : Fin 9 → K, momX (fun k => a k + b k - c k) = momX a + momX b - momX c := by
        intro a b c; simp only [momX]; ring
      have linY : ∀ a b c : Fin 9 → K, momY (fun k => a k + b k - c k) = momY a + momY b - momY c := by
        intro a b c; simp only [momY]; ring
      refine ⟨?_, ?_, ?_⟩
      · rw [hf, t1, lin0, e1.1, e2.1, a]; ring
      · rw [hf, t1, linX, e1.2.1, e2.2.1, b]; ring
      · rw [hf, t1, linY, e1.2.2.1, e2.2.2.1, c]; ring
  have hrun : ∀ (l p : List K), p ++ l = taus → (p ++ l ≠ []) →
      let s' := p.foldl (fun s t => evolve t s) s
      s'.nx = s.nx → s'.ny = s.ny → (∀ i j, s.inside i j → j < s.ny → Cons s' i j) → (l = [] → ∀ i j, s.inside i j → Cons s' i j) →
      ∀ i j, s.inside i j → Cons (l.foldl (fun s t => evolve t s) s') i j := by
    intro l
    induction l with
    | nil => intro p _ _ s' _ _ _ h; exact h rfl
    | cons t l ih =>
      intro p hp hn s' hx hy' hc _
      have hfold : (p ++ [t]).foldl (fun s t => evolve t s) s = evolve t s' := by
        show _ = evolve t (p.foldl (fun s t => evolve t s) s)
        rw [List.foldl_append]; rfl
      have hall : ∀ i j, s.inside i j → Cons (evolve t s') i j := by
        refine hstep t s' hx hy' hc fun i j h => ?_
        have := hz (p ++ [t]) ⟨l, by rw [← hp]; simp⟩ (by simp) i j h
        rw [hfold] at this
        exact this
      have := ih (p ++ [t]) (by rw [← hp]; simp) (by simp)
      rw [hfold] at this
      exact this hx hy' (fun i j h _ => hall i j h) (fun _ => hall)
  exact hrun taus [] rfl (by simpa using hne) rfl rfl hs (fun h => absurd h hne)

/-- Non-vacuity: the driven cavity of the examples, on two by two cells: after `init()` the lid moves and one step is made. -/
example : let s : State ℚ := setVelocity (init (new 2 2)) 1 2 0 (1 / 10)
    (∀ i ∈ [(0 : Int), 1, 2], ∀ j ∈ [(0 : Int), 1], mass (s.f i j) = s.rho i j ∧ momX (s.f i j) = s.rho i j * (s.u i j).1) ∧
    s.inner 1 1 ∧ (evolve (3 / 5) s).rho 1 1 ≠ 0 ∧ (evolve (3 / 5) s).u 1 2 = (1 / 10, 0) := by decide +kernel

end ENigMA
