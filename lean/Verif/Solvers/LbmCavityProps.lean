import Verif.Solvers.LbmCavity

/-!
# C160: the mass of the fluid in the lid-driven cavity
-/

set_option linter.unusedSectionVars false
set_option autoImplicit false

namespace ENigMA
open Lbm

namespace Lbm
variable {K : Type} [Field K] [CharZero K]

theorem mem_nodes (s : State K) (i j : Int) : (i, j) ∈ s.nodes ↔ s.inner i j := by
  unfold State.nodes State.inner
  rw [Finset.mem_product, Finset.mem_Icc, Finset.mem_Icc]
  simp only
  omega

theorem evolve_sum (tau : K) (s : State K) (i j : Int) (h : s.inner i j) : mass ((evolve tau s).f i j) = ∑ k, sent tau s (i - (e k).1) (j - (e k).2) k := by
  have hF : (evolve tau s).f i j = (bounce (stream tau s)).F i j := funext (evolve_f_inner tau s h)
  have hS : ∀ k, (stream tau s).F i j k = sent tau s (i - (e k).1) (j - (e k).2) k := fun k => if_pos h
  rw [hF]
  by_cases hb : (stream tau s).inside i j ∧ (stream tau s).B i j = 1
  · have : (bounce (stream tau s)).F i j = fun k => (stream tau s).F i j (op k) := funext fun k => if_pos hb
    rw [this, Finset.sum_congr rfl fun k _ => (hS k).symm, sum9]
    simp only [mass, op]
    ring
  · have : (bounce (stream tau s)).F i j = (stream tau s).F i j := funext fun k => if_neg hb
    rw [this, Finset.sum_congr rfl fun k _ => (hS k).symm, sum9]

theorem evolve_nodes (tau : K) (s : State K) : (evolve tau s).nodes = s.nodes := rfl

/-- Inside, what leaves a node arrives at another one. -/
theorem shift (s : State K) (a b : Int) (g : Int × Int → K) :
    ∑ p ∈ s.nodes.filter (fun p => (p.1 - a, p.2 - b) ∈ s.nodes), g (p.1 - a, p.2 - b) = ∑ p ∈ s.nodes.filter (fun p => (p.1 + a, p.2 + b) ∈ s.nodes), g p := by
  refine Finset.sum_bij' (fun p _ => (p.1 - a, p.2 - b)) (fun p _ => (p.1 + a, p.2 + b)) ?_ ?_ ?_ ?_ ?_
  · intro p hp
    rw [Finset.mem_filter] at hp ⊢
    refine ⟨hp.2, ?_⟩
    simpa using hp.1
  · intro p hp
    rw [Finset.mem_filter] at hp ⊢
    refine ⟨hp.2, ?_⟩
    simpa using hp.1
  · intro p _; simp
  · intro p _; simp
  · intro p _; rfl

end Lbm

variable {K : Type} [Field K] [CharZero K]

/-- **C160, one step.** The mass of the fluid changes by what comes in from the border and what goes out to it. -/
theorem C160_step (tau : K) (s : State K) (hc : ∀ i j, s.inner i j → Cons s i j) : fluid (evolve tau s) = fluid s + (inflow tau s - outflow tau s) := by
  have h1 : fluid (evolve tau s) = ∑ k, ∑ p ∈ s.nodes, sent tau s (p.1 - (e k).1) (p.2 - (e k).2) k := by
    unfold fluid
    rw [evolve_nodes, Finset.sum_comm]
    exact Finset.sum_congr rfl fun p hp => evolve_sum tau s p.1 p.2 ((mem_nodes s p.1 p.2).1 hp)
  have h2 : fluid s = ∑ k, ∑ p ∈ s.nodes, sent tau s p.1 p.2 k := by
    unfold fluid
    rw [Finset.sum_comm]
    refine Finset.sum_congr rfl fun p hp => ?_
    have c := hc p.1 p.2 ((mem_nodes s p.1 p.2).1 hp)
    rw [sum9]
    exact ((C48_collision tau (s.rho p.1 p.2) (s.u p.1 p.2) (s.f p.1 p.2) c.mass c.momX c.momY).1).symm
  rw [h1, h2, inflow, outflow, ← Finset.sum_sub_distrib, ← Finset.sum_add_distrib]
  refine Finset.sum_congr rfl fun k _ => ?_
  have h3 := shift s (e k).1 (e k).2 fun p => sent tau s p.1 p.2 k
  rw [← Finset.sum_filter_add_sum_filter_not s.nodes (fun p => (p.1 - (e k).1, p.2 - (e k).2) ∈ s.nodes) fun p => sent tau s (p.1 - (e k).1) (p.2 - (e k).2) k,
    ← Finset.sum_filter_add_sum_filter_not s.nodes (fun p => (p.1 + (e k).1, p.2 + (e k).2) ∈ s.nodes) fun p => sent tau s p.1 p.2 k, h3]
  ring

/-- **C160, history.** After any number of steps in which no density became zero the mass is what it was plus all that came in, less all that went out. -/
theorem C160_history (taus : List K) (s : State K) (hc : ∀ i j, s.inner i j → Cons s i j)
    (hz : ∀ l, l <+: taus → l ≠ [] → ∀ i j, s.inner i j → (steps l s).rho i j ≠ 0) : fluid (steps taus s) = fluid s + gain taus s := by
  induction taus generalizing s with
  | nil => simp [steps, gain]
  | cons t ts ih =>
    have hn : ∀ i j, (evolve t s).inner i j ↔ s.inner i j := fun i j => Iff.rfl
    have h1 : ∀ i j, (evolve t s).inner i j → Cons (evolve t s) i j := fun i j h =>
      (C48_step t s i j h).2 (hz [t] (List.cons_prefix_cons.2 ⟨rfl, List.nil_prefix⟩) (by simp) i j h)
    have h2 := ih (evolve t s) h1 fun l hl hne i j h => hz (t :: l) (List.cons_prefix_cons.2 ⟨rfl, hl⟩) (by simp) i j h
    show fluid (steps ts (evolve t s)) = _
    rw [h2, C160_step t s hc, gain]
    ring

/-- **C160, the walls do nothing.** Marking nodes of the border as walls changes no velocity, no density and no population, in no step. -/
theorem C160_walls_ignored (taus : List K) (s : State K) (marks : List (Int × Int × Int)) (hm : ∀ m ∈ marks, ¬ s.inner m.1 m.2.1) :
    Same (steps taus (marks.foldl (fun s m => setBoundary s m.1 m.2.1 m.2.2) s)) (steps taus s) := by
  have key : ∀ (taus : List K) (s t : State K), Same s t → (∀ i j, s.inner i j → s.B i j = t.B i j) → Same (steps taus s) (steps taus t) := by
    intro taus
    induction taus with
    | nil => intro s t h _; exact h
    | cons a ts ih =>
      intro s t h hB
      obtain ⟨h1, h2, h3, h4, h5⟩ := h
      refine ih (evolve a s) (evolve a t) ?_ hB
      have hin : ∀ i j, s.inner i j ↔ t.inner i j := fun i j => by unfold State.inner; rw [h1, h2]
      have hF : ∀ i j, s.inner i j → (bounce (stream a s)).F i j = (bounce (stream a t)).F i j := by
        intro i j hi
        have hside : (stream a s).inside i j ∧ (stream a s).B i j = 1 ↔ (stream a t).inside i j ∧ (stream a t).B i j = 1 := by
          show s.inside i j ∧ s.B i j = 1 ↔ t.inside i j ∧ t.B i j = 1
          unfold State.inside
          rw [h1, h2, hB i j hi]
        have hS : (stream a s).F i j = (stream a t).F i j := by
          funext k
          show (if s.inner i j then _ else _) = (if t.inner i j then _ else _)
          rw [if_pos hi, if_pos ((hin i j).1 hi), h3, h4, h5]
        funext k
        show (if _ then (stream a s).F i j (op k) else (stream a s).F i j k) = (if _ then (stream a t).F i j (op k) else (stream a t).F i j k)
        rw [hS]
        exact if_congr hside rfl rfl
      have mu : (macros (bounce (stream a s))).u = (macros (bounce (stream a t))).u := by
        funext i j
        show (if s.inner i j then _ else s.u i j) = (if t.inner i j then _ else t.u i j)
        by_cases hi : s.inner i j
        · rw [if_pos hi, if_pos ((hin i j).1 hi), hF i j hi]
        · rw [if_neg hi, if_neg fun h => hi ((hin i j).2 h), h3]
      have mr : (macros (bounce (stream a s))).rho = (macros (bounce (stream a t))).rho := by
        funext i j
        show (if s.inner i j then _ else s.rho i j) = (if t.inner i j then _ else t.rho i j)
        by_cases hi : s.inner i j
        · rw [if_pos hi, if_pos ((hin i j).1 hi), hF i j hi]
        · rw [if_neg hi, if_neg fun h => hi ((hin i j).2 h), h4]
      have mf : (macros (bounce (stream a s))).f = (macros (bounce (stream a t))).f := by
        funext i j k
        show (if s.inner i j then _ else s.f i j k) = (if t.inner i j then _ else t.f i j k)
        by_cases hi : s.inner i j
        · rw [if_pos hi, if_pos ((hin i j).1 hi), hF i j hi]
        · rw [if_neg hi, if_neg fun h => hi ((hin i j).2 h), h5]
      have mx : (macros (bounce (stream a s))).nx = (macros (bounce (stream a t))).nx := h1
      have my : (macros (bounce (stream a s))).ny = (macros (bounce (stream a t))).ny := h2
      refine ⟨h1, h2, mu, ?_, ?_⟩
      · unfold evolve upper
        dsimp only
        rw [mr, mx, my]
      · unfold evolve upper
        dsimp only
        rw [mr, mf, mu, mx, my]
  have hmk : ∀ (marks : List (Int × Int × Int)) (s : State K), (∀ m ∈ marks, ¬ s.inner m.1 m.2.1) →
      Same (marks.foldl (fun s m => setBoundary s m.1 m.2.1 m.2.2) s) s ∧ ∀ i j, s.inner i j → (marks.foldl (fun s m => setBoundary s m.1 m.2.1 m.2.2) s).B i j = s.B i j := by
    intro marks
    induction marks with
    | nil => intro s _; exact ⟨⟨rfl, rfl, rfl, rfl, rfl⟩, fun _ _ _ => rfl⟩
    | cons m ms ih =>
      intro s hm
      obtain ⟨g, hB⟩ := ih (setBoundary s m.1 m.2.1 m.2.2) fun m' h' => hm m' (List.mem_cons_of_mem _ h')
      refine ⟨⟨g.nx, g.ny, g.u, g.rho, g.f⟩, fun i j hi => (hB i j hi).trans (if_neg ?_)⟩
      rintro ⟨rfl, rfl⟩
      exact hm m (List.mem_cons_self ..) hi
  obtain ⟨g, hB⟩ := hmk marks s hm
  refine key taus _ _ g fun i j hi => hB i j ?_
  have : (marks.foldl (fun s m => setBoundary s m.1 m.2.1 m.2.2) s).inner i j := hi
  unfold State.inner at this ⊢
  rw [g.nx, g.ny] at this
  exact this

namespace Lbm

/-- The walls of the example. -/
def wall (nx : Nat) (i j : Int) : Bool := i = 0 ∨ i = nx ∨ j = 0

theorem node_fold (i : Nat) (s : State K) (n : Nat) :
    (List.range n).foldl (cavityNode i) s = { s with
      u := fun i' j' => if i' = i ∧ 0 ≤ j' ∧ j' < n then (0, 0) else s.u i' j'
      rho := fun i' j' => if i' = i ∧ 0 ≤ j' ∧ j' < n then 1 else s.rho i' j'
      B := fun i' j' => if i' = i ∧ 0 ≤ j' ∧ j' < n then (if wall s.nx i' j' then 1 else 0) else s.B i' j' } := by
  induction n with
  | zero =>
    have h : ∀ i' j' : Int, ¬ (i' = i ∧ 0 ≤ j' ∧ j' < (0 : Nat)) := fun i' j' h => by omega
    simp only [if_neg (h _ _)]
    rfl
  | succ n ih =>
    rw [List.range_succ, List.foldl_append, ih]
    have hsplit : ∀ i' j' : Int, (i' = i ∧ 0 ≤ j' ∧ j' < (n + 1 : Nat)) ↔ (i' = i ∧ j' = n) ∨ (i' = i ∧ 0 ≤ j' ∧ j' < n) := fun i' j' => by omega
    have hw : (i = 0 ∨ i = s.nx ∨ n = 0) ↔ wall s.nx i n = true := by
      unfold wall
      rw [decide_eq_true_eq]
      omega
    simp only [List.foldl_cons, List.foldl_nil, cavityNode, setVelocity, setDensity, setBoundary, Fin.isValue, if_true]
    by_cases h : i = 0 ∨ i = s.nx ∨ n = 0
    · rw [if_pos h]
      congr 1
      · funext i' j'
        simp only [hsplit]
        by_cases c : i' = i ∧ j' = n
        · obtain ⟨rfl, rfl⟩ := c; simp
        · simp [c]
      · funext i' j'
        simp only [hsplit]
        by_cases c : i' = i ∧ j' = n
        · simp [c]
        · simp [c]
      · funext i' j'
        simp only [hsplit]
        by_cases c : i' = i ∧ j' = n
        · obtain ⟨rfl, rfl⟩ := c; simp [hw.1 h]
        · simp [c]
    · rw [if_neg h]
      congr 1
      · funext i' j'
        simp only [hsplit]
        by_cases c : i' = i ∧ j' = n
        · obtain ⟨rfl, rfl⟩ := c; simp
        · simp [c]
      · funext i' j'
        simp only [hsplit]
        by_cases c : i' = i ∧ j' = n
        · simp [c]
        · simp [c]
      · funext i' j'
        simp only [hsplit]
        by_cases c : i' = i ∧ j' = n
        · obtain ⟨rfl, rfl⟩ := c
          have : wall s.nx i n = false := by
            rw [← Bool.not_eq_true]; exact fun k => h (hw.2 k)
          simp [this]
        · simp [c]

theorem column_fold (U : K) (s : State K) (n : Nat) :
    ((List.range n).foldl (cavityColumn U) s).nx = s.nx ∧ ((List.range n).foldl (cavityColumn U) s).ny = s.ny ∧ ((List.range n).foldl (cavityColumn U) s).f = s.f ∧
    ∀ i j : Int, 0 ≤ i → i < n → 0 ≤ j → j ≤ s.ny →
      ((List.range n).foldl (cavityColumn U) s).u i j = (if j = s.ny then U else 0, 0) ∧ ((List.range n).foldl (cavityColumn U) s).rho i j = 1 ∧
      ((List.range n).foldl (cavityColumn U) s).B i j = if wall s.nx i j then 1 else 0 := by
  induction n with
  | zero => exact ⟨rfl, rfl, rfl, fun i j h1 h2 => by omega⟩
  | succ n ih =>
    obtain ⟨a1, a2, a3, a4⟩ := ih
    rw [List.range_succ, List.foldl_append]
    generalize (List.range n).foldl (cavityColumn U) s = t at *
    simp only [List.foldl_cons, List.foldl_nil, cavityColumn, node_fold, setVelocity, a1, a2]
    refine ⟨trivial, trivial, a3, fun i j h1 h2 h3 h4 => ?_⟩
    by_cases c : i = n
    · subst c
      have hc : ((n : Int) = n ∧ 0 ≤ j ∧ j < ((s.ny + 1 : Nat) : Int)) := ⟨rfl, h3, by omega⟩
      refine ⟨?_, if_pos hc, if_pos hc⟩
      by_cases e : j = s.ny
      · subst e; simp
      · rw [if_neg fun h => e h.2, if_pos hc, if_neg e]
    · have hc : ¬ (i = n ∧ 0 ≤ j ∧ j < ((s.ny + 1 : Nat) : Int)) := fun h => c h.1
      rw [if_neg fun h => c h.1, if_neg hc, if_neg hc, if_neg hc]
      exact a4 i j h1 (by omega) h3 h4

/-- What the program has set before the first step. -/
theorem cavity_spec (nx ny : Nat) (U : K) : (cavity nx ny U).nx = nx ∧ (cavity nx ny U).ny = ny ∧
    ∀ i j : Int, 0 ≤ i → i ≤ nx → 0 ≤ j → j ≤ ny → (cavity nx ny U).u i j = (if j = ny then U else 0, 0) ∧ (cavity nx ny U).rho i j = 1 ∧ (∀ k, (cavity nx ny U).f i j k = w k) ∧
      ((cavity nx ny U).B i j = 1 ↔ i = 0 ∨ i = nx ∨ j = 0) := by
  obtain ⟨a1, a2, a3, a4⟩ := column_fold U (init (new nx ny) : State K) (nx + 1)
  refine ⟨a1, a2, fun i j h1 h2 h3 h4 => ?_⟩
  obtain ⟨b1, b2, b3⟩ := a4 i j h1 (by omega) h3 h4
  refine ⟨b1, b2, fun k => ?_, ?_⟩
  · show ((List.range (nx + 1)).foldl (cavityColumn U) (init (new nx ny) : State K)).f i j k = w k
    rw [a3]
    refine (if_pos ⟨h1, h2, h3, h4⟩).trans ?_
    simp [feq2]
  · show ((List.range (nx + 1)).foldl (cavityColumn U) (init (new nx ny) : State K)).B i j = 1 ↔ _
    rw [b3]
    have : wall nx i j = true ↔ i = 0 ∨ i = nx ∨ j = 0 := by unfold wall; rw [decide_eq_true_eq]
    rw [← this]
    show (if wall nx i j then (1 : Int) else 0) = 1 ↔ _
    split <;> simp_all

theorem cavity_cons (nx ny : Nat) (U : K) (i j : Int) (h : (cavity nx ny U).inner i j) : Cons (cavity nx ny U) i j := by
  obtain ⟨a1, a2, a3⟩ := cavity_spec nx ny U
  unfold State.inner at h
  rw [a1, a2] at h
  obtain ⟨b1, b2, b3, -⟩ := a3 i j (by omega) (by omega) (by omega) (by omega)
  have hf : (cavity nx ny U).f i j = w := funext b3
  rw [if_neg (by omega)] at b1
  refine ⟨?_, ?_, ?_⟩
  · rw [hf, b2]; simp [mass, w]; norm_num
  · rw [hf, b2, b1]; simp [momX, w]; ring
  · rw [hf, b2, b1]; simp [momY, w]; ring

end Lbm

/-- **C160, the example.** The program starts with the mass of the `(nx - 1) (ny - 1)` nodes inside, and until a density becomes zero every change is what crosses the border. -/
theorem C160_cavity (nx ny : Nat) (hx : 0 < nx) (hy : 0 < ny) (U : K) (taus : List K)
    (hz : ∀ l, l <+: taus → l ≠ [] → ∀ i j, (cavity nx ny U).inner i j → (steps l (cavity nx ny U)).rho i j ≠ 0) :
    fluid (steps taus (cavity nx ny U)) = ((nx : K) - 1) * ((ny : K) - 1) + gain taus (cavity nx ny U) := by
  rw [C160_history taus _ (cavity_cons nx ny U) hz]
  congr 1
  obtain ⟨a1, a2, a3⟩ := cavity_spec nx ny U
  unfold fluid
  rw [Finset.sum_congr rfl (g := fun _ => (1 : K)) ?_]
  · unfold State.nodes
    rw [a1, a2, Finset.sum_const, Finset.card_product, Int.card_Icc, Int.card_Icc, nsmul_eq_mul, mul_one]
    have e1 : ((nx : Int) - 1 + 1 - 1).toNat = nx - 1 := by omega
    have e2 : ((ny : Int) - 1 + 1 - 1).toNat = ny - 1 := by omega
    rw [e1, e2, Nat.cast_mul, Nat.cast_sub hx, Nat.cast_sub hy, Nat.cast_one]
  · intro p hp
    have h := (mem_nodes _ p.1 p.2).1 hp
    rw [(cavity_cons nx ny U p.1 p.2 h).mass]
    unfold State.inner at h
    rw [a1, a2] at h
    exact (a3 p.1 p.2 (by omega) (by omega) (by omega) (by omega)).2.1

set_option maxHeartbeats 1000000 in
/-- **C160, the cavity leaks.** Mass is not kept in the cavity of the example, although its walls are marked: a cavity with one node whose lid moves with the velocity `U` has lost `U ^ 2 / 54` of its mass after two steps with `tau = 1`. -/
theorem C160_leaks (U : K) : fluid (cavity 2 2 U) = 1 ∧ fluid (steps [1, 1] (cavity 2 2 U)) = 1 - U ^ 2 / 54 := by
  obtain ⟨a1, a2, a3⟩ := cavity_spec 2 2 U
  have hc := cavity_cons 2 2 U
  generalize cavity 2 2 U = s at *
  have hn : s.nodes = {(1, 1)} := by
    unfold State.nodes
    rw [a1, a2]
    decide
  have hn2 : (steps [1, 1] s).nodes = {(1, 1)} := hn
  have hin : s.inner 1 1 := by unfold State.inner; rw [a1, a2]; decide
  have hU : ∀ i j : Int, 0 ≤ i → i ≤ 2 → 0 ≤ j → j ≤ 2 → s.u i j = (if j = 2 then U else 0, 0) := fun i j h1 h2 h3 h4 => by
    have := (a3 i j h1 h2 h3 h4).1
    simpa using this
  have hR : ∀ i j : Int, 0 ≤ i → i ≤ 2 → 0 ≤ j → j ≤ 2 → s.rho i j = 1 := fun i j h1 h2 h3 h4 => (a3 i j h1 h2 h3 h4).2.1
  have hsent : ∀ (t : State K) i j k, sent 1 t i j k = feq2 k (t.rho i j) (t.u i j) := fun t i j k => by
    unfold sent collide; rw [div_one]; ring
  have hB : ¬ (s.B 1 1 = 1) := fun h => by
    have := (a3 1 1 (by decide) (by decide) (by decide) (by decide)).2.2.2.1 h
    omega
  have hF : (evolve 1 s).f 1 1 = fun k => sent 1 s (1 - (e k).1) (1 - (e k).2) k := by
    funext k
    rw [evolve_f_inner 1 s hin]
    refine (if_neg fun h => hB h.2).trans (if_pos hin)
  have hF' : (evolve 1 s).f 1 1 = fun k => feq2 k 1 (if (1 : Int) - (e k).2 = 2 then U else 0, 0) := by
    rw [hF]
    funext k
    rw [hsent]
    have b : 0 ≤ 1 - (e k).1 ∧ 1 - (e k).1 ≤ 2 ∧ 0 ≤ 1 - (e k).2 ∧ 1 - (e k).2 ≤ 2 := by fin_cases k <;> decide
    rw [hU _ _ b.1 b.2.1 b.2.2.1 b.2.2.2, hR _ _ b.1 b.2.1 b.2.2.1 b.2.2.2]
  have hm : mass ((evolve 1 s).f 1 1) = 1 := by
    rw [hF']
    simp [mass, feq2, e, w]
    field_simp
    ring
  have hr1 : (evolve 1 s).rho 1 1 = 1 := by rw [evolve_rho_inner 1 s hin, hm]
  have hu1 : (evolve 1 s).u 1 1 = (U / 6, 0) := by
    rw [evolve_u_inner 1 s hin, hm, hF']
    simp [momX, momY, feq2, e, w]
    constructor <;> (field_simp; ring)
  have hout : ∀ i j : Int, 0 ≤ i → i ≤ 2 → 0 ≤ j → j ≤ 2 → ¬ (i = 1 ∧ j = 1) → ¬ s.inner i j := fun i j h1 h2 h3 h4 h h' => by
    unfold State.inner at h'
    rw [a1, a2] at h'
    omega
  have hu2 : ∀ i j : Int, 0 ≤ i → i ≤ 2 → 0 ≤ j → j ≤ 2 → (evolve 1 s).u i j = (if i = 1 ∧ j = 1 then U / 6 else if j = 2 then U else 0, 0) := fun i j h1 h2 h3 h4 => by
    by_cases h : i = 1 ∧ j = 1
    · obtain ⟨rfl, rfl⟩ := h; rw [hu1]; simp
    · rw [evolve_u_outer 1 s (hout i j h1 h2 h3 h4 h), hU i j h1 h2 h3 h4, if_neg h]
  have hr2' : ∀ i j : Int, 0 ≤ i → i ≤ 2 → 0 ≤ j → j < 2 → (evolve 1 s).rho i j = 1 := fun i j h1 h2 h3 h4 => by
    by_cases h : i = 1 ∧ j = 1
    · obtain ⟨rfl, rfl⟩ := h; exact hr1
    · rw [evolve_rho_wall 1 s (hout i j h1 h2 h3 h4.le h) (by rw [a2]; omega), hR i j h1 h2 h3 h4.le]
  have hr2 : ∀ i j : Int, 0 ≤ i → i ≤ 2 → 0 ≤ j → j ≤ 2 → (evolve 1 s).rho i j = 1 := fun i j h1 h2 h3 h4 => by
    by_cases h : j < 2
    · exact hr2' i j h1 h2 h3 h
    · have hj : j = s.ny := by rw [a2]; omega
      have := (evolve_top 1 s h1 (by rw [a1]; omega)).1
      rw [hj, this]
      exact hr2' i _ h1 h2 (by rw [a2]; decide) (by rw [a2]; decide)
  unfold fluid
  rw [hn, hn2, Finset.sum_singleton, Finset.sum_singleton]
  refine ⟨by rw [(hc 1 1 hin).mass, hR 1 1 (by decide) (by decide) (by decide) (by decide)], ?_⟩
  show mass ((evolve 1 (evolve 1 s)).f 1 1) = _
  rw [evolve_sum 1 (evolve 1 s) 1 1 hin]
  have hlast : ∀ k, sent 1 (evolve 1 s) (1 - (e k).1) (1 - (e k).2) k = feq2 k 1 (if 1 - (e k).1 = 1 ∧ 1 - (e k).2 = 1 then U / 6 else if 1 - (e k).2 = 2 then U else 0, 0) := fun k => by
    have b : 0 ≤ 1 - (e k).1 ∧ 1 - (e k).1 ≤ 2 ∧ 0 ≤ 1 - (e k).2 ∧ 1 - (e k).2 ≤ 2 := by fin_cases k <;> decide
    rw [hsent, hu2 _ _ b.1 b.2.1 b.2.2.1 b.2.2.2, hr2 _ _ b.1 b.2.1 b.2.2.1 b.2.2.2]
  rw [Finset.sum_congr rfl fun k _ => hlast k, sum9]
  simp [mass, feq2, e, w]
  field_simp
  ring

namespace Lbm

theorem flip_flip (k : Fin 9) : flip (flip k) = k := by fin_cases k <;> rfl

theorem e_flip (k : Fin 9) : e (flip k) = (-(e k).1, (e k).2) := by fin_cases k <;> rfl

theorem op_flip (k : Fin 9) : flip (op k) = op (flip k) := by fin_cases k <;> rfl

theorem w_flip (k : Fin 9) : (w (flip k) : K) = w k := by fin_cases k <;> rfl

theorem sum_flip (g : Fin 9 → K) : ∑ k, g (flip k) = ∑ k, g k := Fintype.sum_equiv ⟨flip, flip, flip_flip, flip_flip⟩ _ _ fun _ => rfl

theorem feq2_flip (k : Fin 9) (rho : K) (u : K × K) : feq2 k rho (-u.1, u.2) = feq2 (flip k) rho u := by
  unfold feq2
  rw [e_flip, w_flip]
  push_cast
  ring

theorem evolve_mirror (tau : K) (s : State K) : evolve tau (mirror s) = mirror (evolve tau s) := by
  have hin : ∀ i j, (mirror s).inner i j ↔ s.inner (s.nx - i) j := fun i j => by
    show (1 ≤ i ∧ i < (s.nx : Int) ∧ 1 ≤ j ∧ j < (s.ny : Int)) ↔ (1 ≤ (s.nx : Int) - i ∧ (s.nx : Int) - i < s.nx ∧ 1 ≤ j ∧ j < (s.ny : Int))
    omega
  have hside : ∀ i j, (mirror s).inside i j ↔ s.inside (s.nx - i) j := fun i j => by
    show (0 ≤ i ∧ i ≤ (s.nx : Int) ∧ 0 ≤ j ∧ j ≤ (s.ny : Int)) ↔ (0 ≤ (s.nx : Int) - i ∧ (s.nx : Int) - i ≤ s.nx ∧ 0 ≤ j ∧ j ≤ (s.ny : Int))
    omega
  have h1 : stream tau (mirror s) = mirror (stream tau s) := by
    have : (stream tau (mirror s)).F = (mirror (stream tau s)).F := by
      funext i j k
      show (if (mirror s).inner i j then _ else _) = (if s.inner (s.nx - i) j then _ else _)
      by_cases hi : s.inner (s.nx - i) j
      · rw [if_pos hi, if_pos ((hin i j).2 hi)]
        simp only [collide, mirror, feq2_flip, e_flip]
        rw [show (s.nx : Int) - (i - (e k).1) = s.nx - i - -(e k).1 by ring]
        rfl
      · rw [if_neg hi, if_neg fun h => hi ((hin i j).1 h)]
        rfl
    show ({ stream tau (mirror s) with F := (stream tau (mirror s)).F } : State K) = _
    rw [this]
    rfl
  have h2 : ∀ t : State K, t.nx = s.nx → t.ny = s.ny → bounce (mirror t) = mirror (bounce t) := by
    intro t hx hy
    have hs : ∀ i j, (mirror t).inside i j ↔ t.inside (t.nx - i) j := fun i j => by
      show (0 ≤ i ∧ i ≤ (t.nx : Int) ∧ 0 ≤ j ∧ j ≤ (t.ny : Int)) ↔ (0 ≤ (t.nx : Int) - i ∧ (t.nx : Int) - i ≤ t.nx ∧ 0 ≤ j ∧ j ≤ (t.ny : Int))
      omega
    have : (bounce (mirror t)).F = (mirror (bounce t)).F := by
      funext i j k
      show (if (mirror t).inside i j ∧ t.B (t.nx - i) j = 1 then t.F (t.nx - i) j (flip (op k)) else t.F (t.nx - i) j (flip k)) =
        (if t.inside (t.nx - i) j ∧ t.B (t.nx - i) j = 1 then t.F (t.nx - i) j (op (flip k)) else t.F (t.nx - i) j (flip k))
      rw [op_flip]
      exact if_congr (and_congr_left' (hs i j)) rfl rfl
    show ({ bounce (mirror t) with F := (bounce (mirror t)).F } : State K) = _
    rw [this]
    rfl
  have h3 : ∀ t : State K, macros (mirror t) = mirror (macros t) := by
    intro t
    have hi : ∀ i j, (mirror t).inner i j ↔ t.inner (t.nx - i) j := fun i j => by
      show (1 ≤ i ∧ i < (t.nx : Int) ∧ 1 ≤ j ∧ j < (t.ny : Int)) ↔ (1 ≤ (t.nx : Int) - i ∧ (t.nx : Int) - i < t.nx ∧ 1 ≤ j ∧ j < (t.ny : Int))
      omega
    have s0 : ∀ i j, ∑ k, (mirror t).F i j k = ∑ k, t.F (t.nx - i) j k := fun i j => sum_flip (t.F (t.nx - i) j)
    have sx : ∀ i j, ∑ k, ((e k).1 : K) * (mirror t).F i j k = -∑ k, ((e k).1 : K) * t.F (t.nx - i) j k := fun i j => by
      rw [← sum_flip fun k => ((e k).1 : K) * t.F (t.nx - i) j k, ← Finset.sum_neg_distrib]
      refine Finset.sum_congr rfl fun k _ => ?_
      rw [e_flip]
      show ((e k).1 : K) * t.F (t.nx - i) j (flip k) = _
      push_cast
      ring
    have sy : ∀ i j, ∑ k, ((e k).2 : K) * (mirror t).F i j k = ∑ k, ((e k).2 : K) * t.F (t.nx - i) j k := fun i j => by
      rw [← sum_flip fun k => ((e k).2 : K) * t.F (t.nx - i) j k]
      refine Finset.sum_congr rfl fun k _ => ?_
      rw [e_flip]
      rfl
    have eu0 : (macros (mirror t)).u0 = (mirror (macros t)).u0 := by
      funext i j
      show (if (mirror t).inner i j then (-(t.u (t.nx - i) j).1, (t.u (t.nx - i) j).2) else (-(t.u0 (t.nx - i) j).1, (t.u0 (t.nx - i) j).2)) =
        (-(if t.inner (t.nx - i) j then t.u (t.nx - i) j else t.u0 (t.nx - i) j).1, (if t.inner (t.nx - i) j then t.u (t.nx - i) j else t.u0 (t.nx - i) j).2)
      rw [if_congr (hi i j) rfl rfl]
      split <;> rfl
    have ef : (macros (mirror t)).f = (mirror (macros t)).f := by
      funext i j k
      exact if_congr (hi i j) rfl rfl
    have er : (macros (mirror t)).rho = (mirror (macros t)).rho := by
      funext i j
      show (if (mirror t).inner i j then ∑ k, (mirror t).F i j k else t.rho (t.nx - i) j) = (if t.inner (t.nx - i) j then ∑ k, t.F (t.nx - i) j k else t.rho (t.nx - i) j)
      rw [s0]
      exact if_congr (hi i j) rfl rfl
    have eu : (macros (mirror t)).u = (mirror (macros t)).u := by
      funext i j
      show (if (mirror t).inner i j then ((∑ k, ((e k).1 : K) * (mirror t).F i j k) / ∑ k, (mirror t).F i j k, (∑ k, ((e k).2 : K) * (mirror t).F i j k) / ∑ k, (mirror t).F i j k) else
          (-(t.u (t.nx - i) j).1, (t.u (t.nx - i) j).2)) =
        (-((macros t).u (t.nx - i) j).1, ((macros t).u (t.nx - i) j).2)
      have : (macros t).u (t.nx - i) j = if t.inner (t.nx - i) j then ((∑ k, ((e k).1 : K) * t.F (t.nx - i) j k) / ∑ k, t.F (t.nx - i) j k, (∑ k, ((e k).2 : K) * t.F (t.nx - i) j k) / ∑ k, t.F (t.nx - i) j k)
          else t.u (t.nx - i) j := rfl
      rw [this, s0, sx, sy, if_congr (hi i j) rfl rfl]
      split
      · simp only [neg_div]
      · rfl
    show ({ macros (mirror t) with u := (macros (mirror t)).u, u0 := (macros (mirror t)).u0, rho := (macros (mirror t)).rho, f := (macros (mirror t)).f } : State K) = _
    rw [eu, eu0, er, ef]
    rfl
  have h4 : ∀ t : State K, upper (mirror t) = mirror (upper t) := by
    intro t
    have hi : ∀ i j : Int, (0 ≤ i ∧ i ≤ (t.nx : Int) ∧ j = t.ny) ↔ (0 ≤ (t.nx : Int) - i ∧ (t.nx : Int) - i ≤ t.nx ∧ j = t.ny) := fun i j => by omega
    have er : (upper (mirror t)).rho = (mirror (upper t)).rho := by
      funext i j
      exact if_congr (hi i j) rfl rfl
    have ef : (upper (mirror t)).f = (mirror (upper t)).f := by
      funext i j k
      refine if_congr (hi i j) ?_ rfl
      show feq2 k (t.rho (t.nx - i) (t.ny - 1)) (-(t.u (t.nx - i) t.ny).1, (t.u (t.nx - i) t.ny).2) + t.f (t.nx - i) (t.ny - 1) (flip k) -
        feq2 k (t.rho (t.nx - i) (t.ny - 1)) (-(t.u (t.nx - i) (t.ny - 1)).1, (t.u (t.nx - i) (t.ny - 1)).2) = _
      rw [feq2_flip, feq2_flip]
      rfl
    show ({ upper (mirror t) with rho := (upper (mirror t)).rho, f := (upper (mirror t)).f } : State K) = _
    rw [er, ef]
    rfl
  unfold evolve
  rw [h1, h2 (stream tau s) rfl rfl, h3, h4]

end Lbm

/-- **C160, mirror.** The mirror image of a flow is the flow of the mirror image. -/
theorem C160_mirror (taus : List K) (s : State K) : steps taus (mirror s) = mirror (steps taus s) := by
  induction taus generalizing s with
  | nil => rfl
  | cons t ts ih =>
    show steps ts (evolve t (mirror s)) = mirror (steps ts (evolve t s))
    rw [evolve_mirror, ih]

/-! ### The hypotheses are met -/

example : fluid (evolve (3 / 5) (cavity 4 4 (1 / 10 : ℚ))) = fluid (cavity 4 4 (1 / 10 : ℚ)) + (inflow (3 / 5) (cavity 4 4 (1 / 10)) - outflow (3 / 5) (cavity 4 4 (1 / 10))) :=
  C160_step (3 / 5) (cavity 4 4 (1 / 10)) (cavity_cons 4 4 (1 / 10))

example : fluid (steps [3 / 5] (cavity 3 3 (1 / 10 : ℚ))) = (3 - 1) * (3 - 1) + gain [3 / 5] (cavity 3 3 (1 / 10 : ℚ)) := by
  refine C160_cavity 3 3 (by decide) (by decide) (1 / 10) [3 / 5] fun l hl hne i j h => ?_
  have hl' : l = [3 / 5] := by
    rcases List.prefix_cons_iff.1 hl with rfl | ⟨t, rfl, ht⟩
    · exact absurd rfl hne
    · rw [List.prefix_nil.1 ht]
  subst hl'
  obtain ⟨a1, a2, -⟩ := cavity_spec 3 3 (1 / 10 : ℚ)
  unfold State.inner at h
  rw [a1, a2] at h
  obtain ⟨h1, h2, h3, h4⟩ := h
  have hi : i = 1 ∨ i = 2 := by omega
  have hj : j = 1 ∨ j = 2 := by omega
  rcases hi with rfl | rfl <;> rcases hj with rfl | rfl <;> decide +kernel

example (taus : List ℚ) : Same (steps taus (([(0, 1, 1), (2, 0, 1), (4, 3, 1)] : List (Int × Int × Int)).foldl (fun s m => setBoundary s m.1 m.2.1 m.2.2) (cavity 4 4 (1 / 10)))) (steps taus (cavity 4 4 (1 / 10))) :=
  C160_walls_ignored taus _ _ (by
    obtain ⟨a1, a2, -⟩ := cavity_spec 4 4 (1 / 10 : ℚ)
    unfold State.inner
    rw [a1, a2]
    decide)

/-- A marked node inside does change the flow. -/
example : (evolve 1 (setBoundary (cavity 3 3 (1 / 10 : ℚ)) 1 2 1)).u 1 2 ≠ (evolve 1 (cavity 3 3 (1 / 10 : ℚ))).u 1 2 := by decide +kernel

example : (mirror (cavity 3 3 (1 / 10 : ℚ))).u 1 3 = (-1 / 10, 0) := by decide +kernel

end ENigMA
