import Verif.Pde.Penalty
import Verif.Pde.FemPoissonProps

/-!
# C155: the penalty method on meshes of beams, triangles and tetrahedra
-/

set_option linter.unusedSectionVars false
set_option autoImplicit false

namespace ENigMA
open FemOp FemThermalOp FemHeat Penalty Equation Mesh
open FemPoisson (rod rod_filled rod_fine rod_over rod_step beam_pair)
open FdmHeat (Sound anySolver anySolver_sound)
variable {K : Type} [Field K] [LinearOrder K] [IsStrictOrderedRing K]

/-- **C155, heat.** Steady temperatures of every mesh of beams, triangles and tetrahedra in which every node hangs together with one with a prescribed value: with a large enough penalty factor the program that uses the
penalty differs from the one that eliminates the prescribed values by at most a constant over the factor. -/
theorem C155_heat {nrm : Vec3 K → K} (hn : IsNorm nrm) (r : K) (m : Mesh K) (hwf : m.WF) (hrt : m.nodes.RoundTrip) (hs : SimplexMesh nrm m) (pf : PdeField K) (hno : NoConditions pf m) (f : EqField K)
    (hm : f.method = .fem) (hf : IndicesOk f.uFixed m.nodes.count) (hanch : ∀ id ∈ m.nodes.ids, Anchored m f id) :
    ∃ P C : K, 0 < P ∧ ∀ p, P < p → ∀ solver, Sound solver → ∀ junk junk', ∃ f₁ f₂, steadyPenalty nrm r solver junk m pf f p = some f₁ ∧ steady nrm r solver junk junk' m pf f = some f₂ ∧
      f₁.u.size = m.nodes.count ∧ f₂.u.size = m.nodes.count ∧ ∀ i < m.nodes.count, |f₁.u.at' i - f₂.u.at' i| ≤ C / p := by
  obtain ⟨s, h1, h2, h3, h4, h5, h6⟩ := conduct nrm r pf m hwf hrt hs hno
  have hd : Determined s f := by
    intro x hx0 hrow i hi
    obtain ⟨φ, hφ, hnod⟩ := nodal_surj m hwf x
    have hform : s.form (nodal m φ) (nodal m φ) = 0 := by
      rw [Sys.form_congr s (nodal m φ) x (nodal m φ) x (fun i hi => hnod i (h2 ▸ hi)) (fun i hi => hnod i (h2 ▸ hi)), Sys.form_rows]
      refine Finset.sum_eq_zero fun k hk => ?_
      have hk := Finset.mem_range.1 hk
      cases hp : prescribed f k with
      | none => rw [hrow k hk hp, mul_zero]
      | some v => rw [hx0 k hk v hp, zero_mul]
    have hE : TotalEnergy nrm m φ 0 := by
      have := (total_energy hn r m hwf hs φ).1
      rwa [← h6, hform, neg_zero] at this
    obtain ⟨id, hid⟩ := idAt_of_lt m i (h2 ▸ hi)
    rw [← hφ i id hid]
    refine anchored_zero m hwf hs f φ hE (fun j id v hj hv => ?_) id (hanch id (List.mem_of_getElem? hid))
    rw [hφ j id hj]
    exact hx0 j (by rw [h2]; exact (List.getElem?_eq_some_iff.1 hj).1) v hv
  obtain ⟨y, hy, huniq, P, C, hP, h⟩ := C155_converges s f (Or.inl hm) (by rw [h3]; decide) (by rw [h2]; exact hf) hd
  refine ⟨P, C, hP, fun p hp solver hS junk junk' => ?_⟩
  obtain ⟨f₁, g1, g2, -, -, g5⟩ := h p hp solver hS junk
  obtain ⟨s', f₂, k1, k2, -, -, k5, k6, k7, k8⟩ := steady_run hn r solver hS junk junk' m hwf hrt hs pf hno f hm hf
  rw [h1, Option.some.injEq] at k1
  subst k1
  refine ⟨f₁, f₂, ?_, k5, g2.trans h2, k6, fun i hi => ?_⟩
  · unfold steadyPenalty
    rw [h1, Option.bind_eq_bind, Option.bind_some, Sys.assignZero']
    exact g1
  · have := huniq f₂.u.at' ⟨k7, fun i hi hp => by rw [k8 i hi hp, h4 i hi]⟩ i (by rw [h2]; exact hi)
    rw [this]
    exact g5 i (by rw [h2]; exact hi)

namespace Penalty

/-- Both ends of the rod are kept at the same value. -/
def kept (c : K) (n : Nat) : EqField K := ⟨.fem, (SMap.empty.insert 0 c).insert n c, .empty, ⟨n + 1, fun _ => 0⟩⟩

theorem kept_fixed (c : K) (n : Nat) (i : Nat) : prescribed (kept c n) i = if i = n then some c else if i = 0 then some c else none := by
  simp only [prescribed, kept, SMap.find?_insert, SMap.find?_empty]
  norm_cast

theorem kept_ok (c ℓ : K) (n : Nat) : IndicesOk (kept c n).uFixed (rod ℓ n).nodes.count := by
  intro i v h
  rw [(rod_filled ℓ n).2.2.1]
  simp only [kept, SMap.find?_insert, SMap.find?_empty] at h
  split_ifs at h <;> omega

theorem sum_ends (n i : Nat) (hi : i ≤ n) (d : Nat → K) :
    ∑ k ∈ Finset.range n, -(FemHeat.one (i : Int) ((k : Int) + 1) - FemHeat.one (i : Int) (k : Int)) * d k = (if i < n then d i else 0) - if 0 < i then d (i - 1) else 0 := by
  have e1 : ∀ k : Nat, -((FemHeat.one (i : Int) ((k : Int) + 1) : K) - FemHeat.one (i : Int) (k : Int)) * d k = (if k = i then d k else 0) - if k + 1 = i then d k else 0 := fun k => by
    unfold FemHeat.one
    have a1 : ((k : Int) + 1 = (i : Int)) ↔ k + 1 = i := by omega
    have a2 : ((k : Int) = (i : Int)) ↔ k = i := by omega
    simp only [a1, a2]
    split_ifs <;> ring
  rw [Finset.sum_congr rfl fun k _ => e1 k, Finset.sum_sub_distrib, Finset.sum_ite_eq']
  congr 1
  · simp only [Finset.mem_range]
  · by_cases h0 : 0 < i
    · obtain ⟨j, rfl⟩ : ∃ j, i = j + 1 := ⟨i - 1, by omega⟩
      rw [if_pos h0]
      simp only [Nat.add_right_cancel_iff, Finset.sum_ite_eq', Finset.mem_range, Nat.add_sub_cancel]
      rw [if_pos (by omega)]
    · rw [if_neg h0]
      refine Finset.sum_eq_zero fun k _ => ?_
      rw [if_neg (by omega)]

/-- The rows of the rod. -/
theorem rod_row {nrm : Vec3 K → K} (hn : IsNorm nrm) (r ℓ : K) (hℓ : 0 < ℓ) (n : Nat) (hn0 : 0 < n) (pf : PdeField K) (hno : NoConditions pf (rod ℓ n)) :
    ∃ s, FemThermalOp.laplacian nrm r pf 1 (rod ℓ n) = some s ∧ s.n = n + 1 ∧ s.kind ≠ .unknown ∧ (∀ i < s.n, s.b i = 0) ∧
      ∀ (w : Nat → K) (i : Nat), i ≤ n → s.row w i = (if i < n then (w (i + 1) - w i) / (ℓ / n) else 0) - if 0 < i then (w i - w (i - 1)) / (ℓ / n) else 0 := by
  have g := rod_fine hn ℓ hℓ n hn0
  obtain ⟨g1, g2, g3, g4, g5⟩ := rod_filled ℓ n
  obtain ⟨s, h1, h2, h3, h4, h5, h6⟩ := conduct nrm r pf (rod ℓ n) g.wf g.trip g.simplex hno
  refine ⟨s, h1, h2.trans g3, by rw [h3]; decide, h4, fun w i hi => ?_⟩
  have hid := g5 i hi
  have hi' : i < s.n := by rw [h2, g3]; omega
  have hone : ∀ k < s.n, nodal (rod ℓ n) (FemHeat.one (i : Int) : Int → K) k = if k = i then 1 else 0 := fun k hk => nodal_single (rod ℓ n) g.wf i i hid k (h2 ▸ hk)
  have hw : ∀ k < s.n, nodal (rod ℓ n) (fun id => w id.toNat) k = w k := fun k hk => by
    rw [h2, g3] at hk
    simp only [nodal, g5 k (by omega), Option.map_some, Option.getD_some]
    rfl
  rw [← Sys.form_row s i hi', Sys.form_congr s _ (nodal (rod ℓ n) (FemHeat.one (i : Int))) _ (nodal (rod ℓ n) fun id => w id.toNat) (fun k hk => (hone k hk).symm) (fun k hk => (hw k hk).symm), h6, rod_over]
  have ht : ∀ k ∈ Finset.range n, elementTerm (elementLaplacian nrm r) (rod ℓ n) (FemHeat.one (i : Int)) (fun id => w id.toNat) ⟨.beam, [(k : Int), (k : Int) + 1], []⟩ =
      -(FemHeat.one (i : Int) ((k : Int) + 1) - FemHeat.one (i : Int) (k : Int)) * ((w (k + 1) - w k) / (ℓ / n)) := fun k hk => by
    have hk := Finset.mem_range.1 hk
    have p1 := g1 k (by omega)
    have p2 := g1 (k + 1) (by omega)
    rw [show ((k + 1 : Nat) : Int) = (k : Int) + 1 by push_cast; rfl] at p2
    rw [beam_pair r (rod ℓ n) _ _ (k : Int) ((k : Int) + 1) _ _ p1 p2 (by rw [rod_step hn ℓ hℓ n hn0]; exact div_pos hℓ (by exact_mod_cast hn0)), rod_step hn ℓ hℓ n hn0]
    rw [show ((k : Int) + 1).toNat = k + 1 by omega, show (k : Int).toNat = k by omega]
    ring
  rw [Finset.sum_congr rfl ht, sum_ends n i hi fun k => (w (k + 1) - w k) / (ℓ / n)]
  congr 1
  split_ifs with h0
  · rw [show i - 1 + 1 = i by omega]
  · rfl

end Penalty

/-- **C155, fails: constant temperatures.** A rod of `n ≥ 2` beams of which both ends are kept at `c` is everywhere at `c`. With the penalty factor `p` the program gives all nodes between the ends the temperature
`c p / (p + n / ℓ)`: the penalty replaces the diagonal instead of being added to it. So the error depends on where the zero of the temperature lies, and for a given factor the finer the mesh, the closer the result comes to
zero instead of `c`. -/
theorem C155_constant {nrm : Vec3 K → K} (hn : IsNorm nrm) (r ℓ : K) (hℓ : 0 < ℓ) (n : Nat) (hn2 : 2 ≤ n) (pf : PdeField K) (hno : NoConditions pf (rod ℓ n)) (c p : K) (hp : 0 < p) (solver : Sys K → Nat → K)
    (hS : Sound solver) (junk : Nat → K) :
    ∃ f', steadyPenalty nrm r solver junk (rod ℓ n) pf (kept c n) p = some f' ∧ f'.u.size = n + 1 ∧ ∀ i, 0 < i → i < n → f'.u.at' i = c * (p / (p + n / ℓ)) := by
  obtain ⟨s, h1, h2, h3, h4, h5⟩ := rod_row hn r ℓ hℓ n (by omega) pf hno
  have hnK : (0 : K) < n := by exact_mod_cast (by omega : 0 < n)
  have hk : 0 < (n : K) / ℓ := div_pos hnK hℓ
  have hoff : ∀ (x : Nat → K) (i : Nat), i ≤ n → ∑ j ∈ (Finset.range s.n).erase i, s.A i j * x j = s.row (fun j => if j = i then 0 else x j) i := fun x i hi => by
    rw [Sys.row, ← Finset.add_sum_erase _ _ (Finset.mem_range.2 (show i < s.n by omega)), if_pos rfl, mul_zero, zero_add]
    exact Finset.sum_congr rfl fun j hj => by rw [if_neg (Finset.ne_of_mem_erase hj)]
  have hoff0 : ∀ x : Nat → K, ∑ j ∈ (Finset.range s.n).erase 0, s.A 0 j * x j = x 1 * (n / ℓ) := fun x => by
    rw [hoff x 0 (by omega), h5 _ 0 (by omega), if_pos (show 0 < n by omega), if_neg (lt_irrefl 0), if_neg (show ¬(0 + 1 = 0) by omega), if_pos rfl]
    field_simp
    ring
  have hoffn : ∀ x : Nat → K, ∑ j ∈ (Finset.range s.n).erase n, s.A n j * x j = x (n - 1) * (n / ℓ) := fun x => by
    rw [hoff x n le_rfl, h5 _ n le_rfl, if_neg (by omega), if_pos (by omega), if_pos rfl, if_neg (by omega)]
    field_simp
    ring
  obtain ⟨f', w, r1, r2, -, r4, -, r6, r7⟩ := penalised_run solver hS junk s (kept c n) p (Or.inl rfl) h3 (by have := kept_ok c ℓ n; rwa [(rod_filled ℓ n).2.2.1, ← h2] at this)
    ⟨fun _ => c * (p / (p + n / ℓ)), fun i hi _ => by
      rw [h5 _ i (by omega), h4 i hi, sub_self, zero_div]
      simp, fun i hi v hv => by
      rw [kept_fixed] at hv
      split_ifs at hv with e1 e2 <;> simp only [Option.some.injEq] at hv <;> subst hv
      · rw [e1, hoffn]
        field_simp
      · rw [e2, hoff0]
        field_simp⟩
  refine ⟨f', ?_, r2.trans h2, fun i hi0 hin => ?_⟩
  · unfold steadyPenalty
    rw [h1, Option.bind_eq_bind, Option.bind_some, Sys.assignZero']
    exact r1
  · have hlin : ∀ i, i + 1 ≤ n → w i = w 0 + i * (w 1 - w 0) ∧ w (i + 1) = w 0 + (i + 1) * (w 1 - w 0) := by
      intro i
      induction i with
      | zero => intro _; constructor <;> push_cast <;> ring
      | succ i ih =>
        intro hi
        obtain ⟨a1, a2⟩ := ih (by omega)
        have hr := r6 (i + 1) (by omega) (by rw [kept_fixed, if_neg (by omega), if_neg (by omega)])
        rw [h5 _ _ (by omega), h4 _ (by omega), if_pos (by omega), if_pos (by omega), Nat.add_sub_cancel] at hr
        have hq : ℓ / n ≠ 0 := (div_pos hℓ hnK).ne'
        have h' : w (i + 1 + 1) - w (i + 1) - (w (i + 1) - w i) = 0 := by
          have : (w (i + 1 + 1) - w (i + 1) - (w (i + 1) - w i)) / (ℓ / n) = 0 := by rw [sub_div]; exact hr
          exact (div_eq_zero_iff.1 this).resolve_right hq
        refine ⟨by push_cast; exact a2, ?_⟩
        push_cast
        linear_combination h' + 2 * a2 - a1
    have b0 := r7 0 (by omega) c (by rw [kept_fixed, if_neg (by omega), if_pos rfl])
    have bn := r7 n (by omega) c (by rw [kept_fixed, if_pos rfl])
    rw [hoff0] at b0
    rw [hoffn] at bn
    obtain ⟨c1, c2⟩ := hlin (n - 1) (by omega)
    rw [show n - 1 + 1 = n by omega] at c2
    have hcast : ((n - 1 : Nat) : K) = n - 1 := by rw [Nat.cast_sub (by omega)]; simp
    rw [hcast] at c1 c2
    have hδ : w 1 - w 0 = 0 := by
      have h2K : (2 : K) ≤ n := by exact_mod_cast hn2
      have : (p * n + (n - 2) * (n / ℓ)) * (w 1 - w 0) = 0 := by
        rw [c1, c2] at bn
        linear_combination bn - b0
      refine (mul_eq_zero.1 this).resolve_left (ne_of_gt ?_)
      have e1 := mul_pos hp hnK
      have e2 := mul_nonneg (sub_nonneg.2 h2K) hk.le
      linarith
    rw [r4 i (by omega) (by rw [kept_fixed, if_neg (by omega), if_neg (by omega)]), (hlin i (by omega)).1, hδ, mul_zero, add_zero]
    have h01 : w 1 = w 0 := sub_eq_zero.1 hδ
    rw [h01] at b0
    have hpk : p + n / ℓ ≠ 0 := (add_pos hp hk).ne'
    rw [← mul_div_assoc, eq_div_iff hpk]
    linear_combination b0

-- `C155_heat` is itself an instance of `C155_converges`.
noncomputable example := C155_heat isNorm_real 0 fan fan_ok.1 fan_ok.2.1 fan_ok.2.2.1 plain (plain_ok fan) fanCorners rfl fanCorners_ok.1 fanCorners_ok.2
noncomputable example := C155_constant isNorm_real 0 1 (by norm_num) 1000 (by norm_num) plain (plain_ok _) 293 1000 (by norm_num) anySolver anySolver_sound (fun _ => 0)

end ENigMA
