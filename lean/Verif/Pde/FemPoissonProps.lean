import Verif.Pde.FemPoissonLemmas

/-!
# C154: Poisson's equation with finite elements

`FemPoisson.run` is the program `laplacian(T) = source(T, a)` with eliminated prescribed values. `IsNorm nrm` says that `nrm` is the length of vectors, `Sound solver` that the linear solver solves every system that has a
solution.
-/

set_option linter.unusedSectionVars false
set_option autoImplicit false

namespace ENigMA
open FemOp FemThermalOp FemHeat BasicMesher FemPoisson Matrix Mesh
open FdmHeat (Sound anySolver anySolver_sound)
variable {K : Type} [Field K] [LinearOrder K] [IsStrictOrderedRing K]

namespace FemPoisson

theorem cornerSum_sub (m : Mesh K) (φ ψ : Int → K) : cornerSum m (fun x => φ x - ψ x) = cornerSum m φ - cornerSum m ψ := by
  have h : ∀ l : List Int, (l.map fun x => φ x - ψ x).sum = (l.map φ).sum - (l.map ψ).sum := fun l => by
    induction l with
    | nil => simp
    | cons a t ih => simp only [List.map_cons, List.sum_cons, ih]; ring
  unfold cornerSum
  induction m.elements.ids with
  | nil => simp
  | cons a t ih =>
    simp only [List.map_cons, List.sum_cons, ih]
    cases m.elements.get? a <;> simp [h]
    ring

end FemPoisson

/-- **C154, what the program computes (partial).** If every node hangs together with one with a prescribed value, the program has one result: among all fields with the prescribed values it is the one with the least value of
half the energy plus `a` times the sum of the values at the corners of all elements. Missing: it should be `a` times the integral, the sum weighed with the measures of the elements; see `C154_poisson_partial` and
`C154_refinement`. -/
theorem C154_result_partial {nrm : Vec3 K → K} (hn : IsNorm nrm) (r : K) {m : Mesh K} (g : Fine nrm m) (a : K) (solver : Sys K → Nat → K) (hS : Sound solver) (junk junk' : Nat → K) (f : EqField K)
    (hm : f.method = .fem) (hf : IndicesOk f.uFixed m.nodes.count) (hanch : ∀ id ∈ m.nodes.ids, Anchored m f id) :
    ∃ f', run nrm r solver junk junk' m a f = some f' ∧ f'.u.size = m.nodes.count ∧ ∀ φ, Holds m f'.u.at' φ → Meets m f φ ∧ ∃ E, TotalEnergy nrm m φ E ∧
      ∀ ψ E', Meets m f ψ → TotalEnergy nrm m ψ E' → E / 2 + a * cornerSum m φ ≤ E' / 2 + a * cornerSum m ψ ∧
        ((∃ id ∈ m.nodes.ids, ψ id ≠ φ id) → E / 2 + a * cornerSum m φ < E' / 2 + a * cornerSum m ψ) := by
  obtain ⟨s, f', h2, h4, h5, h6, h7, h8, h9, h10⟩ := run_rows hn r g a solver hS junk junk' f hm hf hanch
  refine ⟨f', h7, h8, fun φ hφ => ?_⟩
  have hnod := nodal_of_holds m _ φ hφ
  have hmeet : Meets m f φ := fun i id v hi hv => by
    rw [hφ i id hi]
    exact h9 i (by rw [h2]; exact (List.getElem?_eq_some_iff.1 hi).1) v hv
  refine ⟨hmeet, _, (total_energy hn r m g.wf g.simplex φ).1, fun ψ E' hψ hE' => ?_⟩
  have hE2 := (total_energy hn r m g.wf g.simplex ψ).2 E' hE'
  change E' = stiff nrm r m ψ ψ at hE2
  change stiff nrm r m φ φ / 2 + _ ≤ _ ∧ (_ → stiff nrm r m φ φ / 2 + _ < _)
  have hz : ∀ i id v, m.nodes.idAt? i = some id → Equation.prescribed f i = some v → ψ id - φ id = 0 := fun i id v hi hv => by
    rw [hψ i id v hi hv, hmeet i id v hi hv, sub_self]
  have hrow : s.form (nodal m fun id => ψ id - φ id) (nodal m φ) = s.load (nodal m fun id => ψ id - φ id) := by
    rw [Sys.form_rows, Sys.load]
    refine Finset.sum_congr rfl fun i hi => ?_
    have hi := Finset.mem_range.1 hi
    cases hp : Equation.prescribed f i with
    | none =>
      rw [← h10 i hi hp]
      congr 1
      exact Finset.sum_congr rfl fun j hj => by rw [hnod j (by rw [← h2]; exact Finset.mem_range.1 hj)]
    | some v =>
      obtain ⟨x, hx⟩ := idAt_of_lt m i (h2 ▸ hi)
      have hx0 : nodal m (fun id => ψ id - φ id) i = 0 := by
        simp only [nodal, hx, Option.map_some, Option.getD_some]
        exact hz i x v hx hp
      rw [hx0, zero_mul, zero_mul]
  rw [h6, h5, cornerSum_sub] at hrow
  have e1 : stiff nrm r m (fun id => ψ id - φ id) (fun id => ψ id - φ id) = stiff nrm r m ψ ψ - 2 * stiff nrm r m ψ φ + stiff nrm r m φ φ := by
    rw [← neg_inj, ← h5, nodal_sub, form_sub_right, form_sub_left, form_sub_left, form_symm s h4 (nodal m φ) (nodal m ψ), h5, h5, h5]
    ring
  have e2 : stiff nrm r m (fun id => ψ id - φ id) φ = stiff nrm r m ψ φ - stiff nrm r m φ φ := by
    rw [← neg_inj, ← h5, nodal_sub, form_sub_left, h5, h5]
    ring
  have hd0 : 0 ≤ stiff nrm r m (fun id => ψ id - φ id) (fun id => ψ id - φ id) := total_nonneg m g.simplex _ _ (total_energy hn r m g.wf g.simplex _).1
  refine ⟨by linarith, fun ⟨id, hid, hne⟩ => lt_of_le_of_ne (by linarith) fun heq => hne (sub_eq_zero.1 (null_zero hn r g f hanch _ (by linarith) hz id hid))⟩

/-- **C154, right where elements have the right size (partial).** If every element measures as many units as it has corners (as the triangles of area 3 of the example), the result is right: it has the least value of half
the energy plus `a` times the integral, so it solves Poisson's equation `ΔT = a` with the prescribed values. Missing: all other sizes. -/
theorem C154_poisson_partial {nrm : Vec3 K → K} (hn : IsNorm nrm) (r : K) {m : Mesh K} (g : Fine nrm m) (hu : UnitCorners nrm m) (a : K) (solver : Sys K → Nat → K) (hS : Sound solver)
    (junk junk' : Nat → K) (f : EqField K) (hm : f.method = .fem) (hf : IndicesOk f.uFixed m.nodes.count) (hanch : ∀ id ∈ m.nodes.ids, Anchored m f id) :
    ∃ f', run nrm r solver junk junk' m a f = some f' ∧ f'.u.size = m.nodes.count ∧ ∀ φ, Holds m f'.u.at' φ → Meets m f φ ∧ ∃ E H, TotalEnergy nrm m φ E ∧ TotalHeat nrm m φ H ∧
      ∀ ψ E' H', Meets m f ψ → TotalEnergy nrm m ψ E' → TotalHeat nrm m ψ H' → E / 2 + a * H ≤ E' / 2 + a * H' ∧ ((∃ id ∈ m.nodes.ids, ψ id ≠ φ id) → E / 2 + a * H < E' / 2 + a * H') := by
  have hone : ∀ φ : Int → K, TotalHeat nrm m φ (cornerSum m φ) := fun φ => by
    refine ⟨fun id => ((m.elements.get? id).map fun e => (e.nodeIds.map φ).sum).getD 0, fun id hid => ?_, rfl⟩
    obtain ⟨e, he⟩ := (g.wf.elements.2 id).1 hid
    obtain ⟨ps, h1, h2⟩ := g.simplex id e he
    obtain ⟨V, hV, hpos⟩ := measure_pos h2
    refine ⟨e, ps, V, he, h1, hV, ?_⟩
    dsimp only
    rw [he, Option.map_some, Option.getD_some]
    have := hu id e ps V he h1 hV
    rw [this] at hpos ⊢
    rw [mul_div_cancel₀ _ hpos.ne']
  have huniq : ∀ (φ : Int → K) H, TotalHeat nrm m φ H → H = cornerSum m φ := by
    rintro φ H ⟨ht, h1, rfl⟩
    unfold cornerSum
    congr 1
    refine List.map_congr_left fun id hid => ?_
    obtain ⟨e, ps, V, he, h3, h4, h5⟩ := h1 id hid
    obtain ⟨ps', h6, h7⟩ := g.simplex id e he
    rw [h3, Option.some.injEq] at h6
    subst h6
    obtain ⟨V', hV', hpos⟩ := measure_pos h7
    rw [measure_unique hV' h4] at hpos
    have := hu id e ps V he h3 h4
    rw [h5, he, Option.map_some, Option.getD_some]
    rw [this] at hpos ⊢
    rw [mul_div_cancel₀ _ hpos.ne']
  obtain ⟨f', h1, h2, h3⟩ := C154_result_partial hn r g a solver hS junk junk' f hm hf hanch
  refine ⟨f', h1, h2, fun φ hφ => ?_⟩
  obtain ⟨h4, E, h5, h6⟩ := h3 φ hφ
  refine ⟨h4, E, _, h5, hone φ, fun ψ E' H' h7 h8 h9 => ?_⟩
  rw [huniq ψ H' h9]
  exact h6 ψ E' h7 h8

namespace FemPoisson

theorem beam_pair {nrm : Vec3 K → K} (r : K) (m : Mesh K) (φ ψ : Int → K) (x y : Int) (p q : Vec3 K) (hx : m.nodes.get? x = some p) (hy : m.nodes.get? y = some q) (h : 0 < nrm (q - p)) :
    elementTerm (elementLaplacian nrm r) m φ ψ ⟨.beam, [x, y], []⟩ = -(φ y - φ x) * (ψ y - ψ x) / nrm (q - p) := by
  unfold elementTerm
  have h1 : [x, y].mapM m.nodes.get? = some [p, q] := by simp [hx, hy]
  dsimp only
  rw [h1, Option.bind_some]
  show elementForm (.of (Fem.beamLaplacian 1 (nrm (q - p)) 1)) _ _ = _
  simp only [List.map_cons, List.map_nil]
  rw [elementForm_of, vec2, vec2]
  simp only [Fem.beamLaplacian, if_pos h, dotProduct, mulVec, Fin.sum_univ_two]
  simp
  have h0 := h.ne'
  field_simp
  ring

theorem rod_filled (ℓ : K) (n : Nat) : (∀ i : Nat, i ≤ n → (rod ℓ n).nodes.get? (i : Int) = some ⟨ℓ * i / n, 0, 0⟩) ∧
    (∀ k : Nat, k < n → (rod ℓ n).elements.get? (k : Int) = some ⟨.beam, [(k : Int), (k : Int) + 1], []⟩) ∧
    (rod ℓ n).nodes.count = n + 1 ∧ (rod ℓ n).elements.ids = iota n ∧ ∀ i : Nat, i ≤ n → (rod ℓ n).nodes.idAt? i = some (i : Int) := by
  obtain ⟨h1, h2⟩ := build_filled ((List.range (n + 1)).map fun i : Nat => (⟨ℓ * i / n, 0, 0⟩ : Vec3 K)) ((List.range n).map fun i : Nat => (⟨.beam, [(i : Int), (i : Int) + 1], []⟩ : Elem))
  refine ⟨fun i hi => ?_, fun k hk => ?_, ?_, ?_, fun i hi => ?_⟩
  · rw [rod, h1.get, List.getElem?_map, List.getElem?_range (by omega)]; rfl
  · rw [rod, h2.get, List.getElem?_map, List.getElem?_range hk]; rfl
  · rw [rod, filled_count h1]; simp
  · rw [rod, h2.ids]; simp
  · show (rod ℓ n).nodes.ids[i]? = _
    rw [rod, h1.ids]
    rw [iota, List.getElem?_map, List.getElem?_range (by simp only [List.length_map, List.length_range]; omega)]
    rfl

theorem rod_step {nrm : Vec3 K → K} (hn : IsNorm nrm) (ℓ : K) (hℓ : 0 < ℓ) (n : Nat) (hn0 : 0 < n) (k : Nat) :
    nrm (⟨ℓ * ((k + 1 : Nat) : K) / n, 0, 0⟩ - ⟨ℓ * k / n, 0, 0⟩) = ℓ / n := by
  have hnK : (0 : K) < n := by exact_mod_cast hn0
  have hpos : 0 < ℓ / n := div_pos hℓ hnK
  have h1 := hn.sq (⟨ℓ * ((k + 1 : Nat) : K) / n, 0, 0⟩ - ⟨ℓ * k / n, 0, 0⟩)
  have h2 := hn.nonneg (⟨ℓ * ((k + 1 : Nat) : K) / n, 0, 0⟩ - ⟨ℓ * k / n, 0, 0⟩)
  have h3 : ((⟨ℓ * ((k + 1 : Nat) : K) / n, 0, 0⟩ - ⟨ℓ * k / n, 0, 0⟩ : Vec3 K)).normSq = ℓ / n * (ℓ / n) := by
    simp only [Vec3.normSq, Vec3.dot, Vec3.sub_x, Vec3.sub_y, Vec3.sub_z]
    push_cast
    field_simp
    ring
  rw [h3] at h1
  exact (mul_self_inj h2 hpos.le).1 h1

theorem rod_element {ℓ : K} {n : Nat} {id : Int} {e : Elem} (h : (rod ℓ n).elements.get? id = some e) : ∃ k : Nat, k < n ∧ id = k ∧ e = ⟨.beam, [(k : Int), (k : Int) + 1], []⟩ := by
  have hid : id ∈ (rod ℓ n).elements.ids := ((build_ok _ _ (by
    intro e he x hx
    simp only [List.mem_map, List.mem_range] at he
    obtain ⟨k, hk, rfl⟩ := he
    simp only [List.mem_cons, List.not_mem_nil, or_false] at hx
    simp only [List.length_map, List.length_range]
    rcases hx with rfl | rfl <;> constructor <;> omega) : (rod ℓ n).WF ∧ _).1.elements.2 id).2 ⟨e, h⟩
  rw [(rod_filled ℓ n).2.2.2.1] at hid
  simp only [iota, List.mem_map, List.mem_range] at hid
  obtain ⟨k, hk, rfl⟩ := hid
  refine ⟨k, hk, rfl, ?_⟩
  have := (rod_filled ℓ n).2.1 k hk
  have h' : (rod ℓ n).elements.get? (k : Int) = some e := h
  rw [this, Option.some.injEq] at h'
  exact h'.symm

theorem rod_fine {nrm : Vec3 K → K} (hn : IsNorm nrm) (ℓ : K) (hℓ : 0 < ℓ) (n : Nat) (hn0 : 0 < n) : Fine nrm (rod ℓ n) := by
  obtain ⟨h1, h2, -⟩ := build_ok ((List.range (n + 1)).map fun i : Nat => (⟨ℓ * i / n, 0, 0⟩ : Vec3 K)) ((List.range n).map fun i : Nat => (⟨.beam, [(i : Int), (i : Int) + 1], []⟩ : Elem)) (by
    intro e he x hx
    simp only [List.mem_map, List.mem_range] at he
    obtain ⟨k, hk, rfl⟩ := he
    simp only [List.mem_cons, List.not_mem_nil, or_false] at hx
    simp only [List.length_map, List.length_range]
    rcases hx with rfl | rfl <;> constructor <;> omega)
  refine ⟨h1, h2, fun id e he => ?_⟩
  obtain ⟨k, hk, rfl, rfl⟩ := rod_element he
  obtain ⟨g1, -⟩ := rod_filled ℓ n
  refine ⟨[⟨ℓ * k / n, 0, 0⟩, ⟨ℓ * ((k + 1 : Nat) : K) / n, 0, 0⟩], ?_, .beam _ _ ?_⟩
  · have e1 := g1 k (by omega)
    have e2 := g1 (k + 1) (by omega)
    rw [show ((k + 1 : Nat) : Int) = (k : Int) + 1 by push_cast; rfl] at e2
    simp only [List.mapM_cons, List.mapM_nil, e1, e2]
    rfl
  · rw [rod_step hn ℓ hℓ n hn0]
    exact div_pos hℓ (by exact_mod_cast hn0)

theorem list_range_sum (g : Nat → K) (n : Nat) : ((List.range n).map g).sum = ∑ i ∈ Finset.range n, g i := by
  induction n with
  | zero => simp
  | succ n ih => rw [List.range_succ, List.map_append, List.sum_append, ih, Finset.sum_range_succ]; simp

theorem rod_over (ℓ : K) (n : Nat) (t : Elem → K) : overElements (rod ℓ n) (fun _ => t) = ∑ k ∈ Finset.range n, t ⟨.beam, [(k : Int), (k : Int) + 1], []⟩ := by
  obtain ⟨-, g2, -, g4, -⟩ := rod_filled ℓ n
  unfold overElements
  rw [g4, iota, List.map_map, ← list_range_sum]
  congr 1
  refine List.map_congr_left fun k hk => ?_
  simp [g2 k (List.mem_range.1 hk)]

theorem ends_fixed (n : Nat) (i : Nat) : Equation.prescribed (ends n : EqField K) i = if i = n then some 0 else if i = 0 then some 0 else none := by
  simp only [Equation.prescribed, ends, SMap.find?_insert, SMap.find?_empty]
  norm_cast

theorem rod_anchored (ℓ : K) (n : Nat) : ∀ id ∈ (rod ℓ n).nodes.ids, Anchored (rod ℓ n) (ends n) id := by
  obtain ⟨-, g2, g3, -, g5⟩ := rod_filled ℓ n
  have h : ∀ i : Nat, i ≤ n → Anchored (rod ℓ n) (ends n) (i : Int) := by
    intro i
    induction i with
    | zero => exact fun _ => .fixed 0 _ 0 (g5 0 (by omega)) (by rw [ends_fixed]; split_ifs <;> simp_all)
    | succ i ih => exact fun hi => .element (i : Int) _ (i : Int) _ (g2 i (by omega)) (by simp) (by simp) (ih (by omega))
  intro id hid
  obtain ⟨i, hi⟩ := List.mem_iff_getElem?.1 hid
  have hlt : i < (rod ℓ n).nodes.count := (List.getElem?_eq_some_iff.1 hi).1
  have := g5 i (by omega)
  rw [show (rod ℓ n).nodes.idAt? i = some id from hi, Option.some.injEq] at this
  rw [this]
  exact h i (by omega)

theorem ends_ok (ℓ : K) (n : Nat) : IndicesOk (ends n : EqField K).uFixed (rod ℓ n).nodes.count := by
  intro i v h
  rw [(rod_filled ℓ n).2.2.1]
  simp only [ends, SMap.find?_insert, SMap.find?_empty] at h
  split_ifs at h <;> omega

theorem sum_two (n i : Nat) (h0 : 0 < i) (h1 : i < n) (d : Nat → K) (c : K) :
    ∑ k ∈ Finset.range n, (c * (one (i : Int) ((k : Int) + 1)) + (one (i : Int) (k : Int))) * d k = c * d (i - 1) + d i := by
  have e1 : ∀ k : Nat, (c * (one (i : Int) ((k : Int) + 1) : K) + (one (i : Int) (k : Int))) * d k = (if k = i - 1 then c * d k else 0) + if k = i then d k else 0 := fun k => by
    unfold FemHeat.one
    have a1 : ((k : Int) + 1 = (i : Int)) ↔ k = i - 1 := by omega
    have a2 : ((k : Int) = (i : Int)) ↔ k = i := by omega
    simp only [a1, a2]
    split_ifs <;> ring
  rw [Finset.sum_congr rfl fun k _ => e1 k, Finset.sum_add_distrib, Finset.sum_ite_eq', Finset.sum_ite_eq', if_pos (Finset.mem_range.2 (by omega)), if_pos (Finset.mem_range.2 h1)]

end FemPoisson

/-- **C154, fails: refinement.** For a rod from 0 to `ℓ` with zero at both ends, divided into `n` equal beams, `T'' = a` has the solution `-(a / 2) x (ℓ - x)`; the result of the program is `2 n / ℓ` times that at every node:
right only for beams of length 2, and the finer the mesh the more wrong, without bound. -/
theorem C154_refinement {nrm : Vec3 K → K} (hn : IsNorm nrm) (r ℓ : K) (hℓ : 0 < ℓ) (n : Nat) (hn0 : 0 < n) (a : K) (solver : Sys K → Nat → K) (hS : Sound solver) (junk junk' : Nat → K) :
    ∃ f', run nrm r solver junk junk' (rod ℓ n) a (ends n) = some f' ∧ f'.u.size = n + 1 ∧
      ∀ i ≤ n, f'.u.at' i = 2 * n / ℓ * (-(a / 2) * (ℓ * i / n) * (ℓ - ℓ * i / n)) := by
  have g := rod_fine hn ℓ hℓ n hn0
  obtain ⟨g1, g2, g3, g4, g5⟩ := rod_filled ℓ n
  have hnK : (n : K) ≠ 0 := by exact_mod_cast hn0.ne'
  obtain ⟨s, f', h2, h4, h5, h6, h7, h8, h9, h10⟩ := run_rows hn r g a solver hS junk junk' (ends n) rfl (ends_ok ℓ n) (rod_anchored ℓ n)
  refine ⟨f', h7, h8.trans g3, ?_⟩
  have hu : ∃ u : Nat → K, u = fun i : Nat => 2 * n / ℓ * (-(a / 2) * (ℓ * i / n) * (ℓ - ℓ * i / n)) := ⟨_, rfl⟩
  obtain ⟨u, hu⟩ := hu
  have hidx : ∀ {i : Nat} {id : Int}, (rod ℓ n).nodes.idAt? i = some id → i ≤ n ∧ id = i := fun {i id} hi => by
    have hlt : i < (rod ℓ n).nodes.count := (List.getElem?_eq_some_iff.1 hi).1
    refine ⟨by omega, ?_⟩
    have := g5 i (by omega)
    rw [hi, Option.some.injEq] at this
    exact this
  have key := rows_unique hn r g (ends n) (rod_anchored ℓ n) s h2 h5 f'.u.at' h9 h10 (fun id => u id.toNat) (fun i id v hi hv => by
      obtain ⟨-, rfl⟩ := hidx hi
      rw [ends_fixed] at hv
      show u i = v
      rw [hu]
      split_ifs at hv with e1 e2 <;> simp only [Option.some.injEq] at hv <;> rw [← hv]
      · rw [e1]
        dsimp only
        field_simp
        ring
      · rw [e2]
        simp)
    fun i hi hp => by
      have hlt : i < n + 1 := by rw [← g3, ← h2]; exact hi
      rw [ends_fixed] at hp
      split_ifs at hp with e1 e2
      have hi0 : 0 < i := by omega
      have hi1 : i < n := by omega
      have hid := g5 i (by omega)
      have hone : ∀ k < s.n, nodal (rod ℓ n) (one (i : Int) : Int → K) k = if k = i then 1 else 0 := fun k hk => nodal_single (rod ℓ n) g.wf i i hid k (h2 ▸ hk)
      have hb : s.b i = a * 2 := by
        have := h6 (one (i : Int))
        rw [Sys.load, Finset.sum_eq_single i (fun k hk hne => by rw [hone k (Finset.mem_range.1 hk), if_neg hne, zero_mul]) (fun h => absurd (Finset.mem_range.2 hi) h), hone i hi, if_pos rfl, one_mul] at this
        rw [this]
        have hc : cornerSum (rod ℓ n) (one (i : Int)) = overElements (rod ℓ n) fun _ e => ((e.nodeIds.map (one (i : Int))).sum : K) := rfl
        have h2' := sum_two n i hi0 hi1 (fun _ => (1 : K)) 1
        rw [hc, rod_over, ← show (1 : K) * 1 + 1 = 2 by norm_num, ← h2']
        congr 1
        refine Finset.sum_congr rfl fun k _ => ?_
        simp only [List.map_cons, List.map_nil, List.sum_cons, List.sum_nil]
        ring
      rw [hb, ← Sys.form_row s i hi, Sys.form_congr s _ (nodal (rod ℓ n) (one (i : Int))) _ _ (fun k hk => (hone k hk).symm) (fun _ _ => rfl), h5, stiff, neg_neg, rod_over]
      have ht : ∀ k ∈ Finset.range n, elementTerm (elementLaplacian nrm r) (rod ℓ n) (one (i : Int)) (fun id => u id.toNat) ⟨.beam, [(k : Int), (k : Int) + 1], []⟩ =
          (-1 * (one (i : Int) ((k : Int) + 1)) + (one (i : Int) (k : Int))) * ((u (k + 1) - u k) / (ℓ / n)) := fun k hk => by
        have hk := Finset.mem_range.1 hk
        have p1 := g1 k (by omega)
        have p2 := g1 (k + 1) (by omega)
        rw [show ((k + 1 : Nat) : Int) = (k : Int) + 1 by push_cast; rfl] at p2
        rw [beam_pair r (rod ℓ n) _ _ (k : Int) ((k : Int) + 1) _ _ p1 p2 (by rw [rod_step hn ℓ hℓ n hn0]; exact div_pos hℓ (by exact_mod_cast hn0)), rod_step hn ℓ hℓ n hn0]
        rw [show ((k : Int) + 1).toNat = k + 1 by omega, show (k : Int).toNat = k by omega]
        ring
      rw [Finset.sum_congr rfl ht, sum_two n i hi0 hi1, hu]
      obtain ⟨j, rfl⟩ : ∃ j, i = j + 1 := ⟨i - 1, by omega⟩
      have hℓ0 := hℓ.ne'
      simp only [Nat.add_sub_cancel]
      push_cast
      field_simp
      ring
  intro i hi
  have := key i i (g5 i hi)
  rw [← this]
  show u i = _
  rw [hu]

/-- **C154, energy.** If all prescribed values are zero, the energy of the result is `-a` times the sum over the corners. So for `a > 0` the sum, from which the torsion example computes the stiffness of the bar
(main.cpp:364-388), is not positive: the example prints a negative angle of twist. -/
theorem C154_energy {nrm : Vec3 K → K} (hn : IsNorm nrm) (r : K) {m : Mesh K} (g : Fine nrm m) (a : K) (solver : Sys K → Nat → K) (hS : Sound solver) (junk junk' : Nat → K) (f : EqField K)
    (hm : f.method = .fem) (hf : IndicesOk f.uFixed m.nodes.count) (hanch : ∀ id ∈ m.nodes.ids, Anchored m f id) (hz : ∀ i v, Equation.prescribed f i = some v → v = 0) :
    ∃ f', run nrm r solver junk junk' m a f = some f' ∧ ∀ φ E, Holds m f'.u.at' φ → TotalEnergy nrm m φ E → E = -(a * cornerSum m φ) ∧ 0 ≤ E ∧ (0 < a → cornerSum m φ ≤ 0) := by
  obtain ⟨s, f', h2, h4, h5, h6, h7, h8, h9, h10⟩ := run_rows hn r g a solver hS junk junk' f hm hf hanch
  refine ⟨f', h7, fun φ E hφ hE => ?_⟩
  have hnod := nodal_of_holds m _ φ hφ
  have hrow : s.form (nodal m φ) (nodal m φ) = s.load (nodal m φ) := by
    rw [Sys.form_rows, Sys.load]
    refine Finset.sum_congr rfl fun i hi => ?_
    have hi := Finset.mem_range.1 hi
    cases hp : Equation.prescribed f i with
    | none =>
      rw [← h10 i hi hp]
      congr 1
      exact Finset.sum_congr rfl fun j hj => by rw [hnod j (by rw [← h2]; exact Finset.mem_range.1 hj)]
    | some v => rw [hnod i (h2 ▸ hi), h9 i hi v hp, hz i v hp, zero_mul, zero_mul]
  rw [h6, h5] at hrow
  have hE2 : E = stiff nrm r m φ φ := (total_energy hn r m g.wf g.simplex φ).2 E hE
  have h0 := total_nonneg m g.simplex φ E hE
  refine ⟨by rw [hE2, ← hrow, neg_neg], h0, fun ha => ?_⟩
  by_contra hc
  have := mul_pos ha (not_le.1 hc)
  linarith

/-! ### Examples -/

namespace FemPoisson

theorem rod_unit {nrm : Vec3 K → K} (hn : IsNorm nrm) (n : Nat) (hn0 : 0 < n) : UnitCorners nrm (rod (2 * n : K) n) := by
  intro id e ps V he hps hV
  obtain ⟨k, hk, rfl, rfl⟩ := rod_element he
  obtain ⟨g1, -⟩ := rod_filled (2 * n : K) n
  have hnK : (0 : K) < n := by exact_mod_cast hn0
  have e1 := g1 k (by omega)
  have e2 := g1 (k + 1) (by omega)
  rw [show ((k + 1 : Nat) : Int) = (k : Int) + 1 by push_cast; rfl] at e2
  have : [(k : Int), (k : Int) + 1].mapM (rod (2 * n : K) n).nodes.get? = some [⟨2 * n * k / n, 0, 0⟩, ⟨2 * n * ((k + 1 : Nat) : K) / n, 0, 0⟩] := by
    simp only [List.mapM_cons, List.mapM_nil, e1, e2]
    rfl
  have hps' : some [(⟨2 * n * k / n, 0, 0⟩ : Vec3 K), ⟨2 * n * ((k + 1 : Nat) : K) / n, 0, 0⟩] = some ps := this.symm.trans hps
  rw [Option.some.injEq] at hps'
  rw [← hps'] at hV
  rw [measure_unique hV (.beam _ _), rod_step hn _ (by positivity) n hn0]
  simp only [List.length_cons, List.length_nil]
  push_cast
  field_simp

end FemPoisson

noncomputable example (n : Nat) (h : 0 < n) := C154_result_partial isNorm_real 0 (rod_fine isNorm_real 5 (by norm_num) n h) 2 anySolver anySolver_sound (fun _ => 0) (fun _ => 0) (ends n) rfl (ends_ok 5 n) (rod_anchored 5 n)
noncomputable example (n : Nat) (h : 0 < n) := C154_poisson_partial isNorm_real 0 (rod_fine isNorm_real (2 * n) (by positivity) n h) (rod_unit isNorm_real n h) 2 anySolver anySolver_sound (fun _ => 0) (fun _ => 0) (ends n) rfl
  (ends_ok _ n) (rod_anchored _ n)
noncomputable example := C154_refinement isNorm_real 0 1 (by norm_num) 1000 (by norm_num) 2 anySolver anySolver_sound (fun _ => 0) (fun _ => 0)
noncomputable example (n : Nat) (h : 0 < n) := C154_energy isNorm_real 0 (rod_fine isNorm_real 5 (by norm_num) n h) 2 anySolver anySolver_sound (fun _ => 0) (fun _ => 0) (ends n) rfl (ends_ok 5 n) (rod_anchored 5 n)
  (fun i v hv => by rw [ends_fixed] at hv; split_ifs at hv <;> simp_all)

end ENigMA
