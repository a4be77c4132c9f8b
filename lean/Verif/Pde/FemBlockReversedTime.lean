import Verif.Pde.FemBlockReversed

/-!
# C164: blocks with negative `volume()` in time
-/

set_option linter.unusedSectionVars false
set_option autoImplicit false

namespace ENigMA
open Matrix FemOp FemThermalOp Fem FemHeat FdmHeat BasicMesher FemBlock
open FemPlate (one_of_list iota_at clamp clamp_sq clamp_id)
variable {K : Type} [Field K] [LinearOrder K] [IsStrictOrderedRing K]

namespace FemBlock

theorem tetDdt_neg (V dt : K) : tetDdt (-V) dt = (-1 : K) • tetDdt V dt := by
  unfold tetDdt
  simp only
  split
  · rw [smul_smul, smul_smul, smul_smul]; congr 1; ring
  · rw [smul_smul]; congr 1; ring

section Grid
variable {nrm : Vec3 K → K} (hn : IsNorm nrm) (h : Hex K) (nu nv nw : Nat) (hu : 0 < nu) (hv : 0 < nv) (hw : 0 < nw)

include hn hu hv hw in
theorem block_mass (φ ψ : Int → K) :
    overElements (generateHex nrm h nu nv nw true).mesh (fun _ => elementTerm (elementDdt nrm) (generateHex nrm h nu nv nw true).mesh φ ψ) =
      -1 * overElements (generateHex nrm (mirrorHex h) nu nv nw true).mesh (fun _ => elementTerm (elementDdt nrm) (generateHex nrm (mirrorHex h) nu nv nw true).mesh φ ψ) := by
  unfold overElements
  rw [(C31_nodes hn h nu nv nw hu hv hw true).2.2.2.2.1, (C31_nodes hn (mirrorHex h) nu nv nw hu hv hw true).2.2.2.2.1, ← List.sum_map_mul_left]
  congr 1
  refine List.map_congr_left fun x _ => ?_
  rw [← block_same hn h nu nv nw hu hv hw (mirrorHex h) x]
  cases he : (generateHex nrm h nu nv nw true).mesh.elements.get? x with
  | none => simp
  | some e =>
    obtain ⟨A, B, C, D, h1, h2, h3, h4⟩ := block_corners hn h nu nv nw hu hv hw x e he
    simp only [Option.map_some, Option.getD_some, elementTerm, h1, h2, h3, Option.bind_some, elementDdt]
    rw [mirror_tet, tetDdt_neg, form_smul]
    ring

include hn hu hv hw in
theorem block_contiguous : Contiguous (generateHex nrm h nu nv nw true).mesh ∧ ∀ id ∈ (generateHex nrm h nu nv nw true).mesh.nodes.ids, 0 ≤ id ∧ id < (generateHex nrm h nu nv nw true).mesh.nodes.count := by
  obtain ⟨-, -, -, hids, heids, -⟩ := C31_nodes hn h nu nv nw hu hv hw true
  refine ⟨?_, fun x hx => ?_⟩
  · have hc : (generateHex nrm h nu nv nw true).mesh.elements.count = nu * nv * nw * if true then 6 else 1 := by
      show (generateHex nrm h nu nv nw true).mesh.elements.ids.length = _
      rw [heids]; simp [Mesh.iota]
    unfold Contiguous
    rw [hc, heids]; rfl
  · rw [hids] at hx
    obtain ⟨i, hi⟩ := List.mem_iff_getElem?.1 hx
    obtain ⟨h1, rfl⟩ := (iota_at _ _ _).1 hi
    rw [block_count hn h nu nv nw hu hv hw]; omega

/-- Rows from forms. -/
theorem row_unit (t : Sys K) (w : Nat → K) (i : Nat) (ht : i < t.n) : t.form (fun j => if j = i then 1 else 0) w = t.row w i := by
  rw [Sys.form_rows, Finset.sum_eq_single i (fun j _ hj => by simp [hj]) (fun h => absurd (Finset.mem_range.2 ht) h)]
  simp

theorem row_congr (t : Sys K) (w w' : Nat → K) (i : Nat) (hw : ∀ j < t.n, w j = w' j) : t.row w i = t.row w' i := by
  simp only [Sys.row]
  exact Finset.sum_congr rfl fun j hj => by rw [hw j (Finset.mem_range.1 hj)]

include hn hu hv hw in
/-- One step on the block, and one on its image with another conductivity. -/
theorem block_step (hvol : h.volume < 0) (r : K) (solver : Sys K → Nat → K) (hS : Sound solver) (junk junk' : Nat → K) (pf : PdeField K) (P : Par K) (hrc : 0 < P.rc) (hdt : 0 < P.dt) (hk : 0 ≤ P.k)
    (f g : EqField K) (hm : f.method = .fem) (hm' : g.method = .fem) (hfg : f.uFixed = g.uFixed) (hf : IndicesOk f.uFixed ((nu + 1) * (nv + 1) * (nw + 1)))
    (hu0 : ∀ n < (nu + 1) * (nv + 1) * (nw + 1), f.u.at' n = g.u.at' n) :
    ∃ f' g', FemHeat.step nrm r solver junk junk' (generateHex nrm h nu nv nw true).mesh pf P f = some f' ∧
      FemHeat.step nrm r solver junk junk' (generateHex nrm (mirrorHex h) nu nv nw true).mesh pf { P with k := P.k * (h.volume / (nu * nv * nw)) ^ 2 } g = some g' ∧
      f'.u.size = (nu + 1) * (nv + 1) * (nw + 1) ∧ f'.method = .fem ∧ g'.method = .fem ∧ f'.uFixed = f.uFixed ∧ g'.uFixed = g.uFixed ∧
      ∀ n < (nu + 1) * (nv + 1) * (nw + 1), f'.u.at' n = g'.u.at' n := by
  obtain ⟨N, hN⟩ : ∃ N, N = (nu + 1) * (nv + 1) * (nw + 1) := ⟨_, rfl⟩
  obtain ⟨q, hq⟩ : ∃ q : K, q = h.volume / (nu * nv * nw) := ⟨_, rfl⟩
  obtain ⟨m, hmm⟩ : ∃ m, m = (generateHex nrm h nu nv nw true).mesh := ⟨_, rfl⟩
  obtain ⟨m', hmm'⟩ : ∃ m, m = (generateHex nrm (mirrorHex h) nu nv nw true).mesh := ⟨_, rfl⟩
  have ha : 0 < P.rc / P.dt := div_pos hrc hdt
  have hvol' : 0 < (mirrorHex h).volume := by rw [mirror_volume]; linarith
  have good := block_good hn (mirrorHex h) nu nv nw hu hv hw hvol'
  have cov := block_covered hn (mirrorHex h) nu nv nw hu hv hw
  have free' := block_free hn (mirrorHex h) nu nv nw hu hv hw pf
  have free := block_free hn h nu nv nw hu hv hw pf
  have hreg := block_regular hn h nu nv nw hu hv hw r
  obtain ⟨hcont, hnid⟩ := block_contiguous hn h nu nv nw hu hv hw
  obtain ⟨hwf, hrt, -, hids, -, -⟩ := C31_nodes hn h nu nv nw hu hv hw true
  obtain ⟨-, -, -, hids', -, -⟩ := C31_nodes hn (mirrorHex h) nu nv nw hu hv hw true
  have hcnt := block_count hn h nu nv nw hu hv hw
  have hcnt' := block_count hn (mirrorHex h) nu nv nw hu hv hw
  have hlap := block_form hn h nu nv nw hu hv hw hvol r
  have hmas := block_mass hn h nu nv nw hu hv hw
  have hexc : ∀ φ ψ : Int → K, overElements (generateHex nrm h nu nv nw true).mesh (exchange nrm pf (generateHex nrm h nu nv nw true).mesh φ ψ) = 0 := fun φ ψ => by
    refine overElements_zero _ _ fun id e he => ?_
    obtain ⟨_, _, _, _, _, _, _, _, _, _, _, rfl⟩ := block_elem hn h nu nv nw hu hv hw id e he
    rfl
  rw [← hmm] at hreg hcont hnid hwf hrt hids hcnt hlap hmas hexc free ⊢
  rw [← hmm'] at good cov free' hids' hcnt' hlap hmas ⊢
  rw [← hN] at hf hu0 hids hids' hcnt hcnt' ⊢
  simp only [← hq] at hlap ⊢
  have hidx : ∀ n x, m.nodes.idAt? n = some x ↔ n < N ∧ x = n := fun n x => by
    show m.nodes.ids[n]? = _ ↔ _
    rw [hids, iota_at]
  have hidx' : ∀ n x, m'.nodes.idAt? n = some x ↔ n < N ∧ x = n := fun n x => by
    show m'.nodes.ids[n]? = _ ↔ _
    rw [hids', iota_at]
  have hnod : ∀ (φ : Int → K) n, n < N → nodal m φ n = φ n ∧ nodal m' φ n = φ n := fun φ n hn => by
    unfold nodal
    rw [(hidx n n).2 ⟨hn, rfl⟩, (hidx' n n).2 ⟨hn, rfl⟩]
    exact ⟨rfl, rfl⟩
  -- the matrices
  obtain ⟨d', d1', d2', -, -, d5', d6'⟩ := stored m' good.wf good.trip good.simplex good.elements good.nodes g.u.at'
  obtain ⟨l', l1', l2', -, -, -, l6'⟩ := conduct nrm r pf m' good.wf good.trip good.simplex free'
  obtain ⟨d, d1, d2, d3, d4, d5⟩ := C28_ddt_partial nrm m hwf hrt hcont hnid f.u.at'
  obtain ⟨l, l1, l2, l3, l4⟩ := C115_laplacian nrm r pf m hwf hrt hreg
  obtain ⟨_, _, c1, -, -, l5, -⟩ := C115_no_conditions nrm r pf m hwf hrt hreg free
  rw [l1, Option.some.injEq] at c1
  subst c1
  rw [hcnt] at d2 l2
  rw [hcnt'] at d2' l2'
  have formOf : ∀ (t : Sys K), t.n = N → ∀ v w : Nat → K, t.form v w = t.form (nodal m fun x => v x.toNat) (nodal m fun x => w x.toNat) ∧ t.form v w = t.form (nodal m' fun x => v x.toNat) (nodal m' fun x => w x.toNat) :=
    fun t ht v w => ⟨Sys.form_congr t _ _ _ _ (fun i hi => by rw [(hnod _ i (ht ▸ hi)).1]; rfl) (fun i hi => by rw [(hnod _ i (ht ▸ hi)).1]; rfl),
      Sys.form_congr t _ _ _ _ (fun i hi => by rw [(hnod _ i (ht ▸ hi)).2]; rfl) (fun i hi => by rw [(hnod _ i (ht ▸ hi)).2]; rfl)⟩
  have drow : ∀ w i, i < N → d.row w i = -d'.row w i := fun w i hi => by
    rw [← row_unit d w i (d2 ▸ hi), ← row_unit d' w i (d2' ▸ hi), (formOf d d2 _ _).1, (formOf d' d2' _ _).2, d5, elems_over, d6', hmas]
    unfold mass; ring
  have lrow : ∀ w i, i < N → l.row w i = -q ^ 2 * l'.row w i := fun w i hi => by
    rw [← row_unit l w i (l2 ▸ hi), ← row_unit l' w i (l2' ▸ hi), (formOf l l2 _ _).1, (formOf l' l2' _ _).2, (l4 _ _).1, hexc, add_zero, l6', hlap]
  -- the step on the image
  obtain ⟨g', g1, g2, g3, g4, g5⟩ := step_run hn r solver hS junk junk' m' good pf free' { P with k := P.k * q ^ 2 } hrc hdt (mul_nonneg hk (sq_nonneg q)) g hm' (by rw [hcnt', ← hfg]; exact hf)
  obtain ⟨gm, gw⟩ := g5 (fun x => g.u.at' x.toNat) (fun x => g'.u.at' x.toNat) (fun n x hx => by obtain ⟨-, rfl⟩ := (hidx' n x).1 hx; rfl) (fun n x hx => by obtain ⟨-, rfl⟩ := (hidx' n x).1 hx; rfl)
  have hpre : ∀ n, Equation.prescribed g n = Equation.prescribed f n := fun n => by unfold Equation.prescribed; rw [hfg]
  have grow : ∀ i < N, Equation.prescribed f i = none → P.rc / P.dt * (d'.row g'.u.at' i - d'.row g.u.at' i) - P.k * q ^ 2 * l'.row g'.u.at' i = 0 := fun i hi hp => by
    have := gw (fun x => if x.toNat = i then 1 else 0) (fun n x hx hne => by
      obtain ⟨-, rfl⟩ := (hidx' n x).1 hx
      rw [hpre] at hne
      simp only [Int.toNat_natCast]
      exact if_neg fun (h : n = i) => hne (by rw [h]; exact hp))
    unfold stiff at this
    rw [← d6', ← d6', ← l6'] at this
    have e1 := (formOf d' d2' (fun j => if j = i then 1 else 0) g'.u.at').2
    have e2 := (formOf d' d2' (fun j => if j = i then 1 else 0) g.u.at').2
    have e3 := (formOf l' l2' (fun j => if j = i then 1 else 0) g'.u.at').2
    rw [row_unit d' _ i (d2' ▸ hi)] at e1 e2
    rw [row_unit l' _ i (l2' ▸ hi)] at e3
    rw [e1, e2, e3]
    simp only at this ⊢
    linarith
  have gfix : ∀ n < N, ∀ v, Equation.prescribed f n = some v → g'.u.at' n = v := fun n hn v hv => gm n n v ((hidx' n n).2 ⟨hn, rfl⟩) (by rw [hpre]; exact hv)
  -- the step on the block
  obtain ⟨s, hs⟩ : ∃ s : Sys K, s = { kind := Sys.joinKind d.kind l.kind, n := d.n, A := fun i j => P.rc / P.dt * d.A i j - P.k * l.A i j, b := fun i => P.rc / P.dt * d.b i - P.k * l.b i } :=
    ⟨_, rfl⟩
  have hsub : (Sys.smul (P.rc / P.dt) d).sub (Sys.smul P.k l) = some s := by
    unfold Sys.sub Sys.smul
    rw [if_pos (show d.n = l.n by rw [d2, l2]), hs]
  have hsn : s.n = N := by rw [hs]; exact d2
  have srow : ∀ w i, i < N → s.row w i = -(P.rc / P.dt * d'.row w i - P.k * q ^ 2 * l'.row w i) := fun w i hi => by
    have e : s.row w i = P.rc / P.dt * d.row w i - P.k * l.row w i := by
      have hln : l.n = d.n := by rw [d2, l2]
      rw [hs]
      simp only [Sys.row, hln, Finset.mul_sum]
      rw [← Finset.sum_sub_distrib]
      exact Finset.sum_congr rfl fun j _ => by ring
    rw [e, drow w i hi, lrow w i hi]; ring
  have sb : ∀ i < N, s.b i = -(P.rc / P.dt * d'.row g.u.at' i) := fun i hi => by
    rw [hs]
    show P.rc / P.dt * d.b i - P.k * l.b i = _
    rw [d4 i (d2 ▸ hi), l5 i (l2 ▸ hi), drow _ i hi, row_congr d' f.u.at' g.u.at' i (fun j hj => hu0 j (d2' ▸ hj))]; ring
  have hin : ∀ n v, Equation.prescribed f n = some v → n < N := fun n v h' => by
    have := (hf (n : Int) v h').2
    exact_mod_cast this
  obtain ⟨f', e1, e2, e3, e4, e5⟩ := Equation.eliminate_run solver hS junk junk' s f hm (by rw [hs]; show Sys.joinKind d.kind l.kind ≠ _; rw [d3, l3]; decide) (by rw [hsn]; exact hf)
    ⟨g'.u.at', fun i v hv' => gfix i (hin i v hv') v hv', fun i hi hp => by
      have := grow i (hsn ▸ hi) hp
      rw [srow _ i (hsn ▸ hi), sb i (hsn ▸ hi)]; linarith⟩
  have hmf : f'.method = .fem := by
    obtain ⟨e, -, he⟩ := Option.bind_eq_some_iff.1 e1
    rw [(kept solver junk' e f f' he).1, hm]
  refine ⟨f', g', ?_, g1, by rw [e2, hsn], hmf, g4, e3, g3, fun n hlt => ?_⟩
  · unfold FemHeat.step
    rw [show FemThermalOp.ddt nrm m f.u.at' = some d from d1, Option.bind_eq_bind, Option.bind_some, l1, Option.bind_eq_bind, Option.bind_some, hsub]
    show (Equation.setElimination junk (Equation.new (s.assignReal 0)) f).bind _ = _
    rw [Sys.assignZero']
    exact e1
  -- the difference
  have hdiff : P.rc / P.dt * d'.form (fun n => f'.u.at' n - g'.u.at' n) (fun n => f'.u.at' n - g'.u.at' n) - P.k * q ^ 2 * l'.form (fun n => f'.u.at' n - g'.u.at' n) (fun n => f'.u.at' n - g'.u.at' n) = 0 := by
    rw [Sys.form_rows, Sys.form_rows, d2', l2', Finset.mul_sum, Finset.mul_sum, ← Finset.sum_sub_distrib]
    refine Finset.sum_eq_zero fun i hi => ?_
    have hi' : i < N := Finset.mem_range.1 hi
    have rsub : ∀ t : Sys K, t.row (fun n => f'.u.at' n - g'.u.at' n) i = t.row f'.u.at' i - t.row g'.u.at' i := fun t => by
      simp only [Sys.row, ← Finset.sum_sub_distrib, mul_sub]
    rw [rsub, rsub]
    cases hp : Equation.prescribed f i with
    | some v => rw [gfix i hi' v hp, e4 i (hsn ▸ hi') v hp]; ring
    | none =>
      have h1 := e5 i (hsn ▸ hi') hp
      rw [srow _ i hi', sb i hi'] at h1
      have h2 := grow i hi' hp
      linear_combination (f'.u.at' i - g'.u.at' i) * (-h1 - h2)
  have hl0 : l'.form (fun n => f'.u.at' n - g'.u.at' n) (fun n => f'.u.at' n - g'.u.at' n) ≤ 0 := by
    rw [(formOf l' l2' _ _).2, l6']
    have := stiff_nonneg hn r good (fun x => (fun n => f'.u.at' n - g'.u.at' n) x.toNat)
    unfold stiff at this
    linarith
  have hd0 := d5'.2 (fun n => f'.u.at' n - g'.u.at' n)
  have hz : d'.form (fun n => f'.u.at' n - g'.u.at' n) (fun n => f'.u.at' n - g'.u.at' n) = 0 := by
    have h1 := mul_nonneg ha.le hd0
    have h2 := mul_nonneg (mul_nonneg hk (sq_nonneg q)) (neg_nonneg.2 hl0)
    exact (mul_eq_zero.1 (by linarith : P.rc / P.dt * d'.form (fun n => f'.u.at' n - g'.u.at' n) (fun n => f'.u.at' n - g'.u.at' n) = 0)).resolve_left ha.ne'
  rw [(formOf d' d2' _ _).2, d6'] at hz
  obtain ⟨id, e, he, hx⟩ := cov (n : Int) (List.mem_of_getElem? ((hidx' n n).2 ⟨hlt, rfl⟩))
  have := (mass_nonneg m' good.wf good.simplex _).2 hz id e he n hx
  simp only [Int.toNat_natCast] at this
  exact sub_eq_zero.1 this

end Grid
end FemBlock

/-- **C164, blocks with negative `volume()` in time: the wrong material.** On such a block, with tetrahedra of volume `V`, the program computes step by step the temperatures that it computes on the mirror image of the block for
the conductivity multiplied by `(6 V)²`. -/
theorem C164_time {nrm : Vec3 K → K} (hn : IsNorm nrm) (r : K) (solver : Sys K → Nat → K) (hS : Sound solver) (junk junk' : Nat → K) (h : Hex K) (hvol : h.volume < 0)
    (nu nv nw : Nat) (hu : 0 < nu) (hv : 0 < nv) (hw : 0 < nw) (pf : PdeField K) (P : Par K) (hrc : 0 < P.rc) (hdt : 0 < P.dt) (hk : 0 ≤ P.k)
    (f : EqField K) (hm : f.method = .fem) (hf : IndicesOk f.uFixed ((nu + 1) * (nv + 1) * (nw + 1))) (V : K) (hV : ((nu * nv * nw * 6 : Nat) : K) * V = h.volume) (t : Nat) :
    ∃ f' g', FemHeat.steps nrm r solver junk junk' (generateHex nrm h nu nv nw true).mesh pf P t f = some f' ∧
      FemHeat.steps nrm r solver junk junk' (generateHex nrm (mirrorHex h) nu nv nw true).mesh pf { P with k := P.k * (6 * V) ^ 2 } t f = some g' ∧
      ∀ n < (nu + 1) * (nv + 1) * (nw + 1), f'.u.at' n = g'.u.at' n := by
  have hup : (nu : K) ≠ 0 := by exact_mod_cast hu.ne'
  have hvp : (nv : K) ≠ 0 := by exact_mod_cast hv.ne'
  have hwp : (nw : K) ≠ 0 := by exact_mod_cast hw.ne'
  have hq : 6 * V = h.volume / (nu * nv * nw) := by rw [← hV]; push_cast; field_simp
  rw [hq]
  have key : ∃ f' g', FemHeat.steps nrm r solver junk junk' (generateHex nrm h nu nv nw true).mesh pf P t f = some f' ∧
      FemHeat.steps nrm r solver junk junk' (generateHex nrm (mirrorHex h) nu nv nw true).mesh pf { P with k := P.k * (h.volume / (nu * nv * nw)) ^ 2 } t f = some g' ∧
      f'.method = .fem ∧ g'.method = .fem ∧ f'.uFixed = f.uFixed ∧ g'.uFixed = f.uFixed ∧ ∀ n < (nu + 1) * (nv + 1) * (nw + 1), f'.u.at' n = g'.u.at' n := by
    induction t with
    | zero => exact ⟨f, f, rfl, rfl, hm, hm, rfl, rfl, fun _ _ => rfl⟩
    | succ t ih =>
      obtain ⟨f1, g1, a1, a2, a3, a4, a5, a6, a7⟩ := ih
      obtain ⟨f2, g2, b1, b2, -, b4, b5, b6, b7, b8⟩ := block_step hn h nu nv nw hu hv hw hvol r solver hS junk junk' pf P hrc hdt hk f1 g1 a3 a4 (by rw [a5, a6]) (by rw [a5]; exact hf) a7
      refine ⟨f2, g2, ?_, ?_, b4, b5, by rw [b6, a5], by rw [b7, a6], b8⟩
      · show (FemHeat.steps _ _ _ _ _ _ _ _ t f).bind _ = _
        rw [a1]; exact b1
      · show (FemHeat.steps _ _ _ _ _ _ _ _ t f).bind _ = _
        rw [a2]; exact b2
  obtain ⟨f', g', a1, a2, -, -, -, -, a7⟩ := key
  exact ⟨f', g', a1, a2, a7⟩

namespace FemBlock

/-- Zero at nodes 1, …, `N`. -/
def cold (N : Nat) : SMap Int K := (List.range N).foldl (fun s (n : Nat) => s.insert ((n : Int) + 1) 0) .empty

theorem cold_find (N : Nat) (i : Int) : (cold N : SMap Int K).find? i = if 1 ≤ i ∧ i < N + 1 then some 0 else none := by
  unfold cold
  induction N with
  | zero => rw [if_neg (by push_cast; omega)]; rfl
  | succ N ih =>
    rw [List.range_succ, List.foldl_append, List.foldl_cons, List.foldl_nil, SMap.find?_insert, ih]
    by_cases hi : i = N + 1
    · rw [if_pos hi, if_pos (by push_cast; omega)]
    · rw [if_neg hi]
      by_cases h : 1 ≤ i ∧ i < N + 1
      · rw [if_pos h, if_pos (by push_cast; omega)]
      · rw [if_neg h, if_neg (by push_cast; omega)]

/-- One corner of a block hot and free, the others kept cold. -/
def corner : EqField K := ⟨.fem, cold 7, .empty, ⟨8, fun n => if n = 0 then 1 else 0⟩⟩

theorem corner_fixed (n : Nat) : Equation.prescribed (corner : EqField K) n = if 1 ≤ n ∧ n < 8 then some 0 else none := by
  unfold Equation.prescribed corner
  show (cold 7 : SMap Int K).find? n = _
  rw [cold_find]
  norm_cast

theorem corner_ok : IndicesOk (corner : EqField K).uFixed 8 := fun i v hv => by
  have hv' : (cold 7 : SMap Int K).find? i = some v := hv
  rw [cold_find] at hv'
  split_ifs at hv' with h
  push_cast at h ⊢; omega

/-- One step of the cooling of the corner, on a block with positive `volume()`. -/
theorem corner_step {nrm : Vec3 K → K} (hn : IsNorm nrm) (h : Hex K) (hvol : 0 < h.volume) (r : K) : ∃ D S : K, 0 < D ∧ S ≠ 0 ∧
    ∀ (solver : Sys K → Nat → K), Sound solver → ∀ (junk junk' : Nat → K) (pf : PdeField K) (P : Par K), 0 < P.rc → 0 < P.dt → 0 ≤ P.k →
      ∃ f', FemHeat.step nrm r solver junk junk' (generateHex nrm h ((1 : Nat) : Int) ((1 : Nat) : Int) ((1 : Nat) : Int) true).mesh pf P corner = some f' ∧
        P.rc / P.dt * (f'.u.at' 0 * D - D) + P.k * (f'.u.at' 0 * S) = 0 := by
  have good := block_good hn h 1 1 1 one_pos one_pos one_pos hvol
  have cov := block_covered hn h 1 1 1 one_pos one_pos one_pos
  have hids := (C31_nodes hn h 1 1 1 one_pos one_pos one_pos true).2.2.2.1
  have hcnt := block_count hn h 1 1 1 one_pos one_pos one_pos
  have anch := block_all hn h 1 1 1 one_pos one_pos one_pos corner corner_ok ⟨1, 0, by show (cold 7 : SMap Int K).find? 1 = _; rw [cold_find, if_pos (by norm_num)]⟩
  have free := fun pf => block_free hn h 1 1 1 one_pos one_pos one_pos pf
  generalize (generateHex nrm h ((1 : Nat) : Int) ((1 : Nat) : Int) ((1 : Nat) : Int) true).mesh = m at *
  have hidx : ∀ n x, m.nodes.idAt? n = some x ↔ n < 8 ∧ x = n := fun n x => by
    show m.nodes.ids[n]? = _ ↔ _
    rw [hids, iota_at]
  have h0 : (0 : Int) ∈ m.nodes.ids := List.mem_of_getElem? ((hidx 0 0).2 ⟨by norm_num, rfl⟩)
  obtain ⟨d, -, d2, -, -, -, d6⟩ := stored m good.wf good.trip good.simplex good.elements good.nodes (fun _ => 0)
  obtain ⟨l, -, l2, -, -, -, l6⟩ := conduct nrm r (PdeField.new 1) m good.wf good.trip good.simplex (plain_conditions m)
  have hmul : ∀ (s : Sys K), s.n = m.nodes.count → ∀ (φ : Int → K) (a : K), (∀ n < 8, φ (n : Nat) = if n = 0 then a else 0) →
      s.form (nodal m fun x => if x = 0 then 1 else 0) (nodal m φ) = a * s.form (nodal m fun x => if x = 0 then 1 else 0) (nodal m fun x => if x = 0 then 1 else 0) := fun s hs φ a hφ => by
    have e : ∀ j < s.n, nodal m φ j = a * nodal m (fun x => if x = 0 then 1 else 0) j := fun j hj => by
      have hj8 : j < 8 := by rw [hs, hcnt] at hj; exact hj
      unfold nodal
      rw [(hidx j j).2 ⟨hj8, rfl⟩]
      simp only [Option.map_some, Option.getD_some, hφ j hj8]
      by_cases h : j = 0 <;> simp [h]
    simp only [Sys.form, Finset.mul_sum]
    exact Finset.sum_congr rfl fun i _ => Finset.sum_congr rfl fun j hj => by rw [e j (Finset.mem_range.1 hj)]; ring
  refine ⟨mass nrm m (fun x => if x = 0 then 1 else 0) (fun x => if x = 0 then 1 else 0), stiff nrm r m (fun x => if x = 0 then 1 else 0) (fun x => if x = 0 then 1 else 0), ?_, fun hS0 => ?_,
    fun solver hS junk junk' pf P hrc hdt hk => ?_⟩
  · obtain ⟨a1, a2⟩ := mass_nonneg m good.wf good.simplex (fun x => if x = 0 then (1 : K) else 0)
    refine lt_of_le_of_ne a1 fun h => ?_
    obtain ⟨id, e, he, hx⟩ := cov 0 h0
    have := a2 h.symm id e he 0 hx
    simp at this
  · have hE := (total_energy hn r m good.wf good.simplex (fun x => if x = 0 then (1 : K) else 0)).1
    unfold stiff at hS0
    rw [hS0] at hE
    have := anchored_zero m good.wf good.simplex corner _ hE (fun i id v hi hp => by
      obtain ⟨h1, rfl⟩ := (hidx i id).1 hi
      rw [corner_fixed] at hp
      split_ifs at hp with hc
      exact if_neg (by omega)) 0 (anch 0 h0)
    simp at this
  · obtain ⟨f', g1, -, -, -, g5⟩ := step_run hn r solver hS junk junk' m good pf (free pf) P hrc hdt hk corner rfl (by rw [hcnt]; exact corner_ok)
    obtain ⟨gm, gw⟩ := g5 (fun x => (corner : EqField K).u.at' x.toNat) (fun x => f'.u.at' x.toNat) (fun n x hx => by obtain ⟨-, rfl⟩ := (hidx n x).1 hx; rfl) (fun n x hx => by obtain ⟨-, rfl⟩ := (hidx n x).1 hx; rfl)
    refine ⟨f', g1, ?_⟩
    have hw := gw (fun x => if x = 0 then 1 else 0) (fun n x hx hp => by
      obtain ⟨h1, rfl⟩ := (hidx n x).1 hx
      rw [corner_fixed] at hp
      refine if_neg fun h => hp (if_neg (by omega)))
    have e1 : ∀ n < 8, (fun x : Int => f'.u.at' x.toNat) ((n : Nat) : Int) = if n = 0 then f'.u.at' 0 else 0 := fun n hn8 => by
      by_cases h : n = 0
      · rw [if_pos h, h]; rfl
      · rw [if_neg h]
        exact gm n n 0 ((hidx n n).2 ⟨hn8, rfl⟩) (by rw [corner_fixed, if_pos (by omega)])
    have e2 : ∀ n < 8, (fun x : Int => (corner : EqField K).u.at' x.toNat) ((n : Nat) : Int) = if n = 0 then 1 else 0 := fun n _ => rfl
    have k1 := hmul d d2 (fun x => f'.u.at' x.toNat) (f'.u.at' 0) e1
    have k2 := hmul d d2 (fun x => (corner : EqField K).u.at' x.toNat) 1 e2
    have k3 := hmul l l2 (fun x => f'.u.at' x.toNat) (f'.u.at' 0) e1
    rw [d6, d6] at k1 k2
    rw [l6, l6] at k3
    unfold stiff at hw ⊢
    rw [k1, k2, k3] at hw
    linarith

end FemBlock

/-- **C164 fails in time.** On every block of one cell with negative `volume()` other than `-1`, whatever the material and the time step, a hot corner with all others kept cold does not cool as it does on the mirror image of the block. -/
theorem C164_time_wrong {nrm : Vec3 K → K} (hn : IsNorm nrm) (r : K) (solver : Sys K → Nat → K) (hS : Sound solver) (junk junk' : Nat → K) (h : Hex K) (hvol : h.volume < 0) (hne : h.volume ≠ -1)
    (pf : PdeField K) (P : Par K) (hrc : 0 < P.rc) (hdt : 0 < P.dt) (hk : 0 < P.k) :
    ∃ f' g', FemHeat.step nrm r solver junk junk' (generateHex nrm h ((1 : Nat) : Int) ((1 : Nat) : Int) ((1 : Nat) : Int) true).mesh pf P corner = some f' ∧
      FemHeat.step nrm r solver junk junk' (generateHex nrm (mirrorHex h) ((1 : Nat) : Int) ((1 : Nat) : Int) ((1 : Nat) : Int) true).mesh pf P corner = some g' ∧ f'.u.at' 0 ≠ g'.u.at' 0 := by
  have hvol' : 0 < (mirrorHex h).volume := by rw [mirror_volume]; linarith
  obtain ⟨D, S, hD, hS0, key⟩ := corner_step hn (mirrorHex h) hvol' r
  obtain ⟨f', g1, a1, a2, -, -, -, -, -, a8⟩ := block_step hn h 1 1 1 one_pos one_pos one_pos hvol r solver hS junk junk' pf P hrc hdt hk.le corner corner rfl rfl rfl corner_ok (fun _ _ => rfl)
  obtain ⟨g2, b1, b2⟩ := key solver hS junk junk' pf { P with k := P.k * (h.volume / (((1 : Nat) : K) * ((1 : Nat) : K) * ((1 : Nat) : K))) ^ 2 } hrc hdt (mul_nonneg hk.le (sq_nonneg _))
  obtain ⟨g', c1, c2⟩ := key solver hS junk junk' pf P hrc hdt hk.le
  rw [a2, Option.some.injEq] at b1
  subst b1
  refine ⟨f', g', a1, c1, fun heq => ?_⟩
  rw [← a8 0 (by norm_num)] at b2
  rw [← heq] at c2
  simp only [Nat.cast_one, mul_one, div_one] at b2
  have ha : 0 < P.rc / P.dt := div_pos hrc hdt
  have h1 : P.k * f'.u.at' 0 * S * (1 - h.volume ^ 2) = 0 := by linear_combination c2 - b2
  have h2 : f'.u.at' 0 ≠ 0 := fun h0 => by
    rw [h0] at c2
    have := mul_pos ha hD
    linarith
  have h3 : (1 - h.volume) * (1 + h.volume) = 0 := by
    have := (mul_eq_zero.1 h1).resolve_left (mul_ne_zero (mul_ne_zero hk.ne' h2) hS0)
    linear_combination this
  rcases mul_eq_zero.1 h3 with h4 | h4
  · linarith
  · exact hne (by linarith)

/-! ### The hypotheses are met -/

namespace FemBlock

/-- A box of three by two by one with its corners in the order of the example programs, the third edge up. -/
noncomputable def upright : Hex ℝ := ⟨⟨0, 0, 0⟩, ⟨3, 0, 0⟩, ⟨3, 2, 0⟩, ⟨0, 2, 0⟩, ⟨0, 0, 1⟩, ⟨3, 0, 1⟩, ⟨3, 2, 1⟩, ⟨0, 2, 1⟩⟩

theorem upright_volume : upright.volume = -6 := by norm_num [upright, Hex.volume, Vec3.dot, Vec3.cross]

theorem upright_box : Box upright := by constructor <;> norm_num [upright, Vec3.dot]

end FemBlock

/-- With two prescribed nodes it is nowhere colder than minus one or hotter than four. -/
example (r : ℝ) : ∃ f', FemHeat.steady realNorm r anySolver (fun _ => 0) (fun _ => 0) (generateHex realNorm upright ((7 : Nat) : Int) ((3 : Nat) : Int) ((2 : Nat) : Int) true).mesh plain ⟨.fem, twoNodes, .empty, ⟨96, fun _ => 0⟩⟩ = some f' ∧
    f'.u.at' 5 = 4 ∧ -1 ≤ f'.u.at' 40 ∧ f'.u.at' 40 ≤ 4 := by
  have hpre : ∀ n : Nat, Equation.prescribed ⟨.fem, twoNodes, .empty, ⟨96, fun _ => 0⟩⟩ n = if n = 5 then some 4 else if n = 0 then some (-1) else none := fun n => by
    simp only [Equation.prescribed, twoNodes, SMap.find?_insert, SMap.find?_empty]
    norm_cast
  obtain ⟨f', h1, -, h2, h3⟩ := C164_bounds isNorm_real r anySolver anySolver_sound (fun _ => 0) (fun _ => 0) upright upright_box (by rw [upright_volume]; norm_num) 7 3 2 (by norm_num) (by norm_num) (by norm_num) plain
    ⟨.fem, twoNodes, .empty, ⟨96, fun _ => 0⟩⟩ rfl (twoNodes_ok _ (by norm_num)) ⟨5, 4, by rw [hpre, if_pos rfl]⟩ (-1) 4 (fun n v h => by
      rw [hpre] at h
      split_ifs at h <;> rw [← Option.some.inj h] <;> norm_num)
  exact ⟨f', h1, h2 5 4 (by rw [hpre, if_pos rfl]), h3 40 (by norm_num)⟩

/-- The middle of an upright brick has the temperature of the linear function there. -/
example (r : ℝ) : ∃ f', FemHeat.steady realNorm r anySolver (fun _ => 0) (fun _ => 0) (generateHex realNorm (mirrorHex brick) ((2 : Nat) : Int) ((2 : Nat) : Int) ((2 : Nat) : Int) true).mesh plain ⟨.fem, skin, .empty, ⟨27, fun _ => 0⟩⟩ = some f' ∧
    f'.u.at' 13 = 5 := by
  have hpre : ∀ i j k, i ≤ 2 → j ≤ 2 → k ≤ 2 → Equation.prescribed ⟨.fem, skin, .empty, ⟨27, fun _ => 0⟩⟩ (at3 2 2 i j k) =
      if i = 1 ∧ j = 1 ∧ k = 1 then none else some (1 + Vec3.dot ⟨2, 3, 4⟩ (blockPoint brick 2 2 2 i j k)) := fun i j k hi hj hk => skin_at i j k hi hj hk
  have hmir : ∀ i j k, Vec3.dot (⟨2, 3, -4⟩ : Vec3 ℝ) (blockPoint (mirrorHex brick) 2 2 2 i j k) = Vec3.dot ⟨2, 3, 4⟩ (blockPoint brick 2 2 2 i j k) := fun i j k => by
    rw [mirror_point, ← mirror_dot ⟨2, 3, 4⟩]; rfl
  obtain ⟨f', h1, -, h2⟩ := C164_linear isNorm_real r anySolver anySolver_sound (fun _ => 0) (fun _ => 0) (mirrorHex brick) (by rw [mirror_volume]; linarith [brick_volume]) 2 2 2 (by norm_num) (by norm_num) (by norm_num) plain
    ⟨.fem, skin, .empty, ⟨27, fun _ => 0⟩⟩ rfl (fun i v hv => by
      have hv' : skin.find? i = some v := hv
      unfold skin at hv'
      rw [skin_find] at hv'
      split_ifs at hv' with h
      omega) 1 ⟨2, 3, -4⟩
    (fun i j k hi hj hk hs => by
      rw [hpre i j k hi hj hk, if_neg (by unfold OnSkin at hs; omega)]
      simp)
    (fun i j k v hi hj hk hv => by
      rw [hpre i j k hi hj hk] at hv
      split_ifs at hv
      rw [hmir]
      exact (Option.some.inj hv).symm)
  refine ⟨f', h1, (h2 1 1 1 (by norm_num) (by norm_num) (by norm_num)).trans ?_⟩
  rw [hmir]
  norm_num [blockPoint, brick, Vec3.dot]

/-- With one cell the tetrahedra have the volume `-1`, and the conductivity is 36 times too large. -/
noncomputable example (r : ℝ) := C164_time isNorm_real r anySolver anySolver_sound (fun _ => 0) (fun _ => 0) upright (by rw [upright_volume]; norm_num) 1 1 1 (by norm_num) (by norm_num) (by norm_num) plain
  ⟨1, 1, 1 / 100⟩ (by norm_num) (by norm_num) (by norm_num) ⟨.fem, twoNodes, .empty, ⟨8, fun _ => 0⟩⟩ rfl (twoNodes_ok _ (by norm_num)) (-1) (by rw [upright_volume]; norm_num) 10

noncomputable example (r : ℝ) := C164_time_wrong isNorm_real r anySolver anySolver_sound (fun _ => 0) (fun _ => 0) upright (by rw [upright_volume]; norm_num) (by rw [upright_volume]; norm_num) plain
  ⟨1, 1, 1 / 100⟩ (by norm_num) (by norm_num) (by norm_num)

end ENigMA
