import Verif.Pde.FvmHeatProps

/-!
# C147: long runs
-/

set_option linter.unusedSectionVars false
set_option autoImplicit false

namespace ENigMA
open FvmHeat FvmOp
open FdmHeat (Sound Par)
variable {K : Type} [Field K] [LinearOrder K] [IsStrictOrderedRing K]

namespace FvmHeat

theorem laplacian_abs {nrm : Vec3 K → K} {eps : K} {c : Ctx K} {out : Bool} (g : Cells nrm eps out c) : ∃ l : Sys K, l.n = c.mesh.elements.count ∧
    ∀ x, ∀ i < c.mesh.elements.count, |volumeOf nrm eps c.mesh i| * l.residual x i = net nrm eps c x i := by
  obtain ⟨l, -, l2, -, l4⟩ := laplacian_some g
  refine ⟨Sys.smul (sgn out) l, l2, fun x i hi => ?_⟩
  rw [(C18_residuals l l rfl (sgn out) (fun _ => 0) x).2.2.1.2 i, g.abs hi, ← l4 x i hi]
  linear_combination volumeOf nrm eps c.mesh i * l.residual x i * sgn_sq (K := K) out

/-- The steady temperatures with a source of one everywhere and zero on the prescribed faces: positive and bounded. -/
theorem torsion {nrm : Vec3 K → K} {eps : K} {c : Ctx K} {out : Bool} (g : Cells nrm eps out c) (ha : ∀ i < c.mesh.elements.count, Anchored c i) :
    ∃ (w : Nat → K) (a b : K), 0 < a ∧ a ≤ b ∧ (∀ i < c.mesh.elements.count, net0 nrm eps c w i = -|volumeOf nrm eps c.mesh i|) ∧
      ∀ i < c.mesh.elements.count, a ≤ w i ∧ w i ≤ b := by
  obtain ⟨l, l2, l4⟩ := laplacian_abs g
  have hrow : ∀ z, ∀ i < c.mesh.elements.count, |volumeOf nrm eps c.mesh i| * l.row z i = net0 nrm eps c z i := fun z i hi => by
    have e1 := l4 z i hi
    have e2 := l4 (fun _ => 0) i hi
    have e3 := net_split nrm eps c z (fun _ => 0) i
    simp only [sub_zero] at e3
    have e4 := residual_row l z i
    rw [e4]
    linear_combination e1 - e2 + e3
  obtain ⟨w, hw⟩ := Sys.exists_of_trivial ({ l with b := fun _ => -1 } : Sys K) (fun z hz => by
    have hz : ∀ i < l.n, l.row z i = 0 := hz
    rw [l2] at hz
    show ∀ i < l.n, z i = 0
    rw [l2]
    refine kernel g 1 zero_le_one (fun _ => 0) z (Or.inr ⟨one_pos, fun _ _ => le_rfl, ha⟩) fun i hi => ?_
    rw [← hrow z i hi, hz i hi]; ring)
  have hw : ∀ i < l.n, l.row w i = -1 := hw
  rw [l2] at hw
  have hnet : ∀ i < c.mesh.elements.count, net0 nrm eps c w i = -|volumeOf nrm eps c.mesh i| := fun i hi => by
    rw [← hrow w i hi, hw i hi]; ring
  have hnn : ∀ i < c.mesh.elements.count, 0 ≤ w i := fun i hi => by
    have := compare g 1 zero_le_one (fun _ => 0) (fun j => -1 * w j) (Or.inr ⟨one_pos, fun _ _ => le_rfl, ha⟩) (fun i hi => by
      rw [net0_smul, hnet i hi]
      have := g.size i hi
      linarith) i hi
    linarith
  have hpos : ∀ i < c.mesh.elements.count, 0 < w i := fun i hi => by
    refine lt_of_le_of_ne (hnn i hi) fun h0 => ?_
    have h1 : 0 ≤ net0 nrm eps c w i := by
      refine List.sum_nonneg fun y hy => ?_
      obtain ⟨fid, hf, rfl⟩ := List.mem_map.1 hy
      obtain ⟨f, -, hid, -⟩ := face_of g.regular hi hf
      unfold flux0
      cases hA : acrossOf c fid with
      | some j =>
        obtain ⟨n, rfl, hn⟩ := across_lt g.regular hA
        refine mul_nonneg (trans_pos g hid (Or.inl (by rw [hA]; simp))).le ?_
        simp only [Int.toNat_natCast, ← h0, sub_zero]
        exact hnn n hn
      | none =>
        cases hP : prescribed c fid with
        | none => exact le_rfl
        | some v => simp [← h0]
    have := hnet i hi
    have := g.size i hi
    linarith
  rcases Nat.eq_zero_or_pos c.mesh.elements.count with h0 | h0
  · exact ⟨w, 1, 1, one_pos, le_rfl, hnet, fun i hi => by omega⟩
  · have hne : (Finset.range c.mesh.elements.count).Nonempty := ⟨0, Finset.mem_range.2 h0⟩
    obtain ⟨i, hi, hmin⟩ := Finset.exists_min_image _ w hne
    obtain ⟨j, hj, hmax⟩ := Finset.exists_max_image _ w hne
    exact ⟨w, w i, w j, hpos i (Finset.mem_range.1 hi), hmin j hj, hnet, fun n hn => ⟨hmin n (Finset.mem_range.2 hn), hmax n (Finset.mem_range.2 hn)⟩⟩

/-- One step shrinks an error measured against the torsion function. -/
theorem shrink {nrm : Vec3 K → K} {eps : K} {c : Ctx K} {out : Bool} (g : Cells nrm eps out c) (s k : K) (hs : 0 < s) (hk : 0 ≤ k) (w : Nat → K) (b : K)
    (hnet : ∀ i < c.mesh.elements.count, net0 nrm eps c w i = -|volumeOf nrm eps c.mesh i|) (hw : ∀ i < c.mesh.elements.count, 0 < w i ∧ w i ≤ b) (hb : 0 < b)
    (e o : Nat → K) (E : K) (hE : 0 ≤ E) (ho : ∀ i < c.mesh.elements.count, |o i| ≤ E * w i)
    (h : ∀ i < c.mesh.elements.count, s * |volumeOf nrm eps c.mesh i| * (e i - o i) = k * net0 nrm eps c e i) :
    ∀ i < c.mesh.elements.count, |e i| ≤ s * b / (s * b + k) * E * w i := by
  set q := s * b / (s * b + k) with hq
  have hsb : 0 < s * b := mul_pos hs hb
  have hden : 0 < s * b + k := by linarith
  have hq0 : 0 ≤ q := (div_pos hsb hden).le
  have hqe : q * (s * b + k) = s * b := by rw [hq]; field_simp
  have hq1 : q ≤ 1 := by rw [hq, div_le_one hden]; linarith
  have hpos : ∀ i < c.mesh.elements.count, 0 < s * |volumeOf nrm eps c.mesh i| := fun i hi => mul_pos hs (g.size i hi)
  -- s w ≤ q (s w + k)
  have hqw : ∀ i < c.mesh.elements.count, s * w i ≤ q * (s * w i + k) := fun i hi => by
    have h1 := mul_le_mul_of_nonneg_left (hw i hi).2 (mul_nonneg hs.le (sub_nonneg.2 hq1))
    linarith
  have side : ∀ σ : K, σ = 1 ∨ σ = -1 → ∀ i < c.mesh.elements.count, σ * e i ≤ q * E * w i := by
    intro σ hσ i hi
    have := compare g k hk (fun i => s * |volumeOf nrm eps c.mesh i|) (fun j => σ * e j + -(q * E) * w j) (Or.inl hpos) (fun i hi => by
      rw [net0_add nrm eps c (fun j => σ * e j) (fun j => -(q * E) * w j), net0_smul, net0_smul, hnet i hi]
      have h1 := h i hi
      have h2 : σ * o i ≤ E * w i := by
        rcases hσ with rfl | rfl
        · rw [one_mul]; exact (le_abs_self _).trans (ho i hi)
        · have := neg_abs_le (o i); have := ho i hi; linarith
      have h3 := mul_le_mul_of_nonneg_left h2 (hpos i hi).le
      have h4 := mul_le_mul_of_nonneg_left (hqw i hi) (mul_nonneg hE (g.size i hi).le)
      have h5 : s * |volumeOf nrm eps c.mesh i| * (σ * e i) = s * |volumeOf nrm eps c.mesh i| * (σ * o i) + σ * (k * net0 nrm eps c e i) := by rw [← h1]; ring
      linarith) i hi
    linarith
  intro i hi
  have h1 := side 1 (Or.inl rfl) i hi
  have h2 := side (-1) (Or.inr rfl) i hi
  exact abs_le.2 ⟨by linarith, by linarith⟩

end FvmHeat

/-- C147: the initial temperatures are forgotten at a geometric rate: two runs with the same conditions approach each other. -/
theorem C147_forgets (nrm : Vec3 K → K) (eps : K) (solver : Sys K → Nat → K) (hS : Sound solver) (junk : Nat → K) (c : Ctx K) (out : Bool) (g : Cells nrm eps out c)
    (ha : ∀ i < c.mesh.elements.count, Anchored c i) (P : Par K) (hrc : 0 < P.rc) (hdt : 0 < P.dt) (hk : 0 < P.k) :
    ∃ q C : K, 0 ≤ q ∧ q < 1 ∧ 0 ≤ C ∧ ∀ (f f' : EqField K), Plain f → Plain f' → ∀ E, (∀ i < c.mesh.elements.count, |f.u.at' i - f'.u.at' i| ≤ E) → ∀ n,
      ∃ r r', steps nrm eps solver junk c out P n f = some r ∧ steps nrm eps solver junk c out P n f' = some r' ∧
        ∀ i < c.mesh.elements.count, |r.u.at' i - r'.u.at' i| ≤ C * q ^ n * E := by
  obtain ⟨w, a, b, ha0, hab, hnet, hw⟩ := torsion g ha
  have hb : 0 < b := lt_of_lt_of_le ha0 hab
  have hs : 0 < P.rc / P.dt := div_pos hrc hdt
  have hsb := mul_pos hs hb
  refine ⟨P.rc / P.dt * b / (P.rc / P.dt * b + P.k), b / a, (div_pos hsb (by linarith)).le, by rw [div_lt_one (by linarith)]; linarith, (div_pos hb ha0).le, ?_⟩
  set q := P.rc / P.dt * b / (P.rc / P.dt * b + P.k) with hq
  have hq0 : 0 ≤ q := (div_pos hsb (by linarith)).le
  intro f f' hf hf' E hE n
  rcases Nat.eq_zero_or_pos c.mesh.elements.count with h0 | h0
  · obtain ⟨r, hr, -⟩ := steps_inv nrm eps solver junk c out P (fun _ f => Plain f) (fun _ f hf => by
      obtain ⟨u, h1, -⟩ := step_run solver hS junk g P hrc hdt hk.le f hf
      exact ⟨_, h1, hf⟩) n f hf
    obtain ⟨r', hr', -⟩ := steps_inv nrm eps solver junk c out P (fun _ f => Plain f) (fun _ f hf => by
      obtain ⟨u, h1, -⟩ := step_run solver hS junk g P hrc hdt hk.le f hf
      exact ⟨_, h1, hf⟩) n f' hf'
    exact ⟨r, r', hr, hr', fun i hi => by omega⟩
  have hE0 : 0 ≤ E := (abs_nonneg _).trans (hE 0 h0)
  have key : ∀ n, ∃ r r', steps nrm eps solver junk c out P n f = some r ∧ steps nrm eps solver junk c out P n f' = some r' ∧ Plain r ∧ Plain r' ∧
      ∀ i < c.mesh.elements.count, |r.u.at' i - r'.u.at' i| ≤ (q ^ n * (E / a)) * w i := by
    intro n
    induction n with
    | zero =>
      refine ⟨f, f', rfl, rfl, hf, hf', fun i hi => (hE i hi).trans ?_⟩
      rw [pow_zero, one_mul, div_mul_eq_mul_div, le_div_iff₀ ha0]
      exact mul_le_mul_of_nonneg_left (hw i hi).1 hE0
    | succ n ih =>
      obtain ⟨r, r', h1, h2, p1, p2, h3⟩ := ih
      obtain ⟨u, a1, -, a2, -⟩ := step_run solver hS junk g P hrc hdt hk.le r p1
      obtain ⟨u', b1, -, b2, -⟩ := step_run solver hS junk g P hrc hdt hk.le r' p2
      refine ⟨{ r with u := u }, { r' with u := u' }, by simp [steps, h1, a1], by simp [steps, h2, b1], p1, p2, ?_⟩
      have hEn : 0 ≤ q ^ n * (E / a) := mul_nonneg (pow_nonneg hq0 n) (div_nonneg hE0 ha0.le)
      have := shrink g (P.rc / P.dt) P.k hs hk.le w b hnet (fun i hi => ⟨lt_of_lt_of_le ha0 (hw i hi).1, (hw i hi).2⟩) hb (fun i => u.at' i - u'.at' i)
        (fun i => start c r.u.at' i - start c r'.u.at' i) (q ^ n * (E / a)) hEn (fun i hi => by
          unfold start
          cases (facesAt c.mesh i).findSome? (fixedValue c.field) with
          | none => exact h3 i hi
          | some v =>
            simp only [Option.getD_some, sub_self, abs_zero]
            exact mul_nonneg hEn (ha0.le.trans (hw i hi).1)) (fun i hi => by
          have e1 := stored_mul a2 i hi
          have e2 := stored_mul b2 i hi
          have e3 := net_split nrm eps c u.at' u'.at' i
          linear_combination e1 - e2 + P.k * e3)
      intro i hi
      refine (this i hi).trans (le_of_eq ?_)
      rw [pow_succ]; ring
  obtain ⟨r, r', h1, h2, -, -, h3⟩ := key n
  refine ⟨r, r', h1, h2, fun i hi => (h3 i hi).trans ?_⟩
  have : q ^ n * (E / a) * w i ≤ q ^ n * (E / a) * b := mul_le_mul_of_nonneg_left (hw i hi).2 (mul_nonneg (pow_nonneg hq0 n) (div_nonneg hE0 ha0.le))
  refine this.trans (le_of_eq ?_)
  ring

namespace FvmHeat

/-- The temperatures a step does not change. -/
theorem fixpoint {nrm : Vec3 K → K} {eps : K} {c : Ctx K} {out : Bool} (g : Cells nrm eps out c) (ha : ∀ i < c.mesh.elements.count, Anchored c i) (P : Par K) (hrc : 0 < P.rc) (hdt : 0 < P.dt) (hk : 0 < P.k) :
    ∃ x, Stored nrm eps c P (start c x) x := by
  obtain ⟨l, l2, l4⟩ := laplacian_abs g
  have hs : 0 < P.rc / P.dt := div_pos hrc hdt
  let fx : Nat → Option K := fun i => (facesAt c.mesh i).findSome? (fixedValue c.field)
  let d : Nat → K := fun i => (fx i).elim 0 fun _ => P.rc / P.dt
  let s : Sys K := { l with
    A := fun i j => P.k * l.A i j - if j = i then d i else 0
    b := fun i => P.k * l.b i - d i * (fx i).getD 0 }
  have hd : ∀ i, 0 ≤ d i := fun i => by simp only [d]; cases fx i; exacts [le_rfl, hs.le]
  have hrow : ∀ x, ∀ i < c.mesh.elements.count, s.row x i = P.k * l.row x i - d i * x i := by
    intro x i hi
    simp only [Sys.row, s, sub_mul, Finset.sum_sub_distrib, ite_mul, zero_mul, Finset.sum_ite_eq', Finset.mem_range, l2, hi, if_true, Finset.mul_sum, mul_assoc]
  have hrow0 : ∀ z, ∀ i < c.mesh.elements.count, |volumeOf nrm eps c.mesh i| * l.row z i = net0 nrm eps c z i := fun z i hi => by
    have e1 := l4 z i hi
    have e2 := l4 (fun _ => 0) i hi
    have e3 := net_split nrm eps c z (fun _ => 0) i
    simp only [sub_zero] at e3
    have e4 := residual_row l z i
    rw [e4]
    linear_combination e1 - e2 + e3
  obtain ⟨x, hx⟩ := s.exists_of_trivial (fun z hz => by
    have hz : ∀ i < l.n, s.row z i = 0 := hz
    show ∀ i < l.n, z i = 0
    rw [l2] at hz ⊢
    refine kernel g P.k hk.le (fun i => d i * |volumeOf nrm eps c.mesh i|) z (Or.inr ⟨hk, fun i hi => mul_nonneg (hd i) (g.size i hi).le, ha⟩) fun i hi => ?_
    have e := hz i hi
    rw [hrow z i hi] at e
    rw [← hrow0 z i hi]
    linear_combination -|volumeOf nrm eps c.mesh i| * e)
  refine ⟨x, fun i hi => ?_⟩
  have e : s.row x i = s.b i := hx i (show i < l.n from l2 ▸ hi)
  rw [hrow x i hi] at e
  have e : P.k * l.row x i - d i * x i = P.k * l.b i - d i * (fx i).getD 0 := e
  have e2 := l4 x i hi
  rw [Sys.residual] at e2
  show _ = P.k * net nrm eps c x i
  rw [← e2]
  have hst : P.rc / P.dt * (x i - start c x i) = d i * (x i - (fx i).getD 0) := by
    unfold start
    simp only [d, fx]
    cases hfx : (facesAt c.mesh i).findSome? (fixedValue c.field) with
    | none => simp
    | some v => simp
  linear_combination |volumeOf nrm eps c.mesh i| * hst - |volumeOf nrm eps c.mesh i| * e

end FvmHeat

/-- C147, the part that holds: every run tends, at a geometric rate, to temperatures that depend on neither its start nor the number of steps, and that a step does not change. They are not the steady temperatures
in general: `C147_not_steady`. -/
theorem C147_limit_partial (nrm : Vec3 K → K) (eps : K) (solver : Sys K → Nat → K) (hS : Sound solver) (junk : Nat → K) (c : Ctx K) (out : Bool) (g : Cells nrm eps out c)
    (ha : ∀ i < c.mesh.elements.count, Anchored c i) (P : Par K) (hrc : 0 < P.rc) (hdt : 0 < P.dt) (hk : 0 < P.k) :
    ∃ (x : Nat → K) (q C : K), 0 ≤ q ∧ q < 1 ∧ 0 ≤ C ∧ Stored nrm eps c P (start c x) x ∧ ∀ (f : EqField K), Plain f → ∀ E, (∀ i < c.mesh.elements.count, |f.u.at' i - x i| ≤ E) → ∀ n,
      ∃ r, steps nrm eps solver junk c out P n f = some r ∧ ∀ i < c.mesh.elements.count, |r.u.at' i - x i| ≤ C * q ^ n * E := by
  obtain ⟨x, hx⟩ := fixpoint g ha P hrc hdt hk
  obtain ⟨q, C, h1, h2, h3, h4⟩ := C147_forgets nrm eps solver hS junk c out g ha P hrc hdt hk
  refine ⟨x, q, C, h1, h2, h3, hx, fun f hf E hE n => ?_⟩
  obtain ⟨r, r', e1, e2, e3⟩ := h4 f { f with u := ⟨c.mesh.elements.count, x⟩ } hf hf E hE n
  refine ⟨r, e1, fun i hi => ?_⟩
  obtain ⟨r2, a1, -, a2⟩ := steps_inv nrm eps solver junk c out P (fun _ f => Plain f ∧ ∀ i < c.mesh.elements.count, f.u.at' i = x i) (by
    rintro - f ⟨hf, h0⟩
    obtain ⟨u, b1, -, -, b4⟩ := step_run solver hS junk g P hrc hdt hk.le f hf
    refine ⟨_, b1, hf, fun i hi => (b4 x (fun j hj => ?_) i hi).symm⟩
    have : start c f.u.at' j = start c x j := by unfold start; rw [h0 j hj]
    rw [this]
    exact hx j hj) n { f with u := ⟨c.mesh.elements.count, x⟩ } ⟨hf, fun _ _ => rfl⟩
  rw [e2, Option.some.injEq] at a1
  subst a1
  rw [← a2 i hi]
  exact e3 i hi

/-- C147, where it fails: the steady temperatures are kept by a step only if they are equal to the fixed temperature in every cell with a fixed face. -/
theorem C147_not_steady (nrm : Vec3 K → K) (eps : K) (solver : Sys K → Nat → K) (hS : Sound solver) (junk : Nat → K) (c : Ctx K) (out : Bool) (g : Cells nrm eps out c)
    (P : Par K) (hrc : 0 < P.rc) (hdt : 0 < P.dt) (hk : 0 ≤ P.k) (f f' : EqField K) (hf : Plain f) (hb : Balanced nrm eps c f.u.at')
    (h : step nrm eps solver junk c out P f = some f') :
    (∀ i < c.mesh.elements.count, f'.u.at' i = f.u.at' i) ↔
    ∀ i < c.mesh.elements.count, ∀ v, (facesAt c.mesh i).findSome? (fixedValue c.field) = some v → f.u.at' i = v := by
  obtain ⟨u, h1, -, h3, h4⟩ := step_run solver hS junk g P hrc hdt hk f hf
  rw [h, Option.some.injEq] at h1
  subst h1
  have hs := (div_pos hrc hdt).ne'
  have agree : ∀ x y : Nat → K, (∀ i < c.mesh.elements.count, x i = y i) → ∀ i < c.mesh.elements.count, net nrm eps c x i = net nrm eps c y i := by
    intro x y hxy i hi
    unfold net
    congr 1
    refine List.map_congr_left fun fid _ => ?_
    unfold fluxInto
    cases hA : acrossOf c fid with
    | some j =>
      obtain ⟨k, rfl, hk⟩ := across_lt g.regular hA
      simp only [Int.toNat_natCast, hxy i hi, hxy k hk]
    | none => cases prescribed c fid <;> simp only [hxy i hi]
  constructor
  · intro he i hi v hv
    have e1 := stored_mul h3 i hi
    have e2 : net nrm eps c u.at' i = 0 := (agree u.at' f.u.at' he i hi).trans (hb i hi)
    rw [e2, mul_zero] at e1
    have e3 := (mul_eq_zero.1 e1).resolve_left (mul_ne_zero hs (g.size i hi).ne')
    have e4 : start c f.u.at' i = v := by simp [start, hv]
    rw [e4] at e3
    rw [← he i hi]
    exact sub_eq_zero.1 e3
  · intro hv i hi
    refine (h4 f.u.at' (fun j hj => ?_) i hi).symm
    have e1 : start c f.u.at' j = f.u.at' j := by
      unfold start
      cases hfs : (facesAt c.mesh j).findSome? (fixedValue c.field) with
      | none => rfl
      | some v => exact (hv j hj v hfs).symm
    have e2 : ((facesAt c.mesh j).map (fluxInto nrm eps c f.u.at' j)).sum = 0 := hb j hj
    rw [e1, e2]; ring

end ENigMA
