import Verif.Pde.FvmHeatLemmas

/-!
# C146, C147: heat conduction with finite volumes
-/

set_option linter.unusedSectionVars false
set_option autoImplicit false

namespace ENigMA
open FvmHeat FvmOp
open FdmHeat (Sound Par)
variable {K : Type} [Field K] [LinearOrder K] [IsStrictOrderedRing K]

namespace FvmHeat

theorem net_const_le {nrm : Vec3 K → K} {eps : K} {c : Ctx K} {out : Bool} (g : Cells nrm eps out c) (b : K) (hb : ∀ fid v, prescribed c fid = some v → v ≤ b) (i : Nat)
    (hi : i < c.mesh.elements.count) : net nrm eps c (fun _ => b) i ≤ 0 := by
  refine sum_nonpos' _ fun y hy => ?_
  obtain ⟨fid, hf, rfl⟩ := List.mem_map.1 hy
  obtain ⟨f, -, hid, -⟩ := face_of g.regular hi hf
  unfold fluxInto
  cases hA : acrossOf c fid with
  | some j => simp
  | none =>
    cases hP : prescribed c fid with
    | none => exact le_rfl
    | some v => exact mul_nonpos_of_nonneg_of_nonpos (trans_pos g hid (Or.inr (by rw [hP]; simp))).le (by linarith [hb fid v hP])

theorem net_const_ge {nrm : Vec3 K → K} {eps : K} {c : Ctx K} {out : Bool} (g : Cells nrm eps out c) (b : K) (hb : ∀ fid v, prescribed c fid = some v → b ≤ v) (i : Nat)
    (hi : i < c.mesh.elements.count) : 0 ≤ net nrm eps c (fun _ => b) i := by
  refine List.sum_nonneg fun y hy => ?_
  obtain ⟨fid, hf, rfl⟩ := List.mem_map.1 hy
  obtain ⟨f, -, hid, -⟩ := face_of g.regular hi hf
  unfold fluxInto
  cases hA : acrossOf c fid with
  | some j => simp
  | none =>
    cases hP : prescribed c fid with
    | none => exact le_rfl
    | some v => exact mul_nonneg (trans_pos g hid (Or.inr (by rw [hP]; simp))).le (by linarith [hb fid v hP])

/-- Bounds for both problems. -/
theorem upper {nrm : Vec3 K → K} {eps : K} {c : Ctx K} {out : Bool} (g : Cells nrm eps out c) (k : K) (hk : 0 ≤ k) (w o x : Nat → K)
    (ha : (∀ i < c.mesh.elements.count, 0 < w i) ∨ (0 < k ∧ (∀ i < c.mesh.elements.count, 0 ≤ w i) ∧ ∀ i < c.mesh.elements.count, Anchored c i))
    (b : K) (ho : ∀ i < c.mesh.elements.count, o i ≤ b) (hb : ∀ fid v, prescribed c fid = some v → v ≤ b)
    (h : ∀ i < c.mesh.elements.count, w i * (x i - o i) = k * net nrm eps c x i) : ∀ i < c.mesh.elements.count, x i ≤ b := by
  intro i hi
  have hw : ∀ i < c.mesh.elements.count, 0 ≤ w i := fun i hi => by
    rcases ha with ha | ha
    · exact (ha i hi).le
    · exact ha.2.1 i hi
  have := compare g k hk w (fun j => x j - b) ha (fun i hi => by
    have e := net_split nrm eps c x (fun _ => b) i
    have e1 := mul_nonpos_of_nonneg_of_nonpos hk (net_const_le g b hb i hi)
    have e2 := mul_le_mul_of_nonneg_left (ho i hi) (hw i hi)
    have e3 := h i hi
    rw [e] at e3
    linarith) i hi
  linarith

theorem lower {nrm : Vec3 K → K} {eps : K} {c : Ctx K} {out : Bool} (g : Cells nrm eps out c) (k : K) (hk : 0 ≤ k) (w o x : Nat → K)
    (ha : (∀ i < c.mesh.elements.count, 0 < w i) ∨ (0 < k ∧ (∀ i < c.mesh.elements.count, 0 ≤ w i) ∧ ∀ i < c.mesh.elements.count, Anchored c i))
    (b : K) (ho : ∀ i < c.mesh.elements.count, b ≤ o i) (hb : ∀ fid v, prescribed c fid = some v → b ≤ v)
    (h : ∀ i < c.mesh.elements.count, w i * (x i - o i) = k * net nrm eps c x i) : ∀ i < c.mesh.elements.count, b ≤ x i := by
  intro i hi
  have hw : ∀ i < c.mesh.elements.count, 0 ≤ w i := fun i hi => by
    rcases ha with ha | ha
    · exact (ha i hi).le
    · exact ha.2.1 i hi
  have := compare g k hk w (fun j => -1 * (x j - b)) ha (fun i hi => by
    rw [net0_smul nrm eps c (-1) (fun j => x j - b) i]
    have e := net_split nrm eps c x (fun _ => b) i
    have e1 := mul_nonneg hk (net_const_ge g b hb i hi)
    have e2 := mul_le_mul_of_nonneg_left (ho i hi) (hw i hi)
    have e3 := h i hi
    rw [e] at e3
    linarith) i hi
  linarith

end FvmHeat

/-! ### C146 -/

/-- C146: on every mesh whose cells all hang together with a prescribed face, the program gives the only temperatures for which every cell is in balance. -/
theorem C146_steady (nrm : Vec3 K → K) (eps : K) (solver : Sys K → Nat → K) (hS : Sound solver) (junk : Nat → K) (c : Ctx K) (out : Bool) (g : Cells nrm eps out c)
    (ha : ∀ i < c.mesh.elements.count, Anchored c i) (f : EqField K) (hf : Plain f) :
    ∃ u : EVec K, steady nrm eps solver junk c f = some { f with u := u } ∧ u.size = c.mesh.elements.count ∧ Balanced nrm eps c u.at' ∧
      ∀ y, Balanced nrm eps c y → ∀ i < c.mesh.elements.count, y i = u.at' i :=
  steady_run solver hS junk g ha f hf

/-- C146: they lie between the smallest and the largest prescribed temperature. -/
theorem C146_bounds (nrm : Vec3 K → K) (eps : K) (solver : Sys K → Nat → K) (hS : Sound solver) (junk : Nat → K) (c : Ctx K) (out : Bool) (g : Cells nrm eps out c)
    (ha : ∀ i < c.mesh.elements.count, Anchored c i) (f f' : EqField K) (hf : Plain f) (h : steady nrm eps solver junk c f = some f')
    (a b : K) (hab : ∀ fid v, prescribed c fid = some v → a ≤ v ∧ v ≤ b) : ∀ i < c.mesh.elements.count, a ≤ f'.u.at' i ∧ f'.u.at' i ≤ b := by
  obtain ⟨u, h1, -, h2, -⟩ := steady_run solver hS junk g ha f hf
  rw [h1, Option.some.injEq] at h
  subst h
  have hz : ∀ i < c.mesh.elements.count, (0 : K) * (u.at' i - 0) = 1 * net nrm eps c u.at' i := fun i hi => by
    rw [show net nrm eps c u.at' i = 0 from h2 i hi]; ring
  intro i hi
  refine ⟨?_, ?_⟩
  · exact lower g 1 zero_le_one (fun _ => 0) (fun _ => a) u.at' (Or.inr ⟨one_pos, fun _ _ => le_rfl, ha⟩) a (fun _ _ => le_rfl) (fun fid v hv => (hab fid v hv).1)
      (fun i hi => by rw [show net nrm eps c u.at' i = 0 from h2 i hi]; ring) i hi
  · exact upper g 1 zero_le_one (fun _ => 0) (fun _ => b) u.at' (Or.inr ⟨one_pos, fun _ _ => le_rfl, ha⟩) b (fun _ _ => le_rfl) (fun fid v hv => (hab fid v hv).2)
      (fun i hi => by rw [show net nrm eps c u.at' i = 0 from h2 i hi]; ring) i hi

/-- C146: what enters through some of the prescribed faces leaves through the others. -/
theorem C146_through (nrm : Vec3 K → K) (hN : ∀ v, nrm (-v) = nrm v) (eps : K) (solver : Sys K → Nat → K) (hS : Sound solver) (junk : Nat → K) (c : Ctx K) (out : Bool) (g : Cells nrm eps out c)
    (ha : ∀ i < c.mesh.elements.count, Anchored c i) (f f' : EqField K) (hf : Plain f) (h : steady nrm eps solver junk c f = some f') :
    ∑ i ∈ Finset.range c.mesh.elements.count, ((facesAt c.mesh i).map fun fid => match prescribed c fid with
      | some v => areaOf nrm eps c.mesh fid / distOf nrm c fid * (v - f'.u.at' i)
      | none => 0).sum = 0 := by
  obtain ⟨u, h1, -, h2, -⟩ := steady_run solver hS junk g ha f hf
  rw [h1, Option.some.injEq] at h
  subst h
  obtain ⟨l, l1, l2, -, l4⟩ := laplacian_some g
  have := C22_conservation nrm hN eps c g.regular g.pair l l1 u.at'
  rw [l2] at this
  refine this.symm.trans (Finset.sum_eq_zero fun i hi => ?_)
  have hi := Finset.mem_range.1 hi
  exact (l4 u.at' i hi).trans (h2 i hi)

namespace FvmHeat

theorem dot_add' (g a b : Vec3 K) : g.dot (a + b) = g.dot a + g.dot b := by simp [Vec3.dot]; ring

theorem dot_sum (g : Vec3 K) (l : List (Vec3 K)) : g.dot l.sum = (l.map g.dot).sum := by
  induction l with
  | nil => simp [Vec3.dot]
  | cons a t ih => rw [List.sum_cons, dot_add', ih, List.map_cons, List.sum_cons]

/-- The flux of a linear field through a face, when the line across is perpendicular to it. -/
theorem flux_linear {nrm : Vec3 K → K} (hN : IsNorm nrm) {eps : K} (heps : 0 ≤ eps ∧ eps < 1) {m : Mesh K} {fid : Int} (hA : 0 < areaOf nrm eps m fid)
    (hp : Planar (cornersOf m fid) ∧ HasCorner nrm eps (cornersOf m fid)) (p q g : Vec3 K) (s r : K) (hs : s = 1 ∨ s = -1) (hr : 0 < r)
    (h : q - p = (s * r) • vecArea2 (cornersOf m fid)) :
    areaOf nrm eps m fid / nrm (q - p) * (g.dot q - g.dot p) = s * g.dot (vecArea2 (cornersOf m fid)) / 2 := by
  have h2 : 2 * areaOf nrm eps m fid = nrm (vecArea2 (cornersOf m fid)) := by
    have := (C37_area nrm hN eps heps _ hp.1 hp.2).2.2.2
    rw [← this]
    show _ = 2 * |areaOf nrm eps m fid|
    rw [abs_of_pos hA]
  have hss : s * s = 1 := by rcases hs with rfl | rfl <;> ring
  have h3 : nrm (q - p) = r * (2 * areaOf nrm eps m fid) := by
    rw [h, h2]
    have e : nrm ((s * r) • vecArea2 (cornersOf m fid)) * nrm ((s * r) • vecArea2 (cornersOf m fid)) = (r * nrm (vecArea2 (cornersOf m fid))) * (r * nrm (vecArea2 (cornersOf m fid))) := by
      rw [hN.sq]
      have := hN.sq (vecArea2 (cornersOf m fid))
      have e : ((s * r) • vecArea2 (cornersOf m fid)).normSq = (s * s) * (r * r) * (vecArea2 (cornersOf m fid)).normSq := by simp [Vec3.normSq, Vec3.dot]; ring
      rw [e, ← this, hss]; ring
    exact (mul_self_inj_of_nonneg (hN.nonneg _) (mul_nonneg hr.le (hN.nonneg _))).1 e
  have h4 : g.dot q - g.dot p = s * r * g.dot (vecArea2 (cornersOf m fid)) := by
    have : g.dot (q - p) = g.dot q - g.dot p := by simp [Vec3.dot]; ring
    rw [← this, h]
    simp [Vec3.dot]; ring
  rw [h3, h4]
  field_simp

end FvmHeat

/-- C146: where lines between centroids are perpendicular to the faces between them, a linear temperature is reproduced exactly. -/
theorem C146_linear (nrm : Vec3 K → K) (hN : IsNorm nrm) (eps : K) (heps : 0 ≤ eps ∧ eps < 1) (solver : Sys K → Nat → K) (hS : Sound solver) (junk : Nat → K) (c : Ctx K)
    (out : Bool) (g : Cells nrm eps out c) (ha : ∀ i < c.mesh.elements.count, Anchored c i) (f f' : EqField K) (hf : Plain f) (h : steady nrm eps solver junk c f = some f')
    (t : K) (gr : Vec3 K) (ho : ∀ i < c.mesh.elements.count, ∃ s, Orthogonal nrm eps c t gr s i) : Linear c t gr f'.u.at' := by
  obtain ⟨u, h1, -, -, h3⟩ := steady_run solver hS junk g ha f hf
  rw [h1, Option.some.injEq] at h
  subst h
  -- the linear field at the centroids
  set y : Nat → K := fun i => (((c.mesh.elements.idAt? i).bind c.elCentroid).map fun p => t + gr.dot p).getD 0 with hy
  have hyi : ∀ i id p, c.mesh.elements.idAt? i = some id → c.elCentroid id = some p → y i = t + gr.dot p := fun i id p e1 e2 => by simp [hy, e1, e2]
  have hbal : Balanced nrm eps c y := by
    intro i hi
    obtain ⟨s, ho⟩ := ho i hi
    obtain ⟨id, e, e1, e2, e3⟩ := cell g.regular hi
    have hid : id ∈ c.mesh.elements.ids := (g.regular.wf.elements.2 id).2 ⟨e, e2⟩
    obtain ⟨p, hp⟩ := elCentroid_some g hid
    have hterm : ∀ fid ∈ facesAt c.mesh i, fluxInto nrm eps c y i fid = s * gr.dot (vecArea2 (cornersOf c.mesh fid)) / 2 := by
      intro fid hfid
      obtain ⟨fa, f1, f2, f3⟩ := face_of g.regular hi hfid
      rw [e1] at f3
      have f3 := Option.some.inj f3
      unfold fluxInto
      cases hA : acrossOf c fid with
      | some j =>
        have hA' := hA
        simp only [acrossOf, f1, Option.bind_eq_bind, Option.bind_some] at hA'
        split_ifs at hA' with hpair
        obtain ⟨ga, g1, hA'⟩ := Option.bind_eq_some_iff.1 hA'
        obtain ⟨k, k1, k2⟩ := g.regular.indices.2 _ (g.regular.owned _ ga g1)
        rw [k1] at hA'
        have hjk := Option.some.inj hA'
        obtain ⟨q, hq⟩ := elCentroid_some g (g.regular.owned _ ga g1)
        have k3 : c.mesh.elements.idAt? j.toNat = some ga.elementId := by rw [← hjk]; simpa using k2
        obtain ⟨r, hr, hr'⟩ := ho.across fid hfid j id ga.elementId p q hA e1 k3 hp hq
        have hd : distOf nrm c fid = nrm (q - p) := by
          rw [f3] at hp
          simp only [distOf, f1, hpair, g1, hp, hq, if_true, Option.bind_eq_bind, Option.bind_some, Option.pure_def, Option.getD_some]
        simp only
        rw [hyi _ _ _ k3 hq, hyi _ _ _ e1 hp, hd, ← flux_linear hN heps (g.area fid f2) (ho.planar fid hfid) p q gr s r ho.side hr hr']
        ring
      | none =>
        cases hP : prescribed c fid with
        | none => rw [ho.free fid hfid hA hP]; simp
        | some v =>
          have hd0 := g.apart fid f2 (Or.inr (by rw [hP]; simp))
          have hP' := hP
          simp only [prescribed, f1, Option.bind_eq_bind, Option.bind_some] at hP'
          split_ifs at hP' with hpair
          cases hc : c.fcCentroid fid with
          | none => rw [f3] at hp; simp [distOf, f1, hpair, hp, hc] at hd0
          | some q =>
            obtain ⟨hv, r, hr, hr'⟩ := ho.value fid hfid v id p q hP e1 hp hc
            have hd : distOf nrm c fid = nrm (q - p) := by
              rw [f3] at hp
              simp only [distOf, f1, hpair, hp, hc, Bool.false_eq_true, if_false, Option.bind_eq_bind, Option.bind_some, Option.pure_def, Option.getD_some]
            simp only
            rw [hv, hyi _ _ _ e1 hp, hd, ← flux_linear hN heps (g.area fid f2) (ho.planar fid hfid) p q gr s r ho.side hr hr']
            ring
    rw [List.map_congr_left hterm]
    have hcl := Polyhedron.closed_sum _ ho.closed
    have : ((facesAt c.mesh i).map fun fid => s * gr.dot (vecArea2 (cornersOf c.mesh fid)) / 2).sum = s / 2 * gr.dot (((facesAt c.mesh i).map (cornersOf c.mesh)).map vecArea2).sum := by
      rw [dot_sum, List.map_map, List.map_map]
      exact sum_map_mul' _ _ _ _ fun a _ => by simp only [Function.comp]; ring
    rw [this, hcl]
    simp [Vec3.dot]
  intro i id p e1 e2
  rw [← hyi i id p e1 e2]
  exact (h3 y hbal i (idAt_lt e1)).symm

/-! ### C147 -/

/-- C147, the part that holds: a step of any length has one result; in every cell the heat stored is what flowed in, counted from the temperature of the field in a cell without a fixed face, but from the fixed
temperature in a cell with one (`C147_boundary_cell`). -/
theorem C147_step_partial (nrm : Vec3 K → K) (eps : K) (solver : Sys K → Nat → K) (hS : Sound solver) (junk : Nat → K) (c : Ctx K) (out : Bool) (g : Cells nrm eps out c)
    (P : Par K) (hrc : 0 < P.rc) (hdt : 0 < P.dt) (hk : 0 ≤ P.k) (f : EqField K) (hf : Plain f) :
    ∃ u : EVec K, step nrm eps solver junk c out P f = some { f with u := u } ∧ u.size = c.mesh.elements.count ∧ Stored nrm eps c P (start c f.u.at') u.at' ∧
      (∀ y, Stored nrm eps c P (start c f.u.at') y → ∀ i < c.mesh.elements.count, y i = u.at' i) ∧
      ∀ i, (∀ fid ∈ facesAt c.mesh i, fixedValue c.field fid = none) → start c f.u.at' i = f.u.at' i := by
  obtain ⟨u, h1, h2, h3, h4⟩ := step_run solver hS junk g P hrc hdt hk f hf
  refine ⟨u, h1, h2, h3, h4, fun i hi => ?_⟩
  have : (facesAt c.mesh i).findSome? (fixedValue c.field) = none := List.findSome?_eq_none_iff.2 hi
  simp [start, this]

/-- C147, where it fails: the temperature the field has in a cell with a fixed face has no influence on the result; the heat stored there is lost in every step. -/
theorem C147_boundary_cell (nrm : Vec3 K → K) (eps : K) (solver : Sys K → Nat → K) (hS : Sound solver) (junk : Nat → K) (c : Ctx K) (out : Bool) (g : Cells nrm eps out c)
    (P : Par K) (hrc : 0 < P.rc) (hdt : 0 < P.dt) (hk : 0 ≤ P.k) (f f' r r' : EqField K) (hf : Plain f) (hf' : Plain f')
    (hff : ∀ i < c.mesh.elements.count, (∀ fid ∈ facesAt c.mesh i, fixedValue c.field fid = none) → f.u.at' i = f'.u.at' i)
    (h : step nrm eps solver junk c out P f = some r) (h' : step nrm eps solver junk c out P f' = some r') : ∀ i < c.mesh.elements.count, r.u.at' i = r'.u.at' i := by
  obtain ⟨u, h1, -, h3, h4⟩ := step_run solver hS junk g P hrc hdt hk f hf
  obtain ⟨u', h1', -, h3', h4'⟩ := step_run solver hS junk g P hrc hdt hk f' hf'
  rw [h1, Option.some.injEq] at h
  rw [h1', Option.some.injEq] at h'
  subst h h'
  intro i hi
  refine h4' u.at' (fun j hj => ?_) i hi
  rw [← h3 j hj]
  have : start c f'.u.at' j = start c f.u.at' j := by
    unfold start
    cases hfs : (facesAt c.mesh j).findSome? (fixedValue c.field) with
    | some v => rfl
    | none => simp only [Option.getD_none]; exact (hff j hj (List.findSome?_eq_none_iff.1 hfs)).symm
  rw [this]

namespace FvmHeat

/-- A rule that holds along the steps. -/
theorem steps_inv (nrm : Vec3 K → K) (eps : K) (solver : Sys K → Nat → K) (junk : Nat → K) (c : Ctx K) (out : Bool) (P : Par K) (Q : Nat → EqField K → Prop)
    (hstep : ∀ n f, Q n f → ∃ f', step nrm eps solver junk c out P f = some f' ∧ Q (n + 1) f') (n : Nat) (f : EqField K) (h0 : Q 0 f) :
    ∃ f', steps nrm eps solver junk c out P n f = some f' ∧ Q n f' := by
  induction n with
  | zero => exact ⟨f, rfl, h0⟩
  | succ n ih =>
    obtain ⟨f1, h1, h2⟩ := ih
    obtain ⟨f2, h3, h4⟩ := hstep n f1 h2
    exact ⟨f2, by simp [steps, h1, h3], h4⟩

theorem stored_mul {nrm : Vec3 K → K} {eps : K} {c : Ctx K} {P : Par K} {o x : Nat → K} (h : Stored nrm eps c P o x) :
    ∀ i < c.mesh.elements.count, P.rc / P.dt * |volumeOf nrm eps c.mesh i| * (x i - o i) = P.k * net nrm eps c x i := fun i hi => by
  rw [show P.k * net nrm eps c x i = _ from (h i hi).symm]; ring

end FvmHeat

/-- C147: any number of steps of any length stays within the range of the initial temperatures and those fixed on faces. -/
theorem C147_bounds (nrm : Vec3 K → K) (eps : K) (solver : Sys K → Nat → K) (hS : Sound solver) (junk : Nat → K) (c : Ctx K) (out : Bool) (g : Cells nrm eps out c)
    (P : Par K) (hrc : 0 < P.rc) (hdt : 0 < P.dt) (hk : 0 ≤ P.k) (a b : K) (hab : ∀ fid v, fixedValue c.field fid = some v → a ≤ v ∧ v ≤ b) (f : EqField K) (hf : Plain f)
    (h0 : ∀ i < c.mesh.elements.count, a ≤ f.u.at' i ∧ f.u.at' i ≤ b) (n : Nat) :
    ∃ f', steps nrm eps solver junk c out P n f = some f' ∧ ∀ i < c.mesh.elements.count, a ≤ f'.u.at' i ∧ f'.u.at' i ≤ b := by
  obtain ⟨f', h1, -, h2⟩ := steps_inv nrm eps solver junk c out P (fun _ f => Plain f ∧ ∀ i < c.mesh.elements.count, a ≤ f.u.at' i ∧ f.u.at' i ≤ b) (by
    rintro - f ⟨hf, h0⟩
    obtain ⟨u, h1, h2, h3, -⟩ := step_run solver hS junk g P hrc hdt hk f hf
    refine ⟨_, h1, hf, ?_⟩
    have hpos : ∀ i < c.mesh.elements.count, 0 < P.rc / P.dt * |volumeOf nrm eps c.mesh i| := fun i hi => mul_pos (div_pos hrc hdt) (g.size i hi)
    have hst : ∀ i < c.mesh.elements.count, a ≤ start c f.u.at' i ∧ start c f.u.at' i ≤ b := by
      intro i hi
      unfold start
      cases hfs : (facesAt c.mesh i).findSome? (fixedValue c.field) with
      | none => exact h0 i hi
      | some v =>
        obtain ⟨fid, -, hv⟩ := List.exists_of_findSome?_eq_some hfs
        exact hab fid v hv
    have hpr : ∀ fid v, prescribed c fid = some v → a ≤ v ∧ v ≤ b := fun fid v hv => by
      simp only [prescribed, Option.bind_eq_bind] at hv
      obtain ⟨fa, -, hv⟩ := Option.bind_eq_some_iff.1 hv
      split_ifs at hv
      exact hab fid v hv
    exact fun i hi => ⟨lower g P.k hk _ _ u.at' (Or.inl hpos) a (fun i hi => (hst i hi).1) (fun fid v hv => (hpr fid v hv).1) (stored_mul h3) i hi,
      upper g P.k hk _ _ u.at' (Or.inl hpos) b (fun i hi => (hst i hi).2) (fun fid v hv => (hpr fid v hv).2) (stored_mul h3) i hi⟩) n f ⟨hf, h0⟩
  exact ⟨f', h1, h2⟩

/-- C147: without fixed temperatures the heat in the whole mesh stays the same. -/
theorem C147_insulated (nrm : Vec3 K → K) (hN : ∀ v, nrm (-v) = nrm v) (eps : K) (solver : Sys K → Nat → K) (hS : Sound solver) (junk : Nat → K) (c : Ctx K) (out : Bool) (g : Cells nrm eps out c)
    (P : Par K) (hrc : 0 < P.rc) (hdt : 0 < P.dt) (hk : 0 ≤ P.k) (hno : ∀ fid, fixedValue c.field fid = none) (f : EqField K) (hf : Plain f) (n : Nat) :
    ∃ f', steps nrm eps solver junk c out P n f = some f' ∧
      ∑ i ∈ Finset.range c.mesh.elements.count, |volumeOf nrm eps c.mesh i| * f'.u.at' i = ∑ i ∈ Finset.range c.mesh.elements.count, |volumeOf nrm eps c.mesh i| * f.u.at' i := by
  obtain ⟨f', h1, -, h2⟩ := steps_inv nrm eps solver junk c out P (fun _ f' => Plain f' ∧
      ∑ i ∈ Finset.range c.mesh.elements.count, |volumeOf nrm eps c.mesh i| * f'.u.at' i = ∑ i ∈ Finset.range c.mesh.elements.count, |volumeOf nrm eps c.mesh i| * f.u.at' i) (by
    rintro - f1 ⟨hf, h0⟩
    obtain ⟨u, h1, h2, h3, -⟩ := step_run solver hS junk g P hrc hdt hk f1 hf
    refine ⟨_, h1, hf, ?_⟩
    rw [← h0, ← sub_eq_zero, ← Finset.sum_sub_distrib]
    obtain ⟨l, l1, l2, -, l4⟩ := laplacian_some g
    have hcons := C22_conservation nrm hN eps c g.regular g.pair l l1 u.at'
    rw [l2] at hcons
    have hz : ∑ i ∈ Finset.range c.mesh.elements.count, net nrm eps c u.at' i = 0 := by
      rw [← Finset.sum_congr rfl fun i hi => l4 u.at' i (Finset.mem_range.1 hi)]
      refine hcons.trans (Finset.sum_eq_zero fun i _ => List.sum_eq_zero fun y hy => ?_)
      obtain ⟨fid, -, rfl⟩ := List.mem_map.1 hy
      have : prescribed c fid = none := by
        simp only [prescribed, Option.bind_eq_bind, hno]
        cases c.mesh.faces.get? fid <;> simp
      simp [this]
    have hsum : P.rc / P.dt * ∑ i ∈ Finset.range c.mesh.elements.count, (|volumeOf nrm eps c.mesh i| * u.at' i - |volumeOf nrm eps c.mesh i| * f1.u.at' i) = 0 := by
      rw [Finset.mul_sum]
      calc _ = ∑ i ∈ Finset.range c.mesh.elements.count, P.k * net nrm eps c u.at' i := Finset.sum_congr rfl fun i hi => by
            rw [← stored_mul h3 i (Finset.mem_range.1 hi)]
            have : start c f1.u.at' i = f1.u.at' i := by
              have : (facesAt c.mesh i).findSome? (fixedValue c.field) = none := List.findSome?_eq_none_iff.2 fun fid _ => hno fid
              simp [start, this]
            rw [this]; ring
        _ = 0 := by rw [← Finset.mul_sum, hz, mul_zero]
    exact (mul_eq_zero.1 hsum).resolve_left (div_pos hrc hdt).ne') n f ⟨hf, rfl⟩
  exact ⟨f', h1, h2⟩

/-- C147, the size of the failure: after a step the temperature of a cell with a fixed face differs from the fixed one by no more than a multiple of the step length, whatever it was before. -/
theorem C147_boundary_value (nrm : Vec3 K → K) (eps : K) (solver : Sys K → Nat → K) (hS : Sound solver) (junk : Nat → K) (c : Ctx K) (out : Bool) (g : Cells nrm eps out c)
    (P : Par K) (hrc : 0 < P.rc) (hdt : 0 < P.dt) (hk : 0 ≤ P.k) (a b : K) (hab : ∀ fid v, fixedValue c.field fid = some v → a ≤ v ∧ v ≤ b) (f f' : EqField K) (hf : Plain f)
    (h0 : ∀ i < c.mesh.elements.count, a ≤ f.u.at' i ∧ f.u.at' i ≤ b) (h : step nrm eps solver junk c out P f = some f')
    (i : Nat) (hi : i < c.mesh.elements.count) (v : K) (hv : (facesAt c.mesh i).findSome? (fixedValue c.field) = some v) :
    |f'.u.at' i - v| ≤ P.dt * (P.k * (b - a) / (P.rc * |volumeOf nrm eps c.mesh i|) *
      ((facesAt c.mesh i).map fun fid => |areaOf nrm eps c.mesh fid / distOf nrm c fid|).sum) := by
  obtain ⟨r, h1, h2⟩ := C147_bounds nrm eps solver hS junk c out g P hrc hdt hk a b hab f hf h0 1
  simp only [steps, Option.bind_some, h, Option.some.injEq] at h1
  subst h1
  obtain ⟨u, h1, -, h3, -⟩ := step_run solver hS junk g P hrc hdt hk f hf
  rw [h, Option.some.injEq] at h1
  subst h1
  simp only at h2 ⊢
  have hpr : ∀ fid v, prescribed c fid = some v → a ≤ v ∧ v ≤ b := fun fid v hv => by
    simp only [prescribed, Option.bind_eq_bind] at hv
    obtain ⟨fa, -, hv⟩ := Option.bind_eq_some_iff.1 hv
    split_ifs at hv
    exact hab fid v hv
  have hV := g.size i hi
  have hnet : |net nrm eps c u.at' i| ≤ (b - a) * ((facesAt c.mesh i).map fun fid => |areaOf nrm eps c.mesh fid / distOf nrm c fid|).sum := by
    unfold net
    have habs : ∀ l : List Int, (∀ fid ∈ l, fid ∈ facesAt c.mesh i) → |(l.map (fluxInto nrm eps c u.at' i)).sum| ≤
        (b - a) * (l.map fun fid => |areaOf nrm eps c.mesh fid / distOf nrm c fid|).sum := by
      intro l
      induction l with
      | nil => simp
      | cons x t ih =>
        intro hl
        simp only [List.map_cons, List.sum_cons]
        have h5 := ih fun fid hfid => hl fid (by simp [hfid])
        refine (abs_add_le _ _).trans ?_
        rw [mul_add]
        refine add_le_add ?_ h5
        have hba : 0 ≤ b - a := by have := h2 i hi; linarith
        unfold fluxInto
        cases hA : acrossOf c x with
        | some j =>
          obtain ⟨k, rfl, hk⟩ := across_lt g.regular hA
          simp only [Int.toNat_natCast]
          rw [abs_mul, mul_comm]
          refine mul_le_mul_of_nonneg_right ?_ (abs_nonneg _)
          have e1 := h2 i hi
          have e2 := h2 k hk
          exact abs_le.2 ⟨by linarith, by linarith⟩
        | none =>
          cases hP : prescribed c x with
          | none => simp only [abs_zero]; exact mul_nonneg hba (abs_nonneg _)
          | some w =>
            simp only
            rw [abs_mul, mul_comm]
            refine mul_le_mul_of_nonneg_right ?_ (abs_nonneg _)
            have e1 := h2 i hi
            have e2 := hpr x w hP
            exact abs_le.2 ⟨by linarith, by linarith⟩
    exact habs _ fun _ hx => hx
  have hs : start c f.u.at' i = v := by simp [start, hv]
  have e := h3 i hi
  rw [hs] at e
  have e : P.rc * |volumeOf nrm eps c.mesh i| * (u.at' i - v) / P.dt = P.k * net nrm eps c u.at' i := e
  have e' : u.at' i - v = P.dt * (P.k * net nrm eps c u.at' i / (P.rc * |volumeOf nrm eps c.mesh i|)) := by
    rw [← e]; field_simp
  rw [e', abs_mul, abs_of_pos hdt]
  refine mul_le_mul_of_nonneg_left ?_ hdt.le
  rw [abs_div, abs_mul, abs_of_nonneg hk, abs_of_pos (mul_pos hrc hV)]
  rw [div_mul_eq_mul_div]
  refine div_le_div_of_nonneg_right ?_ (mul_pos hrc hV).le
  rw [mul_assoc]
  exact mul_le_mul_of_nonneg_left hnet hk

end ENigMA
