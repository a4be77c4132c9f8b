import Verif.Solvers.PisoLemmas
import Verif.Pde.FvmDivergenceProps

/-!
# C73, C74, C75: the PISO solver
-/

set_option linter.unusedSectionVars false
set_option autoImplicit false

namespace ENigMA
open Piso
variable {K : Type} [Field K] [LinearOrder K] [IsStrictOrderedRing K]

namespace Piso

/-- The cell owns the face. -/
def owns (m : FvmMesh K) (cv f : Int) : Bool := ((m.faces.get? f).map fun F => decide (F.cvId = cv)).getD false

/-- The flow out of a cell through a face between two cells: the flux of the face is the flow from its owner to its neighbour. -/
def outThrough (m : FvmMesh K) (s : State K) (cv f : Int) : K := if owns m cv f then s.flux f else -s.flux f

/-- The net flow out of a cell. Through a face of the boundary the solver stores the flow into the cell. -/
def netOut (m : FvmMesh K) (s : State K) (cv : Int) : K :=
  ((cellFaces m cv).map fun f => if paired m f then outThrough m s cv f else -s.flux f).sum

theorem coef_comm (g : Geom K) (s : State K) (a b f : Int) : coef g s a b f = coef g s b a f := by
  simp only [coef, add_comm]

theorem pred_neg {g : Geom K} (s : State K) {a b f : Int} (h : g.normal b f = -g.normal a f) : pred g s b a f = -pred g s a b f := by
  simp only [pred, h, add_comm (g.area b f), add_comm (apOf s b), add_comm (s.H b)]
  simp only [Vec3.dot, Vec3.neg_x, Vec3.neg_y, Vec3.neg_z]
  ring

/-- The fluxes after the pressure equation has been solved and the fluxes corrected. -/
theorem flux_spec {m : FvmMesh K} (hl : Linked m) {g : Geom K} (ho : Opposite m g) {s s1 s3 : State K} {sys : Sys K} {x : Nat → K}
    (h1 : pressureSystem m g s = some (s1, sys)) (hx : sys.Solves x)
    (s2 : State K) (h2 : s2 = { s1 with p := fun id => match index m id with | some k => x k | Option.none => s1.p id })
    (h3 : correctFlux m g s2 = some s3) {cv : Int} (hcv : cv ∈ m.cvs.ids) :
    (∀ f ∈ cellFaces m cv, paired m f = true → outThrough m s3 cv f = -bal m g s s2.p cv f (s.flux f)) ∧
    (∀ f ∈ cellFaces m cv, paired m f = false → s3.flux f = upd m g s2 cv f (newFlux m g s cv f (s.flux f))) ∧
    ((cellFaces m cv).map fun f => bal m g s s2.p cv f (s.flux f)).sum = 0 ∧ SameP s s1 ∧ SameC s2 s3 := by
  unfold pressureSystem at h1
  simp only [visits_eq hl, Option.bind_eq_bind, Option.bind_some] at h1
  obtain ⟨⟨t1, st⟩, p1, p2⟩ := Option.bind_eq_some_iff.1 h1
  obtain ⟨sys', p3, p4⟩ := Option.bind_eq_some_iff.1 p2
  simp only [Option.pure_def, Option.some.injEq, Prod.mk.injEq] at p4
  obtain ⟨rfl, rfl⟩ := p4
  obtain ⟨q1, q2, add, q3, q4, q5⟩ := pressureFold_spec hl _ _ _ _ _ (fun v hv => mem_visits.1 hv) (visits_pairwise hl) p1
  rw [List.nil_append] at q3
  subst q3
  unfold correctFlux at h3
  simp only [visits_eq hl, Option.bind_eq_bind, Option.bind_some] at h3
  obtain ⟨r1, r2⟩ := correctFold_spec hl _ _ _ (fun v hv => mem_visits.1 hv) h3
  have hp2 : ∀ id ∈ m.cvs.ids, s2.p id = x (ix m id) := by
    intro id hid
    rw [h2]
    simp only [ix, index_spec hid, Option.getD_some]
  have hfl2 : s2.flux = t1.flux := by rw [h2]
  have hap2 : s2.ap = s.ap := by rw [h2]; show t1.ap = s.ap; rw [q1.1]
  have hH2 : t1.H = s.H := by rw [q1.1]
  have hmemAcross : ∀ f ∈ cellFaces m cv, paired m f = true → across m cv f ∈ m.cvs.ids := by
    intro f hf hp
    obtain ⟨F, hF, -⟩ := hl.face cv hcv f hf
    have hFp : F.hasPair = true := by simpa [paired, hF] using hp
    obtain ⟨-, -, -, e4⟩ := hl.pair f F hF hFp
    simp only [across, hF, Option.map_some, Option.getD_some, FvmFace.neighborId]
    split_ifs
    · exact e4.subset (by simp)
    · exact e4.subset (by simp)
  have hbal : ∀ f ∈ cellFaces m cv, ∀ y, bal m g s (fun id => x (ix m id)) cv f y = bal m g s s2.p cv f y := by
    intro f hf y
    unfold bal
    by_cases hp : paired m f = true
    · simp only [hp, if_true, hp2 _ hcv, hp2 _ (hmemAcross f hf hp)]
    · simp only [hp, if_false, hp2 _ hcv, Bool.false_eq_true]
  refine ⟨?_, ?_, ?_, q1, r1⟩
  · intro f hf hp
    obtain ⟨F, hF, hown⟩ := hl.face cv hcv f hf
    have hFp : F.hasPair = true := by simpa [paired, hF] using hp
    obtain ⟨e1, e2, e3, e4⟩ := hl.pair f F hF hFp
    have hcells := cells_of_paired hl hF hFp
    have hfl : s3.flux f = -pred g s F.nbId F.cvId f - coef g s F.cvId F.nbId f * (s2.p F.nbId - s2.p F.cvId) := by
      rw [r2 f, filter_visits hl, hcells]
      simp only [List.map_cons, List.map_nil, List.foldl_cons, List.foldl_nil]
      have a1 : across m F.nbId f = F.cvId := by simp [across, hF, FvmFace.neighborId, e1]
      have a2 : across m F.cvId f = F.nbId := by simp [across, hF, FvmFace.neighborId]
      have hu1 : ∀ y, upd m g s2 F.nbId f y = y := by
        intro y; simp [upd, hp, hF, e1]
      rw [hu1]
      have hc2 : coef g s2 F.cvId F.nbId f = coef g s F.cvId F.nbId f := by simp only [coef, apOf, hap2]
      simp only [upd, hp, if_true, hF, Option.map_some, a2, hc2]
      rw [hfl2, q2 f, filter_visits hl, hcells]
      simp only [List.map_cons, List.map_nil, List.foldl_cons, List.foldl_nil, newFlux, hp, if_true, a1]
    have hneg : pred g s F.nbId F.cvId f = -pred g s F.cvId F.nbId f := pred_neg s (ho f F hF hFp)
    unfold outThrough bal
    by_cases hc : F.cvId = cv
    · have : across m cv f = F.nbId := by simp [across, hF, FvmFace.neighborId, hc]
      rw [if_pos (by simp [owns, hF, hc]), if_pos hp, hfl, this, hneg, ← hc]
      ring
    · have hn : F.nbId = cv := by
        rcases hown with h' | ⟨-, h'⟩
        · exact absurd h' hc
        · exact h'
      have : across m cv f = F.cvId := by simp [across, hF, FvmFace.neighborId, hc]
      rw [if_neg (by simp [owns, hF, hc]), if_pos hp, hfl, this, coef_comm g s cv, ← hn]
      ring
  · intro f hf hp
    have hcells := cells_of_boundary hl hcv hf hp
    rw [r2 f, filter_visits hl, hcells]
    simp only [List.map_cons, List.map_nil, List.foldl_cons, List.foldl_nil]
    rw [hfl2, q2 f, filter_visits hl, hcells]
    simp only [List.map_cons, List.map_nil, List.foldl_cons, List.foldl_nil]
  · have hn : sys'.n = m.cvs.ids.length := by
      have := (Sys.assemble_form st _ _ p3 q4 (fun _ => 0) (fun _ => 0)).1
      rw [this]; rfl
    have hi := ix_lt hcv
    have hrow := hx (ix m cv) (by rw [hn]; exact hi)
    obtain ⟨-, -, f3, f4⟩ := Sys.assemble_form st _ _ p3 q4 (fun r => if r = ix m cv then 1 else 0) x
    rw [Sys.zero_form, zero_add, Sys.form_row _ _ (by rw [hn]; exact hi)] at f3
    rw [Sys.zero_load, zero_add, Sys.load_single _ _ (by rw [hn]; exact hi)] at f4
    have h5 := q5 (fun r => if r = ix m cv then 1 else 0) x
    rw [← f3, ← f4, hrow, sub_self] at h5
    rw [sum_visits hl hcv (fun a f => bal m g s (fun id => x (ix m id)) a f (s.flux f))] at h5
    rw [h5]
    exact congrArg List.sum (List.map_congr_left fun f hf => (hbal f hf _).symm)

/-- The mass missing at a face of the boundary after the correction, in terms of the state `s` before the pressure equation was assembled and
the pressure `p` found: a flow inlet is balanced with the flux it had before, an outlet with the wrong sign of the pressure term. -/
def boundaryDefect (g : Geom K) (s : State K) (p : Int → K) (cv f : Int) : K :=
  match s.bt f with
  | .inletFlow => s.flux f + (s.Uf f).dot (g.normal cv f) * g.area cv f
  | .outlet => -2 * (coefB g s cv f * p cv)
  | .wallNoSlip => 0
  | .inletPressure => 0
  | _ => -s.flux f

end Piso

open Piso

/-- **C73**, the mass balance after solving the pressure equation exactly and correcting the fluxes, for every cell: it is off by the
defects of the faces of the boundary. -/
theorem C73_balance {m : FvmMesh K} (hl : Linked m) {g : Geom K} (ho : Opposite m g) {s s1 s3 : State K} {sys : Sys K}
    {solve : Sys K → Nat → K} (h1 : pressureSystem m g s = some (s1, sys)) (hx : sys.Solves (solve sys)) {s2 : State K}
    (h2 : calculatePressureField m g solve s = some s2) (h3 : correctFlux m g s2 = some s3) {cv : Int} (hcv : cv ∈ m.cvs.ids) :
    netOut m s3 cv = (((cellFaces m cv).filter fun f => !paired m f).map (boundaryDefect g s s3.p cv)).sum := by
  have h2' : s2 = { s1 with p := fun id => match index m id with | some k => solve sys k | Option.none => s1.p id } := by
    unfold calculatePressureField at h2
    simp only [h1, Option.bind_eq_bind, Option.bind_some, Option.pure_def, Option.some.injEq] at h2
    exact h2.symm
  obtain ⟨a1, a2, a3, a4, a5⟩ := flux_spec hl ho h1 hx s2 h2' h3 hcv
  have hp3 : s3.p = s2.p := by rw [a5.1]
  have hap : s2.ap = s.ap := by rw [h2']; show s1.ap = s.ap; rw [a4.1]
  have hbt : s2.bt = s.bt := by rw [h2']; show s1.bt = s.bt; rw [a4.1]
  have hpf : s2.pf = s.pf := by rw [h2']; show s1.pf = s.pf; rw [a4.1]
  rw [hp3]
  have key : ∀ l : List Int, (∀ f ∈ l, f ∈ cellFaces m cv) →
      (l.map fun f => if paired m f then outThrough m s3 cv f else -s3.flux f).sum =
        ((l.filter fun f => !paired m f).map (boundaryDefect g s s2.p cv)).sum -
          (l.map fun f => bal m g s s2.p cv f (s.flux f)).sum := by
    intro l
    induction l with
    | nil => intro _; simp
    | cons f t ih =>
      intro hmem
      have hf := hmem f (by simp)
      rw [List.map_cons, List.sum_cons, ih (fun f' h' => hmem f' (by simp [h'])), List.map_cons, List.sum_cons]
      by_cases hp : paired m f = true
      · rw [List.filter_cons_of_neg (by simp [hp]), if_pos hp, a1 f hf hp]
        ring
      · have hp' : paired m f = false := by simpa using hp
        rw [List.filter_cons_of_pos (by simp [hp']), List.map_cons, List.sum_cons, if_neg hp, a2 f hf hp']
        have : -upd m g s2 cv f (newFlux m g s cv f (s.flux f)) = boundaryDefect g s s2.p cv f - bal m g s s2.p cv f (s.flux f) := by
          have hcb : coefB g s2 cv f = coefB g s cv f := by simp only [coefB, apOf, hap]
          cases hb : s.bt f <;>
            simp only [upd, newFlux, bal, boundaryDefect, hp', Bool.false_eq_true, if_false, hbt, hb, hpf, hcb] <;> ring
        rw [this]; ring
  unfold netOut
  rw [key _ (fun _ h => h), a3, sub_zero]

namespace Piso

/-- `calculateVelocityField` changes only the coefficients of the momentum equation. -/
theorem velocity_same {m : FvmMesh K} {g : Geom K} {solve : Sys K → Nat → K} {s s' : State K}
    (h : calculateVelocityField m g solve s = some s') : s' = { s with H := s'.H, ap := s'.ap } := by
  unfold calculateVelocityField at h
  obtain ⟨⟨q, sys⟩, -, h⟩ := Option.bind_eq_some_iff.1 h
  obtain ⟨gps, -, h⟩ := Option.bind_eq_some_iff.1 h
  simp only [Option.pure_def, Option.some.injEq] at h
  subst h
  rfl

theorem correctVelocity_same {m : FvmMesh K} {g : Geom K} : ∀ (l : List Int) (s s' : State K),
    l.foldlM (correctVelocityCell m g) s = some s' → s' = { s with U := s'.U } := by
  intro l
  induction l with
  | nil =>
    intro s s' h
    simp only [List.foldlM_nil, Option.pure_def, Option.some.injEq] at h
    subst h; rfl
  | cons a t ih =>
    intro s s' h
    rw [List.foldlM_cons] at h
    obtain ⟨s1, h1, h2⟩ := Option.bind_eq_some_iff.1 h
    have := ih s1 s' h2
    unfold correctVelocityCell at h1
    obtain ⟨gp, -, h1⟩ := Option.bind_eq_some_iff.1 h1
    obtain ⟨ap, -, h1⟩ := Option.bind_eq_some_iff.1 h1
    split_ifs at h1
    simp only [Option.pure_def, Option.some.injEq] at h1
    subst h1
    exact this

/-- The stages of `iterate`. -/
structure Stages (big : K) (m : FvmMesh K) (g : Geom K) (solveU solveP : Sys K → Nat → K) (dt : K) (s s' : State K) where
  s1 : State K
  t : State K
  sys : Sys K
  s2 : State K
  s3 : State K
  s4 : State K
  velocity : calculateVelocityField m g solveU (beginStep dt s) = some s1
  system : pressureSystem m g s1 = some (t, sys)
  pressure : calculatePressureField m g solveP s1 = some s2
  flux : correctFlux m g s2 = some s3
  correct : correctVelocityField m g s3 = some s4
  last : s' = correctPressureField big m s4

theorem stages {big : K} {m : FvmMesh K} {g : Geom K} {solveU solveP : Sys K → Nat → K} {dt : K} {s s' : State K}
    (h : iterate big m g solveU solveP dt s = some s') : Nonempty (Stages big m g solveU solveP dt s s') := by
  unfold iterate at h
  obtain ⟨s1, h1, h⟩ := Option.bind_eq_some_iff.1 h
  obtain ⟨s2, h2, h⟩ := Option.bind_eq_some_iff.1 h
  obtain ⟨s3, h3, h⟩ := Option.bind_eq_some_iff.1 h
  obtain ⟨s4, h4, h⟩ := Option.bind_eq_some_iff.1 h
  simp only [Option.pure_def, Option.some.injEq] at h
  have h2' := h2
  unfold calculatePressureField at h2'
  obtain ⟨⟨t, sys⟩, h5, -⟩ := Option.bind_eq_some_iff.1 h2'
  exact ⟨⟨s1, t, sys, s2, s3, s4, h1, h5, h2, h3, h4, h.symm⟩⟩

theorem Stages.flux_eq {big : K} {m : FvmMesh K} {g : Geom K} {solveU solveP : Sys K → Nat → K} {dt : K} {s s' : State K}
    (S : Stages big m g solveU solveP dt s s') : s'.flux = S.s3.flux := by
  have h4 := correctVelocity_same _ _ _ S.correct
  have h5 : S.s4.flux = S.s3.flux := by rw [h4]
  have h6 : (correctPressureField big m S.s4).flux = S.s3.flux := h5
  exact (congrArg State.flux S.last).trans h6

/-- The solver of the pressure equation returns an exact solution of the system assembled in this step. -/
def ExactPressure (m : FvmMesh K) (g : Geom K) (solveU solveP : Sys K → Nat → K) (dt : K) (s : State K) : Prop :=
  ∀ s1 t sys, calculateVelocityField m g solveU (beginStep dt s) = some s1 → pressureSystem m g s1 = some (t, sys) → sys.Solves (solveP sys)

theorem netOut_congr {m : FvmMesh K} {s s' : State K} (h : s'.flux = s.flux) (cv : Int) : netOut m s' cv = netOut m s cv := by
  simp only [netOut, outThrough, h]

theorem check_eq {m : FvmMesh K} (hl : Linked m) (s : State K) {cv : Int} (hcv : cv ∈ m.cvs.ids) :
    checkMassConservationCell m s cv = some ((cellFaces m cv).map fun f => outThrough m s cv f).sum := by
  obtain ⟨c, hc, -⟩ := hl.cell cv hcv
  have hfs : facesOf m cv = some (cellFaces m cv) := by simp [facesOf, cellFaces, hc]
  unfold checkMassConservationCell
  simp only [hfs, Option.bind_eq_bind, Option.bind_some]
  have key : ∀ (l : List Int) (acc : K), (∀ f ∈ l, f ∈ cellFaces m cv) →
      l.foldlM (fun acc f => (signedFlux m s cv f).bind fun a => pure (acc + a)) acc = some (acc + (l.map fun f => outThrough m s cv f).sum) := by
    intro l
    induction l with
    | nil => intro acc _; simp
    | cons f t ih =>
      intro acc hmem
      obtain ⟨F, hF, -⟩ := hl.face cv hcv f (hmem f (by simp))
      have : signedFlux m s cv f = some (outThrough m s cv f) := by
        by_cases hc : F.cvId = cv <;> simp [signedFlux, outThrough, owns, hF, hc]
      rw [List.foldlM_cons, this]
      have h' := ih (acc + outThrough m s cv f) (fun f' h' => hmem f' (by simp [h']))
      rw [List.map_cons, List.sum_cons, ← add_assoc]
      exact h'
  rw [key _ 0 (fun _ h => h), zero_add]

end Piso

/-- **C73.** After `iterate` with an exact solution of the pressure equation, the net flow out of every cell vanishes whose faces on the
boundary are walls, pressure inlets, or flow inlets whose stored flux was already that of the prescribed velocity. -/
theorem C73_iterate_partial {big : K} {m : FvmMesh K} (hl : Linked m) {g : Geom K} (ho : Opposite m g) {solveU solveP : Sys K → Nat → K} {dt : K}
    {s s' : State K} (hx : ExactPressure m g solveU solveP dt s) (h : iterate big m g solveU solveP dt s = some s') {cv : Int}
    (hcv : cv ∈ m.cvs.ids)
    (hb : ∀ f ∈ cellFaces m cv, paired m f = false → s.bt f = .wallNoSlip ∨ s.bt f = .inletPressure ∨
      (s.bt f = .inletFlow ∧ s.flux f = -((s.Uf f).dot (g.normal cv f) * g.area cv f))) :
    netOut m s' cv = 0 := by
  obtain ⟨S⟩ := stages h
  have h1 := velocity_same S.velocity
  have hbt : S.s1.bt = s.bt := by rw [h1]; rfl
  have hfl : S.s1.flux = s.flux := by rw [h1]; rfl
  have hUf : S.s1.Uf = s.Uf := by rw [h1]; rfl
  have h4 := correctVelocity_same _ _ _ S.correct
  have hfl' := S.flux_eq
  rw [netOut_congr hfl', C73_balance hl ho S.system (hx _ _ _ S.velocity S.system) S.pressure S.flux hcv]
  apply List.sum_eq_zero
  intro y hy
  obtain ⟨f, hf, rfl⟩ := List.mem_map.1 hy
  obtain ⟨hf1, hf2⟩ := List.mem_filter.1 hf
  rcases hb f hf1 (by simpa using hf2) with h' | h' | ⟨h', h''⟩
  · simp [boundaryDefect, hbt, h']
  · simp [boundaryDefect, hbt, h']
  · simp only [boundaryDefect, hbt, h', hfl, hUf, h'']; ring

/-- **C73.** `iterate` leaves a flow inlet with the flux of the prescribed velocity, and does not change that velocity. -/
theorem C73_inlet_flux {big : K} {m : FvmMesh K} (hl : Linked m) {g : Geom K} {solveU solveP : Sys K → Nat → K} {dt : K}
    {s s' : State K} (h : iterate big m g solveU solveP dt s = some s') {cv f : Int} (hcv : cv ∈ m.cvs.ids) (hf : f ∈ cellFaces m cv)
    (hp : paired m f = false) (hb : s.bt f = .inletFlow) :
    s'.bt f = .inletFlow ∧ s'.Uf f = s.Uf f ∧ s'.flux f = -((s'.Uf f).dot (g.normal cv f) * g.area cv f) := by
  obtain ⟨S⟩ := stages h
  have h1 := velocity_same S.velocity
  have hbt1 : S.s1.bt = s.bt := by rw [h1]; rfl
  have hUf1 : S.s1.Uf = s.Uf := by rw [h1]; rfl
  have h4 := correctVelocity_same _ _ _ S.correct
  have hsys := S.system
  unfold pressureSystem at hsys
  simp only [visits_eq hl, Option.bind_eq_bind, Option.bind_some] at hsys
  obtain ⟨⟨t1, st⟩, p1, p2⟩ := Option.bind_eq_some_iff.1 hsys
  obtain ⟨sys', p3, p4⟩ := Option.bind_eq_some_iff.1 p2
  simp only [Option.pure_def, Option.some.injEq, Prod.mk.injEq] at p4
  obtain ⟨p4, -⟩ := p4
  obtain ⟨q1, q2, -⟩ := pressureFold_spec hl _ _ _ _ _ (fun v hv => mem_visits.1 hv) (visits_pairwise hl) p1
  have h2' : S.s2 = { S.t with p := fun id => match index m id with | some k => solveP S.sys k | Option.none => S.t.p id } := by
    have := S.pressure
    unfold calculatePressureField at this
    simp only [S.system, Option.bind_eq_bind, Option.bind_some, Option.pure_def, Option.some.injEq] at this
    exact this.symm
  have hfx := S.flux
  unfold correctFlux at hfx
  simp only [visits_eq hl, Option.bind_eq_bind, Option.bind_some] at hfx
  obtain ⟨r1, r2⟩ := correctFold_spec hl _ _ _ (fun v hv => mem_visits.1 hv) hfx
  have hcells := cells_of_boundary hl hcv hf hp
  have hbt2 : S.s2.bt = s.bt := by rw [h2', ← p4, ← hbt1]; show t1.bt = S.s1.bt; rw [q1.1]
  have hbt : s'.bt = s.bt := by
    rw [S.last]; show S.s4.bt = s.bt; rw [h4]; show S.s3.bt = s.bt; rw [r1.1]; exact hbt2
  have hUf : s'.Uf f = s.Uf f := by
    rw [S.last]; show S.s4.Uf f = s.Uf f; rw [h4]; show S.s3.Uf f = s.Uf f; rw [r1.1]; show S.s2.Uf f = s.Uf f
    rw [h2', ← p4, ← hUf1]
    exact q1.2 f (by rw [hbt1, hb]; simp) (by rw [hbt1, hb]; simp)
  refine ⟨by rw [hbt]; exact hb, hUf, ?_⟩
  have e : s'.flux f = S.s3.flux f := congrFun S.flux_eq f
  rw [e, r2 f, filter_visits hl, hcells]
  simp only [List.map_cons, List.map_nil, List.foldl_cons, List.foldl_nil]
  have : ∀ y, upd m g S.s2 cv f y = y := by intro y; simp [upd, hp, hbt2, hb]
  rw [this, h2', ← p4]
  show t1.flux f = _
  rw [q2 f, filter_visits hl, hcells]
  simp only [List.map_cons, List.map_nil, List.foldl_cons, List.foldl_nil, newFlux, hp, Bool.false_eq_true, if_false, hbt1, hb, hUf1, hUf]
  ring

/-- **C73.** From the second of two steps on, the mass balance holds in every cell whose faces on the boundary are walls, pressure inlets and
flow inlets. -/
theorem C73_second_step_partial {big : K} {m : FvmMesh K} (hl : Linked m) {g : Geom K} (ho : Opposite m g) {solveU solveP : Sys K → Nat → K}
    {dt dt' : K} {s s' s'' : State K} (h : iterate big m g solveU solveP dt s = some s')
    (h' : iterate big m g solveU solveP dt' s' = some s'') (hx : ExactPressure m g solveU solveP dt' s') {cv : Int} (hcv : cv ∈ m.cvs.ids)
    (hb : ∀ f ∈ cellFaces m cv, paired m f = false → s'.bt f = .wallNoSlip ∨ s'.bt f = .inletPressure ∨ (s'.bt f = .inletFlow ∧ s.bt f = .inletFlow)) :
    netOut m s'' cv = 0 := by
  refine C73_iterate_partial hl ho hx h' hcv (fun f hf hp => ?_)
  rcases hb f hf hp with q | q | ⟨q, q'⟩
  · exact Or.inl q
  · exact Or.inr (Or.inl q)
  · exact Or.inr (Or.inr ⟨q, (C73_inlet_flux hl h hcv hf hp q').2.2⟩)

/-- **C73.** What `massError` reports: zero for every cell all of whose faces on the boundary are walls; and in a domain with walls all
around, `checkMassConservation` reports zero. -/
theorem C73_walls {big : K} {m : FvmMesh K} (hl : Linked m) {g : Geom K} (ho : Opposite m g) {solveU solveP : Sys K → Nat → K} {dt : K}
    {s s' : State K} (hx : ExactPressure m g solveU solveP dt s) (h : iterate big m g solveU solveP dt s = some s') :
    (∀ cv ∈ m.cvs.ids, (∀ f ∈ cellFaces m cv, paired m f = false → s.bt f = .wallNoSlip) → checkMassConservationCell m s' cv = some 0) ∧
    ((∀ cv ∈ m.cvs.ids, ∀ f ∈ cellFaces m cv, paired m f = false → s.bt f = .wallNoSlip) → checkMassConservation m s' = some 0) := by
  have key : ∀ cv ∈ m.cvs.ids, (∀ f ∈ cellFaces m cv, paired m f = false → s.bt f = .wallNoSlip) → checkMassConservationCell m s' cv = some 0 := by
    intro cv hcv hw
    rw [check_eq hl s' hcv]
    have h0 := C73_iterate_partial hl ho hx h hcv (fun f hf hp => Or.inl (hw f hf hp))
    rw [← h0]
    unfold netOut
    congr 2
    apply List.map_congr_left
    intro f hf
    by_cases hp : paired m f = true
    · rw [if_pos hp]
    · have hp' : paired m f = false := by simpa using hp
      rw [if_neg hp]
      -- the flux through a wall is set to zero
      obtain ⟨S⟩ := stages h
      have h1 := velocity_same S.velocity
      have hbt1 : S.s1.bt = s.bt := by rw [h1]; rfl
      have h4 := correctVelocity_same _ _ _ S.correct
      have h2' : S.s2 = { S.t with p := fun id => match index m id with | some k => solveP S.sys k | Option.none => S.t.p id } := by
        have := S.pressure
        unfold calculatePressureField at this
        simp only [S.system, Option.bind_eq_bind, Option.bind_some, Option.pure_def, Option.some.injEq] at this
        exact this.symm
      obtain ⟨-, a2, -, a4, -⟩ := flux_spec hl ho S.system (hx _ _ _ S.velocity S.system) S.s2 h2' S.flux hcv
      have hbt2 : S.s2.bt = s.bt := by rw [h2', ← hbt1]; show S.t.bt = S.s1.bt; rw [a4.1]
      have hz : s'.flux f = 0 := by
        have e : s'.flux f = S.s3.flux f := congrFun S.flux_eq f
        rw [e, a2 f hf hp']
        simp [upd, hp', hbt2, hw f hf hp']
      simp [outThrough, hz]
  refine ⟨key, fun hw => ?_⟩
  have hsum : ∀ (l : List Int), (∀ cv ∈ l, cv ∈ m.cvs.ids) → l.foldlM (fun acc cv => (checkMassConservationCell m s' cv).bind fun a => pure (acc + |a|)) (0 : K) = some 0 := by
    intro l
    induction l with
    | nil => intro _; simp
    | cons a t ih =>
      intro hmem
      rw [List.foldlM_cons, key a (hmem a (by simp)) (hw a (hmem a (by simp)))]
      rw [Option.bind_some, abs_zero, add_zero]
      exact ih (fun cv h' => hmem cv (by simp [h']))
  unfold checkMassConservation
  simp only [Option.bind_eq_bind]
  rw [hsum _ (fun _ h => h)]
  simp

/-- **C73 fails at outlets.** An exact solution of the pressure equation does not make the mass balance of a cell with an outlet hold: with one outlet and
otherwise walls it is off by twice the pressure term, so it holds only if that is zero. -/
theorem C73_outlet {m : FvmMesh K} (hl : Linked m) {g : Geom K} (ho : Opposite m g) {s s1 s3 : State K} {sys : Sys K}
    {solve : Sys K → Nat → K} (h1 : pressureSystem m g s = some (s1, sys)) (hx : sys.Solves (solve sys)) {s2 : State K}
    (h2 : calculatePressureField m g solve s = some s2) (h3 : correctFlux m g s2 = some s3) {cv f : Int} (hcv : cv ∈ m.cvs.ids)
    (hf : f ∈ cellFaces m cv) (hp : paired m f = false) (hb : s.bt f = .outlet)
    (hw : ∀ f' ∈ cellFaces m cv, f' ≠ f → paired m f' = false → s.bt f' = .wallNoSlip) :
    netOut m s3 cv = -2 * (coefB g s cv f * s3.p cv) := by
  rw [C73_balance hl ho h1 hx h2 h3 hcv]
  rw [sum_map_single ((cellFaces_nodup hl hcv).filter _) (a := f) (by simp [hf, hp]) (boundaryDefect g s s3.p cv)]
  · simp [boundaryDefect, hb]
  · intro b hb' hne
    obtain ⟨q1, q2⟩ := List.mem_filter.1 hb'
    simp [boundaryDefect, hw b q1 hne (by simpa using q2)]

end ENigMA
