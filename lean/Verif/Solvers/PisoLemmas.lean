import Verif.Solvers.Piso
import Verif.Pde.FemAssemblyLemmas
import Mathlib.Tactic.Ring
import Mathlib.Tactic.Linarith
import Mathlib.Tactic.Abel

/-!
# Lemmas on the loops of the PISO solver
-/

set_option linter.unusedSectionVars false
set_option autoImplicit false

namespace ENigMA
namespace Piso
variable {K : Type} [Field K] [LinearOrder K] [IsStrictOrderedRing K]

/-! ### Specification -/

/-- The faces of a control volume. -/
def cellFaces (m : FvmMesh K) (cv : Int) : List Int := ((m.cvs.get? cv).map fun c => c.poly.ids).getD []

/-- The cell on the other side of a face. -/
def across (m : FvmMesh K) (cv f : Int) : Int := ((m.faces.get? f).map fun F => F.neighborId cv).getD 0

/-- The face lies between two cells. -/
def paired (m : FvmMesh K) (f : Int) : Bool := ((m.faces.get? f).map fun F => F.hasPair).getD false

/-- The control volumes and faces of the mesh belong together: every face of a cell exists and has the cell as owner or, if it has a pair, as
neighbour; a face with a pair is a face of two different cells, and its owner comes first. `C73_reachable` shows that `CFvmMesh::set`
establishes this. -/
structure Linked (m : FvmMesh K) : Prop where
  nodup : m.cvs.ids.Nodup
  cell : ∀ id ∈ m.cvs.ids, ∃ c, m.cvs.get? id = some c ∧ c.poly.ids.Nodup
  face : ∀ id ∈ m.cvs.ids, ∀ f ∈ cellFaces m id, ∃ F, m.faces.get? f = some F ∧ (F.cvId = id ∨ F.hasPair = true ∧ F.nbId = id)
  pair : ∀ f F, m.faces.get? f = some F → F.hasPair = true →
    F.cvId ≠ F.nbId ∧ f ∈ cellFaces m F.cvId ∧ f ∈ cellFaces m F.nbId ∧ [F.cvId, F.nbId].Sublist m.cvs.ids

/-- The two cells of a face see it with opposite normals. -/
def Opposite (m : FvmMesh K) (g : Geom K) : Prop :=
  ∀ f F, m.faces.get? f = some F → F.hasPair = true → g.normal F.nbId f = -g.normal F.cvId f

/-- The diagonal coefficient of the momentum equation of a cell. -/
def apOf (s : State K) (cv : Int) : K := (s.ap cv).getD 0

/-- Area over distance and diagonal coefficient, for a face between two cells. -/
def coef (g : Geom K) (s : State K) (cv nb f : Int) : K :=
  (g.area cv f + g.area nb f) * (1 / 2) / ((apOf s cv + apOf s nb) * (1 / 2) * (g.dist cv f + g.dist nb f))

/-- The same for a face of the boundary. -/
def coefB (g : Geom K) (s : State K) (cv f : Int) : K := g.area cv f / (apOf s cv * g.dist cv f)

/-- The flux out of a cell through a face predicted from the momentum equation without pressure. -/
def pred (g : Geom K) (s : State K) (cv nb f : Int) : K :=
  ((1 / 2 : K) • (s.H cv + s.H nb)).dot (g.normal cv f) / ((apOf s cv + apOf s nb) * (1 / 2)) * ((g.area cv f + g.area nb f) * (1 / 2))

def predB (g : Geom K) (s : State K) (cv f : Int) : K := (s.H cv).dot (g.normal cv f) / apOf s cv * g.area cv f

/-- What `calculatePressureField` makes of the flux `y` of a face when it visits it from a cell. -/
def newFlux (m : FvmMesh K) (g : Geom K) (s : State K) (cv f : Int) (y : K) : K :=
  if paired m f then -pred g s cv (across m cv f) f
  else match s.bt f with
    | .inletFlow => -((s.Uf f).dot (g.normal cv f)) * g.area cv f
    | .inletPressure => -predB g s cv f
    | .outlet => -predB g s cv f
    | _ => y

/-- The contribution of a visit to the residual of the pressure equation of the cell, at pressures `x`; `y` is the flux of the face before. -/
def bal (m : FvmMesh K) (g : Geom K) (s : State K) (x : Int → K) (cv f : Int) (y : K) : K :=
  if paired m f then coef g s cv (across m cv f) f * (x (across m cv f) - x cv) - pred g s cv (across m cv f) f
  else match s.bt f with
    | .inletFlow => y
    | .inletPressure => coefB g s cv f * (s.pf f - x cv) - predB g s cv f
    | .outlet => -(coefB g s cv f * x cv) - predB g s cv f
    | _ => 0

/-- What `correctFlux` makes of the flux `y` of a face when it visits it from a cell. -/
def upd (m : FvmMesh K) (g : Geom K) (s : State K) (cv f : Int) (y : K) : K :=
  if paired m f then
    if ((m.faces.get? f).map fun F => F.cvId) = some cv then y - coef g s cv (across m cv f) f * (s.p (across m cv f) - s.p cv) else y
  else match s.bt f with
    | .wallNoSlip => 0
    | .inletPressure => y + coefB g s cv f * (s.pf f - s.p cv)
    | .outlet => y + coefB g s cv f * s.p cv
    | _ => y

/-- The states differ at most in the fluxes, the boundary velocities of faces with computed velocity. -/
def SameP (s s' : State K) : Prop :=
  s' = { s with flux := s'.flux, Uf := s'.Uf } ∧ ∀ f, s.bt f ≠ .inletPressure → s.bt f ≠ .outlet → s'.Uf f = s.Uf f

theorem SameP.refl (s : State K) : SameP s s := ⟨rfl, fun _ _ _ => rfl⟩

theorem SameP.trans {a b c : State K} (h : SameP a b) (h' : SameP b c) : SameP a c := by
  obtain ⟨h1, h2⟩ := h
  obtain ⟨g1, g2⟩ := h'
  have hb : b.bt = a.bt := by rw [h1]
  refine ⟨?_, fun f q1 q2 => (g2 f (by rw [hb]; exact q1) (by rw [hb]; exact q2)).trans (h2 f q1 q2)⟩
  rw [h1] at g1; exact g1

theorem newFlux_congr {m : FvmMesh K} {g : Geom K} {s s' : State K} (h : SameP s s') (cv f : Int) (y : K) :
    newFlux m g s' cv f y = newFlux m g s cv f y := by
  obtain ⟨h1, h2⟩ := h
  have e1 : s'.H = s.H := by rw [h1]
  have e2 : s'.ap = s.ap := by rw [h1]
  have e3 : s'.bt = s.bt := by rw [h1]
  unfold newFlux pred predB apOf
  rw [e1, e2, e3]
  cases hb : s.bt f <;> simp [h2 f, hb]

theorem bal_congr {m : FvmMesh K} {g : Geom K} {s s' : State K} (h : SameP s s') (x : Int → K) (cv f : Int) (y : K) :
    bal m g s' x cv f y = bal m g s x cv f y := by
  obtain ⟨h1, -⟩ := h
  have e1 : s'.H = s.H := by rw [h1]
  have e2 : s'.ap = s.ap := by rw [h1]
  have e3 : s'.bt = s.bt := by rw [h1]
  have e4 : s'.pf = s.pf := by rw [h1]
  unfold bal pred predB coef coefB apOf
  rw [e1, e2, e3, e4]

/-- The position of a control volume as a number. -/
def ix (m : FvmMesh K) (id : Int) : Nat := (index m id).getD 0

theorem pairVals_some {g : Geom K} {s : State K} {cv nb f : Int} {r : K × K × K} (h : pairVals g s cv nb f = some r) :
    r = ((g.area cv f + g.area nb f) * (1 / 2), g.dist cv f + g.dist nb f, (apOf s cv + apOf s nb) * (1 / 2)) := by
  unfold pairVals at h
  cases h1 : s.ap cv with
  | none => simp [h1] at h
  | some a =>
    cases h2 : s.ap nb with
    | none => simp [h1, h2] at h
    | some b =>
      simp only [h1, h2, Option.bind_eq_bind, Option.bind_some] at h
      split_ifs at h
      cases h
      simp [apOf, h1, h2]

/-- One visit of `calculatePressureField`. -/
theorem pressureFace_spec {m : FvmMesh K} (hl : Linked m) {g : Geom K} {s s' : State K} {st st' : List (Stamp K)} {cv f : Int}
    (hcv : cv ∈ m.cvs.ids) (hf : f ∈ cellFaces m cv) (h : pressureFace m g (s, st) (cv, f) = some (s', st')) :
    SameP s s' ∧ (∀ f', f' ≠ f → s'.flux f' = s.flux f') ∧ s'.flux f = newFlux m g s cv f (s.flux f) ∧
      ∃ add, st' = st ++ add ∧ (∀ t ∈ add, t.IsAdd) ∧ ∀ v w : Nat → K,
        (add.map (Stamp.val v w)).sum - (add.map (Stamp.valB v)).sum = v (ix m cv) * bal m g s (fun id => w (ix m id)) cv f (s.flux f) := by
  obtain ⟨F, hF, hown⟩ := hl.face cv hcv f hf
  unfold pressureFace at h
  cases hi : index m cv with
  | none => simp [hi] at h
  | some iP =>
  simp only [hi, hF, Option.bind_eq_bind, Option.bind_some] at h
  have hpm : paired m f = F.hasPair := by simp [paired, hF]
  have hac : across m cv f = F.neighborId cv := by simp [across, hF]
  have hiP : ix m cv = iP := by simp [ix, hi]
  by_cases hp : F.hasPair = true
  · simp only [hp, if_true] at h
    cases hn : index m (F.neighborId cv) with
    | none => simp [hn] at h
    | some iN =>
    simp only [hn, Option.bind_some] at h
    cases hc : m.cvs.get? (F.neighborId cv) with
    | none => simp [hc] at h
    | some c =>
    simp only [hc, Option.bind_some] at h
    have hiN : ix m (F.neighborId cv) = iN := by simp [ix, hn]
    have hcont : c.poly.containsPolygon f = true := by
      obtain ⟨q1, q2, q3, q4⟩ := hl.pair f F hF hp
      have : f ∈ cellFaces m (F.neighborId cv) := by
        unfold FvmFace.neighborId
        split_ifs
        · exact q3
        · exact q2
      simpa [Polyhedron.containsPolygon, cellFaces, hc] using this
    rw [if_pos hcont] at h
    cases hpv : pairVals g s cv (F.neighborId cv) f with
    | none => simp [hpv] at h
    | some r =>
    have hr := pairVals_some hpv
    subst hr
    simp only [hpv, Option.bind_some] at h
    cases h
    refine ⟨⟨rfl, fun _ _ _ => rfl⟩, fun f' hf' => by simp [put, hf'], ?_, _, rfl, ?_, ?_⟩
    · simp only [put, if_true, newFlux, hpm, hp, hac, pred]
      ring
    · intro t ht
      simp only [List.mem_cons, List.not_mem_nil, or_false] at ht
      rcases ht with rfl | rfl | rfl <;> trivial
    · intro v w
      simp only [List.map_cons, List.map_nil, List.sum_cons, List.sum_nil, Stamp.val, Stamp.valB, Int.toNat_natCast, bal, hpm, hp, hac,
        if_true, hiP, hiN, pred, coef]
      ring
  · have hp' : F.hasPair = false := by simpa using hp
    simp only [hp', Bool.false_eq_true, if_false] at h
    cases ha : s.ap cv with
    | none => simp [ha] at h
    | some ap =>
    simp only [ha, Option.bind_some] at h
    have hap : apOf s cv = ap := by simp [apOf, ha]
    cases hb : s.bt f with
    | inletFlow =>
      simp only [hb] at h
      cases h
      refine ⟨⟨rfl, fun _ _ _ => rfl⟩, fun f' hf' => by simp [put, hf'], ?_, _, rfl, ?_, ?_⟩
      · simp only [put, if_true, newFlux, hpm, hp', hb, Bool.false_eq_true, if_false]
      · intro t ht
        simp only [List.mem_cons, List.not_mem_nil, or_false] at ht
        subst ht; trivial
      · intro v w
        simp only [List.map_cons, List.map_nil, List.sum_cons, List.sum_nil, Stamp.val, Stamp.valB, Int.toNat_natCast, bal, hpm, hp', hb,
          Bool.false_eq_true, if_false, hiP]
        ring
    | inletPressure =>
      simp only [hb] at h
      split_ifs at h
      cases h
      refine ⟨⟨rfl, fun f' q1 _ => ?_⟩, fun f' hf' => by simp [put, hf'], ?_, _, rfl, ?_, ?_⟩
      · have : f' ≠ f := fun e => q1 (by rw [e]; exact hb)
        simp [put, this]
      · simp only [put, if_true, newFlux, hpm, hp', hb, Bool.false_eq_true, if_false, predB, hap]
        ring
      · intro t ht
        simp only [List.mem_cons, List.not_mem_nil, or_false] at ht
        rcases ht with rfl | rfl | rfl <;> trivial
      · intro v w
        simp only [List.map_cons, List.map_nil, List.sum_cons, List.sum_nil, Stamp.val, Stamp.valB, Int.toNat_natCast, bal, hpm, hp', hb,
          Bool.false_eq_true, if_false, hiP, coefB, predB, hap]
        ring
    | outlet =>
      simp only [hb] at h
      split_ifs at h
      cases h
      refine ⟨⟨rfl, fun f' _ q1 => ?_⟩, fun f' hf' => by simp [put, hf'], ?_, _, rfl, ?_, ?_⟩
      · have : f' ≠ f := fun e => q1 (by rw [e]; exact hb)
        simp [put, this]
      · simp only [put, if_true, newFlux, hpm, hp', hb, Bool.false_eq_true, if_false, predB, hap]
        ring
      · intro t ht
        simp only [List.mem_cons, List.not_mem_nil, or_false] at ht
        rcases ht with rfl | rfl <;> trivial
      · intro v w
        simp only [List.map_cons, List.map_nil, List.sum_cons, List.sum_nil, Stamp.val, Stamp.valB, Int.toNat_natCast, bal, hpm, hp', hb,
          Bool.false_eq_true, if_false, hiP, coefB, predB, hap]
        ring
    | none | interiorFace | interface | wallNoSlip | wallSlip =>
      simp only [hb] at h
      cases h
      exact ⟨SameP.refl s, fun _ _ => rfl, by simp [newFlux, hpm, hp', hb], [], by simp, by simp, by simp [bal, hpm, hp', hb]⟩

/-- All visits of `calculatePressureField`. -/
theorem pressureFold_spec {m : FvmMesh K} (hl : Linked m) {g : Geom K} : ∀ (l : List (Int × Int)) (s s' : State K) (st st' : List (Stamp K)),
    (∀ v ∈ l, v.1 ∈ m.cvs.ids ∧ v.2 ∈ cellFaces m v.1) → l.Pairwise (fun a b => paired m a.2 = false → a.2 ≠ b.2) →
    l.foldlM (pressureFace m g) (s, st) = some (s', st') →
    SameP s s' ∧ (∀ f, s'.flux f = (l.filter fun v => v.2 = f).foldl (fun y v => newFlux m g s v.1 f y) (s.flux f)) ∧
      ∃ add, st' = st ++ add ∧ (∀ t ∈ add, t.IsAdd) ∧ ∀ v w : Nat → K,
        (add.map (Stamp.val v w)).sum - (add.map (Stamp.valB v)).sum =
          (l.map fun a => v (ix m a.1) * bal m g s (fun id => w (ix m id)) a.1 a.2 (s.flux a.2)).sum := by
  intro l
  induction l with
  | nil =>
    intro s s' st st' _ _ h
    simp only [List.foldlM_nil, Option.pure_def, Option.some.injEq, Prod.mk.injEq] at h
    obtain ⟨rfl, rfl⟩ := h
    exact ⟨SameP.refl _, fun _ => rfl, [], by simp, by simp, by simp⟩
  | cons a t ih =>
    intro s s' st st' hmem hpw h
    rw [List.foldlM_cons] at h
    obtain ⟨⟨s1, st1⟩, h1, h2⟩ := Option.bind_eq_some_iff.1 h
    obtain ⟨cv, f⟩ := a
    obtain ⟨ha1, ha2⟩ := hmem (cv, f) (by simp)
    obtain ⟨p1, p2, p3, add1, p4, p5, p6⟩ := pressureFace_spec hl ha1 ha2 h1
    obtain ⟨q1, q2, add2, q4, q5, q6⟩ := ih s1 s' st1 st' (fun v hv => hmem v (by simp [hv])) (List.pairwise_cons.1 hpw).2 h2
    refine ⟨p1.trans q1, fun f' => ?_, add1 ++ add2, by rw [q4, p4, List.append_assoc], ?_, ?_⟩
    · rw [q2 f']
      have : ∀ (l : List (Int × Int)) (y : K), l.foldl (fun y v => newFlux m g s1 v.1 f' y) y = l.foldl (fun y v => newFlux m g s v.1 f' y) y := by
        intro l y
        congr 1
        funext y v
        exact newFlux_congr p1 v.1 f' y
      rw [this]
      by_cases hff : f = f'
      · subst hff
        rw [List.filter_cons_of_pos (by simp), List.foldl_cons, p3]
      · rw [List.filter_cons_of_neg (by simpa using hff), p2 f' (Ne.symm hff)]
    · intro t' ht'
      rcases List.mem_append.1 ht' with h' | h'
      · exact p5 t' h'
      · exact q5 t' h'
    · intro v w
      have hrest : (t.map fun a => v (ix m a.1) * bal m g s1 (fun id => w (ix m id)) a.1 a.2 (s1.flux a.2)) =
          t.map fun a => v (ix m a.1) * bal m g s (fun id => w (ix m id)) a.1 a.2 (s.flux a.2) := by
        apply List.map_congr_left
        intro a ha
        rw [bal_congr p1]
        by_cases hpa : paired m a.2 = true
        · simp only [bal, hpa, if_true]
        · have hpa' : paired m a.2 = false := by simpa using hpa
          have hne : a.2 ≠ f := by
            intro e
            have hpf : paired m f = false := by rw [← e]; exact hpa'
            exact (List.pairwise_cons.1 hpw).1 a ha hpf e.symm
          rw [p2 a.2 hne]
      rw [List.map_append, List.map_append, List.sum_append, List.sum_append, List.map_cons, List.sum_cons, ← p6 v w, ← hrest, ← q6 v w]
      ring

/-- The states differ at most in the fluxes and in the pressures of faces whose pressure is computed. -/
def SameC (s s' : State K) : Prop :=
  s' = { s with flux := s'.flux, pf := s'.pf } ∧ ∀ f, s.bt f = .inletPressure → s'.pf f = s.pf f

theorem SameC.refl (s : State K) : SameC s s := ⟨rfl, fun _ _ => rfl⟩

theorem SameC.trans {a b c : State K} (h : SameC a b) (h' : SameC b c) : SameC a c := by
  obtain ⟨h1, h2⟩ := h
  obtain ⟨g1, g2⟩ := h'
  have hb : b.bt = a.bt := by rw [h1]
  refine ⟨?_, fun f q1 => (g2 f (by rw [hb]; exact q1)).trans (h2 f q1)⟩
  rw [h1] at g1; exact g1

theorem upd_congr {m : FvmMesh K} {g : Geom K} {s s' : State K} (h : SameC s s') (cv f : Int) (y : K) :
    upd m g s' cv f y = upd m g s cv f y := by
  obtain ⟨h1, h2⟩ := h
  have e1 : s'.p = s.p := by rw [h1]
  have e2 : s'.ap = s.ap := by rw [h1]
  have e3 : s'.bt = s.bt := by rw [h1]
  unfold upd coef coefB apOf
  rw [e1, e2, e3]
  cases hb : s.bt f <;> simp [h2 f, hb]

/-- One visit of `correctFlux`. -/
theorem correctFluxFace_spec {m : FvmMesh K} (hl : Linked m) {g : Geom K} {s s' : State K} {cv f : Int}
    (hcv : cv ∈ m.cvs.ids) (hf : f ∈ cellFaces m cv) (h : correctFluxFace m g s (cv, f) = some s') :
    SameC s s' ∧ (∀ f', f' ≠ f → s'.flux f' = s.flux f') ∧ s'.flux f = upd m g s cv f (s.flux f) := by
  obtain ⟨F, hF, hown⟩ := hl.face cv hcv f hf
  unfold correctFluxFace at h
  simp only [hF, Option.bind_eq_bind, Option.bind_some] at h
  have hpm : paired m f = F.hasPair := by simp [paired, hF]
  have hac : across m cv f = F.neighborId cv := by simp [across, hF]
  by_cases hp : F.hasPair = true
  · simp only [hp, if_true] at h
    cases hc : m.cvs.get? (F.neighborId cv) with
    | none => simp [hc] at h
    | some c =>
    simp only [hc, Option.bind_some] at h
    have hcont : c.poly.containsPolygon f = true := by
      obtain ⟨q1, q2, q3, q4⟩ := hl.pair f F hF hp
      have : f ∈ cellFaces m (F.neighborId cv) := by
        unfold FvmFace.neighborId
        split_ifs
        · exact q3
        · exact q2
      simpa [Polyhedron.containsPolygon, cellFaces, hc] using this
    rw [if_pos hcont] at h
    cases hpv : pairVals g s cv (F.neighborId cv) f with
    | none => simp [hpv] at h
    | some r =>
    have hr := pairVals_some hpv
    subst hr
    simp only [hpv, Option.bind_some] at h
    by_cases hcc : F.cvId = cv
    · rw [if_pos hcc] at h
      cases h
      refine ⟨⟨rfl, fun _ _ => rfl⟩, fun f' hf' => by simp [put, hf'], ?_⟩
      simp only [put, if_true, upd, hpm, hp, hac, hF, Option.map_some, hcc, coef]
    · rw [if_neg hcc] at h
      cases h
      exact ⟨SameC.refl _, fun _ _ => rfl, by simp [upd, hpm, hp, hF, hcc]⟩
  · have hp' : F.hasPair = false := by simpa using hp
    simp only [hp', Bool.false_eq_true, if_false] at h
    cases ha : s.ap cv with
    | none => simp [ha] at h
    | some ap =>
    simp only [ha, Option.bind_some] at h
    have hap : apOf s cv = ap := by simp [apOf, ha]
    cases hb : s.bt f with
    | wallNoSlip =>
      simp only [hb] at h
      cases h
      refine ⟨⟨rfl, fun f' q1 => ?_⟩, fun f' hf' => by simp [put, hf'], by simp [upd, hpm, hp', hb, put]⟩
      have : f' ≠ f := fun e => by rw [e, hb] at q1; cases q1
      simp [put, this]
    | inletFlow =>
      simp only [hb] at h
      cases h
      refine ⟨⟨rfl, fun f' q1 => ?_⟩, fun f' hf' => rfl, by simp [upd, hpm, hp', hb]⟩
      have : f' ≠ f := fun e => by rw [e, hb] at q1; cases q1
      simp [put, this]
    | inletPressure =>
      simp only [hb] at h
      split_ifs at h
      cases h
      exact ⟨⟨rfl, fun f' q1 => rfl⟩, fun f' hf' => by simp [put, hf'], by simp [upd, hpm, hp', hb, put, coefB, hap]⟩
    | outlet =>
      simp only [hb] at h
      split_ifs at h
      cases h
      refine ⟨⟨rfl, fun f' q1 => ?_⟩, fun f' hf' => by simp [put, hf'], by simp [upd, hpm, hp', hb, put, coefB, hap]⟩
      have : f' ≠ f := fun e => by rw [e, hb] at q1; cases q1
      simp [put, this]
    | none | interiorFace | interface | wallSlip =>
      simp only [hb] at h
      cases h
      exact ⟨SameC.refl _, fun _ _ => rfl, by simp [upd, hpm, hp', hb]⟩

/-- All visits of `correctFlux`. -/
theorem correctFold_spec {m : FvmMesh K} (hl : Linked m) {g : Geom K} : ∀ (l : List (Int × Int)) (s s' : State K),
    (∀ v ∈ l, v.1 ∈ m.cvs.ids ∧ v.2 ∈ cellFaces m v.1) → l.foldlM (correctFluxFace m g) s = some s' →
    SameC s s' ∧ (∀ f, s'.flux f = (l.filter fun v => v.2 = f).foldl (fun y v => upd m g s v.1 f y) (s.flux f)) := by
  intro l
  induction l with
  | nil =>
    intro s s' _ h
    simp only [List.foldlM_nil, Option.pure_def, Option.some.injEq] at h
    subst h
    exact ⟨SameC.refl _, fun _ => rfl⟩
  | cons a t ih =>
    intro s s' hmem h
    rw [List.foldlM_cons] at h
    obtain ⟨s1, h1, h2⟩ := Option.bind_eq_some_iff.1 h
    obtain ⟨cv, f⟩ := a
    obtain ⟨ha1, ha2⟩ := hmem (cv, f) (by simp)
    obtain ⟨p1, p2, p3⟩ := correctFluxFace_spec hl ha1 ha2 h1
    obtain ⟨q1, q2⟩ := ih s1 s' (fun v hv => hmem v (by simp [hv])) h2
    refine ⟨p1.trans q1, fun f' => ?_⟩
    rw [q2 f']
    have : ∀ (l : List (Int × Int)) (y : K), l.foldl (fun y v => upd m g s1 v.1 f' y) y = l.foldl (fun y v => upd m g s v.1 f' y) y := by
      intro l y
      congr 1
      funext y v
      exact upd_congr p1 v.1 f' y
    rw [this]
    by_cases hff : f = f'
    · subst hff
      rw [List.filter_cons_of_pos (by simp), List.foldl_cons, p3]
    · rw [List.filter_cons_of_neg (by simpa using hff), p2 f' (Ne.symm hff)]

/-! ### The visits -/

/-- The visits of a mesh whose control volumes exist. -/
theorem visits_eq {m : FvmMesh K} (hl : Linked m) :
    visits m = some (m.cvs.ids.flatMap fun id => (cellFaces m id).map fun f => (id, f)) := by
  have : ∀ l : List Int, (∀ id ∈ l, ∃ c, m.cvs.get? id = some c) →
      l.mapM (fun id => (m.cvs.get? id).map fun c => c.poly.ids.map fun f => (id, f)) =
        some (l.map fun id => (cellFaces m id).map fun f => (id, f)) := by
    intro l
    induction l with
    | nil => intro _; rfl
    | cons a t ih =>
      intro h
      obtain ⟨c, hc⟩ := h a (by simp)
      rw [List.mapM_cons, ih (fun id hid => h id (by simp [hid])), hc]
      simp [cellFaces, hc]
  unfold visits
  rw [this _ (fun id hid => (hl.cell id hid).imp fun c hc => hc.1)]
  simp [List.flatMap]

theorem mem_visits {m : FvmMesh K} {v : Int × Int} :
    v ∈ (m.cvs.ids.flatMap fun id => (cellFaces m id).map fun f => (id, f)) ↔ v.1 ∈ m.cvs.ids ∧ v.2 ∈ cellFaces m v.1 := by
  rw [List.mem_flatMap]
  constructor
  · rintro ⟨id, hid, hv⟩
    obtain ⟨f, hf, rfl⟩ := List.mem_map.1 hv
    exact ⟨hid, hf⟩
  · rintro ⟨h1, h2⟩
    exact ⟨v.1, h1, List.mem_map.2 ⟨v.2, h2, rfl⟩⟩

theorem cellFaces_nodup {m : FvmMesh K} (hl : Linked m) {id : Int} (h : id ∈ m.cvs.ids) : (cellFaces m id).Nodup := by
  obtain ⟨c, hc, hn⟩ := hl.cell id h
  simpa [cellFaces, hc] using hn

theorem filter_one {l : List Int} (h : l.Nodup) (id f : Int) :
    ((l.map fun j => (id, j)).filter fun v => v.2 = f) = if f ∈ l then [(id, f)] else [] := by
  induction l with
  | nil => simp
  | cons a t ih =>
    rw [List.map_cons]
    have hn := List.nodup_cons.1 h
    by_cases haf : a = f
    · subst haf
      rw [List.filter_cons_of_pos (by simp), ih hn.2, if_neg hn.1]
      simp
    · rw [List.filter_cons_of_neg (by simpa using haf), ih hn.2]
      simp [Ne.symm haf]

/-- The visits of one face: from the cells that have it, in their order. -/
theorem filter_visits {m : FvmMesh K} (hl : Linked m) (f : Int) :
    ((m.cvs.ids.flatMap fun id => (cellFaces m id).map fun f => (id, f)).filter fun v => v.2 = f) =
      (m.cvs.ids.filter fun id => f ∈ cellFaces m id).map fun id => (id, f) := by
  have : ∀ l : List Int, (∀ id ∈ l, id ∈ m.cvs.ids) → ((l.flatMap fun id => (cellFaces m id).map fun f => (id, f)).filter fun v => v.2 = f) =
      (l.filter fun id => f ∈ cellFaces m id).map fun id => (id, f) := by
    intro l
    induction l with
    | nil => intro _; rfl
    | cons a t ih =>
      intro h
      rw [List.flatMap_cons, List.filter_append, ih (fun id hid => h id (by simp [hid])), filter_one (cellFaces_nodup hl (h a (by simp)))]
      by_cases hfa : f ∈ cellFaces m a
      · rw [List.filter_cons_of_pos (by simpa using hfa)]; simp [hfa]
      · rw [List.filter_cons_of_neg (by simpa using hfa)]; simp [hfa]
  exact this _ (fun _ h => h)

theorem filter_eq_of_sublist {l r : List Int} (hn : l.Nodup) (p : Int → Bool) (hs : r.Sublist l) (h : ∀ a ∈ l, p a = true ↔ a ∈ r) : l.filter p = r := by
  have h1 : r.Sublist (l.filter p) := by
    have := hs.filter p
    rwa [List.filter_eq_self.2 (fun a ha => (h a (hs.subset ha)).2 ha)] at this
  refine (h1.eq_of_length_le ?_).symm
  have h2 : (l.filter p) ⊆ r := fun a ha => (h a (List.mem_filter.1 ha).1).1 (List.mem_filter.1 ha).2
  exact (hn.filter p).subperm h2 |>.length_le

/-- The cells that have a face. -/
theorem cells_of_paired {m : FvmMesh K} (hl : Linked m) {f : Int} {F : FvmFace K} (hF : m.faces.get? f = some F) (hp : F.hasPair = true) :
    (m.cvs.ids.filter fun id => f ∈ cellFaces m id) = [F.cvId, F.nbId] := by
  obtain ⟨q1, q2, q3, q4⟩ := hl.pair f F hF hp
  apply filter_eq_of_sublist hl.nodup _ q4
  intro a ha
  simp only [decide_eq_true_eq, List.mem_cons, List.not_mem_nil, or_false]
  constructor
  · intro h
    obtain ⟨F', hF', h'⟩ := hl.face a ha f h
    rw [hF] at hF'; cases hF'
    rcases h' with h' | ⟨-, h'⟩
    · exact Or.inl h'.symm
    · exact Or.inr h'.symm
  · rintro (rfl | rfl) <;> assumption

theorem cells_of_boundary {m : FvmMesh K} (hl : Linked m) {f cv : Int} (hcv : cv ∈ m.cvs.ids) (hf : f ∈ cellFaces m cv)
    (hp : paired m f = false) : (m.cvs.ids.filter fun id => f ∈ cellFaces m id) = [cv] := by
  obtain ⟨F, hF, h⟩ := hl.face cv hcv f hf
  have hF' : F.hasPair = false := by simpa [paired, hF] using hp
  have hown : F.cvId = cv := by simpa [hF'] using h
  apply filter_eq_of_sublist hl.nodup _ (List.singleton_sublist.2 hcv)
  intro a ha
  simp only [decide_eq_true_eq, List.mem_singleton]
  constructor
  · intro h
    obtain ⟨F', hF2, h'⟩ := hl.face a ha f h
    rw [hF] at hF2; cases hF2
    simp only [hF', Bool.false_eq_true, false_and, or_false] at h'
    rw [← h', hown]
  · rintro rfl; exact hf

theorem visits_pairwise {m : FvmMesh K} (hl : Linked m) :
    (m.cvs.ids.flatMap fun id => (cellFaces m id).map fun f => (id, f)).Pairwise (fun a b => paired m a.2 = false → a.2 ≠ b.2) := by
  have key : ∀ l : List Int, l.Nodup → (∀ id ∈ l, id ∈ m.cvs.ids) →
      (l.flatMap fun id => (cellFaces m id).map fun f => (id, f)).Pairwise (fun a b => paired m a.2 = false → a.2 ≠ b.2) := by
    intro l
    induction l with
    | nil => intro _ _; simp
    | cons a t ih =>
      intro hn hmem
      rw [List.flatMap_cons, List.pairwise_append]
      have ha := hmem a (by simp)
      refine ⟨?_, ih (List.nodup_cons.1 hn).2 (fun id hid => hmem id (by simp [hid])), ?_⟩
      · rw [List.pairwise_map]
        refine List.Pairwise.imp ?_ (cellFaces_nodup hl ha)
        intro x y h _
        exact h
      · intro v hv w hw hpv e
        obtain ⟨f, hf, rfl⟩ := List.mem_map.1 hv
        obtain ⟨b, hb, hw⟩ := List.mem_flatMap.1 hw
        obtain ⟨f', hf', rfl⟩ := List.mem_map.1 hw
        simp only at hpv e
        subst e
        have h1 := cells_of_boundary hl ha hf hpv
        have h2 := cells_of_boundary hl (hmem b (by simp [hb])) hf' hpv
        rw [h1] at h2
        have : a = b := by simpa using h2
        exact (List.nodup_cons.1 hn).1 (this ▸ hb)
  exact key _ hl.nodup (fun _ h => h)

theorem sum_map_single {α : Type} [DecidableEq α] {M : Type} [AddCommMonoid M] {l : List α} (hn : l.Nodup) {a : α} (ha : a ∈ l) (h : α → M)
    (h0 : ∀ b ∈ l, b ≠ a → h b = 0) : (l.map h).sum = h a := by
  induction l with
  | nil => simp at ha
  | cons c t ih =>
    have hn' := List.nodup_cons.1 hn
    rw [List.map_cons, List.sum_cons]
    rcases List.mem_cons.1 ha with rfl | ha'
    · have : (t.map h).sum = 0 := List.sum_eq_zero (by
        intro x hx
        obtain ⟨b, hb, rfl⟩ := List.mem_map.1 hx
        exact h0 b (by simp [hb]) (fun e => hn'.1 (e ▸ hb)))
      rw [this, add_zero]
    · rw [h0 c (by simp) (fun e => hn'.1 (e ▸ ha')), zero_add, ih hn'.2 ha' (fun b hb => h0 b (by simp [hb]))]

theorem index_spec {m : FvmMesh K} {id : Int} (h : id ∈ m.cvs.ids) : index m id = some (m.cvs.ids.idxOf id) := by
  unfold index
  generalize m.cvs.ids = l at h
  induction l with
  | nil => simp at h
  | cons a t ih =>
    rw [List.idxOf?_cons, List.idxOf_cons]
    by_cases hb : a = id
    · simp [hb]
    · have := ih ((List.mem_cons.1 h).resolve_left (Ne.symm hb))
      have hbe : (a == id) = false := by simpa using hb
      simp [hbe, this]

theorem ix_lt {m : FvmMesh K} {id : Int} (h : id ∈ m.cvs.ids) : ix m id < m.cvs.ids.length := by
  simp only [ix, index_spec h, Option.getD_some]
  exact List.idxOf_lt_length_of_mem h

theorem ix_inj {m : FvmMesh K} {a b : Int} (ha : a ∈ m.cvs.ids) (hb : b ∈ m.cvs.ids) (h : ix m a = ix m b) : a = b := by
  simp only [ix, index_spec ha, index_spec hb, Option.getD_some] at h
  exact (List.idxOf_inj ha).1 h

/-- A sum over the visits, weighted with the indicator of one cell, is the sum over its faces. -/
theorem sum_visits {m : FvmMesh K} (hl : Linked m) {cv : Int} (hcv : cv ∈ m.cvs.ids) (φ : Int → Int → K) :
    ((m.cvs.ids.flatMap fun id => (cellFaces m id).map fun f => (id, f)).map fun a =>
      (if ix m a.1 = ix m cv then (1 : K) else 0) * φ a.1 a.2).sum = ((cellFaces m cv).map fun f => φ cv f).sum := by
  have key : ∀ l : List Int, ((l.flatMap fun id => (cellFaces m id).map fun f => (id, f)).map fun a =>
      (if ix m a.1 = ix m cv then (1 : K) else 0) * φ a.1 a.2).sum =
      (l.map fun id => if ix m id = ix m cv then ((cellFaces m id).map fun f => φ id f).sum else 0).sum := by
    intro l
    induction l with
    | nil => rfl
    | cons a t ih =>
      rw [List.flatMap_cons, List.map_append, List.sum_append, ih, List.map_cons, List.sum_cons, List.map_map]
      congr 1
      by_cases h : ix m a = ix m cv
      · simp [h, Function.comp_def]
      · simp [h, Function.comp_def]
  rw [key, sum_map_single hl.nodup hcv _ (fun b hb hne => if_neg fun e => hne (ix_inj hb hcv e)), if_pos rfl]

end Piso
end ENigMA
