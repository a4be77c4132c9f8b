import Verif.Solvers.PisoExamples

/-!
# C74, C75: gradients and the level of the pressure; a fluid at rest
-/

set_option linter.unusedSectionVars false
set_option autoImplicit false

namespace ENigMA
open Piso
variable {K : Type} [Field K] [LinearOrder K] [IsStrictOrderedRing K]

namespace Piso

/-- The value on a face: the mean of the two cells, or the value stored for the face. -/
def faceValue (m : FvmMesh K) (var varf : Int → K) (cv f : Int) : K :=
  if paired m f then (var cv + var (across m cv f)) * (1 / 2) else varf f

/-- The surface of a cell closes: areas times outward normals sum to zero. -/
def Closed (m : FvmMesh K) (g : Geom K) (cv : Int) : Prop := ((cellFaces m cv).map fun f => g.area cv f • g.normal cv f).sum = 0

/-- A cell whose polygons are as `CFvmMesh::set` stores them, planar and not degenerate, and fit together into a closed surface, is closed. -/
theorem closed_of_surface {nrm : Vec3 K → K} (hN : IsNorm nrm) {eps : K} (heps : 0 ≤ eps ∧ eps < 1) {dist : Int → Int → K} {m : FvmMesh K} {cv : Int}
    {c : ControlVolume K} (hc : m.cvs.get? cv = some c) (vs : Int → List (Vec3 K))
    (hp : ∀ f ∈ c.poly.ids, c.poly.polygon f = Polygon.ofPolyline (vs f) ∧ Planar (vs f) ∧ HasCorner nrm eps (vs f))
    (hs : Polyhedron.ClosedSurface (c.poly.ids.map vs)) : Closed m (Geom.ofMesh nrm eps dist m) cv := by
  have hterm : ∀ f ∈ c.poly.ids, (Geom.ofMesh nrm eps dist m).area cv f • (Geom.ofMesh nrm eps dist m).normal cv f = (1 / 2 : K) • vecArea2 (vs f) := by
    intro f hf
    obtain ⟨h1, h2, h3⟩ := hp f hf
    have hA := (C37_area nrm hN eps heps (vs f) h2 h3).2.2.1
    have hlen : 1 < (vs f).length := by
      obtain ⟨l, a, b, c, r, h, -⟩ := h3
      rw [h]; simp; omega
    simp only [Geom.ofMesh, hc, Option.map_some, Option.getD_some, h1]
    rw [← hA]
    simp only [Polygon.calculateArea, Polygon.calculateNormal, Polygon.ofPolyline, hlen, Polygon.area]
    ext <;> simp <;> ring
  unfold Closed
  rw [show cellFaces m cv = c.poly.ids by simp [cellFaces, hc]]
  have hsum : ∀ l : List Int, (l.map fun f => (1 / 2 : K) • vecArea2 (vs f)).sum = (1 / 2 : K) • ((l.map vs).map vecArea2).sum := by
    intro l
    induction l with
    | nil => ext <;> simp
    | cons a t ih => simp only [List.map_cons, List.sum_cons, ih]; ext <;> simp <;> ring
  rw [List.map_congr_left hterm, hsum, Polyhedron.closed_sum _ hs]
  ext <;> simp

theorem gradFold {m : FvmMesh K} {g : Geom K} {var varf : Int → K} {cv : Int} : ∀ (l : List Int) (acc : Vec3 K), (∀ f ∈ l, ∃ F, m.faces.get? f = some F) →
    l.foldlM (gradFace m g var varf cv) acc = some (acc + (l.map fun f => (faceValue m var varf cv f * g.area cv f) • g.normal cv f).sum) := by
  intro l
  induction l with
  | nil => intro acc _; simp
  | cons f t ih =>
    intro acc h
    obtain ⟨F, hF⟩ := h f (by simp)
    have h1 : gradFace m g var varf cv acc f = some (acc + (faceValue m var varf cv f * g.area cv f) • g.normal cv f) := by
      simp only [gradFace, hF, Option.bind_eq_bind, Option.bind_some, faceValue, paired, across, Option.map_some, Option.getD_some]
      split_ifs <;> rfl
    rw [List.foldlM_cons, h1]
    simp only [Option.bind_eq_bind, Option.bind_some]
    rw [ih _ (fun f' h' => h f' (by simp [h']))]
    simp [add_assoc]

theorem gradient_eq {m : FvmMesh K} (hl : Linked m) {g : Geom K} (var varf : Int → K) {cv : Int} (hcv : cv ∈ m.cvs.ids) :
    gradient m g var varf cv = some (
      let v := ((cellFaces m cv).map fun f => (faceValue m var varf cv f * g.area cv f) • g.normal cv f).sum
      if g.volume cv > 0 then (1 / g.volume cv) • v else v) := by
  obtain ⟨c, hc, -⟩ := hl.cell cv hcv
  have hfs : facesOf m cv = some (cellFaces m cv) := by simp [facesOf, cellFaces, hc]
  unfold gradient
  simp only [hfs, Option.bind_eq_bind, Option.bind_some]
  rw [gradFold _ _ (fun f hf => by obtain ⟨F, hF, -⟩ := hl.face cv hcv f hf; exact ⟨F, hF⟩)]
  simp

theorem pMin_le (big : K) (p : Int → K) (ids : List Int) : pMin big p ids ≤ big ∧ ∀ id ∈ ids, pMin big p ids ≤ p id := by
  unfold pMin
  induction ids generalizing big with
  | nil => simp
  | cons a t ih =>
    obtain ⟨h1, h2⟩ := ih (min big (p a))
    rw [List.foldl_cons]
    refine ⟨h1.trans (min_le_left _ _), fun id hid => ?_⟩
    rcases List.mem_cons.1 hid with rfl | hid
    · exact h1.trans (min_le_right _ _)
    · exact h2 id hid

theorem pMin_mem (big : K) (p : Int → K) (ids : List Int) : pMin big p ids = big ∨ ∃ id ∈ ids, pMin big p ids = p id := by
  unfold pMin
  induction ids generalizing big with
  | nil => simp
  | cons a t ih =>
    rw [List.foldl_cons]
    rcases ih (min big (p a)) with h | ⟨id, h1, h2⟩
    · rcases min_choice big (p a) with h' | h'
      · left; rw [h, h']
      · right; exact ⟨a, by simp, by rw [h, h']⟩
    · exact Or.inr ⟨id, by simp [h1], h2⟩

end Piso

/-- **C74.** The gradient of a constant field in a closed cell is zero. -/
theorem C74_constant {m : FvmMesh K} (hl : Linked m) {g : Geom K} {var varf : Int → K} {cv : Int} (hcv : cv ∈ m.cvs.ids) (hc : Closed m g cv) (c : K)
    (h1 : ∀ id ∈ m.cvs.ids, var id = c) (h2 : ∀ f ∈ cellFaces m cv, paired m f = false → varf f = c) : gradient m g var varf cv = some 0 := by
  rw [gradient_eq hl var varf hcv]
  have hv : ∀ f ∈ cellFaces m cv, (faceValue m var varf cv f * g.area cv f) • g.normal cv f = c • (g.area cv f • g.normal cv f) := by
    intro f hf
    have : faceValue m var varf cv f = c := by
      unfold faceValue
      cases hp : paired m f with
      | false => simp [h2 f hf hp]
      | true =>
        obtain ⟨F, hF, hF'⟩ := hl.face cv hcv f hf
        have hp' : F.hasPair = true := by simpa [paired, hF] using hp
        obtain ⟨q1, -, -, q4⟩ := hl.pair f F hF hp'
        have hnb : across m cv f ∈ m.cvs.ids := by
          simp only [across, hF, Option.map_some, Option.getD_some, FvmFace.neighborId]
          split_ifs
          · exact q4.subset (by simp)
          · exact q4.subset (by simp)
        rw [if_pos rfl, h1 cv hcv, h1 _ hnb]; ring
    rw [this]; ext <;> simp <;> ring
  rw [List.map_congr_left hv]
  have hsum : ∀ l : List Int, (l.map fun f => c • (g.area cv f • g.normal cv f)).sum = c • (l.map fun f => g.area cv f • g.normal cv f).sum := by
    intro l
    induction l with
    | nil => ext <;> simp
    | cons a t ih => simp only [List.map_cons, List.sum_cons, ih]; ext <;> simp <;> ring
  rw [hsum, show ((cellFaces m cv).map fun f => g.area cv f • g.normal cv f).sum = 0 from hc]
  simp only [Option.some.injEq]
  split_ifs <;> ext <;> simp

/-- **C74.** The last step of `iterate` moves the level of the pressure: afterwards no cell has a negative pressure, one of them (if there is one) has
pressure zero, differences of pressure between cells and faces are what they were, and so are the gradients in closed cells. `big` is the largest number. -/
theorem C74_level {big : K} {m : FvmMesh K} (hl : Linked m) {g : Geom K} {s : State K} (hbig : ∀ id ∈ m.cvs.ids, s.p id ≤ big)
    (hids : ∀ cv ∈ m.cvs.ids, ∀ f ∈ cellFaces m cv, f ∈ m.faces.ids) :
    let s' := correctPressureField big m s
    (∀ id ∈ m.cvs.ids, 0 ≤ s'.p id) ∧ (m.cvs.ids ≠ [] → ∃ id ∈ m.cvs.ids, s'.p id = 0) ∧
    (∀ a ∈ m.cvs.ids, ∀ b ∈ m.cvs.ids, s'.p a - s'.p b = s.p a - s.p b) ∧
    (∀ a ∈ m.cvs.ids, ∀ f ∈ m.faces.ids, s'.p a - s'.pf f = s.p a - s.pf f) ∧
    (∀ cv ∈ m.cvs.ids, Closed m g cv → gradient m g s'.p s'.pf cv = gradient m g s.p s.pf cv) ∧
    s'.U = s.U ∧ s'.flux = s.flux := by
  intro s'
  have hp : ∀ id ∈ m.cvs.ids, s'.p id = s.p id - pMin big s.p m.cvs.ids := fun id h => by simp [s', correctPressureField, h]
  have hpf : ∀ f ∈ m.faces.ids, s'.pf f = s.pf f - pMin big s.p m.cvs.ids := fun f h => by simp [s', correctPressureField, h]
  refine ⟨?_, ?_, ?_, ?_, ?_, rfl, rfl⟩
  · intro id h
    rw [hp id h]
    linarith [(pMin_le big s.p m.cvs.ids).2 id h]
  · intro hne
    rcases pMin_mem big s.p m.cvs.ids with h | ⟨id, h1, h2⟩
    · obtain ⟨a, ha⟩ := List.exists_mem_of_ne_nil _ hne
      refine ⟨a, ha, ?_⟩
      rw [hp a ha]
      have := (pMin_le big s.p m.cvs.ids).2 a ha
      linarith [hbig a ha]
    · exact ⟨id, h1, by rw [hp id h1, h2, sub_self]⟩
  · intro a ha b hb; rw [hp a ha, hp b hb]; ring
  · intro a ha f hf; rw [hp a ha, hpf f hf]; ring
  · intro cv hcv hc
    rw [gradient_eq hl _ _ hcv, gradient_eq hl _ _ hcv]
    have hv : ∀ f ∈ cellFaces m cv, (faceValue m s'.p s'.pf cv f * g.area cv f) • g.normal cv f =
        (faceValue m s.p s.pf cv f * g.area cv f) • g.normal cv f + (-pMin big s.p m.cvs.ids) • (g.area cv f • g.normal cv f) := by
      intro f hf
      have : faceValue m s'.p s'.pf cv f = faceValue m s.p s.pf cv f - pMin big s.p m.cvs.ids := by
        unfold faceValue
        cases hpr : paired m f with
        | false => simp [hpf f (hids cv hcv f hf)]
        | true =>
          obtain ⟨F, hF, hF'⟩ := hl.face cv hcv f hf
          have hp' : F.hasPair = true := by simpa [paired, hF] using hpr
          obtain ⟨q1, -, -, q4⟩ := hl.pair f F hF hp'
          have hnb : across m cv f ∈ m.cvs.ids := by
            simp only [across, hF, Option.map_some, Option.getD_some, FvmFace.neighborId]
            split_ifs
            · exact q4.subset (by simp)
            · exact q4.subset (by simp)
          rw [if_pos rfl, if_pos rfl, hp cv hcv, hp _ hnb]; ring
      rw [this]; ext <;> simp <;> ring
    rw [List.map_congr_left hv]
    have hsum : ∀ (l : List Int) (u : Int → Vec3 K) (c : K), (l.map fun f => u f + c • (g.area cv f • g.normal cv f)).sum =
        (l.map u).sum + c • (l.map fun f => g.area cv f • g.normal cv f).sum := by
      intro l u c
      induction l with
      | nil => ext <;> simp
      | cons a t ih => simp only [List.map_cons, List.sum_cons, ih]; ext <;> simp <;> ring
    rw [hsum, show ((cellFaces m cv).map fun f => g.area cv f • g.normal cv f).sum = 0 from hc]
    simp

/-- **C74 fails for the prescribed pressure.** The pressure set on a pressure inlet is moved along with the rest: after one step from rest with the prescribed
pressure 1 the inlet no longer has it. -/
theorem C74_prescribed_pressure : inlet.pf 5 = 1 ∧ (step inlet).map (fun s => (s.bt 5, decide (s.pf 5 = 1))) = some (.inletPressure, false) := by
  decide +kernel

/-- The hypotheses are met by the example: its cells are closed. -/
example : Closed fvm geom 0 ∧ Closed fvm geom 1 ∧ (∀ cv ∈ fvm.cvs.ids, ∀ f ∈ cellFaces fvm cv, f ∈ fvm.faces.ids) ∧
    gradient fvm geom (fun _ => 7) (fun _ => 7) 0 = some 0 ∧ gradient fvm geom (fun i => i) (fun _ => 7) 0 ≠ some 0 := by
  refine ⟨?_, ?_, ?_, ?_, ?_⟩
  · unfold Closed; decide +kernel
  · unfold Closed; decide +kernel
  all_goals decide +kernel

/-! ### C75 -/

namespace Piso

/-- A fluid at rest: no gravity, no velocity in the cells and on the faces, no pressure, no flux. -/
structure AtRest (s : State K) : Prop where
  grav : s.grav = 0
  U : ∀ id, s.U id = 0
  Uf : ∀ f, s.Uf f = 0
  p : ∀ id, s.p id = 0
  pf : ∀ f, s.pf f = 0
  flux : ∀ f, s.flux f = 0

/-- The linear solver gives zero when the right-hand side is zero. -/
def ZeroToZero (solve : Sys K → Nat → K) : Prop := ∀ s : Sys K, (∀ i, s.b i = 0) → ∀ k, solve s k = 0

theorem gradient_zero {m : FvmMesh K} {g : Geom K} {var varf : Int → K} (h1 : ∀ id, var id = 0) (h2 : ∀ f, varf f = 0) {cv : Int} {v : Vec3 K}
    (h : gradient m g var varf cv = some v) : v = 0 := by
  unfold gradient at h
  obtain ⟨fs, -, h⟩ := Option.bind_eq_some_iff.1 h
  obtain ⟨w, hw, h⟩ := Option.bind_eq_some_iff.1 h
  have key : ∀ (l : List Int) (w : Vec3 K), l.foldlM (gradFace m g var varf cv) 0 = some w → w = 0 := by
    intro l
    induction l with
    | nil => intro w h; simpa using h.symm
    | cons f t ih =>
      intro w h
      rw [List.foldlM_cons] at h
      obtain ⟨x, hx, h⟩ := Option.bind_eq_some_iff.1 h
      have : x = 0 := by
        unfold gradFace at hx
        obtain ⟨F, -, hx⟩ := Option.bind_eq_some_iff.1 hx
        split_ifs at hx <;> (simp only [h1, h2, Option.pure_def, Option.some.injEq] at hx; rw [← hx]; ext <;> simp)
      subst this
      exact ih w h
  have hw := key fs w hw
  simp only [Option.pure_def, Option.some.injEq] at h
  rw [← h, hw]
  split_ifs <;> ext <;> simp

theorem addVec_zero {b : Nat → Vec3 K} (hb : ∀ i, b i = 0) (k : Nat) {v : Vec3 K} (hv : v = 0) : ∀ i, addVec b k v i = 0 := by
  intro i; unfold addVec; split_ifs <;> simp [hb, hv]

theorem momentum_zero {m : FvmMesh K} {g : Geom K} {s : State K} (hs : AtRest s) (hU0 : ∀ id, s.U0 id = 0) : ∀ (l : List Int) (q q' : Mom K),
    (∀ i, q.b i = 0) → l.foldlM (momentumCell m g s) q = some q' → ∀ i, q'.b i = 0 := by
  have hface : ∀ (cv : Int) (k : Nat) (l : List Int) (q q' : Mom K), (∀ i, q.b i = 0) → l.foldlM (momentumFace m g s cv k) q = some q' → ∀ i, q'.b i = 0 := by
    intro cv k l
    induction l with
    | nil => intro q q' h h'; simp only [List.foldlM_nil, Option.pure_def, Option.some.injEq] at h'; subst h'; exact h
    | cons f t ih =>
      intro q q' h h'
      rw [List.foldlM_cons] at h'
      obtain ⟨q1, h1, h'⟩ := Option.bind_eq_some_iff.1 h'
      refine ih q1 q' ?_ h'
      unfold momentumFace at h1
      obtain ⟨F, -, h1⟩ := Option.bind_eq_some_iff.1 h1
      obtain ⟨dens, -, h1⟩ := Option.bind_eq_some_iff.1 h1
      obtain ⟨visc, -, h1⟩ := Option.bind_eq_some_iff.1 h1
      obtain ⟨flux, -, h1⟩ := Option.bind_eq_some_iff.1 h1
      split_ifs at h1 with hp hd
      · obtain ⟨iN, -, h1⟩ := Option.bind_eq_some_iff.1 h1
        obtain ⟨c, -, h1⟩ := Option.bind_eq_some_iff.1 h1
        split_ifs at h1
        · obtain ⟨dn, -, h1⟩ := Option.bind_eq_some_iff.1 h1
          obtain ⟨vn, -, h1⟩ := Option.bind_eq_some_iff.1 h1
          split_ifs at h1
          simp only [Option.pure_def, Option.some.injEq] at h1
          subst h1
          exact h
        · simp only [Option.pure_def, Option.some.injEq] at h1
          subst h1
          exact h
      · simp only [Option.pure_def, Option.some.injEq] at h1
        subst h1
        refine addVec_zero (addVec_zero h _ ?_) _ ?_
        · rw [hs.Uf]; ext <;> simp
        · rw [hs.Uf]; ext <;> simp
  intro l
  induction l with
  | nil => intro q q' h h'; simp only [List.foldlM_nil, Option.pure_def, Option.some.injEq] at h'; subst h'; exact h
  | cons cv t ih =>
    intro q q' h h'
    rw [List.foldlM_cons] at h'
    obtain ⟨q1, h1, h'⟩ := Option.bind_eq_some_iff.1 h'
    refine ih q1 q' ?_ h'
    unfold momentumCell at h1
    obtain ⟨iP, -, h1⟩ := Option.bind_eq_some_iff.1 h1
    by_cases hv : g.volume cv ≤ 0
    · rw [if_pos hv] at h1
      simp only [Option.pure_def, Option.some.injEq] at h1; subst h1; exact h
    · rw [if_neg hv] at h1
      obtain ⟨fs, -, h1⟩ := Option.bind_eq_some_iff.1 h1
      obtain ⟨q2, h2, h1⟩ := Option.bind_eq_some_iff.1 h1
      obtain ⟨dens, -, h1⟩ := Option.bind_eq_some_iff.1 h1
      obtain ⟨gp, hgp, h1⟩ := Option.bind_eq_some_iff.1 h1
      have e1 := hface cv iP fs q q2 h h2
      have e2 : gp = 0 := gradient_zero hs.p hs.pf hgp
      have e3 := addVec_zero (addVec_zero e1 iP (v := dens • s.grav) (by rw [hs.grav]; ext <;> simp)) iP e2
      split_ifs at h1
      · simp only [Option.pure_def, Option.some.injEq] at h1; subst h1
        exact addVec_zero e3 _ (by rw [hU0]; ext <;> simp)
      · simp only [Option.pure_def, Option.some.injEq] at h1; subst h1; exact e3

theorem velocity_zero {m : FvmMesh K} {g : Geom K} {solve : Sys K → Nat → K} (hz : ZeroToZero solve) {s s' : State K} (hs : AtRest s) (hU0 : ∀ id, s.U0 id = 0)
    (h : calculateVelocityField m g solve s = some s') : ∀ id ∈ m.cvs.ids, s'.H id = 0 := by
  unfold calculateVelocityField at h
  obtain ⟨⟨q, sys⟩, h1, h⟩ := Option.bind_eq_some_iff.1 h
  obtain ⟨gps, h2, h⟩ := Option.bind_eq_some_iff.1 h
  simp only [Option.pure_def, Option.some.injEq] at h
  have hb : ∀ i, q.b i = 0 := by
    unfold momentumSystem at h1
    obtain ⟨q', h3, h1⟩ := Option.bind_eq_some_iff.1 h1
    obtain ⟨sys', h4, h1⟩ := Option.bind_eq_some_iff.1 h1
    simp only [Option.pure_def, Option.some.injEq, Prod.mk.injEq] at h1
    rw [← h1.1]
    exact momentum_zero hs hU0 _ _ _ (fun _ => rfl) h3
  have hgp : ∀ k, gps.getD k 0 = 0 := by
    have : ∀ (l : List Int) (gps : List (Vec3 K)), l.mapM (gradient m g s.p s.pf) = some gps → ∀ v ∈ gps, v = 0 := by
      intro l
      induction l with
      | nil => intro gps h v hv; simp at h; subst h; simp at hv
      | cons a t ih =>
        intro gps h v hv
        rw [List.mapM_cons] at h
        obtain ⟨x, hx, h⟩ := Option.bind_eq_some_iff.1 h
        obtain ⟨y, hy, h⟩ := Option.bind_eq_some_iff.1 h
        simp only [Option.pure_def, Option.some.injEq] at h
        subst h
        rcases List.mem_cons.1 hv with rfl | hv
        · exact gradient_zero hs.p hs.pf hx
        · exact ih y hy v hv
    intro k
    rw [List.getD_eq_getElem?_getD]
    cases hk : gps[k]? with
    | none => rfl
    | some v => exact this _ _ h2 v (List.mem_of_getElem? hk)
  intro id hmem
  rw [← h]
  show (match index m id with
      | some k => hValue sys.A m.cvs.ids.length (q.b k) (gps.getD k 0) _ k
      | Option.none => s.H id) = 0
  cases hi : index m id with
  | none =>
    rw [index_spec hmem] at hi
    cases hi
  | some k =>
    simp only [hb, hgp]
    have hu : (⟨solve { sys with b := fun _ => (0 : Vec3 K).x } k, solve { sys with b := fun _ => (0 : Vec3 K).y } k,
        solve { sys with b := fun _ => (0 : Vec3 K).z } k⟩ : Vec3 K) = 0 := by
      ext
      · exact hz _ (fun _ => rfl) k
      · exact hz _ (fun _ => rfl) k
      · exact hz _ (fun _ => rfl) k
    rw [hu]
    have hfold : ∀ l : List Nat, l.foldl (fun h r => if r = k then h else h + (-sys.A r k) • (0 : Vec3 K)) 0 = 0 := by
      intro l
      induction l with
      | nil => rfl
      | cons a t ih =>
        rw [List.foldl_cons]
        have : (if a = k then (0 : Vec3 K) else 0 + (-sys.A a k) • (0 : Vec3 K)) = 0 := by split_ifs <;> ext <;> simp
        rw [this]; exact ih
    unfold hValue
    rw [sub_zero]
    exact hfold _

theorem mem_of_index {m : FvmMesh K} {id : Int} {k : Nat} (h : index m id = some k) : id ∈ m.cvs.ids := by
  unfold index at h
  rw [List.idxOf?_eq_some_iff] at h
  obtain ⟨h1, h2, -⟩ := h
  exact List.mem_iff_getElem.2 ⟨k, h1, by simpa using h2⟩

/-- Statements that do not change a right-hand side that is zero. -/
def KeepsZero : Stamp K → Prop
  | .addB _ v => v = 0
  | _ => True

theorem assemble_zero : ∀ (l : List (Stamp K)) (s s' : Sys K), (∀ st ∈ l, KeepsZero st) → (∀ i, s.b i = 0) → s.assemble l = some s' → ∀ i, s'.b i = 0 := by
  intro l
  induction l with
  | nil => intro s s' _ h h'; simp only [Sys.assemble, Option.some.injEq] at h'; subst h'; exact h
  | cons st t ih =>
    intro s s' hk h h'
    rw [Sys.assemble] at h'
    obtain ⟨s1, h1, h'⟩ := Option.bind_eq_some_iff.1 h'
    refine ih s1 s' (fun st' h => hk st' (by simp [h])) ?_ h'
    have hk := hk st (by simp)
    unfold Sys.stamp at h1
    split_ifs at h1
    cases st with
    | addA i j v => simp only [Option.some.injEq] at h1; subst h1; exact h
    | setA i j v => simp only [Option.some.injEq] at h1; subst h1; exact h
    | addB i v =>
      simp only [Option.some.injEq] at h1; subst h1
      intro r
      simp only [KeepsZero] at hk
      simp [h r, hk]

theorem put_zero {α : Type} {z : α} {f : Int → α} (hf : ∀ i, f i = z) (k : Int) {v : α} (hv : v = z) : ∀ i, put f k v i = z := by
  intro i; unfold put; split_ifs <;> simp [hf, hv]

theorem zero_dot (n : Vec3 K) : (0 : Vec3 K).dot n = 0 := by simp [Vec3.dot]

theorem pressure_zero {m : FvmMesh K} {g : Geom K} : ∀ (l : List (Int × Int)) (q q' : State K × List (Stamp K)),
    AtRest q.1 → (∀ id ∈ m.cvs.ids, q.1.H id = 0) → (∀ st ∈ q.2, KeepsZero st) → l.foldlM (pressureFace m g) q = some q' →
    AtRest q'.1 ∧ (∀ id ∈ m.cvs.ids, q'.1.H id = 0) ∧ ∀ st ∈ q'.2, KeepsZero st := by
  intro l
  induction l with
  | nil => intro q q' h1 h2 h3 h; simp only [List.foldlM_nil, Option.pure_def, Option.some.injEq] at h; subst h; exact ⟨h1, h2, h3⟩
  | cons v t ih =>
    intro q q' hs hH hk h
    rw [List.foldlM_cons] at h
    obtain ⟨q1, h1, h⟩ := Option.bind_eq_some_iff.1 h
    have goal : AtRest q1.1 ∧ (∀ id ∈ m.cvs.ids, q1.1.H id = 0) ∧ ∀ st ∈ q1.2, KeepsZero st := by
      obtain ⟨s, st⟩ := q
      obtain ⟨cv, f⟩ := v
      simp only [pressureFace] at h1
      obtain ⟨iP, hP, h1⟩ := Option.bind_eq_some_iff.1 h1
      obtain ⟨F, -, h1⟩ := Option.bind_eq_some_iff.1 h1
      have hcv := hH cv (mem_of_index hP)
      dsimp only at hs hH hk hcv
      by_cases hp : F.hasPair = true
      · rw [if_pos hp] at h1
        obtain ⟨iN, hN, h1⟩ := Option.bind_eq_some_iff.1 h1
        obtain ⟨c, -, h1⟩ := Option.bind_eq_some_iff.1 h1
        have hnb := hH _ (mem_of_index hN)
        split_ifs at h1
        · obtain ⟨⟨area, dist, ap⟩, -, h1⟩ := Option.bind_eq_some_iff.1 h1
          simp only [Option.pure_def, Option.some.injEq] at h1
          have e : ((1 / 2 : K) • (s.H cv + s.H (F.neighborId cv))).dot (g.normal cv f) = 0 := by
            rw [hcv, hnb, add_zero]; simp [Vec3.dot]
          subst h1
          refine ⟨⟨hs.grav, hs.U, hs.Uf, hs.p, hs.pf, put_zero hs.flux _ ?_⟩, hH, ?_⟩
          · rw [e]; simp
          · intro x hx
            rcases List.mem_append.1 hx with hx | hx
            · exact hk x hx
            · simp only [List.mem_cons, List.not_mem_nil, or_false] at hx
              rcases hx with rfl | rfl | rfl
              · trivial
              · trivial
              · simp only [KeepsZero]; rw [e]; simp
        · simp only [Option.pure_def, Option.some.injEq] at h1
          subst h1
          exact ⟨hs, hH, hk⟩
      · rw [if_neg hp] at h1
        obtain ⟨ap, -, h1⟩ := Option.bind_eq_some_iff.1 h1
        have e : (s.H cv).dot (g.normal cv f) = 0 := by rw [hcv, zero_dot]
        cases hb : s.bt f <;> simp only [hb] at h1
        case inletFlow =>
          simp only [Option.pure_def, Option.some.injEq] at h1
          subst h1
          refine ⟨⟨hs.grav, hs.U, hs.Uf, hs.p, hs.pf, put_zero hs.flux _ ?_⟩, hH, ?_⟩
          · rw [hs.Uf, zero_dot]; simp
          · intro x hx
            rcases List.mem_append.1 hx with hx | hx
            · exact hk x hx
            · rw [List.mem_singleton] at hx
              subst hx
              simp [KeepsZero, hs.flux]
        case inletPressure =>
          split_ifs at h1
          simp only [Option.pure_def, Option.some.injEq] at h1
          subst h1
          refine ⟨⟨hs.grav, hs.U, put_zero hs.Uf _ ?_, hs.p, hs.pf, put_zero hs.flux _ ?_⟩, hH, ?_⟩
          · rw [e]; ext <;> simp
          · rw [e]; simp
          · intro x hx
            rcases List.mem_append.1 hx with hx | hx
            · exact hk x hx
            · simp only [List.mem_cons, List.not_mem_nil, or_false] at hx
              rcases hx with rfl | rfl | rfl
              · trivial
              · simp [KeepsZero, hs.pf]
              · simp only [KeepsZero]; rw [e]; simp
        case outlet =>
          split_ifs at h1
          simp only [Option.pure_def, Option.some.injEq] at h1
          subst h1
          refine ⟨⟨hs.grav, hs.U, put_zero hs.Uf _ ?_, hs.p, hs.pf, put_zero hs.flux _ ?_⟩, hH, ?_⟩
          · rw [e]; ext <;> simp
          · rw [e]; simp
          · intro x hx
            rcases List.mem_append.1 hx with hx | hx
            · exact hk x hx
            · simp only [List.mem_cons, List.not_mem_nil, or_false] at hx
              rcases hx with rfl | rfl
              · trivial
              · simp only [KeepsZero]; rw [e]; simp
        all_goals
          simp only [Option.pure_def, Option.some.injEq] at h1
          subst h1
          exact ⟨hs, hH, hk⟩
    exact ih q1 q' goal.1 goal.2.1 goal.2.2 h

theorem correct_zero {m : FvmMesh K} {g : Geom K} : ∀ (l : List (Int × Int)) (s s' : State K), AtRest s → l.foldlM (correctFluxFace m g) s = some s' →
    AtRest s' ∧ s'.H = s.H := by
  intro l
  induction l with
  | nil => intro s s' h1 h; simp only [List.foldlM_nil, Option.pure_def, Option.some.injEq] at h; subst h; exact ⟨h1, rfl⟩
  | cons v t ih =>
    intro s s' hs h
    rw [List.foldlM_cons] at h
    obtain ⟨s1, h1, h⟩ := Option.bind_eq_some_iff.1 h
    have goal : AtRest s1 ∧ s1.H = s.H := by
      obtain ⟨cv, f⟩ := v
      simp only [correctFluxFace] at h1
      obtain ⟨F, -, h1⟩ := Option.bind_eq_some_iff.1 h1
      by_cases hp : F.hasPair = true
      · rw [if_pos hp] at h1
        obtain ⟨c, -, h1⟩ := Option.bind_eq_some_iff.1 h1
        by_cases hc : c.poly.containsPolygon f = true
        · rw [if_pos hc] at h1
          obtain ⟨⟨area, dist, ap⟩, -, h1⟩ := Option.bind_eq_some_iff.1 h1
          dsimp only at h1
          split_ifs at h1
          · simp only [Option.pure_def, Option.some.injEq] at h1
            subst h1
            exact ⟨⟨hs.grav, hs.U, hs.Uf, hs.p, hs.pf, put_zero hs.flux _ (by simp [hs.p, hs.flux])⟩, rfl⟩
          · simp only [Option.pure_def, Option.some.injEq] at h1
            subst h1
            exact ⟨hs, rfl⟩
        · rw [if_neg hc] at h1
          simp only [Option.pure_def, Option.some.injEq] at h1
          subst h1
          exact ⟨hs, rfl⟩
      · rw [if_neg hp] at h1
        obtain ⟨ap, -, h1⟩ := Option.bind_eq_some_iff.1 h1
        cases hb : s.bt f <;> simp only [hb] at h1
        case wallNoSlip =>
          simp only [Option.pure_def, Option.some.injEq] at h1
          subst h1
          exact ⟨⟨hs.grav, hs.U, hs.Uf, hs.p, put_zero hs.pf _ (hs.p _), put_zero hs.flux _ rfl⟩, rfl⟩
        case inletFlow =>
          simp only [Option.pure_def, Option.some.injEq] at h1
          subst h1
          exact ⟨⟨hs.grav, hs.U, hs.Uf, hs.p, put_zero hs.pf _ (hs.p _), hs.flux⟩, rfl⟩
        case inletPressure =>
          split_ifs at h1
          simp only [Option.pure_def, Option.some.injEq] at h1
          subst h1
          exact ⟨⟨hs.grav, hs.U, hs.Uf, hs.p, hs.pf, put_zero hs.flux _ (by simp [hs.flux, hs.pf, hs.p])⟩, rfl⟩
        case outlet =>
          split_ifs at h1
          simp only [Option.pure_def, Option.some.injEq] at h1
          subst h1
          exact ⟨⟨hs.grav, hs.U, hs.Uf, hs.p, put_zero hs.pf _ rfl, put_zero hs.flux _ (by simp [hs.flux, hs.p])⟩, rfl⟩
        all_goals
          simp only [Option.pure_def, Option.some.injEq] at h1
          subst h1
          exact ⟨hs, rfl⟩
    obtain ⟨a, b⟩ := ih s1 s' goal.1 h
    exact ⟨a, b.trans goal.2⟩

theorem correctVelocity_zero {m : FvmMesh K} {g : Geom K} : ∀ (l : List Int) (s s' : State K), AtRest s → (∀ id ∈ l, s.H id = 0) →
    l.foldlM (correctVelocityCell m g) s = some s' → AtRest s' := by
  intro l
  induction l with
  | nil => intro s s' h1 _ h; simp only [List.foldlM_nil, Option.pure_def, Option.some.injEq] at h; subst h; exact h1
  | cons cv t ih =>
    intro s s' hs hH h
    rw [List.foldlM_cons] at h
    obtain ⟨s1, h1, h⟩ := Option.bind_eq_some_iff.1 h
    unfold correctVelocityCell at h1
    obtain ⟨gp, hgp, h1⟩ := Option.bind_eq_some_iff.1 h1
    obtain ⟨ap, -, h1⟩ := Option.bind_eq_some_iff.1 h1
    split_ifs at h1
    simp only [Option.pure_def, Option.some.injEq] at h1
    subst h1
    refine ih { s with U := put s.U cv ((1 / ap) • (s.H cv - gp)) } s' ⟨hs.grav, put_zero hs.U _ ?_, hs.Uf, hs.p, hs.pf, hs.flux⟩ (fun id h => hH id (by simp [h])) h
    rw [hH cv (by simp), gradient_zero hs.p hs.pf hgp]; ext <;> simp

end Piso

/-- **C75.** A fluid at rest stays at rest: after any number of steps with any time steps, velocities, pressures and fluxes are zero, for every mesh, geometry,
material and choice of boundary types, if the linear solvers give zero for a zero right-hand side. -/
theorem C75_rest {big : K} (hbig : 0 ≤ big) (m : FvmMesh K) (hne : m.cvs.ids ≠ []) (g : Geom K) {solveU solveP : Sys K → Nat → K} (hU : ZeroToZero solveU) (hP : ZeroToZero solveP) :
    ∀ (dts : List K) (s s' : State K), AtRest s → dts.foldlM (fun s dt => iterate big m g solveU solveP dt s) s = some s' → AtRest s' := by
  intro dts
  induction dts with
  | nil => intro s s' h h'; simp only [List.foldlM_nil, Option.pure_def, Option.some.injEq] at h'; subst h'; exact h
  | cons dt t ih =>
    intro s s' hs h
    rw [List.foldlM_cons] at h
    obtain ⟨s5, h1, h⟩ := Option.bind_eq_some_iff.1 h
    refine ih s5 s' ?_ h
    obtain ⟨S⟩ := stages h1
    have r0 : AtRest (beginStep dt s) := ⟨hs.grav, hs.U, hs.Uf, hs.p, hs.pf, hs.flux⟩
    have hH1 := velocity_zero hU r0 hs.U S.velocity
    have r1 : AtRest S.s1 := by
      rw [velocity_same S.velocity]
      exact ⟨hs.grav, hs.U, hs.Uf, hs.p, hs.pf, hs.flux⟩
    have hsys := S.system
    have hpr := S.pressure
    unfold calculatePressureField at hpr
    rw [hsys] at hpr
    simp only [Option.bind_eq_bind, Option.bind_some, Option.pure_def, Option.some.injEq] at hpr
    unfold pressureSystem at hsys
    obtain ⟨vis, -, hsys⟩ := Option.bind_eq_some_iff.1 hsys
    obtain ⟨⟨t1, st⟩, hf, hsys⟩ := Option.bind_eq_some_iff.1 hsys
    obtain ⟨sys', has, hsys⟩ := Option.bind_eq_some_iff.1 hsys
    simp only [Option.pure_def, Option.some.injEq, Prod.mk.injEq] at hsys
    obtain ⟨a1, a2, a3⟩ := pressure_zero vis (S.s1, []) (t1, st) r1 hH1 (by simp) hf
    have hb := assemble_zero _ _ _ a3 (fun _ => rfl) has
    rw [hsys.2] at hb
    dsimp only at a1 a2
    rw [hsys.1] at a1 a2
    have r2 : AtRest S.s2 := by
      rw [← hpr]
      refine ⟨a1.grav, a1.U, a1.Uf, fun id => ?_, a1.pf, a1.flux⟩
      show (match index m id with | some k => solveP S.sys k | Option.none => S.t.p id) = 0
      cases index m id with
      | none => exact a1.p id
      | some k => exact hP _ hb k
    have hH2 : ∀ id ∈ m.cvs.ids, S.s2.H id = 0 := by rw [← hpr]; exact a2
    have hfl := S.flux
    unfold correctFlux at hfl
    obtain ⟨vis', -, hfl⟩ := Option.bind_eq_some_iff.1 hfl
    obtain ⟨r3, hH3⟩ := correct_zero vis' _ _ r2 hfl
    have r4 := correctVelocity_zero m.cvs.ids _ _ r3 (fun id h => by rw [hH3]; exact hH2 id h) S.correct
    have hpm : pMin big S.s4.p m.cvs.ids = 0 := by
      obtain ⟨a, ha⟩ := List.exists_mem_of_ne_nil _ hne
      have h1 := (pMin_le big S.s4.p m.cvs.ids).2 a ha
      rw [r4.p] at h1
      rcases pMin_mem big S.s4.p m.cvs.ids with h2 | ⟨id, -, h2⟩
      · linarith
      · rw [h2, r4.p]
    rw [S.last]
    refine ⟨r4.grav, r4.U, r4.Uf, fun id => ?_, fun f => ?_, r4.flux⟩
    · simp only [correctPressureField, hpm, r4.p]; split_ifs <;> simp
    · simp only [correctPressureField, hpm, r4.pf]; split_ifs <;> simp

/-- The hypotheses are met: the walls of the example without gravity, from which `iterate` succeeds twice; `solve2` gives zero for a zero right-hand side. -/
example : AtRest (setGravity 0 walls) ∧ ZeroToZero solve2 ∧ fvm.cvs.ids ≠ [] ∧ ((step (setGravity 0 walls)).bind step).isSome = true := by
  refine ⟨⟨rfl, fun _ => rfl, fun f => ?_, fun _ => rfl, fun _ => rfl, fun _ => rfl⟩, ?_, by decide +kernel, by decide +kernel⟩
  · simp only [setGravity, walls, setBoundaryVelocity, setMaterialProperties, State.init, put]
    split_ifs <;> rfl
  · intro s h k
    simp only [solve2, h]
    split_ifs <;> simp

namespace Piso

/-- What the momentum equation of the cell in row `k` leaves for its own velocity: the right-hand side without the pressure, minus the entries of its row times
the velocities of the other cells. -/
def rowRest (A : Nat → Nat → K) (n : Nat) (b gp : Vec3 K) (u : Nat → Vec3 K) (k : Nat) : Vec3 K :=
  (b - gp) - ((List.range n).map fun c => if c = k then 0 else A k c • u c).sum

end Piso

/-- **C75.** What the code computes in place of `rowRest`: the entries of the column, all times the velocity of the cell itself. -/
theorem C75_column (A : Nat → Nat → K) (n : Nat) (b gp u : Vec3 K) (k : Nat) :
    hValue A n b gp u k = (b - gp) - ((List.range n).map fun r => if r = k then 0 else A r k • u).sum := by
  unfold hValue
  have key : ∀ (l : List Nat) (a : Vec3 K), l.foldl (fun h r => if r = k then h else h + (-A r k) • u) a = a - (l.map fun r => if r = k then 0 else A r k • u).sum := by
    intro l
    induction l with
    | nil => intro a; simp
    | cons r t ih =>
      intro a
      rw [List.foldl_cons, ih, List.map_cons, List.sum_cons]
      split_ifs
      · rw [zero_add]
      · ext <;> simp <;> ring
  exact key _ _

/-- **C75 fails for `H`.** Already for a symmetric matrix the value differs from the one the momentum equation gives: with two cells moving at different
velocities `u`, each gets its own velocity in place of the other's. -/
theorem C75_H_differs : ∃ (A : Nat → Nat → ℚ) (u : Nat → Vec3 ℚ), (∀ i j, A i j = A j i) ∧
    hValue A 2 0 0 (u 0) 0 = ⟨1, 0, 0⟩ ∧ rowRest A 2 0 0 u 0 = ⟨2, 0, 0⟩ := by
  refine ⟨fun i j => if i = j then 1 else -1, fun k => if k = 0 then ⟨1, 0, 0⟩ else ⟨2, 0, 0⟩, fun i j => by simp [eq_comm], ?_, ?_⟩ <;> decide +kernel

end ENigMA
