import Verif.Fvm.ClippedVolumeLemmas

/-!
# C139: what a control volume reports after it is clipped
-/

set_option linter.unusedSectionVars false
set_option autoImplicit false

namespace ENigMA

open Polyhedron

variable {K : Type} [Field K] [LinearOrder K] [IsStrictOrderedRing K]

namespace ClipCV

/-! ### Specification: what the calls ask for, without any cache -/

/-- What matters of a sequence of calls: the last clip (with the id given to the new face), whether the control volume is switched to its clipped shape, and the id
for the next clip. -/
structure Asked (K : Type) where
  last : Option (Int × ClipArgs K)
  clipped : Bool
  faceId : Int

/-- The effect of one call. -/
def Asked.step (s : Asked K) : CvCall K → Asked K
  | .clippedFaceId id => { s with faceId := id }
  | .clip a => { s with last := some (s.faceId, a), clipped := true }
  | .setClipped b => { s with clipped := b }
  | _ => s

/-- The effect of a sequence of calls. -/
def Asked.run (s : Asked K) : List (CvCall K) → Asked K
  | [] => s
  | o :: t => Asked.run (s.step o) t

/-- Nothing asked yet. -/
def Asked.start : Asked K := ⟨none, false, -1⟩

/-- The result of the last clip of the given faces, from scratch. -/
def Asked.clippedShape (nrm : Vec3 K → K) (eps big : K) (l : List (Int × List (Vec3 K))) (s : Asked K) : Polyhedron K :=
  match s.last with
  | none => Polyhedron.empty
  | some (id, a) => (clipOf nrm eps big (build l) id a).poly

/-- The shape the control volume stands for: the given faces, or the result of the last clip of them. -/
def Asked.shape (nrm : Vec3 K → K) (eps big : K) (l : List (Int × List (Vec3 K))) (s : Asked K) : Polyhedron K :=
  if s.clipped then s.clippedShape nrm eps big l else build l

/-- The call is about a face that is there; areas and normals of the clipped shape are not recalculated. -/
def LegalOp (c : ClipCV K) : CvCall K → Prop
  | .faceArea id re => c.containsFace id = true ∧ (re = true → c.clipped = false)
  | .faceNormal id re => c.containsFace id = true ∧ (re = true → c.clipped = false)
  | _ => True

/-- Every call of the sequence is legal when it is made. -/
def Legal (nrm : Vec3 K → K) (eps big : K) (c : ClipCV K) : List (CvCall K) → Prop
  | [] => True
  | o :: t => LegalOp c o ∧ Legal nrm eps big (c.step nrm eps big o) t

/-- The call does not change the shape. -/
def Quiet : CvCall K → Prop
  | .clip _ => False
  | .setClipped _ => False
  | _ => True

/-! ### Proof -/

/-- The control volume is in the state asked for, up to caches. -/
structure Agrees (nrm : Vec3 K → K) (eps big : K) (l : List (Int × List (Vec3 K))) (s : Asked K) (c : ClipCV K) : Prop where
  poly : PFilled nrm eps (build l) c.poly
  cpoly : PFilled nrm eps (s.clippedShape nrm eps big l) c.cpoly
  clipped : c.clipped = s.clipped
  faceId : c.clippedFaceId = s.faceId

theorem ref_build (l : List (Int × List (Vec3 K))) : Ref (build l) ∧ ∀ (nrm : Vec3 K → K) (eps : K), VolOk nrm eps (build l) := by
  have h := addPolygons_flags (l.map fun f => (f.1, Polygon.ofPolyline f.2)) (Polyhedron.empty : Polyhedron K)
  refine ⟨Ref.adds _ Ref.empty fun e he => ?_, fun nrm eps => ⟨fun hh => ?_, h.2⟩⟩
  · obtain ⟨f, -, rfl⟩ := List.mem_map.1 he
    rfl
  · rw [build, h.1] at hh; simp [Polyhedron.empty] at hh

theorem build_fresh (l : List (Int × List (Vec3 K))) (i : Int) : ((build l).polygon i).bNormal = false := by
  have key : ∀ (l : List (Int × List (Vec3 K))) (p : Polyhedron K), (∀ k a, p.polygons.find? k = some a → a.bNormal = false) →
      ∀ k a, (p.addPolygons (l.map fun f => (f.1, Polygon.ofPolyline f.2))).polygons.find? k = some a → a.bNormal = false := by
    intro l
    induction l with
    | nil => intro p h; exact h
    | cons f t ih =>
      intro p h
      refine ih _ fun k a hk => ?_
      rw [addPolygon, SMap.find?_insert] at hk
      split_ifs at hk with hh
      · simp at hk; rw [← hk]; rfl
      · exact h k a hk
  unfold Polyhedron.polygon
  cases hk : (build l).polygons.find? i with
  | none => rfl
  | some a => exact key l Polyhedron.empty (fun k a h => by simp [Polyhedron.empty] at h) i a hk

theorem ref_clippedShape (nrm : Vec3 K → K) (eps big : K) (l : List (Int × List (Vec3 K))) (s : Asked K) :
    Ref (s.clippedShape nrm eps big l) ∧ VolOk nrm eps (s.clippedShape nrm eps big l) := by
  unfold Asked.clippedShape
  cases s.last with
  | none => exact ⟨Ref.empty, fun hh => by simp [Polyhedron.empty] at hh, rfl⟩
  | some x => exact Ref.clipFraction nrm eps big _ rfl _ _ _ _ _ _ (ref_build l).1

theorem ref_shape (nrm : Vec3 K → K) (eps big : K) (l : List (Int × List (Vec3 K))) (s : Asked K) :
    Ref (s.shape nrm eps big l) ∧ VolOk nrm eps (s.shape nrm eps big l) := by
  unfold Asked.shape
  split_ifs
  · exact ref_clippedShape nrm eps big l s
  · exact ⟨(ref_build l).1, (ref_build l).2 nrm eps⟩

theorem Agrees.active {nrm : Vec3 K → K} {eps big : K} {l : List (Int × List (Vec3 K))} {s : Asked K} {c : ClipCV K} (h : Agrees nrm eps big l s c) :
    PFilled nrm eps (s.shape nrm eps big l) c.active := by
  unfold ClipCV.active Asked.shape
  rw [h.clipped]
  split_ifs
  · exact h.cpoly
  · exact h.poly

theorem Agrees.setActive {nrm : Vec3 K → K} {eps big : K} {l : List (Int × List (Vec3 K))} {s : Asked K} {c : ClipCV K} (h : Agrees nrm eps big l s c)
    (p : Polyhedron K) (hp : PFilled nrm eps (s.shape nrm eps big l) p) : Agrees nrm eps big l s (c.setActive p) := by
  unfold ClipCV.setActive
  unfold Asked.shape at hp
  rw [← h.clipped] at hp
  split_ifs at hp ⊢ with hc
  · exact ⟨h.poly, hp, h.clipped, h.faceId⟩
  · exact ⟨hp, h.cpoly, h.clipped, h.faceId⟩

theorem active_volume {nrm : Vec3 K → K} {eps big : K} {l : List (Int × List (Vec3 K))} {s : Asked K} {c : ClipCV K} (h : Agrees nrm eps big l s c) (re : Bool) :
    (c.active.calculateVolume nrm eps re).m_volume = ((s.shape nrm eps big l).calculateVolume nrm eps true).m_volume := by
  have hR := ref_shape nrm eps big l s
  rw [(h.active.calculateVolume hR.1 re).2, ((PFilled.refl hR.2).calculateVolume hR.1 true).2]

theorem Agrees.legal_re {nrm : Vec3 K → K} {eps big : K} {l : List (Int × List (Vec3 K))} {s : Asked K} {c : ClipCV K} (h : Agrees nrm eps big l s c)
    (id : Int) (re : Bool) (hre : re = true → c.clipped = false) : re = true → ((s.shape nrm eps big l).polygon id).bNormal = false := by
  intro hr
  have := hre hr
  rw [h.clipped] at this
  unfold Asked.shape
  rw [this]
  exact build_fresh l id

theorem Agrees.contains {nrm : Vec3 K → K} {eps big : K} {l : List (Int × List (Vec3 K))} {s : Asked K} {c : ClipCV K} (h : Agrees nrm eps big l s c)
    (id : Int) : c.containsFace id = (s.shape nrm eps big l).containsPolygon id := by
  unfold ClipCV.containsFace Polyhedron.containsPolygon
  rw [h.active.ids]

theorem Agrees.step {nrm : Vec3 K → K} {eps big : K} {l : List (Int × List (Vec3 K))} {s : Asked K} {c : ClipCV K} (h : Agrees nrm eps big l s c) (o : CvCall K)
    (ho : LegalOp c o) : Agrees nrm eps big l (s.step o) (c.step nrm eps big o) := by
  have hR := ref_shape nrm eps big l s
  have hB := ref_build l
  cases o with
  | clippedFaceId id => exact ⟨h.poly, h.cpoly, h.clipped, rfl⟩
  | setClipped b => exact ⟨h.poly, h.cpoly, rfl, h.faceId⟩
  | clip a =>
    refine ⟨?_, ?_, rfl, h.faceId⟩
    · show PFilled nrm eps (build l) (if 0 < a.req ∧ a.req < 1 then c.poly.calculateVolume nrm eps false else c.poly)
      split_ifs
      · exact (h.poly.calculateVolume hB.1 false).1
      · exact h.poly
    · show PFilled nrm eps (clipOf nrm eps big (build l) s.faceId a).poly (clipOf nrm eps big c.poly c.clippedFaceId a).poly
      rw [h.faceId]
      exact (h.poly.clipFraction big hB.1 (hB.2 nrm eps) _ rfl _ _ _ _ _).1
  | faceArea id re =>
    have hid : id ∈ (s.shape nrm eps big l).ids := by simpa [h.contains, Polyhedron.containsPolygon] using ho.1
    exact h.setActive _ (h.active.insert hR.1 id hid _ ((h.active.polygon id).area (hR.1.polygon id) re (h.legal_re id re ho.2)))
  | faceNormal id re =>
    have hid : id ∈ (s.shape nrm eps big l).ids := by simpa [h.contains, Polyhedron.containsPolygon] using ho.1
    exact h.setActive _ (h.active.insert hR.1 id hid _ ((h.active.polygon id).normal (hR.1.polygon id) re (h.legal_re id re ho.2)))
  | area re =>
    show Agrees nrm eps big l s (c.calculateSurfaceArea nrm eps re)
    unfold ClipCV.calculateSurfaceArea
    split_ifs
    · have := h.setActive _ (h.active.calculateSurfaceArea hR.1).1
      exact ⟨this.poly, this.cpoly, this.clipped, this.faceId⟩
    · exact h
  | volume re =>
    show Agrees nrm eps big l s (c.calculateVolume nrm eps re)
    unfold ClipCV.calculateVolume
    split_ifs
    · have := h.setActive _ (h.active.calculateVolume hR.1 re).1
      exact ⟨this.poly, this.cpoly, this.clipped, this.faceId⟩
    · exact h
  | originalVolume re => exact ⟨(h.poly.calculateVolume hB.1 re).1, h.cpoly, h.clipped, h.faceId⟩

theorem Agrees.run {nrm : Vec3 K → K} {eps big : K} {l : List (Int × List (Vec3 K))} : ∀ (ops : List (CvCall K)) {s : Asked K} {c : ClipCV K},
    Agrees nrm eps big l s c → Legal nrm eps big c ops → Agrees nrm eps big l (s.run ops) (c.run nrm eps big ops)
  | [], _, _, h, _ => h
  | o :: t, _, _, h, hl => Agrees.run t (h.step o hl.1) hl.2

theorem addFaces_eq : ∀ (l : List (Int × List (Vec3 K))) (c : ClipCV K),
    c.addFaces l = { c with poly := c.poly.addPolygons (l.map fun f => (f.1, Polygon.ofPolyline f.2)) }
  | [], _ => rfl
  | f :: t, c => by rw [addFaces, addFaces_eq t]; rfl

theorem agrees_start (nrm : Vec3 K → K) (eps big : K) (l : List (Int × List (Vec3 K))) :
    Agrees nrm eps big l Asked.start ((new : ClipCV K).addFaces l) := by
  rw [addFaces_eq]
  exact ⟨PFilled.refl ((ref_build l).2 nrm eps), PFilled.refl (ref_clippedShape nrm eps big l Asked.start).2, rfl, rfl⟩

end ClipCV

open ClipCV

/-- **C139, every history.** A control volume is given its faces. After any sequence of public calls (clips, switching the clipped shape on and off, calculating
volumes, areas and normals in any order, forced or not), the faces listed, the volume and surface area recalculated, the original volume, and the areas and normals of
the faces are those of the shape asked for, computed from scratch: the given faces, or the last clip of the given faces. They do not depend on the earlier clips, nor
on what has been calculated in between. -/
theorem C139_history (nrm : Vec3 K → K) (eps big : K) (l : List (Int × List (Vec3 K))) (ops : List (CvCall K))
    (hl : Legal nrm eps big ((new : ClipCV K).addFaces l) ops) :
    let c := ((new : ClipCV K).addFaces l).run nrm eps big ops
    let p := ((Asked.start : Asked K).run ops).shape nrm eps big l
    c.nbFaces = p.nbPolygons ∧ (∀ i, c.faceId i = p.ids[i]?) ∧ (∀ id, c.containsFace id = p.containsPolygon id) ∧
    (c.calculateVolume nrm eps true).m_volume = (p.calculateVolume nrm eps true).m_volume ∧
    (c.calculateSurfaceArea nrm eps true).m_surfaceArea = (p.calculateSurfaceArea nrm eps false).m_surfaceArea ∧
    (∀ re, (c.calculateOriginalVolume nrm eps re).originalVolume = ((build l).calculateVolume nrm eps true).m_volume) ∧
    (∀ id, c.containsFace id = true → (c.calculateFaceArea nrm eps id false).faceArea id = ((p.polygon id).calculateArea nrm eps false).m_area ∧
      (c.calculateFaceNormal nrm eps id false).faceNormal id = ((p.polygon id).calculateNormal nrm eps false).m_normal) := by
  intro c p
  have h : Agrees nrm eps big l ((Asked.start : Asked K).run ops) c := Agrees.run ops (agrees_start nrm eps big l) hl
  have hR := ref_shape nrm eps big l ((Asked.start : Asked K).run ops)
  have hB := ref_build l
  have hact : ∀ (q : Polyhedron K), (c.setActive q).active = q := by
    intro q
    unfold ClipCV.setActive
    cases hc : c.clipped <;> simp [hc, ClipCV.active]
  refine ⟨?_, fun i => ?_, h.contains, ?_, ?_, fun re => ?_, fun id hid => ⟨?_, ?_⟩⟩
  · unfold ClipCV.nbFaces Polyhedron.nbPolygons; rw [h.active.ids]
  · unfold ClipCV.faceId; rw [h.active.ids]
  · rw [show (c.calculateVolume nrm eps true).m_volume = (c.active.calculateVolume nrm eps true).m_volume by simp [ClipCV.calculateVolume]]
    exact active_volume h true
  · rw [show (c.calculateSurfaceArea nrm eps true).m_surfaceArea = (c.active.calculateSurfaceArea nrm eps false).m_surfaceArea by
      simp [ClipCV.calculateSurfaceArea], (h.active.calculateSurfaceArea hR.1).2, ((PFilled.refl hR.2).calculateSurfaceArea hR.1).2]
  · show (c.poly.calculateVolume nrm eps re).m_volume = _
    rw [(h.poly.calculateVolume hB.1 re).2, ((PFilled.refl (hB.2 nrm eps)).calculateVolume hB.1 true).2]
  · unfold ClipCV.faceArea ClipCV.calculateFaceArea
    rw [hact]
    unfold Polyhedron.polygon
    rw [SMap.find?_insert_self]
    exact (h.active.polygon id).m_area (hR.1.polygon id)
  · unfold ClipCV.faceNormal ClipCV.calculateFaceNormal
    rw [hact]
    unfold Polyhedron.polygon
    rw [SMap.find?_insert_self]
    exact (h.active.polygon id).m_normal (hR.1.polygon id)

/-- **C139, the clip.** After any sequence of calls, a clip with a fraction strictly between 0 and 1 makes the recalculated volume the fraction reported times the
volume of the given faces, if that is not zero; and if the search stops before its last iteration, it differs from the fraction requested by at most the tolerance. -/
theorem C139_fraction (nrm : Vec3 K → K) (eps big : K) (l : List (Int × List (Vec3 K))) (ops : List (CvCall K))
    (hl : Legal nrm eps big ((new : ClipCV K).addFaces l) ops) (a : ClipArgs K)
    (hne : ∃ e ∈ (build l).polygons.entries, e.2.vs ≠ [])
    (hbig : ∀ e ∈ (build l).polygons.entries, ∀ v ∈ e.2.vs, -big ≤ v.dot a.n ∧ v.dot a.n ≤ big)
    (hreq : 0 < a.req ∧ a.req < 1) (htol : 0 ≤ a.tol ∧ a.tol < 1) (hmax : 0 < a.nMax)
    (hvt : ((build l).calculateVolume nrm eps true).m_volume ≠ 0) :
    let c := ((new : ClipCV K).addFaces l).run nrm eps big ops
    let r := clipOf nrm eps big c.poly c.clippedFaceId a
    let d := c.clip nrm eps big a
    (d.calculateVolume nrm eps true).m_volume = r.act * (d.calculateOriginalVolume nrm eps true).originalVolume ∧
    (r.iterations < a.nMax →
      |(d.calculateVolume nrm eps true).m_volume / (d.calculateOriginalVolume nrm eps true).originalVolume - a.req| ≤ a.tol) := by
  intro c r d
  have h : Agrees nrm eps big l ((Asked.start : Asked K).run ops) c := Agrees.run ops (agrees_start nrm eps big l) hl
  have hd : Agrees nrm eps big l (((Asked.start : Asked K).run ops).step (.clip a)) d := h.step (.clip a) trivial
  have hB := ref_build l
  obtain ⟨-, h2, h3, -⟩ := h.poly.clipFraction big hB.1 (hB.2 nrm eps) (Polygon.ofPolyline []) rfl c.clippedFaceId ⟨a.n, 0⟩ a.req a.nMax a.tol
  obtain ⟨-, -, -, k4, k5⟩ := C51_clip nrm eps big (Polygon.ofPolyline []) c.clippedFaceId ⟨a.n, 0⟩ a.req a.nMax a.tol (build l) hne hbig hreq htol hmax
  have hvol : (d.calculateVolume nrm eps true).m_volume = ((clipOf nrm eps big (build l) c.clippedFaceId a).poly.calculateVolume nrm eps true).m_volume := by
    rw [show (d.calculateVolume nrm eps true).m_volume = (d.active.calculateVolume nrm eps true).m_volume by simp [ClipCV.calculateVolume], active_volume hd true,
      h.faceId]
    rfl
  have horig : (d.calculateOriginalVolume nrm eps true).originalVolume = ((build l).calculateVolume nrm eps true).m_volume := by
    show (d.poly.calculateVolume nrm eps true).m_volume = _
    rw [(hd.poly.calculateVolume hB.1 true).2, ((PFilled.refl (hB.2 nrm eps)).calculateVolume hB.1 true).2]
  have hsame : ((build l).calculateVolume nrm eps false).m_volume = ((build l).calculateVolume nrm eps true).m_volume := by
    rw [((PFilled.refl (hB.2 nrm eps)).calculateVolume hB.1 false).2, ((PFilled.refl (hB.2 nrm eps)).calculateVolume hB.1 true).2]
  have hact : r.act = (d.calculateVolume nrm eps true).m_volume / ((build l).calculateVolume nrm eps true).m_volume := by
    rw [hvol, ← hsame]
    exact h2.trans k4
  rw [horig]
  refine ⟨by rw [hact]; field_simp, fun hit => ?_⟩
  rw [← hact, show r.act = _ from h2]
  exact k5 (by rw [← h3]; exact hit)

/-- **C139, caches that are right.** Once the volume has been recalculated, any sequence of calls that does not clip or switch the shape leaves the reported volume the
volume of the shape, with or without asking for it again. -/
theorem C139_quiet (nrm : Vec3 K → K) (eps big : K) (l : List (Int × List (Vec3 K))) (ops quiet : List (CvCall K))
    (hl : Legal nrm eps big ((new : ClipCV K).addFaces l) (ops ++ .volume true :: quiet)) (hq : ∀ o ∈ quiet, Quiet o) :
    let c := ((new : ClipCV K).addFaces l).run nrm eps big (ops ++ .volume true :: quiet)
    let p := ((Asked.start : Asked K).run (ops ++ .volume true :: quiet)).shape nrm eps big l
    c.m_volume = (p.calculateVolume nrm eps true).m_volume ∧ (c.calculateVolume nrm eps false).m_volume = c.m_volume := by
  intro c p
  have hrun : ∀ (x y : List (CvCall K)) (d : ClipCV K), d.run nrm eps big (x ++ y) = (d.run nrm eps big x).run nrm eps big y := by
    intro x y
    induction x with
    | nil => intro d; rfl
    | cons o t ih => intro d; exact ih _
  have hask : ∀ (x y : List (CvCall K)) (s : Asked K), s.run (x ++ y) = (s.run x).run y := by
    intro x y
    induction x with
    | nil => intro s; rfl
    | cons o t ih => intro s; exact ih _
  have hleg : ∀ (x y : List (CvCall K)) (d : ClipCV K), Legal nrm eps big d (x ++ y) → Legal nrm eps big d x ∧ Legal nrm eps big (d.run nrm eps big x) y := by
    intro x y
    induction x with
    | nil => intro d h; exact ⟨trivial, h⟩
    | cons o t ih => intro d h; exact ⟨⟨h.1, (ih _ h.2).1⟩, (ih _ h.2).2⟩
  obtain ⟨l1, l2⟩ := hleg ops _ _ hl
  have h0 := Agrees.run ops (agrees_start nrm eps big l) l1
  have h1 := h0.step (.volume true) trivial
  set c1 := (((new : ClipCV K).addFaces l).run nrm eps big ops).step nrm eps big (.volume true) with hc1
  set s1 := ((Asked.start : Asked K).run ops).step (.volume true) with hs1
  have hinit : c1.bVolume = true ∧ c1.m_volume = ((s1.shape nrm eps big l).calculateVolume nrm eps true).m_volume := by
    have e := active_volume h0 true
    constructor
    · rw [hc1]; simp [ClipCV.step, ClipCV.calculateVolume]
    · rw [hc1, hs1, show ((Asked.start : Asked K).run ops).step (.volume true) = (Asked.start : Asked K).run ops from rfl, ← e]
      simp [ClipCV.step, ClipCV.calculateVolume]
  have key : ∀ (q : List (CvCall K)) (d : ClipCV K) (s : Asked K), (∀ o ∈ q, Quiet o) → Agrees nrm eps big l s d → Legal nrm eps big d q → d.bVolume = true →
      d.m_volume = ((s.shape nrm eps big l).calculateVolume nrm eps true).m_volume →
      (d.run nrm eps big q).bVolume = true ∧ (d.run nrm eps big q).m_volume = (((s.run q).shape nrm eps big l).calculateVolume nrm eps true).m_volume := by
    intro q
    induction q with
    | nil => intro d s _ _ _ hb hv; exact ⟨hb, hv⟩
    | cons o t ih =>
      intro d s hqq hd hL hb hv
      have hsh : (s.step o).shape nrm eps big l = s.shape nrm eps big l := by
        have := hqq o (by simp)
        cases o <;> first | rfl | exact absurd this (by simp [Quiet])
      refine ih _ _ (fun o' ho' => hqq o' (by simp [ho'])) (hd.step o hL.1) hL.2 ?_ ?_
      · have hs : ∀ (p : Polyhedron K), (d.setActive p).bVolume = d.bVolume := fun p => by unfold ClipCV.setActive; split_ifs <;> rfl
        cases o with
        | volume re => simp only [ClipCV.step, ClipCV.calculateVolume]; split_ifs <;> simp [hb]
        | area re => simp only [ClipCV.step, ClipCV.calculateSurfaceArea]; split_ifs <;> simp [hb, hs]
        | faceArea id re => simp [ClipCV.step, ClipCV.calculateFaceArea, hs, hb]
        | faceNormal id re => simp [ClipCV.step, ClipCV.calculateFaceNormal, hs, hb]
        | clippedFaceId id => exact hb
        | originalVolume re => exact hb
        | clip a => exact hb
        | setClipped b => exact hb
      · rw [hsh, ← hv]
        have hs : ∀ (p : Polyhedron K), (d.setActive p).m_volume = d.m_volume := fun p => by unfold ClipCV.setActive; split_ifs <;> rfl
        cases o with
        | volume re =>
          simp only [ClipCV.step, ClipCV.calculateVolume]
          split_ifs
          · show (d.active.calculateVolume nrm eps re).m_volume = d.m_volume
            rw [active_volume hd re, hv]
          · rfl
        | area re => simp only [ClipCV.step, ClipCV.calculateSurfaceArea]; split_ifs <;> simp [hs]
        | faceArea id re => simp [ClipCV.step, ClipCV.calculateFaceArea, hs]
        | faceNormal id re => simp [ClipCV.step, ClipCV.calculateFaceNormal, hs]
        | clippedFaceId id => rfl
        | originalVolume re => rfl
        | clip a => rfl
        | setClipped b => rfl
  have hk := key quiet c1 s1 hq h1 l2.2 hinit.1 hinit.2
  have hcc : c = c1.run nrm eps big quiet := hrun ops (.volume true :: quiet) _
  have hpp : p = (s1.run quiet).shape nrm eps big l := by show (Asked.shape nrm eps big l (Asked.run _ _)) = _; rw [hask]; rfl
  refine ⟨by rw [hcc, hpp]; exact hk.2, ?_⟩
  rw [hcc]
  simp [ClipCV.calculateVolume, hk.1]

/-- **C139 fails without `bReCalculate`.** In any state in which the volume (the surface area) has been calculated, it is reported unchanged after any clip, and after
switching the clipped shape on or off, however different the shape is. -/
theorem C139_stale (nrm : Vec3 K → K) (eps big : K) (c : ClipCV K) (a : ClipArgs K) (b re : Bool) :
    let v := c.calculateVolume nrm eps re
    let s := c.calculateSurfaceArea nrm eps re
    ((v.clip nrm eps big a).calculateVolume nrm eps false).m_volume = v.m_volume ∧ ((v.setClipped b).calculateVolume nrm eps false).m_volume = v.m_volume ∧
    ((s.clip nrm eps big a).calculateSurfaceArea nrm eps false).m_surfaceArea = s.m_surfaceArea ∧
    ((s.setClipped b).calculateSurfaceArea nrm eps false).m_surfaceArea = s.m_surfaceArea := by
  intro v s
  have hv : v.bVolume = true := by
    show (c.calculateVolume nrm eps re).bVolume = true
    unfold ClipCV.calculateVolume
    split_ifs with h
    · rfl
    · simp at h; exact h.1
  have hs : s.bSurfaceArea = true := by
    show (c.calculateSurfaceArea nrm eps re).bSurfaceArea = true
    unfold ClipCV.calculateSurfaceArea
    split_ifs with h
    · rfl
    · simp at h; exact h.1
  refine ⟨?_, ?_, ?_, ?_⟩
  · simp [ClipCV.calculateVolume, ClipCV.clip, hv]
  · simp [ClipCV.calculateVolume, ClipCV.setClipped, hv]
  · simp [ClipCV.calculateSurfaceArea, ClipCV.clip, hs]
  · simp [ClipCV.calculateSurfaceArea, ClipCV.setClipped, hs]

/-- **C139 fails for faces added later, even with `bReCalculate`.** Once the surface area of an unclipped control volume has been calculated, no face added afterwards
changes it, even if a recalculation is asked for: the request does not reach the polyhedron. (The volume is recalculated.) -/
theorem C139_area_added (nrm : Vec3 K → K) (eps : K) (c : ClipCV K) (hc : c.clipped = false) (hb : c.bSurfaceArea = false) (l : List (Int × List (Vec3 K))) :
    (((c.calculateSurfaceArea nrm eps false).addFaces l).calculateSurfaceArea nrm eps true).m_surfaceArea = (c.calculateSurfaceArea nrm eps false).m_surfaceArea := by
  have hp : (c.poly.calculateSurfaceArea nrm eps false).bSurfaceArea = true := by
    unfold Polyhedron.calculateSurfaceArea
    split_ifs with h
    · rfl
    · simp at h; exact h
  have e : c.calculateSurfaceArea nrm eps false =
      { c with poly := c.poly.calculateSurfaceArea nrm eps false, m_surfaceArea := (c.poly.calculateSurfaceArea nrm eps false).m_surfaceArea, bSurfaceArea := true } := by
    simp [ClipCV.calculateSurfaceArea, hb, hc, ClipCV.active, ClipCV.setActive]
  have key : ∀ (l : List (Int × Polygon K)) (p : Polyhedron K), (p.addPolygons l).bSurfaceArea = p.bSurfaceArea ∧ (p.addPolygons l).m_surfaceArea = p.m_surfaceArea := by
    intro l
    induction l with
    | nil => intro p; exact ⟨rfl, rfl⟩
    | cons e t ih => intro p; exact ih _
  rw [e, addFaces_eq]
  obtain ⟨k1, k2⟩ := key (l.map fun f => (f.1, Polygon.ofPolyline f.2)) (c.poly.calculateSurfaceArea nrm eps false)
  rw [hp] at k1
  generalize hP : (c.poly.calculateSurfaceArea nrm eps false).addPolygons (l.map fun f => (f.1, Polygon.ofPolyline f.2)) = P at k1 k2
  simp [ClipCV.calculateSurfaceArea, ClipCV.active, hc, Polyhedron.calculateSurfaceArea, k1, k2, hP]

/-- The faces of the unit cube, pointing outwards. -/
def cvCube : List (Int × List (Vec3 ℚ)) :=
  [(0, [⟨0, 0, 0⟩, ⟨0, 1, 0⟩, ⟨1, 1, 0⟩, ⟨1, 0, 0⟩, ⟨0, 0, 0⟩]), (1, [⟨0, 0, 1⟩, ⟨1, 0, 1⟩, ⟨1, 1, 1⟩, ⟨0, 1, 1⟩, ⟨0, 0, 1⟩]),
   (2, [⟨0, 0, 0⟩, ⟨1, 0, 0⟩, ⟨1, 0, 1⟩, ⟨0, 0, 1⟩, ⟨0, 0, 0⟩]), (3, [⟨0, 1, 0⟩, ⟨0, 1, 1⟩, ⟨1, 1, 1⟩, ⟨1, 1, 0⟩, ⟨0, 1, 0⟩]),
   (4, [⟨0, 0, 0⟩, ⟨0, 0, 1⟩, ⟨0, 1, 1⟩, ⟨0, 1, 0⟩, ⟨0, 0, 0⟩]), (5, [⟨1, 0, 0⟩, ⟨1, 1, 0⟩, ⟨1, 1, 1⟩, ⟨1, 0, 1⟩, ⟨1, 0, 0⟩])]

/-- A length good enough for a box. -/
def boxNrm (v : Vec3 ℚ) : ℚ := |v.x| + |v.y| + |v.z|

/-- The clip used below: three tenths of the volume, along `z`. -/
def cvArgs : ClipArgs ℚ := ⟨⟨0, 0, 1⟩, 3 / 10, 50, 1 / 100⟩

/-- A sequence of calls that meets the hypotheses: volume and area are calculated, the cube is clipped twice and the area of the new face is calculated. Its volume is
3/10, its surface area 2 + 4·3/10, it has six faces, the new one with id 99 replacing the top. -/
example : Legal boxNrm (1 / 1000) 100 ((new : ClipCV ℚ).addFaces cvCube)
      [.volume false, .faceArea 1 true, .area false, .clippedFaceId 99, .clip ⟨⟨1, 0, 0⟩, 1 / 2, 50, 1 / 100⟩, .faceArea 99 false, .clip cvArgs, .faceArea 99 false] ∧
    (let c := ((new : ClipCV ℚ).addFaces cvCube).run boxNrm (1 / 1000) 100
      [.volume false, .faceArea 1 true, .area false, .clippedFaceId 99, .clip ⟨⟨1, 0, 0⟩, 1 / 2, 50, 1 / 100⟩, .faceArea 99 false, .clip cvArgs, .faceArea 99 false]
     [(c.calculateVolume boxNrm (1 / 1000) true).m_volume, (c.calculateSurfaceArea boxNrm (1 / 1000) true).m_surfaceArea, c.faceArea 99,
        (c.calculateOriginalVolume boxNrm (1 / 1000) false).originalVolume] = [3 / 10, 16 / 5, 1, 1] ∧
      c.nbFaces = 6 ∧ c.containsFace 1 = false ∧ c.containsFace 99 = true) := by
  refine ⟨⟨trivial, ⟨?_, ?_⟩, trivial, trivial, trivial, ⟨?_, ?_⟩, trivial, ⟨?_, ?_⟩, trivial⟩, ?_⟩ <;> decide +kernel

/-- The cube and the clip meet the hypotheses of `C139_fraction`; the search stops in its third iteration with the fraction requested. -/
example : (∃ e ∈ (build cvCube).polygons.entries, e.2.vs ≠ []) ∧
    (∀ e ∈ (build cvCube).polygons.entries, ∀ v ∈ e.2.vs, -100 ≤ v.dot cvArgs.n ∧ v.dot cvArgs.n ≤ 100) ∧
    ((build cvCube).calculateVolume boxNrm (1 / 1000) true).m_volume = 1 ∧
    (clipOf boxNrm (1 / 1000) 100 (build cvCube) 99 cvArgs).iterations = 3 ∧ (clipOf boxNrm (1 / 1000) 100 (build cvCube) 99 cvArgs).act = 3 / 10 := by
  decide +kernel

/-- Calls that meet the hypotheses of `C139_quiet`: clipped, recalculated, then the area and the original volume are asked for. The volume stays 3/10. -/
example : Legal boxNrm (1 / 1000) 100 ((new : ClipCV ℚ).addFaces cvCube) ([.volume false, .clip cvArgs] ++ .volume true :: [.area true, .originalVolume true]) ∧
    (((new : ClipCV ℚ).addFaces cvCube).run boxNrm (1 / 1000) 100 ([.volume false, .clip cvArgs] ++ .volume true :: [.area true, .originalVolume true])).m_volume = 3 / 10 := by
  refine ⟨⟨trivial, trivial, trivial, trivial, trivial, trivial⟩, ?_⟩
  decide +kernel

/-- **C139 fails**, a case: the unit cube is asked for its volume, then cut down to 3/10. Asked again, it says 1; asked to recalculate, 3/10. -/
theorem C139_stale_cube :
    let c := (((new : ClipCV ℚ).addFaces cvCube).calculateVolume boxNrm (1 / 1000) false).clip boxNrm (1 / 1000) 100 cvArgs
    (c.calculateVolume boxNrm (1 / 1000) false).m_volume = 1 ∧ (c.calculateVolume boxNrm (1 / 1000) true).m_volume = 3 / 10 := by
  decide +kernel

/-- **C139 fails**, a case: the area of the cube is calculated before its last face is added. Asked to recalculate, it still says 5. -/
theorem C139_area_added_cube :
    (((((new : ClipCV ℚ).addFaces (cvCube.take 5)).calculateSurfaceArea boxNrm (1 / 1000) false).addFaces (cvCube.drop 5)).calculateSurfaceArea boxNrm (1 / 1000)
      true).m_surfaceArea = 5 ∧ (((new : ClipCV ℚ).addFaces cvCube).calculateSurfaceArea boxNrm (1 / 1000) true).m_surfaceArea = 6 := by
  decide +kernel

/-- **C139 fails**, a case: asking for the area of a face that is not there inserts an empty face. The cube still counts six faces; clipped to the whole of itself, it
counts seven and contains the face 7. -/
theorem C139_missing_face :
    let c := ((new : ClipCV ℚ).addFaces cvCube).calculateFaceArea boxNrm (1 / 1000) 7 false
    let d := c.clip boxNrm (1 / 1000) 100 ⟨⟨0, 0, 1⟩, 1, 50, 1 / 100⟩
    c.nbFaces = 6 ∧ c.containsFace 7 = false ∧ d.nbFaces = 7 ∧ d.containsFace 7 = true := by
  decide +kernel

/-- **C139 fails** for the new face handed out by `clippedFace`: its area, once calculated, is reported unchanged after every later clip. -/
theorem C139_clipped_face (nrm : Vec3 K → K) (eps big : K) (c : ClipCV K) (a : ClipArgs K) (re : Bool) :
    let c' := { c with clippedFace := c.clippedFace.calculateArea nrm eps re }
    ((c'.clip nrm eps big a).clippedFace.calculateArea nrm eps false).m_area = c'.clippedFace.m_area := by
  intro c'
  have hb : (c.clippedFace.calculateArea nrm eps re).bArea = true := by
    unfold Polygon.calculateArea
    split_ifs with h h' <;> first | rfl | (simp at h; exact h.1)
  show (((c.clippedFace.calculateArea nrm eps re).setPolyline _).calculateArea nrm eps false).m_area = (c.clippedFace.calculateArea nrm eps re).m_area
  generalize c.clippedFace.calculateArea nrm eps re = q at hb
  simp [Polygon.calculateArea, Polygon.setPolyline, hb]

end ENigMA
