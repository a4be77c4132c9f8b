import Verif.Pde.FvmAssemblyProps
import Verif.Geometry.PolyhedronProps

/-!
# C66: the finite-volume `ddt` and `divergence` operators

A system built by an operator stands for the operator through `A x - b` (this is how `laplacian`, C22, and `ddt` below are built, and how
`PdeEquation` puts terms together). `divergence` puts the prescribed faces into `b` with the other sign: `A x + b` is the sum of the fluxes.
-/

set_option linter.unusedSectionVars false
set_option autoImplicit false

namespace ENigMA

open FvmOp Polyhedron

variable {K : Type} [Field K] [LinearOrder K] [IsStrictOrderedRing K]

namespace FvmOp

/-! ### Specification -/

/-- The unit normal of a face: what `calculateNormal` of the polygon through its corners gives (C37). -/
def normalOf (nrm : Vec3 K → K) (eps : K) (m : Mesh K) (fid : Int) : Vec3 K := Polygon.normal nrm eps (cornersOf m fid)

/-- The flux out of the cell `i` through a face of the vector field `(φ, φ, φ)`: area times the sum of the components of the normal times the value of `φ` on the
face, which is the mean of the values on the two sides, or the prescribed one. A face with neither counts nothing. -/
def fluxOut (nrm : Vec3 K → K) (eps : K) (c : Ctx K) (x : Nat → K) (i : Nat) (fid : Int) : K :=
  let s := (normalOf nrm eps c.mesh fid).x + (normalOf nrm eps c.mesh fid).y + (normalOf nrm eps c.mesh fid).z
  match acrossOf c fid, prescribed c fid with
  | some j, _ => areaOf nrm eps c.mesh fid * s * ((x i + x j.toNat) / 2)
  | none, some v => areaOf nrm eps c.mesh fid * s * v
  | none, none => 0

/-! ### Lemmas -/

theorem face_normal (nrm : Vec3 K → K) (eps : K) (m : Mesh K) (l : List Int) (cv : ControlVolume K)
    (h : controlVolume m l (ControlVolume.new 0) = some cv) (fid : Int) (hf : fid ∈ l) :
    (face nrm eps cv fid).m_normal = normalOf nrm eps m fid := by
  have := (controlVolume_spec m l _ _ h).2.1 fid hf
  simp only [face, Polyhedron.polygon, this, Option.getD_some, normalOf]
  unfold Polygon.calculateArea
  by_cases h1 : 1 < (cornersOf m fid).length
  · simp [Polygon.ofPolyline, Polygon.calculateNormal, h1]
  · simp only [Polygon.ofPolyline, h1]
    match hc : cornersOf m fid, h1 with
    | [], _ => simp [Polygon.normal, Polygon.normalLoop]
    | [a], _ => simp [Polygon.normal, Polygon.normalLoop]
    | a :: b :: t, h1 => simp at h1

/-- The negated right-hand side in the residual. -/
def stampSum (x : Nat → K) : Stamp K → K
  | .addA _ j v => v * x j.toNat
  | .setA _ _ _ => 0
  | .addB _ v => v

theorem stampSum_eq (x : Nat → K) (st : Stamp K) (i : Nat) (h : st.line = (i : Int)) : stampSum x st = stampRes x st + 2 * st.onB i 0 := by
  cases st with
  | addA a b v => simp [stampSum, stampRes, Stamp.onB]
  | setA a b v => simp [stampSum, stampRes, Stamp.onB]
  | addB a v =>
    simp only [Stamp.line] at h
    simp only [stampSum, stampRes, Stamp.onB, h, if_true]
    ring

/-- The sum of a row and its right-hand side. -/
theorem rowSum_eq (n : Nat) (g : Nat → List (Stamp K)) (s : Sys K) (kind : MatrixType)
    (hs : (Sys.zero kind n : Sys K).assemble ((List.range n).flatMap g) = some s) (hg : ∀ r < n, ∀ st ∈ g r, st.line = (r : Int) ∧ Adds st)
    (x : Nat → K) (i : Nat) (hi : i < n) :
    s.n = n ∧ s.row x i + s.b i = ((g i).map (stampSum x)).sum ∧ s.b i = ((g i).map fun st => st.onB i 0).sum := by
  obtain ⟨h1, -, h3⟩ := residual_eq n g s kind hs hg x i hi
  have hok : ∀ st ∈ (List.range n).flatMap g, st.Ok (Sys.zero kind n : Sys K).n := by
    intro st hst
    by_contra hbad
    rw [Sys.assemble_none hst hbad] at hs
    cases hs
  obtain ⟨s', e1, -, -, -, e5⟩ := Sys.assemble_spec _ _ hok
  rw [hs] at e1
  cases e1
  have hb : s.b i = ((g i).map fun st => st.onB i 0).sum := by
    rw [e5, Sys.foldB_rows g n (fun r hr st hst => (hg r hr st hst).1) i hi, foldB_sum]
    simp [Sys.zero]
  refine ⟨h1, ?_, hb⟩
  have hsum : ((g i).map (stampSum x)).sum = ((g i).map (stampRes x)).sum + 2 * ((g i).map fun st => st.onB i 0).sum := by
    have key : ∀ l : List (Stamp K), (∀ st ∈ l, st.line = (i : Int)) →
        (l.map (stampSum x)).sum = (l.map (stampRes x)).sum + 2 * (l.map fun st => st.onB i 0).sum := by
      intro l
      induction l with
      | nil => simp
      | cons a t ih =>
        intro hl
        simp only [List.map_cons, List.sum_cons]
        rw [ih (fun st hst => hl st (by simp [hst])), stampSum_eq x a i (hl a (by simp))]
        ring
    exact key _ fun st hst => (hg i hi st hst).1
  rw [hsum, ← h3, ← hb, Sys.residual]
  ring

/-- The statements of one face. -/
theorem divergenceFace_res (nrm : Vec3 K → K) (eps : K) (c : Ctx K) (el : Nat) (id : Int) (l : List Int) (cv : ControlVolume K)
    (hcv : controlVolume c.mesh l (ControlVolume.new 0) = some cv) (fid : Int) (hfl : fid ∈ l) (out : List (Stamp K))
    (h : divergenceFace nrm eps c el cv fid = some out) (x : Nat → K) :
    (∀ st ∈ out, st.line = (el : Int) ∧ Adds st) ∧
    volume nrm eps cv * (out.map (stampSum x)).sum = fluxOut nrm eps c x el fid ∧
    volume nrm eps cv * (out.map fun st => st.onB el 0).sum = if acrossOf c fid = none then fluxOut nrm eps c x el fid else 0 := by
  simp only [divergenceFace, face_area nrm eps c.mesh l cv hcv fid hfl, face_normal nrm eps c.mesh l cv hcv fid hfl, Option.bind_eq_bind] at h
  obtain ⟨f, hf, h⟩ := Option.bind_eq_some_iff.1 h
  by_cases hp : f.hasPair
  · simp only [hp, if_true] at h
    obtain ⟨g, hg, h⟩ := Option.bind_eq_some_iff.1 h
    obtain ⟨nl, hnl, h⟩ := Option.bind_eq_some_iff.1 h
    split_ifs at h with h0
    have ha : acrossOf c fid = some nl := by simp [acrossOf, hf, hp, hg, hnl]
    have := (Option.some.inj h).symm
    subst this
    refine ⟨by simp [Stamp.line, Adds], ?_, ?_⟩
    · simp only [List.map_cons, List.map_nil, List.sum_cons, List.sum_nil, stampSum, fluxOut, ha, Int.toNat_natCast]
      field_simp
      ring
    · simp [Stamp.onB, ha]
  · have ha : acrossOf c fid = none := by simp [acrossOf, hf, hp]
    have hpr : prescribed c fid = fixedValue c.field fid := by simp [prescribed, hf, hp]
    simp only [hp] at h
    cases hv : fixedValue c.field fid with
    | none =>
      rw [hv] at h
      have := (Option.some.inj h).symm
      subst this
      simp [fluxOut, ha, hpr, hv]
    | some v =>
      rw [hv] at h
      simp only [Bool.false_eq_true, if_false] at h
      split_ifs at h with h0
      have := (Option.some.inj h).symm
      subst this
      refine ⟨by simp [Stamp.line, Adds], ?_, ?_⟩
      · simp only [List.map_cons, List.map_nil, List.sum_cons, List.sum_nil, stampSum, fluxOut, ha, hpr, hv]
        field_simp
        ring
      · simp only [List.map_cons, List.map_nil, List.sum_cons, List.sum_nil, Stamp.onB, fluxOut, ha, hpr, hv, if_true]
        field_simp
        ring

/-- What a successful call gives, row by row. -/
theorem divergence_rows (nrm : Vec3 K → K) (eps : K) (c : Ctx K) (s : Sys K) (h : divergence nrm eps c = some s) :
    s.n = c.mesh.elements.count ∧ ∀ i < c.mesh.elements.count, ∀ x,
      volumeOf nrm eps c.mesh i * (s.row x i + s.b i) = ((facesAt c.mesh i).map (fluxOut nrm eps c x i)).sum ∧
      volumeOf nrm eps c.mesh i * s.b i = ((facesAt c.mesh i).map fun fid => if acrossOf c fid = none then fluxOut nrm eps c x i fid else 0).sum := by
  simp only [divergence, Option.bind_eq_bind] at h
  obtain ⟨l, hl, h⟩ := Option.bind_eq_some_iff.1 h
  obtain ⟨g, hg, rfl⟩ := FemOp.collect_some _ _ _ hl
  have row : ∀ i < c.mesh.elements.count, ∃ id e cv out, c.mesh.elements.idAt? i = some id ∧ c.mesh.elements.get? id = some e ∧
      controlVolume c.mesh e.faceIds (ControlVolume.new 0) = some cv ∧ g i = e.faceIds.flatMap out ∧
      ∀ fid ∈ e.faceIds, divergenceFace nrm eps c i cv fid = some (out fid) := by
    intro i hi
    have := hg i (List.mem_range.2 hi)
    simp only [elementRow, Option.bind_eq_bind] at this
    obtain ⟨id, h1, this⟩ := Option.bind_eq_some_iff.1 this
    obtain ⟨e, h2, this⟩ := Option.bind_eq_some_iff.1 this
    obtain ⟨cv, h3, this⟩ := Option.bind_eq_some_iff.1 this
    have hids := (controlVolume_spec _ _ _ _ h3).1
    simp only [ControlVolume.new, Polyhedron.empty, List.nil_append] at hids
    rw [hids] at this
    obtain ⟨out, ho, hge⟩ := FemOp.collect_some _ _ _ this
    exact ⟨id, e, cv, out, h1, h2, h3, hge, ho⟩
  have hlines : ∀ r < c.mesh.elements.count, ∀ st ∈ g r, st.line = (r : Int) ∧ Adds st := by
    intro r hr st hst
    obtain ⟨id, e, cv, out, h1, h2, h3, h4, h5⟩ := row r hr
    rw [h4] at hst
    obtain ⟨fid, hfid, hst⟩ := List.mem_flatMap.1 hst
    exact (divergenceFace_res nrm eps c r id e.faceIds cv h3 fid hfid (out fid) (h5 fid hfid) (fun _ => 0)).1 st hst
  refine ⟨?_, ?_⟩
  · by_cases hn : c.mesh.elements.count = 0
    · rw [hn] at h ⊢
      simp [Sys.assemble, Sys.zero] at h
      rw [← h]
    · exact (rowSum_eq _ g s .sparse h hlines (fun _ => 0) 0 (Nat.pos_of_ne_zero hn)).1
  · intro i hi x
    obtain ⟨id, e, cv, out, h1, h2, h3, h4, h5⟩ := row i hi
    have hV : volumeOf nrm eps c.mesh i = volume nrm eps cv := by simp [volumeOf, h1, h2, h3]
    have hF : facesAt c.mesh i = e.faceIds := by simp [facesAt, h1, h2]
    have face := fun (fid : Int) (hfid : fid ∈ e.faceIds) => divergenceFace_res nrm eps c i id e.faceIds cv h3 fid hfid (out fid) (h5 fid hfid) x
    obtain ⟨-, r1, r2⟩ := rowSum_eq _ g s .sparse h hlines x i hi
    rw [r1, r2, h4, hV, hF, List.map_flatMap, List.map_flatMap]
    constructor
    · have key : ∀ l : List Int, (∀ fid ∈ l, fid ∈ e.faceIds) →
          volume nrm eps cv * (l.flatMap fun a => (out a).map (stampSum x)).sum = (l.map (fluxOut nrm eps c x i)).sum := by
        intro l
        induction l with
        | nil => intro _; simp
        | cons a t ih =>
          intro hl
          simp only [List.flatMap_cons, List.sum_append, mul_add, List.map_cons, List.sum_cons]
          rw [ih (fun b hb => hl b (by simp [hb])), (face a (hl a (by simp))).2.1]
      exact key _ fun _ hx => hx
    · have key : ∀ l : List Int, (∀ fid ∈ l, fid ∈ e.faceIds) →
          volume nrm eps cv * (l.flatMap fun a => (out a).map fun st => st.onB i 0).sum =
          (l.map fun fid => if acrossOf c fid = none then fluxOut nrm eps c x i fid else 0).sum := by
        intro l
        induction l with
        | nil => intro _; simp
        | cons a t ih =>
          intro hl
          simp only [List.flatMap_cons, List.sum_append, mul_add, List.map_cons, List.sum_cons]
          rw [ih (fun b hb => hl b (by simp [hb])), (face a (hl a (by simp))).2.2]
      exact key _ fun _ hx => hx

/-- Through a planar face with a usable corner, area times normal is half the vector area. -/
theorem area_normal (nrm : Vec3 K → K) (hN : IsNorm nrm) (eps : K) (heps : 0 ≤ eps ∧ eps < 1) (m : Mesh K) (fid : Int)
    (hp : Planar (cornersOf m fid) ∧ HasCorner nrm eps (cornersOf m fid)) :
    areaOf nrm eps m fid * ((normalOf nrm eps m fid).x + (normalOf nrm eps m fid).y + (normalOf nrm eps m fid).z) =
    ((vecArea2 (cornersOf m fid)).x + (vecArea2 (cornersOf m fid)).y + (vecArea2 (cornersOf m fid)).z) / 2 := by
  have h := (C37_area nrm hN eps heps _ hp.1 hp.2).2.2.1
  rw [← h]
  simp only [Vec3.smul_x, Vec3.smul_y, Vec3.smul_z, areaOf, normalOf]
  ring

end FvmOp

/-! ### C66 -/

/-- C66: whenever `ddt` succeeds, `A x - b` in the row of a cell is the change from the old value, which is the current value of the field or, for a cell with
a fixed-value condition on a face, the value of the first one. -/
theorem C66_ddt (c : Ctx K) (s : Sys K) (h : ddt c = some s) :
    s.n = c.mesh.elements.count ∧ ∀ i < s.n, ∀ x : Nat → K, s.row x i - s.b i =
      x i - (((facesAt c.mesh i).findSome? (fixedValue c.field)).getD (c.u i)) := by
  simp only [ddt, Option.bind_eq_bind] at h
  obtain ⟨l, hl, h⟩ := Option.bind_eq_some_iff.1 h
  obtain ⟨g, hg, rfl⟩ := FemOp.collect_some _ _ _ hl
  have row : ∀ i < c.mesh.elements.count, ∃ e : Elem, facesAt c.mesh i = e.faceIds ∧ g i = [.addA i i 1, .addB i (ddtValue c i e.faceIds)] := by
    intro i hi
    have := hg i (List.mem_range.2 hi)
    simp only [ddtRow, Option.bind_eq_bind] at this
    obtain ⟨id, h1, this⟩ := Option.bind_eq_some_iff.1 this
    obtain ⟨e, h2, this⟩ := Option.bind_eq_some_iff.1 this
    exact ⟨e, by simp [facesAt, h1, h2], (Option.some.inj this).symm⟩
  have hlines : ∀ r < c.mesh.elements.count, ∀ st ∈ g r, st.line = (r : Int) ∧ Adds st := by
    intro r hr st hst
    obtain ⟨e, -, h2⟩ := row r hr
    rw [h2] at hst
    simp only [List.mem_cons, List.not_mem_nil, or_false] at hst
    rcases hst with rfl | rfl <;> simp [Stamp.line, Adds]
  have hn : s.n = c.mesh.elements.count := by
    by_cases hn : c.mesh.elements.count = 0
    · rw [hn] at h ⊢
      simp [Sys.assemble, Sys.zero] at h
      rw [← h]
    · exact (residual_eq _ g s .sparse h hlines (fun _ => 0) 0 (Nat.pos_of_ne_zero hn)).1
  refine ⟨hn, fun i hi x => ?_⟩
  obtain ⟨e, h1, h2⟩ := row i (hn ▸ hi)
  have := (residual_eq _ g s .sparse h hlines x i (hn ▸ hi)).2.2
  rw [h2] at this
  simp only [List.map_cons, List.map_nil, List.sum_cons, List.sum_nil, stampRes, Int.toNat_natCast, Sys.residual] at this
  rw [this, h1]
  have hv : ∀ l : List Int, ddtValue c i l = (l.findSome? (fixedValue c.field)).getD (c.u i) := by
    intro l
    induction l with
    | nil => rfl
    | cons a t ih =>
      simp only [ddtValue, List.findSome?_cons]
      cases fixedValue c.field a with
      | none => exact ih
      | some v => rfl
  rw [hv]
  ring

/-- C66: `ddt` succeeds on every consistent mesh. -/
theorem C66_ddt_defined (c : Ctx K) (hm : c.mesh.elements.Ok) : (ddt c).isSome := by
  have hg : ∀ i ∈ List.range c.mesh.elements.count, ∃ g, ddtRow c i = some g ∧ ∀ st ∈ g, st.Ok (Sys.zero .sparse c.mesh.elements.count : Sys K).n := by
    intro i hi
    have hi := List.mem_range.1 hi
    have h1 : c.mesh.elements.idAt? i = some (c.mesh.elements.ids[i]'hi) := by
      simp only [Cont.idAt?]; exact List.getElem?_eq_getElem hi
    obtain ⟨e, he⟩ := (hm.2 _).1 (List.getElem_mem hi)
    refine ⟨_, by simp only [ddtRow, h1, he, Option.bind_eq_bind, Option.bind_some]; rfl, ?_⟩
    intro st hst
    simp only [List.mem_cons, List.not_mem_nil, or_false] at hst
    rcases hst with rfl | rfl <;> simp [Stamp.Ok, Sys.zero, Equation.InRange, hi]
  choose! g h1 h2 using hg
  simp only [ddt, FemOp.collect_map _ _ g h1, Option.bind_eq_bind, Option.bind_some]
  obtain ⟨s, hs, -⟩ := Sys.assemble_spec ((List.range c.mesh.elements.count).flatMap g) (Sys.zero .sparse c.mesh.elements.count) (by
    intro st hst
    obtain ⟨i, hi, hst⟩ := List.mem_flatMap.1 hst
    exact h2 i hi st hst)
  simp [hs]

/-- C66: whenever `divergence` succeeds, the volume of a cell times (row plus right-hand side) is the sum of the fluxes out of it. The sign of the right-hand
side is the opposite of the one `laplacian` and `ddt` use, see `C66_sign`. -/
theorem C66_divergence (nrm : Vec3 K → K) (eps : K) (c : Ctx K) (s : Sys K) (h : divergence nrm eps c = some s) :
    s.n = c.mesh.elements.count ∧ ∀ (x : Nat → K), ∀ i < s.n,
      volumeOf nrm eps c.mesh i * (s.row x i + s.b i) = ((facesAt c.mesh i).map (fluxOut nrm eps c x i)).sum := by
  obtain ⟨h1, h2⟩ := divergence_rows nrm eps c s h
  exact ⟨h1, fun x i hi => (h2 i (h1 ▸ hi) x).1⟩

/-- The faces of the cell are planar, not degenerate, close up, and each has a neighbour or a prescribed value `v`. -/
structure ClosedCell (nrm : Vec3 K → K) (eps : K) (c : Ctx K) (v : K) (i : Nat) : Prop where
  planar : ∀ fid ∈ facesAt c.mesh i, Planar (cornersOf c.mesh fid) ∧ HasCorner nrm eps (cornersOf c.mesh fid)
  closed : ClosedSurface ((facesAt c.mesh i).map (cornersOf c.mesh))
  value : ∀ fid ∈ facesAt c.mesh i, acrossOf c fid ≠ none ∨ prescribed c fid = some v

/-- C66: the fluxes of a constant field out of a closed cell add up to zero: `A v + b = 0`. -/
theorem C66_constant (nrm : Vec3 K → K) (hN : IsNorm nrm) (eps : K) (heps : 0 ≤ eps ∧ eps < 1) (c : Ctx K) (s : Sys K)
    (h : divergence nrm eps c = some s) (v : K) (i : Nat) (hi : i < s.n) (hV : volumeOf nrm eps c.mesh i ≠ 0) (hc : ClosedCell nrm eps c v i) :
    s.row (fun _ => v) i + s.b i = 0 := by
  obtain ⟨h1, h2⟩ := divergence_rows nrm eps c s h
  have e := (h2 i (h1 ▸ hi) fun _ => v).1
  have hz : ((facesAt c.mesh i).map (fluxOut nrm eps c (fun _ => v) i)).sum = 0 := by
    have hterm : ∀ fid ∈ facesAt c.mesh i, fluxOut nrm eps c (fun _ => v) i fid =
        v / 2 * ((vecArea2 (cornersOf c.mesh fid)).x + (vecArea2 (cornersOf c.mesh fid)).y + (vecArea2 (cornersOf c.mesh fid)).z) := by
      intro fid hf
      have ha := area_normal nrm hN eps heps c.mesh fid (hc.planar fid hf)
      unfold fluxOut
      rcases hc.value fid hf with hx | hx
      · obtain ⟨j, hj⟩ := Option.ne_none_iff_exists'.1 hx
        simp only [hj]
        linear_combination v * ha
      · cases hx' : acrossOf c fid with
        | some j => simp only []; linear_combination v * ha
        | none => simp only [hx]; linear_combination v * ha
    rw [List.map_congr_left hterm]
    have hs := closed_sum _ hc.closed
    have hsum : ∀ l : List Int, (l.map fun fid => v / 2 * ((vecArea2 (cornersOf c.mesh fid)).x + (vecArea2 (cornersOf c.mesh fid)).y +
        (vecArea2 (cornersOf c.mesh fid)).z)).sum = v / 2 * ((((l.map (cornersOf c.mesh)).map vecArea2).sum).x +
        (((l.map (cornersOf c.mesh)).map vecArea2).sum).y + (((l.map (cornersOf c.mesh)).map vecArea2).sum).z) := by
      intro l
      induction l with
      | nil => simp
      | cons a t ih => simp only [List.map_cons, List.sum_cons, Vec3.add_x, Vec3.add_y, Vec3.add_z]; rw [ih]; ring
    rw [hsum, hs]
    simp
  rw [hz] at e
  exact (mul_eq_zero.1 e).resolve_left hV

/-- C66, the part that holds: a cell that has a neighbour across every face does have divergence zero, `A v - b = 0`, for a constant field. For a cell with
prescribed faces this is false: `C66_sign`. -/
theorem C66_interior_partial (nrm : Vec3 K → K) (hN : IsNorm nrm) (eps : K) (heps : 0 ≤ eps ∧ eps < 1) (c : Ctx K) (s : Sys K)
    (h : divergence nrm eps c = some s) (v : K) (i : Nat) (hi : i < s.n) (hV : volumeOf nrm eps c.mesh i ≠ 0) (hc : ClosedCell nrm eps c v i)
    (hin : ∀ fid ∈ facesAt c.mesh i, acrossOf c fid ≠ none) : s.row (fun _ => v) i - s.b i = 0 := by
  obtain ⟨h1, h2⟩ := divergence_rows nrm eps c s h
  have e := (h2 i (h1 ▸ hi) fun _ => v).2
  have hb : s.b i = 0 := by
    refine (mul_eq_zero.1 (e.trans ?_)).resolve_left hV
    refine List.sum_eq_zero fun y hy => ?_
    obtain ⟨fid, hf, rfl⟩ := List.mem_map.1 hy
    simp [hin fid hf]
  have := C66_constant nrm hN eps heps c s h v i hi hV hc
  rw [hb] at this ⊢
  linear_combination this

/-- C66, the disagreement: for a constant field with that constant prescribed on the boundary, `A v - b` in the row of a closed cell, times its volume,
is not zero but minus twice the flux through its prescribed faces (half the vector area of a face, summed over the components, is its flux for the value 1). -/
theorem C66_sign (nrm : Vec3 K → K) (hN : IsNorm nrm) (eps : K) (heps : 0 ≤ eps ∧ eps < 1) (c : Ctx K) (s : Sys K)
    (h : divergence nrm eps c = some s) (v : K) (i : Nat) (hi : i < s.n) (hV : volumeOf nrm eps c.mesh i ≠ 0) (hc : ClosedCell nrm eps c v i) :
    volumeOf nrm eps c.mesh i * (s.row (fun _ => v) i - s.b i) = -(v * ((facesAt c.mesh i).map fun fid => if acrossOf c fid = none then
      (vecArea2 (cornersOf c.mesh fid)).x + (vecArea2 (cornersOf c.mesh fid)).y + (vecArea2 (cornersOf c.mesh fid)).z else 0).sum) := by
  obtain ⟨h1, h2⟩ := divergence_rows nrm eps c s h
  have e := (h2 i (h1 ▸ hi) fun _ => v).2
  have e0 := C66_constant nrm hN eps heps c s h v i hi hV hc
  have e1 : s.row (fun _ => v) i - s.b i = -2 * s.b i := by linear_combination e0
  rw [e1, show volumeOf nrm eps c.mesh i * (-2 * s.b i) = -(2 * (volumeOf nrm eps c.mesh i * s.b i)) by ring, e]
  congr 1
  have hsum : ∀ l : List Int, (∀ fid ∈ l, fid ∈ facesAt c.mesh i) →
      2 * (l.map fun fid => if acrossOf c fid = none then fluxOut nrm eps c (fun _ => v) i fid else 0).sum =
      v * (l.map fun fid => if acrossOf c fid = none then
      (vecArea2 (cornersOf c.mesh fid)).x + (vecArea2 (cornersOf c.mesh fid)).y + (vecArea2 (cornersOf c.mesh fid)).z else 0).sum := by
    intro l
    induction l with
    | nil => simp
    | cons a t ih =>
      intro hl
      simp only [List.map_cons, List.sum_cons, mul_add]
      rw [ih fun b hb => hl b (by simp [hb])]
      congr 1
      split_ifs with hx
      · have ha := area_normal nrm hN eps heps c.mesh a (hc.planar a (hl a (by simp)))
        rcases hc.value a (hl a (by simp)) with hy | hy
        · exact absurd hx hy
        · simp only [fluxOut, hx, hy]
          linear_combination 2 * v * ha
      · simp
  exact hsum _ fun _ hx => hx

/-! ### The hypotheses are met -/

/-- Two unit cubes side by side. -/
def twoCubes : Mesh ℚ :=
  { nodes := ((((((((((((Cont.empty.add 0 ⟨0, 0, 0⟩).add 1 ⟨1, 0, 0⟩).add 2 ⟨1, 1, 0⟩).add 3 ⟨0, 1, 0⟩).add 4 ⟨0, 0, 1⟩).add 5 ⟨1, 0, 1⟩).add 6 ⟨1, 1, 1⟩).add 7 ⟨0, 1, 1⟩).add
      8 ⟨2, 0, 0⟩).add 9 ⟨2, 1, 0⟩).add 10 ⟨2, 0, 1⟩).add 11 ⟨2, 1, 1⟩)
    faces := Cont.empty
    elements := (Cont.empty.add 0 ⟨.hexahedron, [0, 1, 2, 3, 4, 5, 6, 7], []⟩).add 1 ⟨.hexahedron, [1, 8, 9, 2, 5, 10, 11, 6], []⟩
    nbBoundary := 0 }

/-- The same with the faces `generateFaces` makes. -/
def twoCubesFaces : Mesh ℚ := (Mesh.generateFaces smallMachine twoCubes 0).getD twoCubes

/-- The value 1 on all faces without a pair. -/
def twoCubesCtx : Ctx ℚ :=
  { mesh := twoCubesFaces
    elementCentroid := twoCubesFaces.elementCentroids.getD []
    faceCentroid := twoCubesFaces.faceCentroids.getD []
    field := twoCubesFaces.faces.ids.foldl (fun f i => f.addBCFace i (BoundaryCondition.empty.addCondition ctFixedValue 1)) (PdeField.new 1)
    u := fun i => i }

/-- The first cube is a closed cell. -/
example : ClosedCell l1 (1 / 1024) twoCubesCtx 1 0 := by
  refine ⟨fun fid hf => ?_, ?_, by decide +kernel⟩
  · have h1 : ∀ fid ∈ facesAt twoCubesCtx.mesh 0, ∃ m ∈ ([⟨1, 0, 0⟩, ⟨0, 1, 0⟩, ⟨0, 0, 1⟩] : List (Vec3 ℚ)), ∃ d ∈ ([0, 1] : List ℚ),
        ∀ v ∈ cornersOf twoCubesCtx.mesh fid, m.dot v = d := by decide +kernel
    have h2 : ∀ fid ∈ facesAt twoCubesCtx.mesh 0, (match cornersOf twoCubesCtx.mesh fid with
        | a :: b :: c :: _ => decide (1 / 1024 < l1 (Vec3.cross (b - a) (c - a)))
        | _ => false) = true := by decide +kernel
    obtain ⟨m, hm, d, -, h⟩ := h1 fid hf
    have h2 := h2 fid hf
    refine ⟨⟨m, d, ?_, h⟩, ?_⟩
    · rintro rfl; revert hm; decide +kernel
    · match hc : cornersOf twoCubesCtx.mesh fid, h2 with
      | a :: b :: c :: r, h2 => exact ⟨[], a, b, c, r, rfl, of_decide_eq_true h2⟩
  · unfold ClosedSurface; decide +kernel

/-- The operators succeed there, and the constant 1 gives `A v + b = 0` but `A v - b = ± 2` in the two rows. -/
example : (ddt twoCubesCtx).isSome = true ∧ (divergence l1 (1 / 1024) twoCubesCtx).map (fun s =>
    [s.row (fun _ => 1) 0 + s.b 0, s.row (fun _ => 1) 1 + s.b 1, s.row (fun _ => 1) 0 - s.b 0, s.row (fun _ => 1) 1 - s.b 1]) = some [0, 0, 2, -2] := by
  decide +kernel

/-- The old value in the first row is the prescribed 1, and with no condition it is that of the field. -/
example : ((facesAt twoCubesCtx.mesh 1).findSome? (fixedValue twoCubesCtx.field)).getD (twoCubesCtx.u 1) = 1 ∧
    ((facesAt twoTetsCtx.mesh 1).findSome? (fixedValue twoTetsCtx.field)).getD (twoTetsCtx.u 1) = 3 := by
  decide +kernel

end ENigMA
