import Verif.Pde.FvmConvection

/-! # Lemmas on heat convection with finite volumes -/

set_option linter.unusedSectionVars false
set_option autoImplicit false

namespace ENigMA
namespace FvmConvection
open FvmOp FvmHeat
open FdmConvection (Flow)
open FdmHeat (Sound)
variable {K : Type} [Field K] [LinearOrder K] [IsStrictOrderedRing K]

/-- What passes from one cell to the other. -/
def pass (nrm : Vec3 K → K) (eps : K) (c : Ctx K) (i j : Nat) : K := ((facesAt c.mesh i).map fun fid => if acrossOf c fid = some (j : Int) then through nrm eps c fid else 0).sum

theorem pass_antisymm {nrm : Vec3 K → K} {eps : K} {out : Bool} {c : Ctx K} (g : Open nrm eps out c) {i j : Nat} (hi : i < c.mesh.elements.count) (hj : j < c.mesh.elements.count) :
    pass nrm eps c i j = -pass nrm eps c j i := by
  have hm := g.cells.regular
  obtain ⟨idi, ei, a1, a2, a3⟩ := cell hm hi
  obtain ⟨idj, ej, b1, b2, b3⟩ := cell hm hj
  unfold pass
  rw [a3, b3, ← List.sum_toFinset _ (hm.owner idi ei a2).1, ← List.sum_toFinset _ (hm.owner idj ej b2).1, ← Finset.sum_filter, ← Finset.sum_filter, ← Finset.sum_neg_distrib]
  refine Finset.sum_bij' (fun fid _ => ((c.mesh.faces.get? fid).map Face.pairFaceId).getD 0)
    (fun fid _ => ((c.mesh.faces.get? fid).map Face.pairFaceId).getD 0) ?_ ?_ ?_ ?_ ?_
  · intro fid h
    rw [Finset.mem_filter, List.mem_toFinset] at h
    obtain ⟨f, h1, h2, h3, h4, -⟩ := across_pair hm a1 b1 a2 b2 h.1 h.2
    rw [Finset.mem_filter, List.mem_toFinset, h1]
    exact ⟨h3, h4⟩
  · intro fid h
    rw [Finset.mem_filter, List.mem_toFinset] at h
    obtain ⟨f, h1, h2, h3, h4, -⟩ := across_pair hm b1 a1 b2 a2 h.1 h.2
    rw [Finset.mem_filter, List.mem_toFinset, h1]
    exact ⟨h3, h4⟩
  · intro fid h
    rw [Finset.mem_filter, List.mem_toFinset] at h
    obtain ⟨f, h1, h2, h3, h4, g, g1, g2, g3, -⟩ := across_pair hm a1 b1 a2 b2 h.1 h.2
    simp [h1, g1, g3]
  · intro fid h
    rw [Finset.mem_filter, List.mem_toFinset] at h
    obtain ⟨f, h1, h2, h3, h4, g, g1, g2, g3, -⟩ := across_pair hm b1 a1 b2 a2 h.1 h.2
    simp [h1, g1, g3]
  · intro fid h
    rw [Finset.mem_filter, List.mem_toFinset] at h
    obtain ⟨f, h1, h2, h3, h4, -⟩ := across_pair hm a1 b1 a2 b2 h.1 h.2
    simp only [h1, Option.map_some, Option.getD_some, through]
    rw [g.opposite fid f h1 h2, g.cells.pair fid f h1 h2]
    simp only [Vec3.neg_x, Vec3.neg_y, Vec3.neg_z]
    ring

theorem free_prescribed {nrm : Vec3 K → K} {eps : K} {out : Bool} {c : Ctx K} (g : Open nrm eps out c) (fid : Int) : prescribed c fid = none := by
  simp only [prescribed, Option.bind_eq_bind, g.free]
  cases c.mesh.faces.get? fid <;> simp

/-- The fluxes of a cell, neighbour by neighbour. -/
theorem net_pass {nrm : Vec3 K → K} {eps : K} {out : Bool} {c : Ctx K} (g : Open nrm eps out c) (x : Nat → K) (i : Nat) :
    ((facesAt c.mesh i).map (fluxOut nrm eps c x i)).sum = ∑ j ∈ Finset.range c.mesh.elements.count, pass nrm eps c i j * ((x i + x j) / 2) := by
  unfold pass
  induction facesAt c.mesh i with
  | nil => simp
  | cons a t ih =>
    simp only [List.map_cons, List.sum_cons, add_mul, Finset.sum_add_distrib]
    rw [ih]
    congr 1
    unfold fluxOut
    rw [free_prescribed g]
    cases hac : acrossOf c a with
    | none => simp
    | some j =>
      obtain ⟨k, rfl, hk⟩ := across_lt g.cells.regular hac
      simp only [Option.some.injEq, Nat.cast_inj, ite_mul, zero_mul, Int.toNat_natCast, through]
      rw [Finset.sum_ite_eq (Finset.range c.mesh.elements.count) k]
      simp [hk]

theorem opened_pass {nrm : Vec3 K → K} {eps : K} {out : Bool} {c : Ctx K} (g : Open nrm eps out c) (i : Nat) :
    opened nrm eps c i = ∑ j ∈ Finset.range c.mesh.elements.count, pass nrm eps c i j := by
  unfold pass opened
  induction facesAt c.mesh i with
  | nil => simp
  | cons a t ih =>
    simp only [List.map_cons, List.sum_cons, Finset.sum_add_distrib]
    rw [ih]
    congr 1
    cases hac : acrossOf c a with
    | none => simp
    | some j =>
      obtain ⟨k, rfl, hk⟩ := across_lt g.cells.regular hac
      simp only [Option.some.injEq, Nat.cast_inj]
      rw [Finset.sum_ite_eq (Finset.range c.mesh.elements.count) k]
      simp [hk]

/-- Antisymmetric sums. -/
theorem anti_sum (n : Nat) (W S : Nat → Nat → K) (hW : ∀ i < n, ∀ j < n, W i j = -W j i) (hS : ∀ i j, S i j = S j i) :
    ∑ i ∈ Finset.range n, ∑ j ∈ Finset.range n, W i j * S i j = 0 := by
  have e : ∑ i ∈ Finset.range n, ∑ j ∈ Finset.range n, W i j * S i j = -∑ i ∈ Finset.range n, ∑ j ∈ Finset.range n, W i j * S i j := by
    conv_lhs => rw [Finset.sum_comm]
    rw [← Finset.sum_neg_distrib]
    refine Finset.sum_congr rfl fun i hi => ?_
    rw [← Finset.sum_neg_distrib]
    refine Finset.sum_congr rfl fun j hj => ?_
    rw [hW j (Finset.mem_range.1 hj) i (Finset.mem_range.1 hi), hS j i]
    ring
  linarith

/-- All that leaves a cell enters another. -/
theorem net_sum {nrm : Vec3 K → K} {eps : K} {out : Bool} {c : Ctx K} (g : Open nrm eps out c) (x : Nat → K) :
    ∑ i ∈ Finset.range c.mesh.elements.count, ((facesAt c.mesh i).map (fluxOut nrm eps c x i)).sum = 0 := by
  simp only [net_pass g]
  exact anti_sum _ _ _ (fun i hi j hj => pass_antisymm g hi hj) fun i j => by ring

/-- The energy of the fluxes. -/
theorem net_energy {nrm : Vec3 K → K} {eps : K} {out : Bool} {c : Ctx K} (g : Open nrm eps out c) (z : Nat → K) :
    ∑ i ∈ Finset.range c.mesh.elements.count, z i * ((facesAt c.mesh i).map (fluxOut nrm eps c z i)).sum = ∑ i ∈ Finset.range c.mesh.elements.count, opened nrm eps c i / 2 * z i ^ 2 := by
  have h0 := anti_sum c.mesh.elements.count (pass nrm eps c) (fun i j => z i * z j / 2) (fun i hi j hj => pass_antisymm g hi hj) fun i j => by ring
  have e : ∀ i, z i * ((facesAt c.mesh i).map (fluxOut nrm eps c z i)).sum = opened nrm eps c i / 2 * z i ^ 2 + ∑ j ∈ Finset.range c.mesh.elements.count, pass nrm eps c i j * (z i * z j / 2) := by
    intro i
    rw [net_pass g, opened_pass g, Finset.mul_sum, div_mul_eq_mul_div, mul_div_assoc, Finset.sum_mul, ← Finset.sum_add_distrib]
    refine Finset.sum_congr rfl fun j _ => by ring
  rw [Finset.sum_congr rfl fun i _ => e i, Finset.sum_add_distrib, h0, add_zero]

theorem kernel {nrm : Vec3 K → K} {eps : K} {out : Bool} {c : Ctx K} (g : Open nrm eps out c) (P : Flow K) (hrc : 0 < P.rc) (hdt : 0 < P.dt) (hs : Slow nrm eps c P) (z : Nat → K)
    (H : ∀ i < c.mesh.elements.count, P.rc / P.dt * volumeOf nrm eps c.mesh i * z i + P.v * ((facesAt c.mesh i).map (fluxOut nrm eps c z i)).sum = 0) : ∀ i < c.mesh.elements.count, z i = 0 := by
  have h1 : ∑ i ∈ Finset.range c.mesh.elements.count, (P.rc / P.dt * volumeOf nrm eps c.mesh i + P.v * opened nrm eps c i / 2) * z i ^ 2 = 0 := by
    have h2 : ∑ i ∈ Finset.range c.mesh.elements.count, z i * (P.rc / P.dt * volumeOf nrm eps c.mesh i * z i + P.v * ((facesAt c.mesh i).map (fluxOut nrm eps c z i)).sum) = 0 :=
      Finset.sum_eq_zero fun i hi => by rw [H i (Finset.mem_range.1 hi), mul_zero]
    have h3 := net_energy g z
    have h4 : ∑ i ∈ Finset.range c.mesh.elements.count, z i * (P.rc / P.dt * volumeOf nrm eps c.mesh i * z i + P.v * ((facesAt c.mesh i).map (fluxOut nrm eps c z i)).sum) =
        ∑ i ∈ Finset.range c.mesh.elements.count, P.rc / P.dt * volumeOf nrm eps c.mesh i * z i ^ 2 +
          P.v * ∑ i ∈ Finset.range c.mesh.elements.count, z i * ((facesAt c.mesh i).map (fluxOut nrm eps c z i)).sum := by
      rw [Finset.mul_sum, ← Finset.sum_add_distrib]
      exact Finset.sum_congr rfl fun i _ => by ring
    rw [h3, h2, Finset.mul_sum, ← Finset.sum_add_distrib] at h4
    rw [h4]
    exact Finset.sum_congr rfl fun i _ => by ring
  have hpos : ∀ i < c.mesh.elements.count, 0 < sgn out * (P.rc / P.dt * volumeOf nrm eps c.mesh i + P.v * opened nrm eps c i / 2) := by
    intro i hi
    have h2 := hs i hi
    have h3 := g.cells.abs hi
    have h4 := (abs_lt.1 h2)
    have e : sgn out * (P.rc / P.dt * volumeOf nrm eps c.mesh i + P.v * opened nrm eps c i / 2) =
        (2 * (P.rc * |volumeOf nrm eps c.mesh i|) + sgn out * (P.v * P.dt * opened nrm eps c i)) / (2 * P.dt) := by
      rw [h3]
      field_simp
    rw [e]
    refine div_pos ?_ (by linarith)
    cases out <;> simp [sgn] <;> linarith
  have h5 : ∑ i ∈ Finset.range c.mesh.elements.count, sgn out * (P.rc / P.dt * volumeOf nrm eps c.mesh i + P.v * opened nrm eps c i / 2) * z i ^ 2 = 0 := by
    have h7 := congrArg (sgn out * ·) h1
    simp only [mul_zero, Finset.mul_sum] at h7
    refine Eq.trans (Finset.sum_congr rfl fun i _ => by ring) h7
  intro i hi
  have h6 := (Finset.sum_eq_zero_iff_of_nonneg fun i hi => mul_nonneg (hpos i (Finset.mem_range.1 hi)).le (sq_nonneg (z i))).1 h5 i (Finset.mem_range.2 hi)
  exact pow_eq_zero_iff (two_ne_zero) |>.1 ((mul_eq_zero.1 h6).resolve_left (hpos i hi).ne')

/-- One face. -/
theorem divergenceFace_some {nrm : Vec3 K → K} {eps : K} {c : Ctx K} {out : Bool} (g : Cells nrm eps out c) {i : Nat} (hi : i < c.mesh.elements.count) {id : Int} {e : Elem}
    (h1 : c.mesh.elements.idAt? i = some id) (h2 : c.mesh.elements.get? id = some e) {cv : ControlVolume K} (hcv : controlVolume c.mesh e.faceIds (ControlVolume.new 0) = some cv)
    {fid : Int} (hf : fid ∈ e.faceIds) : ∃ out, divergenceFace nrm eps c i cv fid = some out ∧ ∀ st ∈ out, st.Ok c.mesh.elements.count := by
  obtain ⟨f, hf1, hid, -⟩ := face_of g.regular hi (facesAt_eq h1 h2 ▸ hf)
  have hV : volume nrm eps cv ≠ 0 := by
    have := g.size i hi
    simp only [volumeOf, h1, h2, hcv, Option.bind_some, Option.map_some, Option.getD_some] at this
    exact abs_pos.1 this
  by_cases hp : f.hasPair
  · obtain ⟨-, q, hq, hq1, hq2⟩ := g.regular.pairs fid f hf1 hp
    obtain ⟨k, k1, k2⟩ := g.regular.indices.2 _ (g.regular.owned _ q hq)
    have hk : k < c.mesh.elements.count := idAt_lt k2
    refine ⟨_, by simp only [divergenceFace, hf1, hp, if_true, hq, k1, Option.bind_eq_bind, Option.bind_some, hV, if_false]; rfl, ?_⟩
    simp [Stamp.Ok, Equation.InRange, hi, hk]
  · cases hv : fixedValue c.field fid with
    | none => exact ⟨[], by simp [divergenceFace, hf1, hp, hv], by simp⟩
    | some v =>
      refine ⟨_, by simp only [divergenceFace, hf1, hp, hv, Bool.false_eq_true, if_false, Option.bind_eq_bind, Option.bind_some, hV]; rfl, ?_⟩
      simp [Stamp.Ok, Equation.InRange, hi]

/-- `divergence` succeeds. -/
theorem divergence_some {nrm : Vec3 K → K} {eps : K} {c : Ctx K} {out : Bool} (g : Open nrm eps out c) : ∃ s, divergence nrm eps c = some s ∧ s.n = c.mesh.elements.count ∧ s.kind = .sparse ∧
    ∀ x, ∀ i < c.mesh.elements.count, volumeOf nrm eps c.mesh i * s.residual x i = ((facesAt c.mesh i).map (fluxOut nrm eps c x i)).sum := by
  have hg : ∀ i ∈ List.range c.mesh.elements.count, ∃ o, elementRow c (fun _ cv fid => divergenceFace nrm eps c i cv fid) i = some o ∧
      ∀ st ∈ o, st.Ok (Sys.zero .sparse c.mesh.elements.count : Sys K).n := by
    intro i hi
    have hi := List.mem_range.1 hi
    obtain ⟨id, e, h1, h2, h3⟩ := cell g.cells.regular hi
    obtain ⟨cv, hcv⟩ := controlVolume_some g.cells.regular e.faceIds (fun fid hf => by
      obtain ⟨f, hf1, -⟩ := face_of g.cells.regular hi (h3 ▸ hf)
      exact ⟨f, hf1⟩) (ControlVolume.new 0)
    have hids := (controlVolume_spec _ _ _ _ hcv).1
    simp only [ControlVolume.new, Polyhedron.empty, List.nil_append] at hids
    have hout := fun fid (hf : fid ∈ e.faceIds) => divergenceFace_some g.cells hi h1 h2 hcv hf
    choose! o ho ho' using hout
    refine ⟨e.faceIds.flatMap o, ?_, ?_⟩
    · simp only [elementRow, h1, h2, hcv, Option.bind_eq_bind, Option.bind_some, hids]
      exact FemOp.collect_map _ _ o ho
    · intro st hst
      obtain ⟨fid, hf, hst⟩ := List.mem_flatMap.1 hst
      exact ho' fid hf st hst
  choose! o h1 h2 using hg
  obtain ⟨s, hs, -⟩ := Sys.assemble_spec ((List.range c.mesh.elements.count).flatMap o) (Sys.zero .sparse c.mesh.elements.count) (by
    intro st hst
    obtain ⟨i, hi, hst⟩ := List.mem_flatMap.1 hst
    exact h2 i hi st hst)
  have hl : divergence nrm eps c = some s := by
    simp only [divergence, FemOp.collect_map _ _ o h1, Option.bind_eq_bind, Option.bind_some, hs]
  obtain ⟨a1, a2⟩ := divergence_rows nrm eps c s hl
  refine ⟨s, hl, a1, (Sys.assemble_kind _ _ _ hs).trans rfl, fun x i hi => ?_⟩
  obtain ⟨b1, b2⟩ := a2 i hi x
  have b3 : s.b i = 0 := by
    have : volumeOf nrm eps c.mesh i * s.b i = 0 := by
      rw [b2]
      refine List.sum_eq_zero fun y hy => ?_
      obtain ⟨fid, -, rfl⟩ := List.mem_map.1 hy
      split_ifs with hac
      · simp [fluxOut, hac, free_prescribed g]
      · rfl
    exact (mul_eq_zero.1 this).resolve_left (abs_pos.1 (g.cells.size i hi))
  rw [Sys.residual, ← b1, b3, sub_zero, add_zero]

theorem open_with {nrm : Vec3 K → K} {eps : K} {c : Ctx K} {out : Bool} (g : Open nrm eps out c) (u : Nat → K) : Open nrm eps out { c with u := u } := ⟨cells_with g.cells u, g.opposite, g.free⟩

theorem start_free {nrm : Vec3 K → K} {eps : K} {c : Ctx K} {out : Bool} (g : Open nrm eps out c) (u : Nat → K) (i : Nat) : start c u i = u i := by
  have : (facesAt c.mesh i).findSome? (fixedValue c.field) = none := List.findSome?_eq_none_iff.2 fun fid _ => g.free fid
  simp [start, this]

/-- The system of a step. -/
theorem system {nrm : Vec3 K → K} {eps : K} {c : Ctx K} {out : Bool} (g : Open nrm eps out c) (P : Flow K) (hdt : 0 < P.dt) (o : Nat → K) :
    ∃ d q s, ddt { c with u := o } = some d ∧ divergence nrm eps { c with u := o } = some q ∧ (Sys.smul (P.rc / P.dt) d).add (Sys.smul P.v q) = some s ∧ s.n = c.mesh.elements.count ∧ s.kind ≠ .unknown ∧
      (∀ x, ∀ i < c.mesh.elements.count, volumeOf nrm eps c.mesh i * s.residual x i =
        P.rc / P.dt * volumeOf nrm eps c.mesh i * (x i - o i) + P.v * ((facesAt c.mesh i).map (fluxOut nrm eps c x i)).sum) ∧
      ∀ x, s.Solves x ↔ Carried nrm eps c P o x := by
  obtain ⟨q, q1, q2, q3, q4⟩ := divergence_some (open_with g o)
  have q2 : q.n = c.mesh.elements.count := q2
  have q4 : ∀ x, ∀ i < c.mesh.elements.count, volumeOf nrm eps c.mesh i * q.residual x i = ((facesAt c.mesh i).map (fluxOut nrm eps c x i)).sum := q4
  obtain ⟨d, d1, d2, d3, d4⟩ := ddt_some (c := { c with u := o }) g.cells.regular
  have d2 : d.n = c.mesh.elements.count := d2
  have d4 : ∀ x, ∀ i < c.mesh.elements.count, d.residual x i = x i - o i := fun x i hi => by rw [← start_free g o i]; exact d4 x i hi
  have hn : (Sys.smul (P.rc / P.dt) d).n = (Sys.smul P.v q).n := show d.n = q.n by rw [d2, q2]
  obtain ⟨s, e1, e2, -⟩ := (C18_residuals (Sys.smul (P.rc / P.dt) d) (Sys.smul P.v q) hn 0 (fun _ => 0) (fun _ => 0)).1
  have r1 := fun x i => (C18_residuals d q (show d.n = q.n by rw [d2, q2]) (P.rc / P.dt) (fun _ => 0) x).2.2.1.2 i
  have r2 := fun x i => (C18_residuals q q rfl P.v (fun _ => 0) x).2.2.1.2 i
  have hres : ∀ x, ∀ i < c.mesh.elements.count, volumeOf nrm eps c.mesh i * s.residual x i =
        P.rc / P.dt * volumeOf nrm eps c.mesh i * (x i - o i) + P.v * ((facesAt c.mesh i).map (fluxOut nrm eps c x i)).sum := fun x i hi => by
    obtain ⟨s', a1, -, a3⟩ := (C18_residuals (Sys.smul (P.rc / P.dt) d) (Sys.smul P.v q) hn 0 (fun _ => 0) x).1
    rw [e1, Option.some.injEq] at a1
    subst a1
    rw [a3 i, r1, r2, d4 x i hi, ← q4 x i hi]
    ring
  have hn' : s.n = c.mesh.elements.count := e2.trans d2
  refine ⟨d, q, s, d1, q1, e1, hn', ?_, hres, fun x => ?_⟩
  · unfold Sys.add at e1
    rw [if_pos hn, Option.some.injEq] at e1
    rw [← e1]
    simp only [Sys.smul, d3, q3]
    decide
  · rw [solves_residual, hn']
    refine forall₂_congr fun i hi => ?_
    have hV : volumeOf nrm eps c.mesh i ≠ 0 := abs_pos.1 (g.cells.size i hi)
    have := hres x i hi
    constructor
    · intro h0
      rw [h0, mul_zero] at this
      linear_combination -this
    · intro h0
      refine (mul_eq_zero.1 (this.trans ?_)).resolve_left hV
      linear_combination h0

/-- A step has exactly one result. -/
theorem step_run {nrm : Vec3 K → K} {eps : K} {c : Ctx K} {out : Bool} (g : Open nrm eps out c) (solver : Sys K → Nat → K) (hS : Sound solver) (junk : Nat → K)
    (P : Flow K) (hrc : 0 < P.rc) (hdt : 0 < P.dt) (hs : Slow nrm eps c P) (f : EqField K) (hf : Plain f) :
    ∃ u : EVec K, step nrm eps solver junk c P f = some { f with u := u } ∧ u.size = c.mesh.elements.count ∧ Carried nrm eps c P f.u.at' u.at' ∧
      ∀ y, Carried nrm eps c P f.u.at' y → ∀ i < c.mesh.elements.count, y i = u.at' i := by
  obtain ⟨d, q, s, e1, e2, e3, e4, e5, e6, e7⟩ := system g P hdt f.u.at'
  have hlin : ∀ (x y : Nat → K) (i : Nat), ((facesAt c.mesh i).map (fluxOut nrm eps c x i)).sum - ((facesAt c.mesh i).map (fluxOut nrm eps c y i)).sum =
      ((facesAt c.mesh i).map (fluxOut nrm eps c (fun j => x j - y j) i)).sum := fun x y i => by
    rw [net_pass g, net_pass g, net_pass g, ← Finset.sum_sub_distrib]
    exact Finset.sum_congr rfl fun j _ => by ring
  have hker : ∀ z : Nat → K, (∀ i < s.n, s.row z i = 0) → ∀ i < s.n, z i = 0 := by
    intro z hz
    rw [e4] at hz ⊢
    refine kernel g P hrc hdt hs z fun i hi => ?_
    have h0 := hz i hi
    rw [residual_row] at h0
    have a := e6 z i hi
    have b := e6 (fun _ => 0) i hi
    have l := hlin z (fun _ => 0) i
    simp only [sub_zero] at l
    linear_combination volumeOf nrm eps c.mesh i * h0 - a + b - P.v * l
  obtain ⟨u, h1, h2, h3⟩ := solve_run solver hS junk s e5 f hf hker
  refine ⟨u, ?_, h2.trans e4, (e7 _).1 h3, fun y hy i hi => ?_⟩
  · simp only [step, e1, e2, e3, Option.bind_eq_bind, Option.bind_some]
    exact h1
  · have hy := (e7 y).2 hy
    have := hker (fun j => y j - u.at' j) (fun i hi => by
      have a := hy i hi
      have b := h3 i hi
      have : s.row (fun j => y j - u.at' j) i = s.row y i - s.row u.at' i := by simp only [Sys.row, mul_sub, Finset.sum_sub_distrib]
      rw [this, a, b, sub_self]) i (e4 ▸ hi)
    exact sub_eq_zero.1 this

end FvmConvection
end ENigMA
