import Verif.Pde.FvmFlow
import Verif.Pde.FvmDivergenceProps
import Verif.Pde.FdmProps

/-!
# C119: the finite-volume operators of flow problems

The sign convention is the one of C66: what `divergence` builds stands for `A x + b`, `ddt` for `A x - b`.
-/

set_option linter.unusedSectionVars false
set_option autoImplicit false

namespace ENigMA

open FvmOp Polyhedron Equation

variable {K : Type} [Field K] [LinearOrder K] [IsStrictOrderedRing K]

namespace FvmFlowOp

/-- The statement with its value multiplied. -/
def scale (k : K) : Stamp K → Stamp K
  | .addA i j v => .addA i j (v * k)
  | .setA i j v => .setA i j (v * k)
  | .addB i v => .addB i (v * k)

theorem divergenceFace_scale (nrm : Vec3 K → K) (eps : K) (c : Ctx K) (el : Nat) (cv : ControlVolume K) (fid : Int) :
    divergenceFace nrm eps c el cv fid = (FvmOp.divergenceFace nrm eps c el cv fid).map (List.map (scale (c.u el))) := by
  unfold divergenceFace FvmOp.divergenceFace
  simp only [Option.bind_eq_bind]
  cases hf : c.mesh.faces.get? fid with
  | none => rfl
  | some f =>
    simp only [Option.bind_some]
    by_cases hp : f.hasPair
    · simp only [hp, if_true]
      cases hg : c.mesh.faces.get? f.pairFaceId with
      | none => rfl
      | some g =>
        simp only [Option.bind_some]
        cases hn : c.mesh.elements.indexOf? g.elementId with
        | none => rfl
        | some nl =>
          simp only [Option.bind_some]
          split_ifs <;> rfl
    · simp only [hp]
      cases hv : fixedValue c.field fid with
      | none => rfl
      | some v =>
        simp only [Bool.false_eq_true, if_false]
        split_ifs
        · rfl
        · simp only [Option.map_some, Option.pure_def, List.map_cons, List.map_nil, scale]
          congr 3
          ring

theorem collect_option_map {α β γ : Type} (h : β → γ) (l : List α) (f : α → Option (List β)) :
    FemOp.collect (l.map fun a => (f a).map (List.map h)) = (FemOp.collect (l.map f)).map (List.map h) := by
  induction l with
  | nil => rfl
  | cons a t ih =>
    simp only [List.map_cons, FemOp.collect, ih, Option.bind_eq_bind]
    cases f a with
    | none => rfl
    | some x =>
      cases FemOp.collect (t.map f) with
      | none => rfl
      | some y => simp

theorem elementRow_scale (nrm : Vec3 K → K) (eps : K) (c : Ctx K) (el : Nat) :
    elementRow c (fun _ cv fid => divergenceFace nrm eps c el cv fid) el =
      (elementRow c (fun _ cv fid => FvmOp.divergenceFace nrm eps c el cv fid) el).map (List.map (scale (c.u el))) := by
  unfold elementRow
  simp only [Option.bind_eq_bind]
  cases c.mesh.elements.idAt? el with
  | none => rfl
  | some id =>
    simp only [Option.bind_some]
    cases c.mesh.elements.get? id with
    | none => rfl
    | some e =>
      simp only [Option.bind_some]
      cases controlVolume c.mesh e.faceIds (ControlVolume.new 0) with
      | none => rfl
      | some cv =>
        simp only [Option.bind_some]
        rw [← collect_option_map]
        congr 1
        exact List.map_congr_left fun fid _ => divergenceFace_scale nrm eps c el cv fid

/-- The lines that the generic operator writes for a cell. -/
theorem elementRow_lines (nrm : Vec3 K → K) (eps : K) (c : Ctx K) (el : Nat) (out : List (Stamp K))
    (h : elementRow c (fun _ cv fid => FvmOp.divergenceFace nrm eps c el cv fid) el = some out) : ∀ st ∈ out, st.line = (el : Int) ∧ Adds st := by
  simp only [elementRow, Option.bind_eq_bind] at h
  obtain ⟨id, h1, h⟩ := Option.bind_eq_some_iff.1 h
  obtain ⟨e, h2, h⟩ := Option.bind_eq_some_iff.1 h
  obtain ⟨cv, h3, h⟩ := Option.bind_eq_some_iff.1 h
  have hids := (controlVolume_spec _ _ _ _ h3).1
  simp only [ControlVolume.new, Polyhedron.empty, List.nil_append] at hids
  rw [hids] at h
  obtain ⟨g, hg, rfl⟩ := FemOp.collect_some _ _ _ h
  intro st hst
  obtain ⟨fid, hfid, hst⟩ := List.mem_flatMap.1 hst
  exact (divergenceFace_res nrm eps c el id e.faceIds cv h3 fid hfid (g fid) (hg fid hfid) fun _ => 0).1 st hst

theorem scale_spec (k : K) (st : Stamp K) (i j n : Nat) : (scale k st).line = st.line ∧ (Adds st → Adds (scale k st)) ∧ ((scale k st).Ok n ↔ st.Ok n) ∧
    (Adds st → (scale k st).onA i j 0 = k * st.onA i j 0) ∧ (scale k st).onB i 0 = k * st.onB i 0 := by
  cases st with
  | addA a b v => simp [scale, Stamp.line, Adds, Stamp.Ok, Stamp.onA, Stamp.onB, mul_comm]
  | setA a b v => simp [scale, Stamp.line, Adds, Stamp.Ok, Stamp.onB]
  | addB a v => simp [scale, Stamp.line, Adds, Stamp.Ok, Stamp.onA, Stamp.onB, mul_comm]

end FvmFlowOp

/-- **C119.** The flow divergence is the generic one, row by row times the current value of the field in the cell: `u ∇·x` with `u` of the cell itself. -/
theorem C119_divergence (nrm : Vec3 K → K) (eps : K) (c : Ctx K) (g : Sys K) (hg : FvmOp.divergence nrm eps c = some g) :
    ∃ s, FvmFlowOp.divergence nrm eps c = some s ∧ s.n = c.mesh.elements.count ∧ s.n = g.n ∧
      ∀ i < s.n, (∀ j, s.A i j = c.u i * g.A i j) ∧ s.b i = c.u i * g.b i := by
  simp only [FvmOp.divergence, Option.bind_eq_bind] at hg
  obtain ⟨l, hl, hg⟩ := Option.bind_eq_some_iff.1 hg
  obtain ⟨r, hr, rfl⟩ := FemOp.collect_some _ _ _ hl
  have hlines : ∀ i < c.mesh.elements.count, ∀ st ∈ r i, st.line = (i : Int) ∧ Adds st := fun i hi =>
    FvmFlowOp.elementRow_lines nrm eps c i (r i) (hr i (List.mem_range.2 hi))
  have hr' : ∀ i ∈ List.range c.mesh.elements.count, elementRow c (fun _ cv fid => FvmFlowOp.divergenceFace nrm eps c i cv fid) i =
      some ((r i).map (FvmFlowOp.scale (c.u i))) := fun i hi => by
    rw [FvmFlowOp.elementRow_scale, hr i hi]; rfl
  have hok : ∀ st ∈ (List.range c.mesh.elements.count).flatMap r, st.Ok (Sys.zero .sparse c.mesh.elements.count : Sys K).n := by
    intro st hst
    by_contra hbad
    rw [Sys.assemble_none hst hbad] at hg
    cases hg
  have hok' : ∀ st ∈ (List.range c.mesh.elements.count).flatMap fun i => (r i).map (FvmFlowOp.scale (c.u i)),
      st.Ok (Sys.zero .sparse c.mesh.elements.count : Sys K).n := by
    intro st hst
    obtain ⟨i, hi, hst⟩ := List.mem_flatMap.1 hst
    obtain ⟨st0, h0, rfl⟩ := List.mem_map.1 hst
    exact (FvmFlowOp.scale_spec (c.u i) st0 0 0 _).2.2.1.2 (hok st0 (List.mem_flatMap.2 ⟨i, hi, h0⟩))
  obtain ⟨s, s1, s2, -, -, s5⟩ := Sys.assemble_spec _ _ hok'
  obtain ⟨g', g1, g2, -, -, g5⟩ := Sys.assemble_spec _ _ hok
  rw [hg] at g1
  cases g1
  have hlines' : ∀ i < c.mesh.elements.count, ∀ st ∈ (r i).map (FvmFlowOp.scale (c.u i)), st.line = (i : Int) ∧ Adds st := by
    intro i hi st hst
    obtain ⟨st0, h0, rfl⟩ := List.mem_map.1 hst
    have h := FvmFlowOp.scale_spec (c.u i) st0 0 0 0
    exact ⟨h.1.trans (hlines i hi st0 h0).1, h.2.1 (hlines i hi st0 h0).2⟩
  refine ⟨s, ?_, s2, by rw [s2, g2], fun i hi => ?_⟩
  · simp only [FvmFlowOp.divergence, Option.bind_eq_bind]
    rw [FemOp.collect_map _ _ _ hr']
    exact s1
  · have hi' : i < c.mesh.elements.count := lt_of_lt_of_eq hi s2
    have key : ∀ (F : Stamp K → K) (l : List (Stamp K)), (∀ st ∈ l, F (FvmFlowOp.scale (c.u i) st) = c.u i * F st) →
        ((l.map (FvmFlowOp.scale (c.u i))).map F).sum = c.u i * (l.map F).sum := by
      intro F l
      induction l with
      | nil => simp
      | cons a t ih =>
        intro h
        simp only [List.map_cons, List.sum_cons, h a (by simp), ih fun st hst => h st (by simp [hst])]
        ring
    refine ⟨fun j => ?_, ?_⟩
    · rw [(residual_eq _ _ s .sparse s1 hlines' (fun _ => 0) i hi').2.1 j, (residual_eq _ _ g .sparse hg hlines (fun _ => 0) i hi').2.1 j]
      exact key _ _ fun st hst => (FvmFlowOp.scale_spec _ _ _ _ 0).2.2.2.1 (hlines i hi' st hst).2
    · rw [(rowSum_eq _ _ s .sparse s1 hlines' (fun _ => 0) i hi').2.2, (rowSum_eq _ _ g .sparse hg hlines (fun _ => 0) i hi').2.2]
      exact key _ _ fun st _ => (FvmFlowOp.scale_spec _ _ _ 0 0).2.2.2.2

/-- **C119.** So a cell collects the fluxes through its faces times its own value, and a constant field gives zero in every closed cell. -/
theorem C119_flux (nrm : Vec3 K → K) (hN : IsNorm nrm) (eps : K) (heps : 0 ≤ eps ∧ eps < 1) (c : Ctx K) (g : Sys K)
    (hg : FvmOp.divergence nrm eps c = some g) :
    ∃ s, FvmFlowOp.divergence nrm eps c = some s ∧ s.n = c.mesh.elements.count ∧ (∀ x : Nat → K, ∀ i < s.n,
      volumeOf nrm eps c.mesh i * (s.row x i + s.b i) = c.u i * ((facesAt c.mesh i).map (fluxOut nrm eps c x i)).sum) ∧
      ∀ (v : K) (i : Nat), i < s.n → volumeOf nrm eps c.mesh i ≠ 0 → ClosedCell nrm eps c v i → s.row (fun _ => v) i + s.b i = 0 := by
  obtain ⟨s, s1, s2, s3, s4⟩ := C119_divergence nrm eps c g hg
  obtain ⟨h1, h2⟩ := C66_divergence nrm eps c g hg
  have hrow : ∀ (x : Nat → K) (i : Nat), i < s.n → s.row x i + s.b i = c.u i * (g.row x i + g.b i) := by
    intro x i hi
    rw [(s4 i hi).2, mul_add]
    simp only [Sys.row, Finset.mul_sum, s3]
    congr 1
    exact Finset.sum_congr rfl fun j _ => by rw [(s4 i hi).1 j]; ring
  refine ⟨s, s1, s2, fun x i hi => ?_, fun v i hi hV hc => ?_⟩
  · rw [hrow x i hi, ← h2 x i (s3 ▸ hi)]
    ring
  · rw [hrow _ i hi, C66_constant nrm hN eps heps c g hg v i (s3 ▸ hi) hV hc, mul_zero]

/-- **C119.** Momentum is not conserved: across a face between the cells `i` and `j`, whose two sides have the same area and opposite normals, the one
side gives away and the other receives the same flux times its own value, so that together they gain `u i - u j` times the flux. -/
theorem C119_not_conservative (nrm : Vec3 K → K) (eps : K) (c : Ctx K) (x : Nat → K) (i j : Nat) (fid gid : Int)
    (hf : acrossOf c fid = some (j : Int)) (hg : acrossOf c gid = some (i : Int))
    (ha : areaOf nrm eps c.mesh gid = areaOf nrm eps c.mesh fid) (hn : normalOf nrm eps c.mesh gid = -normalOf nrm eps c.mesh fid) :
    c.u i * fluxOut nrm eps c x i fid + c.u j * fluxOut nrm eps c x j gid = (c.u i - c.u j) * fluxOut nrm eps c x i fid ∧
    fluxOut nrm eps c x i fid + fluxOut nrm eps c x j gid = 0 := by
  simp only [fluxOut, hf, hg, ha, hn, Int.toNat_natCast, Vec3.neg_x, Vec3.neg_y, Vec3.neg_z]
  constructor <;> ring

/-- **C119.** `ddt` gives the change of every cell from its old value, which is the prescribed one where there is one. -/
theorem C119_ddt (f : EqField K) (m : Mesh K) (hf : IndicesOk f.uFixed m.elements.count) (hu : m.elements.count ≤ f.u.size) :
    ∃ s, FvmFlowOp.ddt f m = some s ∧ s.n = m.elements.count ∧ (∀ x : Nat → K, ∀ i < s.n, s.row x i - s.b i = x i - (prescribed f i).getD (f.u.at' i)) := by
  obtain ⟨s, h1, h2, h3, h4⟩ := C55_ddt f m.elements.count hf hu
  exact ⟨s, h1, h2, fun x i hi => by rw [h3 x i (h2 ▸ hi), h4 i (h2 ▸ hi)]⟩

/-! ### The hypotheses are met -/

/-- The two cubes, with different values in the cells: the common face meets the conditions, and the sum over the cells of the fluxes of the field
`x = (1, 3)` is not that through the boundary alone: the common face adds `(0 - 1) * -2`. -/
example : (FvmOp.divergence l1 (1 / 1024) twoCubesCtx).isSome = true ∧
    (∃ fid ∈ facesAt twoCubesCtx.mesh 0, ∃ gid ∈ facesAt twoCubesCtx.mesh 1, acrossOf twoCubesCtx fid = some 1 ∧ acrossOf twoCubesCtx gid = some 0 ∧
      areaOf l1 (1 / 1024) twoCubesCtx.mesh gid = areaOf l1 (1 / 1024) twoCubesCtx.mesh fid ∧
      normalOf l1 (1 / 1024) twoCubesCtx.mesh gid = -normalOf l1 (1 / 1024) twoCubesCtx.mesh fid ∧
      twoCubesCtx.u 0 * fluxOut l1 (1 / 1024) twoCubesCtx (fun i => if i = 0 then 1 else 3) 0 fid +
        twoCubesCtx.u 1 * fluxOut l1 (1 / 1024) twoCubesCtx (fun i => if i = 0 then 1 else 3) 1 gid = 2) := by
  decide +kernel

example : ∃ f : EqField ℚ, IndicesOk f.uFixed twoCubesFaces.elements.count ∧ twoCubesFaces.elements.count ≤ f.u.size ∧ prescribed f 1 = some 5 :=
  ⟨{ method := .fvm, uFixed := SMap.empty.insert 1 5, uSource := SMap.empty, u := ⟨2, fun _ => 0⟩ }, fun i v h => by
    rw [SMap.find?_insert] at h
    split_ifs at h with hi
    · subst hi; decide +kernel
    · simp at h, by decide +kernel, by decide +kernel⟩

end ENigMA
