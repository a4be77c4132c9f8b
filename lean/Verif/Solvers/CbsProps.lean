import Verif.Solvers.Cbs
import Verif.Pde.FemFlowProps
import Verif.Pde.EquationProps
import Mathlib.LinearAlgebra.FiniteDimensional.Basic

/-!
# Properties of the two-dimensional CBS solver: C118

Fields are vectors with one component per node, `atNodes m w` gives the value at a node. `mass`, `diffusion`, `convection`, `stream` and `derivative`
are the integrals over the mesh of `Verif.Pde.FemFlowProps`. A weak equation is required for the test functions that vanish at the nodes with a
prescribed value.
-/

set_option linter.unusedSectionVars false
set_option autoImplicit false

namespace ENigMA
open FemOp FemStructuralOp FemFlowOp Equation

variable {K : Type} [Field K] [LinearOrder K] [IsStrictOrderedRing K]

namespace Cbs

/-! ### Specification -/

/-- `∫ φ ψ` over the mesh. -/
def mass (m : Mesh K) (φ ψ : Int → K) : K := ((elemsId m).map fun p => massTerm m φ ψ p.2).sum

/-- `-∫ th ∇φ · ∇ψ` over the mesh. -/
def diffusion (th : Int → K) (m : Mesh K) (φ ψ : Int → K) : K := ((elemsId m).map fun p => diffusionTerm (th p.1) m φ ψ p.2).sum

/-- `± ∫ φ (u · ∇ψ)` over the mesh, with the sign of the orientation of the triangles. -/
def convection (m : Mesh K) (u v φ ψ : Int → K) : K := ((elemsId m).map fun p => convectionTerm m u v φ ψ p.2).sum

/-- `∫ (ū · ∇φ) (ū · ∇ψ)` over the mesh. -/
def stream (m : Mesh K) (u v φ ψ : Int → K) : K := ((elemsId m).map fun p => streamTerm m u v φ ψ p.2).sum

/-- `± ∫ φ ∂ψ` over the mesh, with the sign of the orientation of the triangles. -/
def derivative (c : Int) (m : Mesh K) (φ ψ : Int → K) : K := ((elemsId m).map fun p => gradientTerm c m φ ψ p.2).sum

/-- A test function of the field: zero at the nodes with a prescribed value. -/
def Test (m : Mesh K) (f : EqField K) (φ : Int → K) : Prop := ∀ i x, m.nodes.idAt? i = some x → prescribed f i ≠ none → φ x = 0

/-- `w` has the prescribed values. -/
def Prescribed (m : Mesh K) (f : EqField K) (w : Nat → K) : Prop := ∀ i < m.nodes.count, ∀ v, prescribed f i = some v → w i = v

/-- The momentum equation of a component: `f` holds its old values, `w` the new ones, `U`, `V` are the velocities of the convection. -/
def Momentum (m : Mesh K) (th : Int → K) (dt ν : K) (U V : Nat → K) (f : EqField K) (g : K) (w : Nat → K) : Prop :=
  Prescribed m f w ∧ ∀ φ, Test m f φ →
    1 / dt * (mass m φ (atNodes m w) - mass m φ (atNodes m f.u.at')) - ν * diffusion th m φ (atNodes m w) +
      (convection m (atNodes m U) (atNodes m V) φ (atNodes m w) - dt * stream m (atNodes m U) (atNodes m V) φ (atNodes m w)) =
    g * (m.nodes.ids.map φ).sum

/-- The equation of the pressure `w`, for the velocities `U`, `V`. -/
def Pressure (m : Mesh K) (th : Int → K) (dt : K) (U V : Nat → K) (f : EqField K) (w : Nat → K) : Prop :=
  Prescribed m f w ∧ ∀ φ, Test m f φ →
    diffusion th m φ (atNodes m w) = 1 / dt * (derivative 0 m φ (atNodes m U) + derivative 1 m φ (atNodes m V))

/-- The correction of the component `c` of the velocity from `f` to `w` by the pressure `P`. -/
def Corrected (m : Mesh K) (k : K) (c : Int) (f : EqField K) (P w : Nat → K) : Prop :=
  Prescribed m f w ∧ ∀ φ, Test m f φ → mass m φ (atNodes m w) - mass m φ (atNodes m f.u.at') = -k * derivative c m φ (atNodes m P)

/-- The linear solver returns a solution when there is one. -/
def SolverOk (solver : Sys K → Nat → K) : Prop := ∀ s : Sys K, (∃ x, s.Solves x) → s.Solves (solver s)

/-- The solver solves systems that have no load by zero: what a regular system allows only. -/
def SolverZero (solver : Sys K → Nat → K) : Prop := ∀ s : Sys K, (∀ i < s.n, s.b i = 0) → ∀ i < s.n, solver s i = 0

/-- The meshes considered: consistent, in the plane, with triangles that have an area and known thicknesses, no tetrahedra, and ids as `ddt` expects
them. -/
structure Plane (E : Env K) (th : Int → K) : Prop where
  norm : IsNorm E.nrm
  wf : E.mesh.WF
  rt : E.mesh.nodes.RoundTrip
  sheet : Sheet E.mesh
  plates : Plates E.mesh E.made th
  contiguous : Contiguous E.mesh
  ids : ∀ id ∈ E.mesh.nodes.ids, 0 ≤ id ∧ id < E.mesh.nodes.count

/-- A field of the solver: one value per node, and prescribed values at existing nodes. -/
structure FieldOk (m : Mesh K) (f : EqField K) : Prop where
  method : f.method = .fem
  size : f.u.size = m.nodes.count
  fixed : IndicesOk f.uFixed m.nodes.count

/-- A solver made by its constructor, to whose fields prescribed values and initial values may have been given. -/
structure Ok (E : Env K) (c : Cbs K) : Prop where
  u : FieldOk E.mesh c.u
  v : FieldOk E.mesh c.v
  p : FieldOk E.mesh c.p
  G1 : FemFlowOp.gradient E.nrm 0 1 E.mesh = some c.G1
  G2 : FemFlowOp.gradient E.nrm 1 1 E.mesh = some c.G2

/-! ### Lemmas -/

/-- `w` has the prescribed values and satisfies the rows of the other nodes. -/
def Met (s : Sys K) (f : EqField K) (w : Nat → K) : Prop :=
  (∀ i < s.n, ∀ v, prescribed f i = some v → w i = v) ∧ ∀ i < s.n, prescribed f i = none → s.row w i = s.b i

theorem solveWith_spec (E : Env K) (hs : SolverOk E.solver) (s : Sys K) (f : EqField K) (hm : f.method = .fem) (hk : s.kind ≠ .unknown)
    (hf : IndicesOk f.uFixed s.n) :
    ∃ f', solveWith E s f = some f' ∧ f'.u.size = s.n ∧ f'.uFixed = f.uFixed ∧ f'.method = .fem ∧
      (∀ i < s.n, ∀ v, prescribed f i = some v → f'.u.at' i = v) ∧ ((∃ w, Met s f w) → Met s f f'.u.at') := by
  obtain ⟨e', f', h1, h2, h3, h4, h5, h6, h7⟩ := C19_solve E.solver E.junk E.junk' s f hm hk hf
  refine ⟨f', ?_, h3, h4, ?_, h5, ?_⟩
  · simp only [solveWith, h1, Option.bind_eq_bind, Option.bind_some, h2]
  · unfold solve at h2
    split at h2
    · obtain ⟨a, -, h2⟩ := Option.bind_eq_some_iff.1 h2
      obtain ⟨b, -, h2⟩ := Option.bind_eq_some_iff.1 h2
      cases h2
      exact hm
    · obtain ⟨b, -, h2⟩ := Option.bind_eq_some_iff.1 h2
      cases h2
      exact hm
  · rintro ⟨w, hw1, hw2⟩
    refine ⟨h5, h7 (hs _ ?_)⟩
    obtain ⟨e'', g1, -, -, -, g5⟩ := C19_setElimination E.junk s f hm hf
    rw [h1] at g1
    cases g1
    refine ⟨fun k => w (((freeDofs f s.n)[k]?).getD 0), (g5 _ w (fun k i hk => by simp [hk]) (fun i v hv => hw1 i ?_ v hv)).2 hw2⟩
    have := (hf _ _ hv).2
    omega

theorem solveWith_zero (E : Env K) (hz : SolverZero E.solver) (s : Sys K) (f : EqField K) (hm : f.method = .fem) (hk : s.kind ≠ .unknown)
    (hf : IndicesOk f.uFixed s.n) (hw : Met s f fun _ => 0)
    (f' : EqField K) (h : solveWith E s f = some f') : ∀ i < s.n, f'.u.at' i = 0 := by
  have hb : ∀ i < s.n, prescribed f i = none → s.b i = 0 := fun i hi hi' => by simpa [Sys.row] using (hw.2 i hi hi').symm
  have hp : ∀ i < s.n, ∀ v, prescribed f i = some v → v = 0 := fun i hi v hv => (hw.1 i hi v hv).symm
  obtain ⟨e', f'', h1, h2, h3, h4, h5, h6, h7⟩ := C19_solve E.solver E.junk E.junk' s f hm hk hf
  obtain ⟨e'', g1, g2, g3, g4, g5, g6, -⟩ := setElimination_spec E.junk s f hm hf
  rw [h1] at g1
  cases g1
  simp only [solveWith, h1, Option.bind_eq_bind, Option.bind_some, h2, Option.some.injEq] at h
  subst h
  intro i hi
  cases hpi : prescribed f i with
  | some v => rw [h5 i hi v hpi]; exact hp i hi v hpi
  | none =>
    have hi' : i ∈ freeDofs f s.n := by simp [freeDofs, hi, hpi]
    obtain ⟨k, hk, hki⟩ := List.getElem_of_mem hi'
    rw [h6 k i (by rw [List.getElem?_eq_getElem hk, hki])]
    refine hz _ (fun k' hk' => ?_) k (g5 ▸ hk)
    rw [g5] at hk'
    obtain ⟨j, hj, hqj, hrj, -⟩ := sel_rank (q := fun i => (prescribed f i).isNone) (n := s.n) hk'
    have hj' : prescribed f j = none := by simpa using hqj
    rw [← hrj, g6 j hj hj', hb j hj hj', zero_sub, neg_eq_zero]
    refine Finset.sum_eq_zero fun l hl => ?_
    cases hpl : prescribed f l with
    | none => rfl
    | some v => simp [hp l (Finset.mem_range.1 hl) v hpl]

/-- The rows of the free nodes, tested. -/
theorem met_iff (m : Mesh K) (hwf : m.WF) (s : Sys K) (hn : s.n = m.nodes.count) (f : EqField K) (w : Nat → K) :
    Met s f w ↔ Prescribed m f w ∧ ∀ φ, Test m f φ → s.form (nodal m φ) w = s.load (nodal m φ) := by
  have hform : ∀ φ : Int → K, s.form (nodal m φ) w = ∑ i ∈ Finset.range s.n, nodal m φ i * s.row w i := by
    intro φ
    simp only [Sys.form, Sys.row, Finset.mul_sum]
    refine Finset.sum_congr rfl fun i _ => Finset.sum_congr rfl fun j _ => by ring
  unfold Met Prescribed
  rw [hn]
  refine and_congr_right fun _ => ⟨fun h φ hφ => ?_, fun h i hi hp => ?_⟩
  · rw [hform]
    simp only [Sys.load]
    refine Finset.sum_congr rfl fun i hi => ?_
    have hi := Finset.mem_range.1 hi
    cases hp : prescribed f i with
    | none => rw [h i (hn ▸ hi) hp]
    | some v =>
      obtain ⟨x, hx⟩ := idAt_of_lt m i (hn ▸ hi)
      have : nodal m φ i = 0 := by simp [nodal, hx, hφ i x hx (by simp [hp])]
      rw [this]; simp
  · obtain ⟨x, hx⟩ := idAt_of_lt m i hi
    have h1 := h (fun z => if z = x then 1 else 0) (by
      intro j y hy hpy
      by_cases hxy : y = x
      · subst hxy
        have e1 := (List.getElem?_eq_some_iff.1 hx)
        have e2 := (List.getElem?_eq_some_iff.1 hy)
        obtain ⟨l1, e1⟩ := e1
        obtain ⟨l2, e2⟩ := e2
        have : j = i := (hwf.nodes.1.getElem_inj_iff).1 (e2.trans e1.symm)
        rw [this] at hpy
        exact absurd hp hpy
      · simp [hxy])
    have hi' : i < s.n := hn ▸ hi
    rw [← Sys.form_row s i hi', ← Sys.load_single s i hi']
    have hc := fun k (hk : k < s.n) => nodal_single m hwf i x hx k (hn ▸ hk)
    rw [← Sys.form_congr s _ _ w w hc (fun _ _ => rfl), h1]
    simp only [Sys.load]
    exact Finset.sum_congr rfl fun k hk => by rw [hc k (Finset.mem_range.1 hk)]

theorem form_atNodes (m : Mesh K) (hrt : m.nodes.RoundTrip) (s : Sys K) (hn : s.n = m.nodes.count) (φ : Int → K) (w : Nat → K) :
    s.form (nodal m φ) w = s.form (nodal m φ) (nodal m (atNodes m w)) :=
  Sys.form_congr s _ _ _ _ (fun _ _ => rfl) fun i hi => (nodal_atNodes m hrt w i (hn ▸ hi)).symm

theorem sum_nodal (m : Mesh K) (φ : Int → K) : ∑ i ∈ Finset.range m.nodes.count, nodal m φ i = (m.nodes.ids.map φ).sum := by
  rw [Finset.sum_range]
  rw [← List.sum_ofFn]
  congr 1
  apply List.ext_getElem (by simp [Cont.count])
  intro i h1 h2
  have hi : i < m.nodes.ids.length := by simpa using h2
  simp [nodal, Cont.idAt?, hi]

/-- `load` of a right-hand side that is a matrix times a vector. -/
theorem load_row (s t : Sys K) (hn : s.n = t.n) (v w : Nat → K) (h : ∀ i < s.n, s.b i = t.row w i) : s.load v = t.form v w := by
  simp only [Sys.load, Sys.form]
  rw [← hn]
  refine Finset.sum_congr rfl fun i hi => ?_
  rw [h i (Finset.mem_range.1 hi)]
  simp only [Sys.row, Finset.mul_sum, ← hn]
  exact Finset.sum_congr rfl fun j _ => by ring

/-- The system of the momentum equation. -/
theorem momentum_spec (E : Env K) (th : Int → K) (hP : Plane E th) (c : Cbs K) (hc : Ok E c) (f : EqField K) (hf : FieldOk E.mesh f) (g : K) :
    ∃ s, momentum E c f g = some s ∧ s.n = E.mesh.nodes.count ∧ s.kind = .sparse ∧
      (∀ w, Met s f w ↔ Momentum E.mesh th c.dt (c.visc / c.dens) c.u.u.at' c.v.u.at' f g w) ∧
      ∀ φ w, s.form (nodal E.mesh φ) w = 1 / c.dt * mass E.mesh φ (atNodes E.mesh w) - c.visc / c.dens * diffusion th E.mesh φ (atNodes E.mesh w) +
        (convection E.mesh (atNodes E.mesh c.u.u.at') (atNodes E.mesh c.v.u.at') φ (atNodes E.mesh w) -
          c.dt * stream E.mesh (atNodes E.mesh c.u.u.at') (atNodes E.mesh c.v.u.at') φ (atNodes E.mesh w)) := by
  obtain ⟨M, m1, m2, m3, m4, m5⟩ := C117_ddt_partial hP.norm E.mesh hP.wf hP.rt hP.sheet.1 (fun id e h => (hP.sheet.2 id e h).1) hP.contiguous
    hP.ids f.u.at'
  obtain ⟨L, l1, l2, l3, l4, l5⟩ := C117_laplacian hP.norm E.made th E.mesh hP.wf hP.rt hP.sheet.1 hP.plates
  obtain ⟨D, d1, d2, d3, d4, d5, -⟩ := C117_convection hP.norm c.dt E.mesh hP.wf hP.rt hP.sheet c.u.u.at' c.v.u.at'
  let s : Sys K := { kind := .sparse, n := M.n, A := fun i j => 1 / c.dt * M.A i j - c.visc / c.dens * L.A i j + D.A i j,
                     b := fun i => 1 / c.dt * M.b i - c.visc / c.dens * L.b i + D.b i + g }
  have hF : ∀ φ w, s.form (nodal E.mesh φ) w =
      1 / c.dt * M.form (nodal E.mesh φ) w - c.visc / c.dens * L.form (nodal E.mesh φ) w + D.form (nodal E.mesh φ) w := by
    intro φ w
    simp only [Sys.form, s, l2, m2, d2, Finset.mul_sum, ← Finset.sum_sub_distrib, ← Finset.sum_add_distrib]
    exact Finset.sum_congr rfl fun i _ => Finset.sum_congr rfl fun j _ => by ring
  refine ⟨s, ?_, m2, rfl, fun w => ?_, fun φ w => ?_⟩
  rotate_left 2
  · rw [hF, form_atNodes E.mesh hP.rt M m2 φ w, form_atNodes E.mesh hP.rt L l2 φ w, form_atNodes E.mesh hP.rt D d2 φ w, m5, l5, d5]
    rfl
  · have e1 : M.n = L.n := by rw [m2, l2]
    have e2 : M.n = D.n := by rw [m2, d2]
    simp only [momentum, hf.size, hc.u.size, hc.v.size, and_self, if_true, m1, l1, d1, Option.bind_eq_bind, Option.bind_some, Sys.sub, Sys.smul, if_pos e1,
      Sys.add, if_pos e2, m3, l3, d3, Sys.assignReal, s]
    rfl
  rw [met_iff E.mesh hP.wf s m2 f w]
  unfold Momentum
  refine and_congr_right fun _ => forall_congr' fun φ => imp_congr_right fun _ => ?_
  have hL : s.load (nodal E.mesh φ) = 1 / c.dt * M.form (nodal E.mesh φ) f.u.at' + g * (E.mesh.nodes.ids.map φ).sum := by
    rw [← load_row M M rfl _ _ m4, ← sum_nodal]
    simp only [Sys.load, s, m2, Finset.mul_sum, ← Finset.sum_add_distrib]
    refine Finset.sum_congr rfl fun i hi => ?_
    have hi := Finset.mem_range.1 hi
    rw [l4 i (l2 ▸ hi), d4 i (d2 ▸ hi)]
    ring
  rw [hF, hL, form_atNodes E.mesh hP.rt M m2 φ w, form_atNodes E.mesh hP.rt L l2 φ w, form_atNodes E.mesh hP.rt D d2 φ w,
    form_atNodes E.mesh hP.rt M m2 φ f.u.at', m5, m5, l5, d5]
  unfold mass diffusion convection stream
  constructor <;> intro h <;> linear_combination h

theorem pressure_spec (E : Env K) (th : Int → K) (hP : Plane E th) (c : Cbs K) (hc : Ok E c) :
    ∃ s, pressureSystem E c = some s ∧ s.n = E.mesh.nodes.count ∧ s.kind = .sparseSymmetric ∧
      (∀ w, Met s c.p w ↔ Pressure E.mesh th c.dt c.u.u.at' c.v.u.at' c.p w) ∧
      ∀ φ w, s.form (nodal E.mesh φ) w = diffusion th E.mesh φ (atNodes E.mesh w) := by
  obtain ⟨L, l1, l2, l3, l4, l5⟩ := C117_laplacian hP.norm E.made th E.mesh hP.wf hP.rt hP.sheet.1 hP.plates
  obtain ⟨G1, a1, a2, a3, a4, a5, -⟩ := C117_gradient E.nrm 0 (Or.inl rfl) E.mesh hP.wf hP.rt hP.sheet
  obtain ⟨G2, b1, b2, b3, b4, b5, -⟩ := C117_gradient E.nrm 1 (Or.inr rfl) E.mesh hP.wf hP.rt hP.sheet
  have e1 : c.G1 = G1 := Option.some.inj (hc.G1.symm.trans a1)
  have e2 : c.G2 = G2 := Option.some.inj (hc.G2.symm.trans b1)
  let s := L.assignVec fun i => 1 / c.dt * (G1.row c.u.u.at' i + G2.row c.v.u.at' i)
  refine ⟨s, ?_, l2, l3, fun w => ?_, fun φ w => (form_atNodes E.mesh hP.rt L l2 φ w).trans (l5 _ _)⟩
  · simp only [pressureSystem, hc.u.size, hc.v.size, e1, e2, a2, b2, l1, l2, and_self, if_true, Option.bind_eq_bind, Option.bind_some]
    rfl
  rw [met_iff E.mesh hP.wf s l2 c.p w]
  unfold Pressure
  refine and_congr_right fun _ => forall_congr' fun φ => imp_congr_right fun _ => ?_
  have hF : s.form (nodal E.mesh φ) w = L.form (nodal E.mesh φ) w := rfl
  have hL : s.load (nodal E.mesh φ) = 1 / c.dt * (G1.form (nodal E.mesh φ) c.u.u.at' + G2.form (nodal E.mesh φ) c.v.u.at') := by
    simp only [Sys.load, Sys.form, s, Sys.assignVec, l2, a2, b2, ← Finset.sum_add_distrib, Finset.mul_sum]
    refine Finset.sum_congr rfl fun i hi => ?_
    have hi := Finset.mem_range.1 hi
    rw [l4 i (l2 ▸ hi)]
    simp only [Sys.row, a2, b2, ← Finset.sum_add_distrib, Finset.mul_sum, zero_add]
    exact Finset.sum_congr rfl fun j _ => by ring
  rw [hF, hL, form_atNodes E.mesh hP.rt L l2 φ w, form_atNodes E.mesh hP.rt G1 a2 φ, form_atNodes E.mesh hP.rt G2 b2 φ, l5, a5, b5]
  exact Iff.rfl

theorem correction_spec (E : Env K) (th : Int → K) (hP : Plane E th) (c : Cbs K) (hp : FieldOk E.mesh c.p) (f : EqField K) (hf : FieldOk E.mesh f)
    (k : Int) (hk : k = 0 ∨ k = 1) (G : Sys K) (hG : FemFlowOp.gradient E.nrm k 1 E.mesh = some G) :
    ∃ s, correction E c f G = some s ∧ s.n = E.mesh.nodes.count ∧ s.kind = .sparseSymmetric ∧
      (∀ w, Met s f w ↔ Corrected E.mesh (c.dt / c.dens) k f c.p.u.at' w) ∧
      ∀ φ w, s.form (nodal E.mesh φ) w = mass E.mesh φ (atNodes E.mesh w) := by
  obtain ⟨M, m1, m2, m3, m4, m5⟩ := C117_ddt_partial hP.norm E.mesh hP.wf hP.rt hP.sheet.1 (fun id e h => (hP.sheet.2 id e h).1) hP.contiguous
    hP.ids f.u.at'
  obtain ⟨G1, a1, a2, a3, a4, a5, -⟩ := C117_gradient E.nrm k hk E.mesh hP.wf hP.rt hP.sheet
  have e1 : G = G1 := Option.some.inj (hG.symm.trans a1)
  let s := M.assignVec fun i => -c.dt / c.dens * G1.row c.p.u.at' i
  refine ⟨s, ?_, m2, m3, fun w => ?_, fun φ w => (form_atNodes E.mesh hP.rt M m2 φ w).trans (m5 _ _)⟩
  · simp only [correction, hf.size, hp.size, e1, a2, m1, m2, and_self, if_true, Option.bind_eq_bind, Option.bind_some]
    rfl
  rw [met_iff E.mesh hP.wf s m2 f w]
  unfold Corrected
  refine and_congr_right fun _ => forall_congr' fun φ => imp_congr_right fun _ => ?_
  have hF : s.form (nodal E.mesh φ) w = M.form (nodal E.mesh φ) w := rfl
  have hL : s.load (nodal E.mesh φ) = M.form (nodal E.mesh φ) f.u.at' - c.dt / c.dens * G1.form (nodal E.mesh φ) c.p.u.at' := by
    rw [← load_row M M rfl _ _ m4]
    simp only [Sys.load, Sys.form, s, Sys.assignVec, m2, a2, ← Finset.sum_sub_distrib, Finset.mul_sum]
    refine Finset.sum_congr rfl fun i hi => ?_
    simp only [Sys.row, a2, mul_add, Finset.mul_sum, sub_eq_add_neg, ← Finset.sum_neg_distrib]
    congr 1
    exact Finset.sum_congr rfl fun j _ => by ring
  rw [hF, hL, form_atNodes E.mesh hP.rt M m2 φ w, form_atNodes E.mesh hP.rt M m2 φ f.u.at', form_atNodes E.mesh hP.rt G1 a2 φ, m5, m5, a5]
  unfold mass derivative
  constructor <;> intro h <;> linear_combination h

/-- The steps of `iterate` on the fields: each result exists, and has the fields of the right size. -/
theorem velocity_run (E : Env K) (th : Int → K) (hP : Plane E th) (hs : SolverOk E.solver) (c : Cbs K) (hc : Ok E c) :
    ∃ c', calculateVelocityField E c = some c' ∧ Ok E c' ∧ c'.p = c.p ∧ c'.dt = c.dt ∧ c'.dens = c.dens ∧ c'.visc = c.visc ∧
      c'.gx = c.gx ∧ c'.gy = c.gy ∧ c'.u.uFixed = c.u.uFixed ∧ c'.v.uFixed = c.v.uFixed ∧
      Prescribed E.mesh c.u c'.u.u.at' ∧ Prescribed E.mesh c.v c'.v.u.at' ∧
      ((∃ w, Momentum E.mesh th c.dt (c.visc / c.dens) c.u.u.at' c.v.u.at' c.u c.gx w) →
        Momentum E.mesh th c.dt (c.visc / c.dens) c.u.u.at' c.v.u.at' c.u c.gx c'.u.u.at') ∧
      ((∃ w, Momentum E.mesh th c.dt (c.visc / c.dens) c'.u.u.at' c.v.u.at' c.v c.gy w) →
        Momentum E.mesh th c.dt (c.visc / c.dens) c'.u.u.at' c.v.u.at' c.v c.gy c'.v.u.at') ∧
      (SolverZero E.solver → Momentum E.mesh th c.dt (c.visc / c.dens) c.u.u.at' c.v.u.at' c.u c.gx (fun _ => 0) →
        ∀ i < E.mesh.nodes.count, c'.u.u.at' i = 0) ∧
      (SolverZero E.solver → Momentum E.mesh th c.dt (c.visc / c.dens) c'.u.u.at' c.v.u.at' c.v c.gy (fun _ => 0) →
        ∀ i < E.mesh.nodes.count, c'.v.u.at' i = 0) := by
  obtain ⟨s, s1, s2, s3, s4, -⟩ := momentum_spec E th hP c hc c.u hc.u c.gx
  obtain ⟨u, a1, a2, a3, a4, a5, a6⟩ := solveWith_spec E hs s c.u hc.u.method (by rw [s3]; simp) (s2 ▸ hc.u.fixed)
  have hu : FieldOk E.mesh u := ⟨a4, a2.trans s2, a3 ▸ hc.u.fixed⟩
  have hc1 : Ok E { c with u := u } := ⟨hu, hc.v, hc.p, hc.G1, hc.G2⟩
  obtain ⟨t, t1, t2, t3, t4, -⟩ := momentum_spec E th hP { c with u := u } hc1 c.v hc.v c.gy
  obtain ⟨v, b1, b2, b3, b4, b5, b6⟩ := solveWith_spec E hs t c.v hc.v.method (by rw [t3]; simp) (t2 ▸ hc.v.fixed)
  refine ⟨{ c with u := u, v := v }, ?_, ⟨hu, ⟨b4, b2.trans t2, b3 ▸ hc.v.fixed⟩, hc.p, hc.G1, hc.G2⟩, rfl, rfl, rfl, rfl, rfl, rfl, a3, b3,
    fun i hi => a5 i (s2 ▸ hi), fun i hi => b5 i (t2 ▸ hi), ?_, ?_,
    fun hz hw => s2 ▸ solveWith_zero E hz s c.u hc.u.method (by rw [s3]; simp) (s2 ▸ hc.u.fixed) ((s4 _).2 hw) u a1,
    fun hz hw => t2 ▸ solveWith_zero E hz t c.v hc.v.method (by rw [t3]; simp) (t2 ▸ hc.v.fixed) ((t4 _).2 hw) v b1⟩
  · simp only [calculateVelocityField, s1, Option.bind_eq_bind, Option.bind_some, a1, t1, b1]
    rfl
  · rintro ⟨w, hw⟩
    exact (s4 _).1 (a6 ⟨w, (s4 w).2 hw⟩)
  · rintro ⟨w, hw⟩
    exact (t4 _).1 (b6 ⟨w, (t4 w).2 hw⟩)

theorem pressure_run (E : Env K) (th : Int → K) (hP : Plane E th) (hs : SolverOk E.solver) (c : Cbs K) (hc : Ok E c) :
    ∃ p, calculatePressureField E c = some { c with p := p } ∧ Ok E { c with p := p } ∧ p.uFixed = c.p.uFixed ∧ Prescribed E.mesh c.p p.u.at' ∧
      ((∃ w, Pressure E.mesh th c.dt c.u.u.at' c.v.u.at' c.p w) → Pressure E.mesh th c.dt c.u.u.at' c.v.u.at' c.p p.u.at') ∧
      (SolverZero E.solver → Pressure E.mesh th c.dt c.u.u.at' c.v.u.at' c.p (fun _ => 0) → ∀ i < E.mesh.nodes.count, p.u.at' i = 0) := by
  obtain ⟨s, s1, s2, s3, s4, -⟩ := pressure_spec E th hP c hc
  obtain ⟨p, a1, a2, a3, a4, a5, a6⟩ := solveWith_spec E hs s c.p hc.p.method (by rw [s3]; simp) (s2 ▸ hc.p.fixed)
  refine ⟨p, ?_, ⟨hc.u, hc.v, ⟨a4, a2.trans s2, a3 ▸ hc.p.fixed⟩, hc.G1, hc.G2⟩, a3, fun i hi => a5 i (s2 ▸ hi), ?_,
    fun hz hw => s2 ▸ solveWith_zero E hz s c.p hc.p.method (by rw [s3]; simp) (s2 ▸ hc.p.fixed) ((s4 _).2 hw) p a1⟩
  · simp only [calculatePressureField, s1, Option.bind_eq_bind, Option.bind_some, a1]
    rfl
  · rintro ⟨w, hw⟩
    exact (s4 _).1 (a6 ⟨w, (s4 w).2 hw⟩)

theorem correct_run (E : Env K) (th : Int → K) (hP : Plane E th) (hs : SolverOk E.solver) (c : Cbs K) (hc : Ok E c) :
    ∃ u v, correctVelocityField E c = some { c with u := u, v := v } ∧ Ok E { c with u := u, v := v } ∧
      u.uFixed = c.u.uFixed ∧ v.uFixed = c.v.uFixed ∧ Prescribed E.mesh c.u u.u.at' ∧ Prescribed E.mesh c.v v.u.at' ∧
      ((∃ w, Corrected E.mesh (c.dt / c.dens) 0 c.u c.p.u.at' w) → Corrected E.mesh (c.dt / c.dens) 0 c.u c.p.u.at' u.u.at') ∧
      ((∃ w, Corrected E.mesh (c.dt / c.dens) 1 c.v c.p.u.at' w) → Corrected E.mesh (c.dt / c.dens) 1 c.v c.p.u.at' v.u.at') ∧
      (SolverZero E.solver → Corrected E.mesh (c.dt / c.dens) 0 c.u c.p.u.at' (fun _ => 0) → ∀ i < E.mesh.nodes.count, u.u.at' i = 0) ∧
      (SolverZero E.solver → Corrected E.mesh (c.dt / c.dens) 1 c.v c.p.u.at' (fun _ => 0) → ∀ i < E.mesh.nodes.count, v.u.at' i = 0) := by
  obtain ⟨s, s1, s2, s3, s4, -⟩ := correction_spec E th hP c hc.p c.u hc.u 0 (Or.inl rfl) c.G1 hc.G1
  obtain ⟨t, t1, t2, t3, t4, -⟩ := correction_spec E th hP c hc.p c.v hc.v 1 (Or.inr rfl) c.G2 hc.G2
  obtain ⟨u, a1, a2, a3, a4, a5, a6⟩ := solveWith_spec E hs s c.u hc.u.method (by rw [s3]; simp) (s2 ▸ hc.u.fixed)
  obtain ⟨v, b1, b2, b3, b4, b5, b6⟩ := solveWith_spec E hs t c.v hc.v.method (by rw [t3]; simp) (t2 ▸ hc.v.fixed)
  refine ⟨u, v, ?_, ⟨⟨a4, a2.trans s2, a3 ▸ hc.u.fixed⟩, ⟨b4, b2.trans t2, b3 ▸ hc.v.fixed⟩, hc.p, hc.G1, hc.G2⟩, a3, b3,
    fun i hi => a5 i (s2 ▸ hi), fun i hi => b5 i (t2 ▸ hi), ?_, ?_,
    fun hz hw => s2 ▸ solveWith_zero E hz s c.u hc.u.method (by rw [s3]; simp) (s2 ▸ hc.u.fixed) ((s4 _).2 hw) u a1,
    fun hz hw => t2 ▸ solveWith_zero E hz t c.v hc.v.method (by rw [t3]; simp) (t2 ▸ hc.v.fixed) ((t4 _).2 hw) v b1⟩
  · simp only [correctVelocityField, s1, t1, Option.bind_eq_bind, Option.bind_some, a1, b1]
    rfl
  · rintro ⟨w, hw⟩
    exact (s4 _).1 (a6 ⟨w, (s4 w).2 hw⟩)
  · rintro ⟨w, hw⟩
    exact (t4 _).1 (b6 ⟨w, (t4 w).2 hw⟩)

theorem Ok.withDt {E : Env K} {c : Cbs K} (h : Ok E c) (dt : K) : Ok E { c with dt := dt } := ⟨h.u, h.v, h.p, h.G1, h.G2⟩

theorem sum_map_smul {α : Type} (k : K) (f : α → K) (l : List α) : (l.map fun a => k * f a).sum = k * (l.map f).sum := by
  induction l with
  | nil => simp
  | cons a t ih => simp only [List.map_cons, List.sum_cons, ih]; ring

/-- A sum over the elements, by what it does on a triangle of the mesh. -/
theorem sum_elems {m : Mesh K} {f g : Int × Elem → K} (h : ∀ p ∈ elemsId m, f p = g p) : ((elemsId m).map f).sum = ((elemsId m).map g).sum :=
  congrArg List.sum (List.map_congr_left h)

theorem atNodes_at (m : Mesh K) (hrt : m.nodes.RoundTrip) (x : Int) (hx : x ∈ m.nodes.ids) (w : Nat → K) :
    ∃ i < m.nodes.count, ∀ w' : Nat → K, atNodes m w' x = w' i := by
  obtain ⟨i, hi, hid⟩ := hrt.2 x hx
  refine ⟨i, (List.getElem?_eq_some_iff.1 hid).1, fun w' => ?_⟩
  simp [atNodes, nodeValue, hi]

/-- The integrals depend on the values of the last field at the nodes only. -/
theorem onTriangle_congr (m : Mesh K) (hwf : m.WF) {p : Int × Elem} (hp : p ∈ elemsId m) {f g : Int → Int → Int → K}
    (h : ∀ x y z, x ∈ m.nodes.ids → y ∈ m.nodes.ids → z ∈ m.nodes.ids → f x y z = g x y z) : onTriangle p.2 f = onTriangle p.2 g := by
  have hmem := hwf.elemNodes p.1 p.2 (mem_elemsId.1 hp).2
  unfold onTriangle
  split
  · next h1 h2 =>
    rw [h2] at hmem
    exact h _ _ _ (hmem _ (by simp)) (hmem _ (by simp)) (hmem _ (by simp))
  · rfl

/-- On the nodes of the mesh the field is the constant. -/
theorem atNodes_const (m : Mesh K) (hrt : m.nodes.RoundTrip) (k : K) (x : Int) (hx : x ∈ m.nodes.ids) : atNodes m (fun _ => k) x = k := by
  obtain ⟨i, hi, hid⟩ := hrt.2 x hx
  simp [atNodes, nodeValue, hi]

theorem atNodes_zero (m : Mesh K) (hrt : m.nodes.RoundTrip) (w : Nat → K) (hw : ∀ i < m.nodes.count, w i = 0) (x : Int) (hx : x ∈ m.nodes.ids) :
    atNodes m w x = 0 := by
  obtain ⟨i, hi, hid⟩ := hrt.2 x hx
  have hlt : i < m.nodes.count := (List.getElem?_eq_some_iff.1 hid).1
  simp [atNodes, nodeValue, hi, hw i hlt]

theorem mass_scale (m : Mesh K) (hwf : m.WF) (k : K) (φ ψ ψ' : Int → K) (h : ∀ x ∈ m.nodes.ids, ψ' x = k * ψ x) : mass m φ ψ' = k * mass m φ ψ := by
  unfold mass
  rw [← sum_map_smul]
  refine sum_elems fun p hp => ?_
  have := onTriangle_congr m hwf hp (f := fun x y z => |turn m x y z| / 2 * meanProduct x y z φ ψ')
    (g := fun x y z => k * (|turn m x y z| / 2 * meanProduct x y z φ ψ)) (fun x y z hx hy hz => by
      simp only [meanProduct, h x hx, h y hy, h z hz]; ring)
  refine this.trans ?_
  unfold massTerm onTriangle
  split <;> simp

theorem mass_left (m : Mesh K) (hwf : m.WF) (k : K) (φ α β ψ : Int → K) (h : ∀ x ∈ m.nodes.ids, φ x = k * α x + β x) :
    mass m φ ψ = k * mass m α ψ + mass m β ψ := by
  unfold mass
  rw [← sum_map_smul, ← List.sum_map_add]
  refine sum_elems fun p hp => ?_
  have := onTriangle_congr m hwf hp (f := fun x y z => |turn m x y z| / 2 * meanProduct x y z φ ψ)
    (g := fun x y z => k * (|turn m x y z| / 2 * meanProduct x y z α ψ) + |turn m x y z| / 2 * meanProduct x y z β ψ) (fun x y z hx hy hz => by
      simp only [meanProduct, h x hx, h y hy, h z hz]; ring)
  refine this.trans ?_
  unfold massTerm onTriangle
  split <;> simp

/-- The integral of a field from the integrals of the shape functions. -/
theorem mass_nodes (m : Mesh K) (hwf : m.WF) (φ ψ : Int → K) :
    mass m φ ψ = (m.nodes.ids.map fun x => φ x * mass m (fun z => if z = x then 1 else 0) ψ).sum := by
  have key : ∀ l : List Int, l.Nodup → mass m (fun z => if z ∈ l then φ z else 0) ψ = (l.map fun x => φ x * mass m (fun z => if z = x then 1 else 0) ψ).sum := by
    intro l
    induction l with
    | nil =>
      intro _
      rw [mass_left m hwf 0 _ (fun _ => 0) (fun _ => 0) ψ (fun x _ => by simp)]
      have : mass m (fun _ => 0) ψ = 0 * mass m (fun _ => 0) ψ + 0 := by
        have h := mass_left m hwf 1 (fun _ => 0) (fun _ => 0) (fun _ => 0) ψ (fun x _ => by simp)
        linear_combination -h
      rw [this]; simp
    | cons a t ih =>
      intro hn
      rw [List.nodup_cons] at hn
      rw [List.map_cons, List.sum_cons, ← ih hn.2]
      refine mass_left m hwf _ _ _ _ ψ fun x _ => ?_
      by_cases hx : x = a
      · subst hx; simp [hn.1]
      · simp [hx]
  rw [← key _ hwf.nodes.1]
  have := mass_left m hwf 1 φ (fun z => if z ∈ m.nodes.ids then φ z else 0) (fun _ => 0) ψ (fun x hx => by simp [hx])
  have h0 := mass_left m hwf 1 (fun _ => 0) (fun _ => 0) (fun _ => 0) ψ (fun x _ => by simp)
  linear_combination this - h0

theorem mass_zero (m : Mesh K) (hwf : m.WF) (φ ψ : Int → K) (h : ∀ x ∈ m.nodes.ids, ψ x = 0) : mass m φ ψ = 0 := by
  rw [mass_scale m hwf 0 φ ψ ψ fun x hx => by simp [h x hx]]
  simp

theorem diffusion_const (m : Mesh K) (hwf : m.WF) (th : Int → K) (k : K) (φ ψ : Int → K) (h : ∀ x ∈ m.nodes.ids, ψ x = k) : diffusion th m φ ψ = 0 := by
  have : diffusion th m φ ψ = ((elemsId m).map fun p => 0 * diffusionTerm (th p.1) m φ ψ p.2).sum := by
    refine sum_elems fun p hp => ?_
    rw [zero_mul]
    unfold diffusionTerm
    rw [onTriangle_congr m hwf hp (g := fun _ _ _ => 0) fun x y z hx hy hz => by
      simp only [dX, dY, gradX, gradY, h x hx, h y hy, h z hz]; ring]
    unfold onTriangle
    split <;> rfl
  rw [this, sum_map_smul, zero_mul]

theorem derivative_zero (c : Int) (m : Mesh K) (hwf : m.WF) (φ ψ : Int → K) (h : ∀ x ∈ m.nodes.ids, ψ x = 0) : derivative c m φ ψ = 0 := by
  have : derivative c m φ ψ = ((elemsId m).map fun p => 0 * gradientTerm c m φ ψ p.2).sum := by
    refine sum_elems fun p hp => ?_
    rw [zero_mul]
    unfold gradientTerm
    rw [onTriangle_congr m hwf hp (g := fun _ _ _ => 0) fun x y z hx hy hz => by
      simp [dX, dY, gradX, gradY, h x hx, h y hy, h z hz]]
    unfold onTriangle
    split <;> rfl
  rw [this, sum_map_smul, zero_mul]

theorem convection_zero (m : Mesh K) (hwf : m.WF) (u v φ ψ : Int → K) (hu : ∀ x ∈ m.nodes.ids, u x = 0) (hv : ∀ x ∈ m.nodes.ids, v x = 0) :
    convection m u v φ ψ = 0 ∧ stream m u v φ ψ = 0 := by
  have h1 : convection m u v φ ψ = ((elemsId m).map fun p => 0 * convectionTerm m u v φ ψ p.2).sum := by
    refine sum_elems fun p hp => ?_
    rw [zero_mul]
    unfold convectionTerm
    rw [onTriangle_congr m hwf hp (g := fun _ _ _ => 0) fun x y z hx hy hz => by
      simp [meanProduct, hu x hx, hu y hy, hu z hz, hv x hx, hv y hy, hv z hz]]
    unfold onTriangle
    split <;> rfl
  have h2 : stream m u v φ ψ = ((elemsId m).map fun p => 0 * streamTerm m u v φ ψ p.2).sum := by
    refine sum_elems fun p hp => ?_
    rw [zero_mul]
    unfold streamTerm
    rw [onTriangle_congr m hwf hp (g := fun _ _ _ => 0) fun x y z hx hy hz => by
      simp [mean, hu x hx, hu y hy, hu z hz, hv x hx, hv y hy, hv z hz]]
    unfold onTriangle
    split <;> rfl
  rw [h1, h2, sum_map_smul, sum_map_smul, zero_mul, zero_mul]
  exact ⟨rfl, rfl⟩

end Cbs

open Cbs

/-! ### Theorems -/

/-- **C118.** A solver made for a plane mesh is ready to be used, whatever the members and fields contain. -/
theorem C118_new (E : Env K) (th : Int → K) (hP : Plane E th) (dt dens visc gx gy : K) :
    ∃ c, Cbs.new E dt dens visc gx gy = some c ∧ Ok E c ∧ c.dt = dt ∧ c.dens = dens ∧ c.visc = visc ∧ c.gx = gx ∧ c.gy = gy ∧
      (∀ i, prescribed c.u i = none ∧ prescribed c.v i = none ∧ prescribed c.p i = none) ∧
      c.u.u.at' = E.junk ∧ c.v.u.at' = E.junk ∧ c.p.u.at' = E.junk := by
  obtain ⟨G1, a1, -⟩ := C117_gradient E.nrm 0 (Or.inl rfl) E.mesh hP.wf hP.rt hP.sheet
  obtain ⟨G2, b1, -⟩ := C117_gradient E.nrm 1 (Or.inr rfl) E.mesh hP.wf hP.rt hP.sheet
  have hf : FieldOk E.mesh ({ method := .fem, uFixed := SMap.empty, uSource := SMap.empty, u := ⟨E.mesh.nodes.count, E.junk⟩ } : EqField K) :=
    ⟨rfl, rfl, fun i v h => by simp [SMap.empty, SMap.find?, SMap.findL] at h⟩
  refine ⟨_, by simp only [Cbs.new, a1, b1, Option.bind_eq_bind, Option.bind_some]; rfl, ⟨hf, hf, hf, a1, b1⟩, rfl, rfl, rfl, rfl, rfl,
    fun i => ⟨rfl, rfl, rfl⟩, rfl, rfl, rfl⟩

/-- **C118.** A step on a plane mesh: it always gives a result, with the prescribed values in place, and

* the first velocities satisfy the momentum equations, the one of `v` with the new `u`,
* the pressure satisfies the pressure equation for them,
* the final velocities are the first ones corrected by the gradient of the pressure,

each of them when the equation has a solution. Missing for the full claim (a time step of the flow equations): the body force is added to every
equation, not integrated (`C118_gravity`), the pressure equation has no density while the correction has (`C118_density`), and the streamline term
destabilises (`C118_energy`). -/
theorem C118_iterate_partial (E : Env K) (th : Int → K) (hP : Plane E th) (hs : SolverOk E.solver) (dt : K) (c : Cbs K) (hc : Ok E c) :
    ∃ (us vs : EqField K) (c' : Cbs K), Cbs.iterate E dt c = some c' ∧ Ok E c' ∧
      c'.dt = dt ∧ c'.dens = c.dens ∧ c'.visc = c.visc ∧ c'.gx = c.gx ∧ c'.gy = c.gy ∧
      c'.u.uFixed = c.u.uFixed ∧ c'.v.uFixed = c.v.uFixed ∧ c'.p.uFixed = c.p.uFixed ∧
      (Prescribed E.mesh c.u c'.u.u.at' ∧ Prescribed E.mesh c.v c'.v.u.at' ∧ Prescribed E.mesh c.p c'.p.u.at') ∧
      us.uFixed = c.u.uFixed ∧ vs.uFixed = c.v.uFixed ∧
      ((∃ w, Momentum E.mesh th dt (c.visc / c.dens) c.u.u.at' c.v.u.at' c.u c.gx w) →
        Momentum E.mesh th dt (c.visc / c.dens) c.u.u.at' c.v.u.at' c.u c.gx us.u.at') ∧
      ((∃ w, Momentum E.mesh th dt (c.visc / c.dens) us.u.at' c.v.u.at' c.v c.gy w) →
        Momentum E.mesh th dt (c.visc / c.dens) us.u.at' c.v.u.at' c.v c.gy vs.u.at') ∧
      ((∃ w, Pressure E.mesh th dt us.u.at' vs.u.at' c.p w) → Pressure E.mesh th dt us.u.at' vs.u.at' c.p c'.p.u.at') ∧
      ((∃ w, Corrected E.mesh (dt / c.dens) 0 us c'.p.u.at' w) → Corrected E.mesh (dt / c.dens) 0 us c'.p.u.at' c'.u.u.at') ∧
      ((∃ w, Corrected E.mesh (dt / c.dens) 1 vs c'.p.u.at' w) → Corrected E.mesh (dt / c.dens) 1 vs c'.p.u.at' c'.v.u.at') := by
  obtain ⟨c1, v1, v2, v3, v4, v5, v6, v7, v8, v9, v10, v11, v12, v13, v14, -⟩ := velocity_run E th hP hs { c with dt := dt } (hc.withDt dt)
  obtain ⟨p, p1, p2, p3, p4, p5, -⟩ := pressure_run E th hP hs c1 v2
  obtain ⟨u, v, w1, w2, w3, w4, w5, w6, w7, w8, -⟩ := correct_run E th hP hs { c1 with p := p } p2
  simp only at v3 v4 v5 v6 v7 v8 v9 v10 v13 v14 w3 w4 w7 w8
  have hq : ∀ f g : EqField K, f.uFixed = g.uFixed → ∀ w, Prescribed E.mesh f w → Prescribed E.mesh g w := by
    intro f g h w hw i hi x hx
    exact hw i hi x (by simpa only [prescribed, h] using hx)
  refine ⟨c1.u, c1.v, { c1 with p := p, u := u, v := v }, ?_, w2, v4, v5, v6, v7, v8, w3.trans v9, w4.trans v10, p3.trans (by rw [v3]),
    ⟨hq _ _ v9 _ w5, hq _ _ v10 _ w6, v3 ▸ p4⟩, v9, v10, v13, v14, ?_, ?_, ?_⟩
  · simp only [Cbs.iterate, v1, p1, w1, Option.bind_eq_bind, Option.bind_some]
  · rw [← v3, ← v4]; exact p5
  · rw [← v4, ← v5]; exact w7
  · rw [← v4, ← v5]; exact w8

/-- **C118.** The force of gravity is wrong: a fluid at rest that is nowhere held falls with the velocity `dt g` after a step. That velocity satisfies
the momentum equation only without gravity or when the shape function of every node has the integral 1: gravity is added to every equation as it is. -/
theorem C118_gravity (m : Mesh K) (hwf : m.WF) (hrt : m.nodes.RoundTrip) (th : Int → K) (dt ν g : K) (hdt : dt ≠ 0) (U V : Nat → K) (f : EqField K)
    (hf : ∀ i, prescribed f i = none) (hU : ∀ i < m.nodes.count, U i = 0) (hV : ∀ i < m.nodes.count, V i = 0)
    (hf0 : ∀ i < m.nodes.count, f.u.at' i = 0) :
    Momentum m th dt ν U V f g (fun _ => dt * g) ↔
      g = 0 ∨ ∀ x ∈ m.nodes.ids, mass m (fun z => if z = x then 1 else 0) (fun _ => 1) = 1 := by
  have hM : ∀ φ, mass m φ (atNodes m fun _ => dt * g) = dt * g * mass m φ fun _ => 1 := fun φ =>
    mass_scale m hwf _ φ _ _ fun x hx => by rw [atNodes_const m hrt _ x hx, mul_one]
  have h0 : ∀ φ, mass m φ (atNodes m f.u.at') = 0 := fun φ => mass_zero m hwf φ _ (atNodes_zero m hrt _ hf0)
  have hD : ∀ φ, diffusion th m φ (atNodes m fun _ => dt * g) = 0 := fun φ => diffusion_const m hwf th _ φ _ (atNodes_const m hrt _)
  have hC := fun φ ψ => convection_zero m hwf (atNodes m U) (atNodes m V) φ ψ (atNodes_zero m hrt U hU) (atNodes_zero m hrt V hV)
  have key : ∀ φ, (1 / dt * (mass m φ (atNodes m fun _ => dt * g) - mass m φ (atNodes m f.u.at')) - ν * diffusion th m φ (atNodes m fun _ => dt * g) +
      (convection m (atNodes m U) (atNodes m V) φ (atNodes m fun _ => dt * g) - dt * stream m (atNodes m U) (atNodes m V) φ (atNodes m fun _ => dt * g)) =
      g * (m.nodes.ids.map φ).sum) ↔ g * (mass m φ (fun _ => 1) - (m.nodes.ids.map φ).sum) = 0 := by
    intro φ
    rw [hM, h0, hD, (hC φ _).1, (hC φ _).2]
    have : 1 / dt * (dt * g * mass m φ (fun _ => 1) - 0) = g * mass m φ fun _ => 1 := by field_simp; ring
    rw [this]
    constructor <;> intro h <;> linear_combination h
  have hsum : ∀ x ∈ m.nodes.ids, (m.nodes.ids.map fun z => if z = x then (1 : K) else 0).sum = 1 := by
    intro x hx
    have : (m.nodes.ids.map fun z => if z = x then (1 : K) else 0).sum = (m.nodes.ids.count x : K) := by
      generalize m.nodes.ids = l
      induction l with
      | nil => simp
      | cons a t ih =>
        simp only [List.map_cons, List.sum_cons, ih, List.count_cons]
        by_cases h : a = x <;> simp [h, add_comm]
    rw [this, List.count_eq_one_of_mem hwf.nodes.1 hx]
    simp
  unfold Momentum
  constructor
  · rintro ⟨-, h⟩
    by_cases hg : g = 0
    · exact Or.inl hg
    · refine Or.inr fun x hx => ?_
      have := (key _).1 (h (fun z => if z = x then 1 else 0) fun i y _ hp => absurd (hf i) hp)
      rcases mul_eq_zero.1 this with h | h
      · exact absurd h hg
      · rw [hsum x hx] at h
        exact sub_eq_zero.1 h
  · intro h
    refine ⟨fun i _ v hv => (by rw [hf i] at hv; exact absurd hv (by simp)), fun φ _ => (key φ).2 ?_⟩
    rcases h with h | h
    · rw [h, zero_mul]
    · have hφ : mass m φ (fun _ => 1) = (m.nodes.ids.map φ).sum := by
        rw [mass_nodes m hwf φ, List.map_congr_left (g := φ) fun x hx => by rw [h x hx, mul_one]]
      rw [hφ, sub_self, mul_zero]

/-- **C118.** So on a mesh whose area is not the number of its nodes no fluid falls as it should. -/
theorem C118_gravity_area (m : Mesh K) (hwf : m.WF) (hrt : m.nodes.RoundTrip) (th : Int → K) (dt ν g : K) (hdt : dt ≠ 0) (hg : g ≠ 0) (U V : Nat → K)
    (f : EqField K) (hf : ∀ i, prescribed f i = none) (hU : ∀ i < m.nodes.count, U i = 0) (hV : ∀ i < m.nodes.count, V i = 0)
    (hf0 : ∀ i < m.nodes.count, f.u.at' i = 0) (harea : mass m (fun _ => 1) (fun _ => 1) ≠ m.nodes.count) :
    ¬ Momentum m th dt ν U V f g (fun _ => dt * g) := by
  rw [C118_gravity m hwf hrt th dt ν g hdt U V f hf hU hV hf0]
  rintro (h | h)
  · exact hg h
  · refine harea ?_
    rw [mass_nodes m hwf, List.map_congr_left (g := fun _ => (1 : K)) fun x hx => by rw [h x hx, mul_one]]
    simp [Cont.count]

/-- **C118.** The density is missing in the pressure equation: it changes the pressure in no way, but the correction with that pressure is divided by
the density. With a density other than 1 the correction is not the one that the pressure was computed for. -/
theorem C118_density (m : Mesh K) (dt ρ : K) (k : Int) (f : EqField K) (P w w1 : Nat → K) (h : Corrected m (dt / ρ) k f P w)
    (h1 : Corrected m (dt / 1) k f P w1) (φ : Int → K) (hφ : Test m f φ) :
    mass m φ (atNodes m w) - mass m φ (atNodes m f.u.at') = 1 / ρ * (mass m φ (atNodes m w1) - mass m φ (atNodes m f.u.at')) := by
  rw [h.2 φ hφ, h1.2 φ hφ]
  ring

/-- **C118.** The streamline term has the wrong sign: tested with a field that varies along the flow, the momentum operator is negative for every large
time step, whatever the viscosity. -/
theorem C118_energy (m : Mesh K) (th : Int → K) (ν : K) (u v φ : Int → K) (hpos : 0 < stream m u v φ φ) :
    ∃ D, 0 < D ∧ ∀ dt, D < dt →
      1 / dt * mass m φ φ - ν * diffusion th m φ φ + (convection m u v φ φ - dt * stream m u v φ φ) < 0 := by
  generalize stream m u v φ φ = S at *
  generalize mass m φ φ = M
  generalize diffusion th m φ φ = L
  generalize convection m u v φ φ = C
  refine ⟨1 + (|M| + |C - ν * L|) / S, by positivity, fun dt hdt => ?_⟩
  have h1 : 1 < dt := lt_of_le_of_lt (by have : 0 ≤ (|M| + |C - ν * L|) / S := by positivity
                                         linarith) hdt
  have h2 : (|M| + |C - ν * L|) / S < dt - 1 := by linarith
  rw [div_lt_iff₀ hpos] at h2
  have h3 : 1 / dt * M ≤ |M| := by
    have : 1 / dt ≤ 1 := by rw [div_le_one (by linarith)]; exact h1.le
    calc 1 / dt * M ≤ 1 / dt * |M| := mul_le_mul_of_nonneg_left (le_abs_self _) (by positivity)
      _ ≤ 1 * |M| := mul_le_mul_of_nonneg_right this (abs_nonneg _)
      _ = |M| := one_mul _
  have h4 := le_abs_self (C - ν * L)
  nlinarith

/-- A fluid at rest: no velocity, no gravity, and only zero values are prescribed. -/
structure Cbs.AtRest (E : Env K) (c : Cbs K) : Prop where
  ok : Ok E c
  u : ∀ i < E.mesh.nodes.count, c.u.u.at' i = 0
  v : ∀ i < E.mesh.nodes.count, c.v.u.at' i = 0
  gx : c.gx = 0
  gy : c.gy = 0
  fixed : ∀ i < E.mesh.nodes.count, ∀ x, (prescribed c.u i = some x ∨ prescribed c.v i = some x ∨ prescribed c.p i = some x) → x = 0

/-- **C118.** A fluid at rest stays at rest, with zero pressure, for any number of steps of any lengths. -/
theorem C118_rest (E : Env K) (th : Int → K) (hP : Plane E th) (hs : SolverOk E.solver) (hz : SolverZero E.solver) (dts : List K) (c : Cbs K)
    (hc : AtRest E c) :
    ∃ c', dts.foldlM (fun c dt => Cbs.iterate E dt c) c = some c' ∧ AtRest E c' ∧
      (dts ≠ [] → ∀ i < E.mesh.nodes.count, c'.p.u.at' i = 0) := by
  induction dts generalizing c with
  | nil => exact ⟨c, rfl, hc, fun h => absurd rfl h⟩
  | cons dt rest ih =>
    have step : ∃ c', Cbs.iterate E dt c = some c' ∧ AtRest E c' ∧ ∀ i < E.mesh.nodes.count, c'.p.u.at' i = 0 := by
      obtain ⟨c1, v1, v2, v3, v4, v5, v6, v7, v8, v9, v10, -, -, -, -, v15, v16⟩ := velocity_run E th hP hs { c with dt := dt } (hc.ok.withDt dt)
      obtain ⟨p, p1, p2, p3, -, -, p6⟩ := pressure_run E th hP hs c1 v2
      obtain ⟨u, v, w1, w2, w3, w4, -, -, -, -, w9, w10⟩ := correct_run E th hP hs { c1 with p := p } p2
      simp only at v3 v4 v5 v6 v7 v8 v9 v10 v15 v16 w3 w4 w9 w10
      have z0 : ∀ w : Nat → K, (∀ i < E.mesh.nodes.count, w i = 0) → ∀ φ, mass E.mesh φ (atNodes E.mesh w) = 0 := fun w hw φ =>
        mass_zero E.mesh hP.wf φ _ (atNodes_zero E.mesh hP.rt w hw)
      have d0 : ∀ φ, diffusion th E.mesh φ (atNodes E.mesh fun _ => 0) = 0 := fun φ =>
        diffusion_const E.mesh hP.wf th 0 φ _ (atNodes_zero E.mesh hP.rt _ fun _ _ => rfl)
      have g0 : ∀ (k : Int) (w : Nat → K), (∀ i < E.mesh.nodes.count, w i = 0) → ∀ φ, derivative k E.mesh φ (atNodes E.mesh w) = 0 := fun k w hw φ =>
        derivative_zero k E.mesh hP.wf φ _ (atNodes_zero E.mesh hP.rt w hw)
      have c0 : ∀ U V : Nat → K, (∀ i < E.mesh.nodes.count, U i = 0) → (∀ i < E.mesh.nodes.count, V i = 0) → ∀ φ ψ, _ := fun U V hU hV φ ψ =>
        convection_zero E.mesh hP.wf (atNodes E.mesh U) (atNodes E.mesh V) φ ψ (atNodes_zero E.mesh hP.rt U hU) (atNodes_zero E.mesh hP.rt V hV)
      have mom : ∀ (U V : Nat → K) (f : EqField K), (∀ i < E.mesh.nodes.count, U i = 0) → (∀ i < E.mesh.nodes.count, V i = 0) →
          (∀ i < E.mesh.nodes.count, f.u.at' i = 0) → (∀ i < E.mesh.nodes.count, ∀ x, prescribed f i = some x → x = 0) →
          Momentum E.mesh th dt (c.visc / c.dens) U V f 0 fun _ => 0 := by
        intro U V f hU hV hf hx
        refine ⟨fun i hi x h => (hx i hi x h).symm, fun φ _ => ?_⟩
        rw [z0 _ (fun _ _ => rfl), z0 _ hf, d0, (c0 U V hU hV φ _).1, (c0 U V hU hV φ _).2]
        ring
      have hu1 := v15 hz (hc.gx ▸ mom _ _ _ hc.u hc.v hc.u fun i hi x h => hc.fixed i hi x (Or.inl h))
      have hv1 := v16 hz (hc.gy ▸ mom _ _ _ hu1 hc.v hc.v fun i hi x h => hc.fixed i hi x (Or.inr (Or.inl h)))
      have hp1 := p6 hz ⟨fun i hi x h => (hc.fixed i hi x (Or.inr (Or.inr (v3 ▸ h)))).symm, fun φ _ => by rw [d0, g0 0 _ hu1, g0 1 _ hv1]; ring⟩
      have hfix : ∀ f g : EqField K, f.uFixed = g.uFixed → ∀ i, prescribed f i = prescribed g i := fun f g h i => by unfold prescribed; rw [h]
      have hu2 := w9 hz ⟨fun i hi x h => (hc.fixed i hi x (Or.inl (hfix _ _ v9 i ▸ h))).symm, fun φ _ => by
        rw [z0 _ (fun _ _ => rfl), z0 _ hu1, g0 0 _ hp1]; ring⟩
      have hv2 := w10 hz ⟨fun i hi x h => (hc.fixed i hi x (Or.inr (Or.inl (hfix _ _ v10 i ▸ h)))).symm, fun φ _ => by
        rw [z0 _ (fun _ _ => rfl), z0 _ hv1, g0 1 _ hp1]; ring⟩
      refine ⟨{ c1 with p := p, u := u, v := v }, ?_, ⟨w2, hu2, hv2, v7.trans hc.gx, v8.trans hc.gy, fun i hi x h => hc.fixed i hi x ?_⟩, hp1⟩
      · simp only [Cbs.iterate, v1, p1, w1, Option.bind_eq_bind, Option.bind_some]
      · have e3 : p.uFixed = c.p.uFixed := p3.trans (by rw [v3])
        rw [← hfix _ _ (w3.trans v9) i, ← hfix _ _ (w4.trans v10) i, ← hfix _ _ e3 i]
        exact h
    obtain ⟨c1, h1, h2, h3⟩ := step
    obtain ⟨c2, g1, g2, g3⟩ := ih c1 h2
    refine ⟨c2, ?_, g2, fun _ => ?_⟩
    · simp only [List.foldlM_cons, h1, Option.bind_eq_bind, Option.bind_some]; exact g1
    · cases rest with
      | nil => cases g1; exact h3
      | cons a t => exact g3 (by simp)

/-! ### When the equations have solutions -/

namespace Cbs

/-- A system whose quadratic form vanishes only for the zero vector, among the vectors that vanish at the prescribed nodes, has a solution. -/
theorem met_exists (s : Sys K) (f : EqField K)
    (h : ∀ w : Nat → K, (∀ i < s.n, prescribed f i ≠ none → w i = 0) → s.form w w = 0 → ∀ i < s.n, w i = 0) : ∃ w, Met s f w := by
  let ext : (Fin s.n → K) → Nat → K := fun x i => if hi : i < s.n then x ⟨i, hi⟩ else 0
  have hext : ∀ x (i : Fin s.n), ext x i = x i := fun x i => by simp [ext]
  have hrow : ∀ x i, s.row (ext x) i = ∑ j : Fin s.n, s.A i j * x j := by
    intro x i
    simp only [Sys.row]
    rw [Finset.sum_range]
    exact Finset.sum_congr rfl fun j _ => by rw [hext]
  let T : (Fin s.n → K) →ₗ[K] (Fin s.n → K) :=
    { toFun := fun x i => if prescribed f i = none then ∑ j : Fin s.n, s.A i j * x j else x i
      map_add' := fun x y => by
        funext i
        simp only [Pi.add_apply]
        split
        · rw [← Finset.sum_add_distrib]; exact Finset.sum_congr rfl fun j _ => by ring
        · rfl
      map_smul' := fun k x => by
        funext i
        simp only [Pi.smul_apply, smul_eq_mul, RingHom.id_apply]
        split
        · rw [Finset.mul_sum]; exact Finset.sum_congr rfl fun j _ => by ring
        · rfl }
  have hT : ∀ x (i : Fin s.n), T x i = if prescribed f i = none then s.row (ext x) i else x i := fun x i => by rw [hrow]; rfl
  have hinj : Function.Injective T := by
    rw [← LinearMap.ker_eq_bot, LinearMap.ker_eq_bot']
    intro x hx
    have hx' : ∀ i : Fin s.n, T x i = 0 := fun i => by rw [hx]; rfl
    have h0 := h (ext x) (fun i hi hp => by
      have := hx' ⟨i, hi⟩
      rw [hT, if_neg hp] at this
      simpa [ext, hi] using this) (by
      have : s.form (ext x) (ext x) = ∑ i ∈ Finset.range s.n, ext x i * s.row (ext x) i := by
        simp only [Sys.form, Sys.row, Finset.mul_sum]
        exact Finset.sum_congr rfl fun i _ => Finset.sum_congr rfl fun j _ => by ring
      rw [this]
      refine Finset.sum_eq_zero fun i hi => ?_
      have hi := Finset.mem_range.1 hi
      have := hx' ⟨i, hi⟩
      rw [hT] at this
      by_cases hp : prescribed f i = none
      · rw [if_pos hp] at this
        rw [this, mul_zero]
      · rw [if_neg hp] at this
        have e : ext x i = 0 := by simpa [ext, hi] using this
        rw [e, zero_mul])
    funext i
    have := h0 i i.2
    rwa [hext] at this
  obtain ⟨x, hx⟩ := (LinearMap.injective_iff_surjective.1 hinj) fun i => match prescribed f i with | some v => v | none => s.b i
  refine ⟨ext x, fun i hi v hv => ?_, fun i hi hv => ?_⟩
  · have := congrFun hx ⟨i, hi⟩
    rw [hT] at this
    simp only [hv] at this
    simpa [ext, hi] using this
  · have := congrFun hx ⟨i, hi⟩
    rw [hT] at this
    simpa only [hv, if_true] using this

/-- Every node belongs to a triangle. -/
def Covered (m : Mesh K) : Prop :=
  ∀ n ∈ m.nodes.ids, ∃ id e x y z, id ∈ m.elements.ids ∧ m.elements.get? id = some e ∧ e.elementType = .triangle ∧ e.nodeIds = [x, y, z] ∧ n ∈ [x, y, z]

theorem sum_nonneg_zero {α : Type} (f : α → K) (l : List α) (h : ∀ a ∈ l, 0 ≤ f a) : 0 ≤ (l.map f).sum ∧ ((l.map f).sum = 0 → ∀ a ∈ l, f a = 0) := by
  induction l with
  | nil => simp
  | cons a t ih =>
    have h1 := h a (by simp)
    obtain ⟨h2, h3⟩ := ih fun b hb => h b (by simp [hb])
    simp only [List.map_cons, List.sum_cons]
    refine ⟨add_nonneg h1 h2, fun h0 b hb => ?_⟩
    have e1 : f a = 0 := by linarith
    have e2 : (t.map f).sum = 0 := by linarith
    rcases List.mem_cons.1 hb with rfl | hb
    · exact e1
    · exact h3 e2 b hb

theorem massTerm_nonneg (m : Mesh K) (φ : Int → K) (e : Elem) : 0 ≤ massTerm m φ φ e := by
  unfold massTerm onTriangle
  split
  · next x y z _ _ =>
    unfold meanProduct
    have a1 := mul_self_nonneg (φ x + φ y + φ z)
    have a2 := mul_self_nonneg (φ x)
    have a3 := mul_self_nonneg (φ y)
    have a4 := mul_self_nonneg (φ z)
    exact mul_nonneg (by positivity) (by linarith)
  · exact le_refl _

theorem mass_nonneg (m : Mesh K) (φ : Int → K) : 0 ≤ mass m φ φ := (sum_nonneg_zero _ _ fun p _ => massTerm_nonneg m φ p.2).1

theorem mass_pos (m : Mesh K) (hsh : Sheet m) (hcov : Covered m) (φ : Int → K) (h : mass m φ φ = 0) : ∀ x ∈ m.nodes.ids, φ x = 0 := by
  intro n hn
  obtain ⟨id, e, x, y, z, hid, he, ht, hns, hmem⟩ := hcov n hn
  have h0 := (sum_nonneg_zero _ _ fun p _ => massTerm_nonneg m φ p.2).2 h (id, e) (mem_elemsId.2 ⟨hid, he⟩)
  have ht0 := (hsh.2 id e he).2 x y z ht hns
  simp only [massTerm, onTriangle, ht, hns, meanProduct] at h0
  have hp : 0 < |turn m x y z| := abs_pos.2 ht0
  have h1 : (φ x + φ y + φ z) * (φ x + φ y + φ z) + (φ x * φ x + φ y * φ y + φ z * φ z) = 0 := by
    rcases mul_eq_zero.1 h0 with h | h
    · linarith
    · linarith
  have a1 := mul_self_nonneg (φ x + φ y + φ z)
  have a2 := mul_self_nonneg (φ x)
  have a3 := mul_self_nonneg (φ y)
  have a4 := mul_self_nonneg (φ z)
  simp only [List.mem_cons, List.not_mem_nil, or_false] at hmem
  rcases hmem with rfl | rfl | rfl
  · exact mul_self_eq_zero.1 (by linarith)
  · exact mul_self_eq_zero.1 (by linarith)
  · exact mul_self_eq_zero.1 (by linarith)

theorem diffusion_nonpos (m : Mesh K) (th : Int → K) (hth : ∀ id ∈ m.elements.ids, 0 ≤ th id) (φ : Int → K) : diffusion th m φ φ ≤ 0 := by
  have h := (sum_nonneg_zero (fun p : Int × Elem => -diffusionTerm (th p.1) m φ φ p.2) (elemsId m) fun p hp => by
    have ht := hth p.1 (mem_elemsId.1 hp).1
    unfold diffusionTerm onTriangle
    split
    · next x y z _ _ =>
      rw [neg_neg]
      have a1 := mul_self_nonneg (dX m x y z φ)
      have a2 := mul_self_nonneg (dY m x y z φ)
      exact mul_nonneg (mul_nonneg ht (by positivity)) (by linarith)
    · simp).1
  have e : ((elemsId m).map fun p => -diffusionTerm (th p.1) m φ φ p.2).sum = -diffusion th m φ φ := by
    have := sum_map_smul (-1) (fun p : Int × Elem => diffusionTerm (th p.1) m φ φ p.2) (elemsId m)
    simp only [neg_mul, one_mul] at this
    exact this
  rw [e] at h
  linarith

/-- The condition of `met_exists` in terms of fields. -/
theorem met_exists_field (m : Mesh K) (hrt : m.nodes.RoundTrip) (s : Sys K) (hn : s.n = m.nodes.count) (f : EqField K)
    (h : ∀ φ : Int → K, Test m f φ → s.form (nodal m φ) (nodal m φ) = 0 → ∀ x ∈ m.nodes.ids, φ x = 0) : ∃ w, Met s f w := by
  refine met_exists s f fun w hw h0 i hi => ?_
  have hc : ∀ i < s.n, nodal m (atNodes m w) i = w i := fun i hi => nodal_atNodes m hrt w i (hn ▸ hi)
  obtain ⟨x, hx⟩ := idAt_of_lt m i (hn ▸ hi)
  have hxi : atNodes m w x = w i := by have := hc i hi; simpa [nodal, hx] using this
  rw [← hxi]
  refine h (atNodes m w) (fun j y hy hp => ?_) ?_ x (List.mem_of_getElem? hx)
  · have hj : j < s.n := hn ▸ (List.getElem?_eq_some_iff.1 hy).1
    have := hc j hj
    rw [show nodal m (atNodes m w) j = atNodes m w y by simp [nodal, hy]] at this
    rw [this]
    exact hw j hj hp
  · rw [Sys.form_congr s _ _ _ _ hc hc]
    exact h0

theorem atNodes_of_nodal (m : Mesh K) (hrt : m.nodes.RoundTrip) (φ : Int → K) : ∀ x ∈ m.nodes.ids, atNodes m (nodal m φ) x = φ x := by
  intro x hx
  obtain ⟨i, hi, hid⟩ := hrt.2 x hx
  simp [atNodes, nodeValue, hi, nodal, hid]

theorem diffusion_congr (m : Mesh K) (hwf : m.WF) (th : Int → K) (φ ψ ψ' : Int → K) (h : ∀ x ∈ m.nodes.ids, ψ' x = ψ x) :
    diffusion th m φ ψ' = diffusion th m φ ψ :=
  sum_elems fun p hp => onTriangle_congr m hwf hp fun x y z hx hy hz => by simp only [dX, dY, h x hx, h y hy, h z hz]

theorem convection_congr (m : Mesh K) (hwf : m.WF) (u v φ ψ ψ' : Int → K) (h : ∀ x ∈ m.nodes.ids, ψ' x = ψ x) :
    convection m u v φ ψ' = convection m u v φ ψ ∧ stream m u v φ ψ' = stream m u v φ ψ :=
  ⟨sum_elems fun p hp => onTriangle_congr m hwf hp fun x y z hx hy hz => by simp only [dX, dY, h x hx, h y hy, h z hz],
   sum_elems fun p hp => onTriangle_congr m hwf hp fun x y z hx hy hz => by simp only [dX, dY, h x hx, h y hy, h z hz]⟩

end Cbs

/-- **C118.** The corrections always have a solution on a mesh whose nodes all belong to triangles. -/
theorem C118_correct_solvable (E : Env K) (th : Int → K) (hP : Plane E th) (hcov : Covered E.mesh) (c : Cbs K) (hc : Ok E c) :
    (∃ w, Corrected E.mesh (c.dt / c.dens) 0 c.u c.p.u.at' w) ∧ ∃ w, Corrected E.mesh (c.dt / c.dens) 1 c.v c.p.u.at' w := by
  have key : ∀ (f : EqField K) (_ : FieldOk E.mesh f) (k : Int) (_ : k = 0 ∨ k = 1) (G : Sys K) (_ : FemFlowOp.gradient E.nrm k 1 E.mesh = some G),
      ∃ w, Corrected E.mesh (c.dt / c.dens) k f c.p.u.at' w := by
    intro f hf k hk G hG
    obtain ⟨s, -, s2, -, s4, s5⟩ := correction_spec E th hP c hc.p f hf k hk G hG
    obtain ⟨w, hw⟩ := met_exists_field E.mesh hP.rt s s2 f fun φ _ h0 => by
      rw [s5, mass_scale E.mesh hP.wf 1 φ φ _ fun x hx => by rw [one_mul, atNodes_of_nodal E.mesh hP.rt φ x hx], one_mul] at h0
      exact mass_pos E.mesh hP.sheet hcov φ h0
    exact ⟨w, (s4 w).1 hw⟩
  exact ⟨key c.u hc.u 0 (Or.inl rfl) c.G1 hc.G1, key c.v hc.v 1 (Or.inr rfl) c.G2 hc.G2⟩

/-- **C118.** The momentum equations have a solution when their operator is positive, and so has the pressure equation when only the zero field has no
gradient among the fields that vanish where the pressure is prescribed. -/
theorem C118_solvable (E : Env K) (th : Int → K) (hP : Plane E th) (c : Cbs K) (hc : Ok E c) :
    (∀ (f : EqField K) (g : K), FieldOk E.mesh f →
      (∀ φ, Test E.mesh f φ → (∃ x ∈ E.mesh.nodes.ids, φ x ≠ 0) →
        0 < 1 / c.dt * mass E.mesh φ φ - c.visc / c.dens * diffusion th E.mesh φ φ +
          (convection E.mesh (atNodes E.mesh c.u.u.at') (atNodes E.mesh c.v.u.at') φ φ -
            c.dt * stream E.mesh (atNodes E.mesh c.u.u.at') (atNodes E.mesh c.v.u.at') φ φ)) →
      ∃ w, Momentum E.mesh th c.dt (c.visc / c.dens) c.u.u.at' c.v.u.at' f g w) ∧
    ((∀ φ, Test E.mesh c.p φ → diffusion th E.mesh φ φ = 0 → ∀ x ∈ E.mesh.nodes.ids, φ x = 0) →
      ∃ w, Pressure E.mesh th c.dt c.u.u.at' c.v.u.at' c.p w) := by
  constructor
  · intro f g hf hE
    obtain ⟨s, -, s2, -, s4, s5⟩ := momentum_spec E th hP c hc f hf g
    obtain ⟨w, hw⟩ := met_exists_field E.mesh hP.rt s s2 f fun φ hφ h0 => by
      have hat := atNodes_of_nodal E.mesh hP.rt φ
      rw [s5, mass_scale E.mesh hP.wf 1 φ φ _ fun x hx => by rw [one_mul, hat x hx], one_mul, diffusion_congr E.mesh hP.wf th φ φ _ hat,
        (convection_congr E.mesh hP.wf _ _ φ φ _ hat).1, (convection_congr E.mesh hP.wf _ _ φ φ _ hat).2] at h0
      by_contra hne
      push Not at hne
      exact absurd h0 (hE φ hφ hne).ne'
    exact ⟨w, (s4 w).1 hw⟩
  · intro hD
    obtain ⟨s, -, s2, -, s4, s5⟩ := pressure_spec E th hP c hc
    obtain ⟨w, hw⟩ := met_exists_field E.mesh hP.rt s s2 c.p fun φ hφ h0 => by
      rw [s5, diffusion_congr E.mesh hP.wf th φ φ _ (atNodes_of_nodal E.mesh hP.rt φ)] at h0
      exact hD φ hφ h0
    exact ⟨w, (s4 w).1 hw⟩

/-- **C118.** For a fluid at rest the first momentum equation has a solution, for every positive time step. -/
theorem C118_solvable_rest (E : Env K) (th : Int → K) (hP : Plane E th) (hcov : Covered E.mesh) (hth : ∀ id ∈ E.mesh.elements.ids, 0 ≤ th id)
    (c : Cbs K) (hc : Ok E c) (hdt : 0 < c.dt) (hν : 0 ≤ c.visc / c.dens) (hu : ∀ i < E.mesh.nodes.count, c.u.u.at' i = 0)
    (hv : ∀ i < E.mesh.nodes.count, c.v.u.at' i = 0) (g : K) :
    ∃ w, Momentum E.mesh th c.dt (c.visc / c.dens) c.u.u.at' c.v.u.at' c.u g w := by
  refine (C118_solvable E th hP c hc).1 c.u g hc.u fun φ _ hx => ?_
  have h0 := convection_zero E.mesh hP.wf (atNodes E.mesh c.u.u.at') (atNodes E.mesh c.v.u.at') φ φ (atNodes_zero E.mesh hP.rt _ hu)
    (atNodes_zero E.mesh hP.rt _ hv)
  rw [h0.1, h0.2]
  obtain ⟨x, hx, hne⟩ := hx
  have hm : 0 < mass E.mesh φ φ := lt_of_le_of_ne (mass_nonneg _ _) fun h => hne (mass_pos E.mesh hP.sheet hcov φ h.symm x hx)
  have hd := mul_nonpos_of_nonneg_of_nonpos hν (diffusion_nonpos E.mesh th hth φ)
  have : 0 < 1 / c.dt * mass E.mesh φ φ := by positivity
  linarith

/-! ### The hypotheses are met -/

/-- The unit square with two triangles. -/
noncomputable def cbsEnv : Env ℝ :=
  open Classical in
  { nrm := realNorm
    made := fun _ => .set 1
    mesh := flowSquare
    solver := fun s => if ∀ i < s.n, s.b i = 0 then fun _ => 0 else if h : ∃ x, s.Solves x then h.choose else fun _ => 0
    junk := fun i => i
    junk' := fun _ => 7 }

example : Plane cbsEnv (fun _ => 1) ∧ SolverOk cbsEnv.solver ∧ SolverZero cbsEnv.solver ∧ Covered cbsEnv.mesh := by
  refine ⟨⟨isNorm_real, flowSquare_ok.1, flowSquare_ok.2, flowSquare_sheet, ?_, flowSquare_ids.1, flowSquare_ids.2⟩, ?_, ?_, ?_⟩
  · intro id e h
    rcases flowSquare_elements h with rfl | rfl <;> exact ⟨by simp, fun _ => rfl⟩
  · intro s hs
    by_cases h : ∀ i < s.n, s.b i = 0
    · simp only [cbsEnv, if_pos h]
      intro i hi
      simp [Sys.row, h i hi]
    · simp only [cbsEnv, if_neg h, dif_pos hs]
      exact hs.choose_spec
  · intro s h i _
    simp only [cbsEnv, if_pos h]
  · intro n hn
    change n ∈ [(2 : Int), 0, 3, 1] at hn
    simp only [List.mem_cons, List.not_mem_nil, or_false] at hn
    rcases hn with rfl | rfl | rfl | rfl
    · exact ⟨1, ⟨.triangle, [2, 0, 3], []⟩, 2, 0, 3, by decide, rfl, rfl, rfl, by decide⟩
    · exact ⟨1, ⟨.triangle, [2, 0, 3], []⟩, 2, 0, 3, by decide, rfl, rfl, rfl, by decide⟩
    · exact ⟨1, ⟨.triangle, [2, 0, 3], []⟩, 2, 0, 3, by decide, rfl, rfl, rfl, by decide⟩
    · exact ⟨0, ⟨.triangle, [2, 3, 1], []⟩, 2, 3, 1, by decide, rfl, rfl, rfl, by decide⟩

/-- The area of the square is 1, it has 4 nodes; a field that varies along a flow. -/
example : mass (flowSquare : Mesh ℚ) (fun _ => 1) (fun _ => 1) ≠ (flowSquare : Mesh ℚ).nodes.count ∧
    0 < stream (flowSquare : Mesh ℚ) (fun _ => 1) (fun _ => 0) (fun id => (place (flowSquare : Mesh ℚ) id).x) (fun id => (place (flowSquare : Mesh ℚ) id).x) := by
  decide +kernel

/-- A solver for the square, with a node that is held: it is at rest once its velocities are zero. -/
example : ∃ c : Cbs ℝ, AtRest cbsEnv c ∧ prescribed c.u 2 = some 0 ∧ c.dens = 3 ∧ prescribed c.p 0 = some 0 := by
  obtain ⟨G1, a1, -⟩ := C117_gradient realNorm 0 (Or.inl rfl) (flowSquare : Mesh ℝ) flowSquare_ok.1 flowSquare_ok.2 flowSquare_sheet
  obtain ⟨G2, b1, -⟩ := C117_gradient realNorm 1 (Or.inr rfl) (flowSquare : Mesh ℝ) flowSquare_ok.1 flowSquare_ok.2 flowSquare_sheet
  let f : Int → EqField ℝ := fun k => { method := .fem, uFixed := SMap.empty.insert k 0, uSource := SMap.empty, u := ⟨4, fun _ => 0⟩ }
  have hfind : ∀ k i v, (f k).uFixed.find? i = some v → i = k ∧ v = 0 := by
    intro k i v h
    simp only [f, SMap.find?_insert] at h
    split_ifs at h with hk
    · exact ⟨hk, by simpa using h.symm⟩
    · simp [SMap.empty, SMap.find?, SMap.findL] at h
  have hf : ∀ k, 0 ≤ k ∧ k < 4 → FieldOk (flowSquare : Mesh ℝ) (f k) := fun k hk => ⟨rfl, rfl, fun i v h => by
    rw [(hfind k i v h).1]; exact hk⟩
  refine ⟨{ dt := 1, dens := 3, visc := 1, gx := 0, gy := 0, u := f 2, v := f 2, p := f 0, G1 := G1, G2 := G2 },
    ⟨⟨hf 2 (by norm_num), hf 2 (by norm_num), hf 0 (by norm_num), a1, b1⟩, fun _ _ => rfl, fun _ _ => rfl, rfl, rfl, fun i _ x h => ?_⟩, ?_, rfl, ?_⟩
  · rcases h with h | h | h <;> exact (hfind _ _ _ h).2
  · show (f 2).uFixed.find? _ = _
    simp [f, SMap.find?_insert]
  · show (f 0).uFixed.find? _ = _
    simp [f, SMap.find?_insert]

end ENigMA
