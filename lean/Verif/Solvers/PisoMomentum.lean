import Verif.Solvers.PisoRest
import Verif.Fvm.FvmVolumeProps
import Mathlib.Data.List.Dedup

/-!
# C77: the momentum equation of the PISO solver
-/

set_option linter.unusedSectionVars false
set_option autoImplicit false

namespace ENigMA
open Piso Mesh FvmMesh
variable {K : Type} [Field K] [LinearOrder K] [IsStrictOrderedRing K]

namespace Piso

/-! ### Specification -/

/-- A property of the fluid in a cell. -/
def at0 (a : Int → Option K) (cv : Int) : K := (a cv).getD 0

/-- Its mean over the two cells of a face. -/
def mean (a : Int → Option K) (cv nb : Int) : K := (at0 a cv + at0 a nb) / 2

/-- The flux of a face with the sign of the owner for the owner, the opposite sign for the neighbour. -/
def fluxSeen (m : FvmMesh K) (s : State K) (cv f : Int) : K := if ((m.faces.get? f).map fun F => F.cvId) = some cv then s.flux f else -s.flux f

/-- What flows out of a cell through a face, in one component of the momentum: convection with the mean velocity and friction between two cells; friction
at a face of the boundary and the term the code has there for the convection. `c` takes the component of a vector. -/
def momentumOut (c : Vec3 K → K) (m : FvmMesh K) (g : Geom K) (s : State K) (u : Int → K) (cv f : Int) : K :=
  if paired m f then
    let nb := across m cv f
    mean s.dens cv nb * fluxSeen m s cv f * ((u cv + u nb) / 2) +
      mean s.visc cv nb * ((g.area cv f + g.area nb f) / 2) * (u cv - u nb) / (g.dist cv f + g.dist nb f)
  else at0 s.visc cv * g.area cv f * (u cv - c (s.Uf f)) / g.dist cv f +
    at0 s.dens cv * c (s.Uf f) * g.area cv f * fluxSeen m s cv f * c (g.normal cv f)

/-! ### The loops -/

/-- The part of `momentumOut` that does not depend on the unknowns. -/
def outB (c : Vec3 K → K) (m : FvmMesh K) (g : Geom K) (s : State K) (cv f : Int) : K :=
  if paired m f then 0
  else at0 s.visc cv * g.area cv f / g.dist cv f * c (s.Uf f) - at0 s.dens cv * c (s.Uf f) * g.area cv f * fluxSeen m s cv f * c (g.normal cv f)

/-- The components of a vector. -/
def IsComponent (c : Vec3 K → K) : Prop := c = Vec3.x ∨ c = Vec3.y ∨ c = Vec3.z

theorem addVec_comp {c : Vec3 K → K} (hc : IsComponent c) (b : Nat → Vec3 K) (i k : Nat) (v : Vec3 K) :
    c (addVec b i v k) = c (b k) + if k = i then c v else 0 := by
  unfold addVec
  rcases hc with rfl | rfl | rfl <;> split_ifs <;> simp

theorem momentumFace_spec {m : FvmMesh K} (hl : Linked m) {g : Geom K} {s : State K} {cv f : Int} {iP : Nat} (hi : index m cv = some iP)
    (hcv : cv ∈ m.cvs.ids) (hf : f ∈ cellFaces m cv) {q q' : Mom K} (h : momentumFace m g s cv iP q f = some q') {c : Vec3 K → K} (hc : IsComponent c) :
    ∃ add, q'.st = q.st ++ add ∧ (∀ t ∈ add, t.IsAdd) ∧ (∀ k, k ≠ iP → c (q'.b k) = c (q.b k)) ∧ ∃ β, c (q'.b iP) = c (q.b iP) + β ∧
      ∀ v w : Nat → K, (add.map (Stamp.val v w)).sum - v iP * β = v iP * (momentumOut c m g s (fun id => w (ix m id)) cv f / g.volume cv) := by
  obtain ⟨F, hF, hown⟩ := hl.face cv hcv f hf
  have hpm : paired m f = F.hasPair := by simp [paired, hF]
  have hac : across m cv f = F.neighborId cv := by simp [across, hF]
  have hiP : ix m cv = iP := by simp [ix, hi]
  unfold momentumFace at h
  simp only [hF, Option.bind_eq_bind, Option.bind_some] at h
  obtain ⟨dens, hd, h⟩ := Option.bind_eq_some_iff.1 h
  obtain ⟨visc, hv, h⟩ := Option.bind_eq_some_iff.1 h
  obtain ⟨flux, hfl, h⟩ := Option.bind_eq_some_iff.1 h
  have hfl' : fluxSeen m s cv f = flux := by
    simp only [signedFlux, hF, Option.bind_eq_bind, Option.bind_some, Option.pure_def, Option.some.injEq] at hfl
    simp only [fluxSeen, hF, Option.map_some, Option.some.injEq]
    exact hfl
  by_cases hp : F.hasPair = true
  · simp only [hp, if_true] at h
    obtain ⟨iN, hn, h⟩ := Option.bind_eq_some_iff.1 h
    obtain ⟨c', hc', h⟩ := Option.bind_eq_some_iff.1 h
    have hiN : ix m (F.neighborId cv) = iN := by simp [ix, hn]
    have hcont : c'.poly.containsPolygon f = true := by
      obtain ⟨q1, q2, q3, q4⟩ := hl.pair f F hF hp
      have : f ∈ cellFaces m (F.neighborId cv) := by
        unfold FvmFace.neighborId
        split_ifs
        · exact q3
        · exact q2
      simpa [Polyhedron.containsPolygon, cellFaces, hc'] using this
    rw [if_pos hcont] at h
    obtain ⟨dn, hdn, h⟩ := Option.bind_eq_some_iff.1 h
    obtain ⟨vn, hvn, h⟩ := Option.bind_eq_some_iff.1 h
    split_ifs at h with hdist
    simp only [Option.pure_def, Option.some.injEq] at h
    subst h
    refine ⟨_, rfl, ?_, fun _ _ => rfl, 0, (add_zero _).symm, fun v w => ?_⟩
    · intro t ht
      simp only [List.mem_cons, List.not_mem_nil, or_false] at ht
      rcases ht with rfl | rfl | rfl | rfl <;> trivial
    · simp only [List.map_cons, List.map_nil, List.sum_cons, List.sum_nil, Stamp.val, Int.toNat_natCast, momentumOut, hpm, hp, hac, if_true, hiP, hiN,
        mean, at0, hd, hv, hdn, hvn, hfl', Option.getD_some]
      ring
  · have hp' : F.hasPair = false := by simpa using hp
    simp only [hp', Bool.false_eq_true, if_false] at h
    split_ifs at h with hdist
    simp only [Option.pure_def, Option.some.injEq] at h
    subst h
    refine ⟨_, rfl, ?_, fun k hk => ?_, outB c m g s cv f / g.volume cv, ?_, fun v w => ?_⟩
    · intro t ht
      simp only [List.mem_cons, List.not_mem_nil, or_false] at ht
      subst ht; trivial
    · rw [addVec_comp hc, addVec_comp hc, if_neg hk, if_neg hk]; ring
    · rw [addVec_comp hc, addVec_comp hc, if_pos rfl, if_pos rfl]
      simp only [outB, hpm, hp', Bool.false_eq_true, if_false, at0, hd, hv, hfl', Option.getD_some]
      rcases hc with rfl | rfl | rfl <;> simp <;> ring
    · simp only [List.map_cons, List.map_nil, List.sum_cons, List.sum_nil, Stamp.val, Int.toNat_natCast, momentumOut, outB, hpm, hp',
        Bool.false_eq_true, if_false, hiP, at0, hd, hv, hfl', Option.getD_some]
      ring

theorem momentumFaces_spec {m : FvmMesh K} (hl : Linked m) {g : Geom K} {s : State K} {cv : Int} {iP : Nat} (hi : index m cv = some iP)
    (hcv : cv ∈ m.cvs.ids) {c : Vec3 K → K} (hc : IsComponent c) : ∀ (l : List Int) (q q' : Mom K), (∀ f ∈ l, f ∈ cellFaces m cv) →
    l.foldlM (momentumFace m g s cv iP) q = some q' →
    ∃ add, q'.st = q.st ++ add ∧ (∀ t ∈ add, t.IsAdd) ∧ (∀ k, k ≠ iP → c (q'.b k) = c (q.b k)) ∧ ∃ β, c (q'.b iP) = c (q.b iP) + β ∧
      ∀ v w : Nat → K, (add.map (Stamp.val v w)).sum - v iP * β =
        v iP * ((l.map fun f => momentumOut c m g s (fun id => w (ix m id)) cv f).sum / g.volume cv) := by
  intro l
  induction l with
  | nil =>
    intro q q' _ h
    simp only [List.foldlM_nil, Option.pure_def, Option.some.injEq] at h
    subst h
    exact ⟨[], by simp, by simp, fun _ _ => rfl, 0, (add_zero _).symm, by simp⟩
  | cons f t ih =>
    intro q q' hmem h
    rw [List.foldlM_cons] at h
    obtain ⟨q1, h1, h2⟩ := Option.bind_eq_some_iff.1 h
    obtain ⟨add1, a1, a2, a3, β1, a4, a5⟩ := momentumFace_spec hl hi hcv (hmem f (by simp)) h1 hc
    obtain ⟨add2, b1, b2, b3, β2, b4, b5⟩ := ih q1 q' (fun f' h' => hmem f' (by simp [h'])) h2
    refine ⟨add1 ++ add2, by rw [b1, a1, List.append_assoc], ?_, fun k hk => (b3 k hk).trans (a3 k hk), β1 + β2, by rw [b4, a4, add_assoc], fun v w => ?_⟩
    · intro t' ht'
      rcases List.mem_append.1 ht' with h' | h'
      · exact a2 t' h'
      · exact b2 t' h'
    · rw [List.map_append, List.sum_append, List.map_cons, List.sum_cons]
      have e1 := a5 v w
      have e2 := b5 v w
      linear_combination e1 + e2

/-- The balance of momentum of a cell: what flows out, minus gravity and the gradient of the pressure, plus the change since the previous step. -/
def momentumBalance (c : Vec3 K → K) (m : FvmMesh K) (g : Geom K) (s : State K) (u : Int → K) (cv : Int) : K :=
  ((cellFaces m cv).map fun f => momentumOut c m g s u cv f).sum / g.volume cv - at0 s.dens cv * c s.grav -
    c ((gradient m g s.p s.pf cv).getD 0) + if 0 < s.dt then at0 s.dens cv * (u cv - c (s.U0 cv)) / s.dt else 0

theorem momentumCell_spec {m : FvmMesh K} (hl : Linked m) {g : Geom K} {s : State K} {cv : Int} (hcv : cv ∈ m.cvs.ids) {q q' : Mom K}
    (h : momentumCell m g s q cv = some q') {c : Vec3 K → K} (hc : IsComponent c) :
    ∃ add, q'.st = q.st ++ add ∧ (∀ t ∈ add, t.IsAdd) ∧ (∀ k, k ≠ ix m cv → c (q'.b k) = c (q.b k)) ∧ ∃ β, c (q'.b (ix m cv)) = c (q.b (ix m cv)) + β ∧
      ∀ v w : Nat → K, (add.map (Stamp.val v w)).sum - v (ix m cv) * β =
        v (ix m cv) * if 0 < g.volume cv then momentumBalance c m g s (fun id => w (ix m id)) cv else 0 := by
  obtain ⟨c0, hc0, -⟩ := hl.cell cv hcv
  have hfs : facesOf m cv = some (cellFaces m cv) := by simp [facesOf, cellFaces, hc0]
  unfold momentumCell at h
  obtain ⟨iP, hi, h⟩ := Option.bind_eq_some_iff.1 h
  have hiP : ix m cv = iP := by simp [ix, hi]
  rw [hiP]
  by_cases hv : g.volume cv ≤ 0
  · rw [if_pos hv] at h
    simp only [Option.pure_def, Option.some.injEq] at h
    subst h
    exact ⟨[], by simp, by simp, fun _ _ => rfl, 0, (add_zero _).symm, by simp [not_lt.2 hv]⟩
  · rw [if_neg hv] at h
    simp only [hfs, Option.bind_eq_bind, Option.bind_some] at h
    obtain ⟨q2, h2, h⟩ := Option.bind_eq_some_iff.1 h
    obtain ⟨dens, hd, h⟩ := Option.bind_eq_some_iff.1 h
    obtain ⟨gp, hgp, h⟩ := Option.bind_eq_some_iff.1 h
    obtain ⟨add1, a1, a2, a3, β1, a4, a5⟩ := momentumFaces_spec hl hi hcv hc _ q q2 (fun _ h => h) h2
    have hg' : ∀ k, c (addVec (addVec q2.b iP (dens • s.grav)) iP gp k) = c (q2.b k) + if k = iP then dens * c s.grav + c gp else 0 := by
      intro k
      rw [addVec_comp hc, addVec_comp hc]
      split_ifs
      · rcases hc with rfl | rfl | rfl <;> simp [add_assoc]
      · simp
    by_cases hdt : 0 < s.dt
    · rw [if_pos hdt] at h
      simp only [Option.pure_def, Option.some.injEq] at h
      subst h
      refine ⟨add1 ++ [.addA iP iP (dens / s.dt)], by rw [a1, List.append_assoc], ?_, fun k hk => ?_, β1 + (dens * c s.grav + c gp) + dens / s.dt * c (s.U0 cv), ?_,
        fun v w => ?_⟩
      · intro t' ht'
        rcases List.mem_append.1 ht' with h' | h'
        · exact a2 t' h'
        · simp only [List.mem_singleton] at h'; subst h'; trivial
      · simp only
        rw [addVec_comp hc, hg', if_neg hk, if_neg hk, a3 k hk]; ring
      · simp only
        rw [addVec_comp hc, hg', if_pos rfl, if_pos rfl, a4]
        rcases hc with rfl | rfl | rfl <;> simp <;> ring
      · rw [List.map_append, List.sum_append, if_pos (not_le.1 hv)]
        have := a5 v w
        simp only [momentumBalance, if_pos hdt, hgp, Option.getD_some, at0, hd, List.map_cons, List.map_nil, List.sum_cons, List.sum_nil, Stamp.val, Int.toNat_natCast, hiP]
        linear_combination this
    · rw [if_neg hdt] at h
      simp only [Option.pure_def, Option.some.injEq] at h
      subst h
      refine ⟨add1, a1, a2, fun k hk => ?_, β1 + (dens * c s.grav + c gp), ?_, fun v w => ?_⟩
      · simp only
        rw [hg', if_neg hk, a3 k hk]; ring
      · simp only
        rw [hg', if_pos rfl, a4]; ring
      · rw [if_pos (not_le.1 hv)]
        have := a5 v w
        simp only [momentumBalance, if_neg hdt, hgp, Option.getD_some, at0, hd]
        linear_combination this

theorem momentumCells_spec {m : FvmMesh K} (hl : Linked m) {g : Geom K} {s : State K} {c : Vec3 K → K} (hc : IsComponent c) :
    ∀ (l : List Int) (q q' : Mom K), (∀ cv ∈ l, cv ∈ m.cvs.ids) → l.Nodup → l.foldlM (momentumCell m g s) q = some q' →
    ∃ add, q'.st = q.st ++ add ∧ (∀ t ∈ add, t.IsAdd) ∧ (∀ k, (∀ cv ∈ l, ix m cv ≠ k) → c (q'.b k) = c (q.b k)) ∧
      ∀ cv ∈ m.cvs.ids, ∀ w : Nat → K,
        (add.map (Stamp.val (fun r => if r = ix m cv then 1 else 0) w)).sum - (c (q'.b (ix m cv)) - c (q.b (ix m cv))) =
          if cv ∈ l ∧ 0 < g.volume cv then momentumBalance c m g s (fun id => w (ix m id)) cv else 0 := by
  intro l
  induction l with
  | nil =>
    intro q q' _ _ h
    simp only [List.foldlM_nil, Option.pure_def, Option.some.injEq] at h
    subst h
    exact ⟨[], by simp, by simp, fun _ _ => rfl, by simp⟩
  | cons a t ih =>
    intro q q' hmem hnd h
    rw [List.foldlM_cons] at h
    obtain ⟨q1, h1, h2⟩ := Option.bind_eq_some_iff.1 h
    have ha := hmem a (by simp)
    obtain ⟨hat, hndt⟩ := List.nodup_cons.1 hnd
    obtain ⟨add1, a1, a2, a3, β, a4, a5⟩ := momentumCell_spec hl ha h1 hc
    obtain ⟨add2, b1, b2, b3, b4⟩ := ih q1 q' (fun cv h' => hmem cv (by simp [h'])) hndt h2
    refine ⟨add1 ++ add2, by rw [b1, a1, List.append_assoc], ?_, fun k hk => ?_, fun cv hcv w => ?_⟩
    · intro t' ht'
      rcases List.mem_append.1 ht' with h' | h'
      · exact a2 t' h'
      · exact b2 t' h'
    · rw [b3 k (fun cv h' => hk cv (by simp [h'])), a3 k (fun e => hk a (by simp) e.symm)]
    · rw [List.map_append, List.sum_append]
      have e1 := b4 cv hcv w
      have e2 := a5 (fun r => if r = ix m cv then 1 else 0) w
      by_cases hac : a = cv
      · subst hac
        simp only [if_true, one_mul] at e2
        simp only [hat, false_and, if_false] at e1
        simp only [List.mem_cons, true_or, true_and]
        rw [← e2]
        linear_combination e1 - a4
      · have hne : ix m a ≠ ix m cv := fun e => hac (ix_inj ha hcv e)
        simp only [if_neg hne, zero_mul, sub_zero] at e2
        have hq := a3 (ix m cv) (fun e => hne e.symm)
        have hiff : (cv ∈ a :: t ∧ 0 < g.volume cv) ↔ (cv ∈ t ∧ 0 < g.volume cv) := by simp [Ne.symm hac]
        rw [if_congr hiff rfl rfl, ← e1, e2, ← hq]
        ring

end Piso

/-- **C77.** The equations that `calculateVelocityField` solves are, for every cell of positive volume and every component, the balance of momentum
`momentumBalance`: left side minus right side of the row of the cell, at any velocities `w`, is the balance with these velocities. -/
theorem C77_balance {m : FvmMesh K} (hl : Linked m) {g : Geom K} {s : State K} {q : Mom K} {sys : Sys K} (h : momentumSystem m g s = some (q, sys))
    {c : Vec3 K → K} (hc : IsComponent c) {cv : Int} (hcv : cv ∈ m.cvs.ids) (hvol : 0 < g.volume cv) (w : Nat → K) :
    sys.row w (ix m cv) - c (q.b (ix m cv)) = momentumBalance c m g s (fun id => w (ix m id)) cv := by
  unfold momentumSystem at h
  obtain ⟨q', h3, h⟩ := Option.bind_eq_some_iff.1 h
  obtain ⟨sys', h4, h⟩ := Option.bind_eq_some_iff.1 h
  simp only [Option.pure_def, Option.some.injEq, Prod.mk.injEq] at h
  obtain ⟨rfl, rfl⟩ := h
  obtain ⟨add, a1, a2, -, a4⟩ := momentumCells_spec hl hc _ _ _ (fun _ h => h) hl.nodup h3
  simp only [List.nil_append] at a1
  have hn : sys'.n = m.cvs.ids.length := by
    have := (Sys.assemble_form q'.st _ _ h4 (by rw [a1]; exact a2) (fun _ => 0) (fun _ => 0)).1
    rw [this]; rfl
  obtain ⟨-, -, f3, -⟩ := Sys.assemble_form q'.st _ _ h4 (by rw [a1]; exact a2) (fun r => if r = ix m cv then 1 else 0) w
  rw [Sys.zero_form, zero_add, Sys.form_row _ _ (by rw [hn]; exact ix_lt hcv)] at f3
  have e := a4 cv hcv w
  rw [← a1, ← f3, if_pos ⟨hcv, hvol⟩] at e
  have hz : c (0 : Vec3 K) = 0 := by rcases hc with rfl | rfl | rfl <;> rfl
  simp only [hz, sub_zero] at e
  exact e


namespace Piso

theorem across_mem {m : FvmMesh K} (hl : Linked m) {cv f : Int} (hcv : cv ∈ m.cvs.ids) (hf : f ∈ cellFaces m cv) (hp : paired m f = true) :
    across m cv f ∈ m.cvs.ids := by
  obtain ⟨F, hF, -⟩ := hl.face cv hcv f hf
  have hFp : F.hasPair = true := by simpa [paired, hF] using hp
  obtain ⟨-, -, -, e4⟩ := hl.pair f F hF hFp
  simp only [across, hF, Option.map_some, Option.getD_some, FvmFace.neighborId]
  split_ifs
  · exact e4.subset (by simp)
  · exact e4.subset (by simp)

end Piso

/-- **C77.** What leaves one cell through a face between two cells enters the other: both convection and friction. -/
theorem C77_reaction {m : FvmMesh K} (hl : Linked m) {g : Geom K} {s : State K} (c : Vec3 K → K) (u : Int → K) {f : Int} {F : FvmFace K} (hF : m.faces.get? f = some F)
    (hp : F.hasPair = true) : momentumOut c m g s u F.nbId f = -momentumOut c m g s u F.cvId f := by
  obtain ⟨hne, -⟩ := hl.pair f F hF hp
  have hpm : paired m f = true := by simp [paired, hF, hp]
  have a1 : across m F.nbId f = F.cvId := by simp [across, hF, FvmFace.neighborId, hne]
  have a2 : across m F.cvId f = F.nbId := by simp [across, hF, FvmFace.neighborId]
  have b1 : fluxSeen m s F.cvId f = s.flux f := by simp [fluxSeen, hF]
  have b2 : fluxSeen m s F.nbId f = -s.flux f := by simp [fluxSeen, hF, hne]
  simp only [momentumOut, hpm, if_true, a1, a2, b1, b2, mean]
  rw [add_comm (g.dist F.nbId f), add_comm (g.area F.nbId f)]
  ring

/-- **C77.** Summed over all cells only the faces of the boundary are left: inside, momentum is neither made nor lost. -/
theorem C77_conservation {m : FvmMesh K} (hl : Linked m) {g : Geom K} {s : State K} (c : Vec3 K → K) (u : Int → K) :
    (m.cvs.ids.map fun cv => ((cellFaces m cv).map fun f => momentumOut c m g s u cv f).sum).sum =
      (m.cvs.ids.map fun cv => (((cellFaces m cv).filter fun f => !paired m f).map fun f => momentumOut c m g s u cv f).sum).sum := by
  let φ : Int → Int → K := fun cv f => if paired m f then momentumOut c m g s u cv f else 0
  have h1 : ∀ cv, ((cellFaces m cv).map fun f => momentumOut c m g s u cv f).sum =
      ((cellFaces m cv).map (φ cv)).sum + (((cellFaces m cv).filter fun f => !paired m f).map fun f => momentumOut c m g s u cv f).sum := by
    intro cv
    induction cellFaces m cv with
    | nil => simp
    | cons f t ih =>
      rw [List.map_cons, List.sum_cons, ih, List.map_cons, List.sum_cons]
      by_cases hp : paired m f = true
      · rw [List.filter_cons_of_neg (by simp [hp])]; simp only [φ, hp, if_true]; ring
      · rw [List.filter_cons_of_pos (by simp [hp]), List.map_cons, List.sum_cons]; simp only [φ, hp]; ring_nf; simp
  have h2 : (m.cvs.ids.map fun cv => ((cellFaces m cv).map (φ cv)).sum).sum = 0 := by
    have hflat : (m.cvs.ids.map fun cv => ((cellFaces m cv).map (φ cv)).sum).sum =
        ((m.cvs.ids.flatMap fun id => (cellFaces m id).map fun f => (id, f)).map fun v => φ v.1 v.2).sum := by
      generalize m.cvs.ids = l
      induction l with
      | nil => rfl
      | cons a t ih => rw [List.map_cons, List.sum_cons, ih, List.flatMap_cons, List.map_append, List.sum_append, List.map_map]; rfl
    rw [hflat, sum_regroup _ (((m.cvs.ids.flatMap fun id => (cellFaces m id).map fun f => (id, f)).map Prod.snd).dedup) (List.nodup_dedup _)
      (fun v hv => List.mem_dedup.2 (List.mem_map.2 ⟨v, hv, rfl⟩)) φ]
    apply List.sum_eq_zero
    intro x hx
    obtain ⟨k, hk, rfl⟩ := List.mem_map.1 hx
    obtain ⟨v, hv, rfl⟩ := List.mem_map.1 (List.mem_dedup.1 hk)
    obtain ⟨v1, v2⟩ := mem_visits.1 hv
    obtain ⟨F, hF, -⟩ := hl.face v.1 v1 v.2 v2
    rw [filter_visits hl]
    by_cases hp : F.hasPair = true
    · rw [cells_of_paired hl hF hp]
      have hpm : paired m v.2 = true := by simp [paired, hF, hp]
      simp only [List.map_cons, List.map_nil, List.sum_cons, List.sum_nil, φ, hpm, if_true, C77_reaction hl c u hF hp]
      ring
    · have hpm : paired m v.2 = false := by simpa [paired, hF] using hp
      simp [φ, hpm, Function.comp_def]
  rw [← zero_add ((m.cvs.ids.map fun cv => (((cellFaces m cv).filter fun f => !paired m f).map fun f => momentumOut c m g s u cv f).sum).sum), ← h2, ← List.sum_map_add]
  exact congrArg List.sum (List.map_congr_left fun cv _ => h1 cv)

/-- **C77, uniform flow, partial.** In a fluid of one density, at one pressure and one velocity `u₀`, with the boundary moving along and nothing flowing through it,
every balanced cell keeps its velocity: `u₀` meets its equation, up to gravity. Missing: with flow through the boundary this is false (`C77_through_flow`). -/
theorem C77_uniform_partial {m : FvmMesh K} (hl : Linked m) {g : Geom K} {s : State K} {q : Mom K} {sys : Sys K} (h : momentumSystem m g s = some (q, sys))
    {c : Vec3 K → K} (hc : IsComponent c) {cv : Int} (hcv : cv ∈ m.cvs.ids) (hvol : 0 < g.volume cv) (u₀ : Vec3 K) (ρ p₀ : K)
    (hρ : ∀ id ∈ m.cvs.ids, s.dens id = some ρ) (hU : s.U0 cv = u₀) (hUf : ∀ f ∈ cellFaces m cv, paired m f = false → s.Uf f = u₀ ∧ s.pf f = p₀ ∧ s.flux f = 0)
    (hp : ∀ id ∈ m.cvs.ids, s.p id = p₀) (hcl : Closed m g cv) (hnet : netOut m s cv = 0) :
    sys.row (fun _ => c u₀) (ix m cv) = c (q.b (ix m cv)) - ρ * c s.grav := by
  have hb := C77_balance hl h hc hcv hvol (fun _ => c u₀)
  have hg := C74_constant hl hcv hcl p₀ hp (fun f hf hpf => (hUf f hf hpf).2.1)
  have hz : c (0 : Vec3 K) = 0 := by rcases hc with rfl | rfl | rfl <;> rfl
  have hsum : ∀ l : List Int, (∀ f ∈ l, f ∈ cellFaces m cv) → (l.map fun f => momentumOut c m g s (fun _ => c u₀) cv f).sum =
      ρ * c u₀ * (l.map fun f => if paired m f then outThrough m s cv f else -s.flux f).sum := by
    intro l
    induction l with
    | nil => intro _; simp
    | cons f t ih =>
      intro hmem
      rw [List.map_cons, List.sum_cons, ih (fun f' h' => hmem f' (by simp [h'])), List.map_cons, List.sum_cons, mul_add]
      congr 1
      have hf := hmem f (by simp)
      by_cases hpf : paired m f = true
      · have hfs : fluxSeen m s cv f = outThrough m s cv f := by
          obtain ⟨F, hF, -⟩ := hl.face cv hcv f hf
          simp [fluxSeen, outThrough, owns, hF]
        simp only [momentumOut, hpf, if_true, mean, at0, hρ cv hcv, hρ _ (across_mem hl hcv hf hpf), Option.getD_some, hfs]
        ring
      · have hpf' : paired m f = false := by simpa using hpf
        obtain ⟨e1, -, e3⟩ := hUf f hf hpf'
        have hfs : fluxSeen m s cv f = 0 := by unfold fluxSeen; split_ifs <;> simp [e3]
        simp only [momentumOut, hpf', Bool.false_eq_true, if_false, e1, hfs, e3]
        ring
  unfold momentumBalance at hb
  rw [hsum _ (fun _ h => h), show ((cellFaces m cv).map fun f => if paired m f then outThrough m s cv f else -s.flux f).sum = 0 from hnet, hg, hU] at hb
  simp only [Option.getD_some, hz, mul_zero, zero_div, sub_self, ite_self, at0, hρ cv hcv] at hb
  linear_combination hb

namespace Piso

/-- The example with a uniform velocity along the first axis that carries the walls along: no flow through the boundary of a cell is left, the two tetrahedra exchange nothing. -/
def drift : State ℚ := { setBoundaryVelocity [0, 1, 2, 4, 5, 6] .wallNoSlip ⟨1, 0, 0⟩ (setMaterialProperties fvm 1 1 State.init) with U0 := fun _ => ⟨1, 0, 0⟩, dt := 1 }

/-- The same velocity flowing through the boundary, with the fluxes the solver has for it: out of the owner between cells, into the cell at the boundary. -/
def through : State ℚ := { drift with flux := fun f => ((fvm.faces.get? f).map fun F => (if F.hasPair then 1 else -1) * geom.area F.cvId f * (geom.normal F.cvId f).x).getD 0 }

end Piso

/-- The hypotheses are met by `drift`. -/
example : ∃ q sys, momentumSystem fvm geom drift = some (q, sys) ∧ (∀ cv ∈ fvm.cvs.ids, 0 < geom.volume cv ∧ drift.dens cv = some 1 ∧ drift.U0 cv = ⟨1, 0, 0⟩ ∧
    drift.p cv = 0 ∧ netOut fvm drift cv = 0 ∧ ((cellFaces fvm cv).map fun f => geom.area cv f • geom.normal cv f).sum = 0 ∧
    ∀ f ∈ cellFaces fvm cv, paired fvm f = false → drift.Uf f = ⟨1, 0, 0⟩ ∧ drift.pf f = 0 ∧ drift.flux f = 0) := by
  have h1 : (momentumSystem fvm geom drift).isSome = true := by decide +kernel
  obtain ⟨⟨q, sys⟩, h⟩ := Option.isSome_iff_exists.1 h1
  exact ⟨q, sys, h, by decide +kernel⟩

/-- **C77 fails for a flow through the boundary.** The velocity is the same everywhere, inside and on the boundary, the pressure is constant, there is no gravity and
the mass of each cell is balanced; yet the velocity does not meet the momentum equation of either cell. -/
theorem C77_through_flow : (∀ cv ∈ fvm.cvs.ids, netOut fvm through cv = 0) ∧
    (momentumSystem fvm geom through).map (fun r => fvm.cvs.ids.map fun cv => decide (r.2.row (fun _ => 1) (ix fvm cv) = (r.1.b (ix fvm cv)).x)) = some [false, false] := by
  constructor <;> decide +kernel

end ENigMA
