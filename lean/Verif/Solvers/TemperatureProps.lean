import Verif.Solvers.Temperature
import Verif.Solvers.VofProps

/-!
# C80, C81: the solver for flow and temperature
-/

set_option linter.unusedSectionVars false
set_option autoImplicit false

namespace ENigMA
open Piso
variable {K : Type} [Field K] [LinearOrder K] [IsStrictOrderedRing K]

namespace Heat

/-! ### Specification -/

/-- A fluid with one density, conductivity and heat capacity everywhere, as `setMaterialProperties` gives it. -/
structure OneFluid (m : FvmMesh K) (v : State K) (ρ k c : K) : Prop where
  dens : ∀ cv ∈ m.cvs.ids, v.fl.dens cv = some ρ
  thcond : ∀ cv ∈ m.cvs.ids, v.thcond cv = some k
  spheat : ∀ cv ∈ m.cvs.ids, v.spheat cv = some c

/-- The heat that leaves a cell through a face at temperatures `T`, for a conductivity `x`: conduction, and convection with the temperature of the cell that the fluid
comes from. At the boundary the solver conducts to the given temperature divided by the volume of the cell. -/
def heatOut (ρ c : K) (m : FvmMesh K) (g : Geom K) (v : State K) (T : Int → K) (x : K) (cv f : Int) : K :=
  if paired m f then
    let nb := across m cv f
    x * ((g.area cv f + g.area nb f) / 2) * (T cv - T nb) / (g.dist cv f + g.dist nb f) +
      ρ * c * fluxSeen m v.fl cv f * if 0 < fluxSeen m v.fl cv f then T cv else T nb
  else x * g.area cv f * (T cv - v.Tf f / g.volume cv) / g.dist cv f + ρ * c * fluxSeen m v.fl cv f * if 0 < fluxSeen m v.fl cv f then T cv else v.Tf f

/-- The conductivity that the solver uses at a face: the mean of the one it used at the previous face of the cell and the one on the other side of the face. -/
def meanWith (m : FvmMesh K) (k x : K) (f : Int) : K := (x + if paired m f then k else 1) / 2

/-- The heat that leaves a cell through the faces of a list, with the conductivities that the solver uses; `x` is the one before the first of these faces. -/
def heatSum (ρ k c : K) (m : FvmMesh K) (g : Geom K) (v : State K) (T : Int → K) (cv : Int) : K → List Int → K
  | _, [] => 0
  | x, f :: t => heatOut ρ c m g v T (meanWith m k x f) cv f + heatSum ρ k c m g v T cv (meanWith m k x f) t

/-- The balance of heat of a cell at temperatures `T`. -/
def heatBalance (ρ k c : K) (m : FvmMesh K) (g : Geom K) (v : State K) (T : Int → K) (cv : Int) : K :=
  heatSum ρ k c m g v T cv k (cellFaces m cv) + if 0 < v.fl.dt then g.volume cv * c * ρ * (T cv - v.T0 cv) / v.fl.dt else 0

theorem heatFace_spec {m : FvmMesh K} (hl : Linked m) {g : Geom K} {v : State K} {ρ k c : K} (hm : OneFluid m v ρ k c) {cv f : Int} {iP : Nat}
    (hi : index m cv = some iP) (hcv : cv ∈ m.cvs.ids) (hf : f ∈ cellFaces m cv) {x : K} {q' : Loc K × List (Stamp K)} {st : List (Stamp K)}
    (h : heatFace m g v cv iP (⟨ρ, x, c⟩, st) f = some q') : q'.1 = ⟨ρ, meanWith m k x f, c⟩ ∧
      Adds iP (fun w => heatOut ρ c m g v (fun id => w (ix m id)) (meanWith m k x f) cv f) st q'.2 := by
  obtain ⟨F, hF, hown⟩ := hl.face cv hcv f hf
  have hpm : paired m f = F.hasPair := by simp [paired, hF]
  have hac : across m cv f = F.neighborId cv := by simp [across, hF]
  have hiP : ix m cv = iP := by simp [ix, hi]
  unfold heatFace at h
  simp only [hF, Option.bind_eq_bind, Option.bind_some] at h
  obtain ⟨flux, hfl, h⟩ := Option.bind_eq_some_iff.1 h
  have hfs : fluxSeen m v.fl cv f = flux := by
    simp only [signedFlux, hF, Option.bind_eq_bind, Option.bind_some, Option.pure_def, Option.some.injEq] at hfl
    simp only [fluxSeen, hF, Option.map_some, Option.some.injEq]
    exact hfl
  by_cases hp : F.hasPair = true
  · simp only [hp, if_true] at h
    obtain ⟨iN, hn, h⟩ := Option.bind_eq_some_iff.1 h
    obtain ⟨c', hc', h⟩ := Option.bind_eq_some_iff.1 h
    have hiN : ix m (F.neighborId cv) = iN := by simp [ix, hn]
    have hnb : F.neighborId cv ∈ m.cvs.ids := by
      have := across_mem hl hcv hf (by rw [hpm, hp])
      rwa [hac] at this
    obtain ⟨q1, q2, q3, q4⟩ := hl.pair f F hF hp
    have hcont : c'.poly.containsPolygon f = true := by
      have : f ∈ cellFaces m (F.neighborId cv) := by
        unfold FvmFace.neighborId
        split_ifs
        · exact q3
        · exact q2
      simpa [Polyhedron.containsPolygon, cellFaces, hc'] using this
    rw [if_pos hcont] at h
    by_cases hdist : g.dist cv f + g.dist (F.neighborId cv) f = 0
    · rw [if_pos hdist] at h; simp at h
    · rw [if_neg hdist] at h
      simp only [Option.pure_def, Option.some.injEq, hm.dens _ hnb, hm.thcond _ hnb, hm.spheat _ hnb, Option.getD_some] at h
      subst h
      refine ⟨?_, _, rfl, ?_, fun a w => ?_⟩
      · simp only [meanWith, hpm, hp, if_true, Loc.mk.injEq]
        refine ⟨by ring, by ring, by ring⟩
      · intro t ht
        simp only [List.mem_cons, List.not_mem_nil, or_false] at ht
        rcases ht with rfl | rfl | rfl | rfl <;> trivial
      · simp only [List.map_cons, List.map_nil, List.sum_cons, List.sum_nil, Stamp.val, Stamp.valB, Int.toNat_natCast, heatOut, hpm, hp, if_true, hfs, hac, hiP, hiN, meanWith, gt_iff_lt]
        split_ifs <;> ring
  · have hp' : F.hasPair = false := by simpa using hp
    simp only [hp', Bool.false_eq_true, if_false] at h
    by_cases hdist : g.dist cv f = 0
    · rw [if_pos hdist] at h; simp at h
    rw [if_neg hdist] at h
    by_cases hvol : g.volume cv = 0
    · rw [if_pos hvol] at h; simp at h
    · rw [if_neg hvol] at h
      simp only [Option.pure_def, Option.some.injEq] at h
      subst h
      refine ⟨?_, _, rfl, ?_, fun a w => ?_⟩
      · simp only [meanWith, hpm, hp', Bool.false_eq_true, if_false, Loc.mk.injEq, true_and, and_true]
        ring
      · intro t ht
        simp only [List.mem_cons, List.not_mem_nil, or_false] at ht
        rcases ht with rfl | rfl | rfl | rfl <;> trivial
      · simp only [List.map_cons, List.map_nil, List.sum_cons, List.sum_nil, Stamp.val, Stamp.valB, Int.toNat_natCast, heatOut, hpm, hp', Bool.false_eq_true, if_false, hfs, hiP, meanWith, gt_iff_lt]
        split_ifs <;> ring

theorem heatFaces_spec {m : FvmMesh K} (hl : Linked m) {g : Geom K} {v : State K} {ρ k c : K} (hm : OneFluid m v ρ k c) {cv : Int} {iP : Nat}
    (hi : index m cv = some iP) (hcv : cv ∈ m.cvs.ids) : ∀ (l : List Int) (x : K) (st : List (Stamp K)) (q' : Loc K × List (Stamp K)), (∀ f ∈ l, f ∈ cellFaces m cv) →
    l.foldlM (heatFace m g v cv iP) (⟨ρ, x, c⟩, st) = some q' → q'.1.dens = ρ ∧ q'.1.spheat = c ∧
      Adds iP (fun w => heatSum ρ k c m g v (fun id => w (ix m id)) cv x l) st q'.2 := by
  intro l
  induction l with
  | nil =>
    intro x st q' _ h
    simp only [List.foldlM_nil, Option.pure_def, Option.some.injEq] at h
    subst h
    exact ⟨rfl, rfl, Adds.refl st⟩
  | cons f t ih =>
    intro x st q' hmem h
    rw [List.foldlM_cons] at h
    obtain ⟨⟨p1, s1⟩, h1, h2⟩ := Option.bind_eq_some_iff.1 h
    obtain ⟨e1, a1⟩ := heatFace_spec hl hm hi hcv (hmem f (by simp)) h1
    simp only at e1 a1
    subst e1
    obtain ⟨e2, e3, a2⟩ := ih _ _ _ (fun f' h' => hmem f' (by simp [h'])) h2
    exact ⟨e2, e3, (a1.trans a2).congr fun w => rfl⟩

theorem heatCell_spec {m : FvmMesh K} (hl : Linked m) {g : Geom K} {v : State K} {ρ k c : K} (hm : OneFluid m v ρ k c) {cv : Int} (hcv : cv ∈ m.cvs.ids)
    {st st' : List (Stamp K)} (h : heatCell m g v st cv = some st') : Adds (ix m cv) (fun w => heatBalance ρ k c m g v (fun id => w (ix m id)) cv) st st' := by
  obtain ⟨c0, hc0, -⟩ := hl.cell cv hcv
  have hfs : facesOf m cv = some (cellFaces m cv) := by simp [facesOf, cellFaces, hc0]
  unfold heatCell at h
  obtain ⟨iP, hi, h⟩ := Option.bind_eq_some_iff.1 h
  have hiP : ix m cv = iP := by simp [ix, hi]
  simp only [hm.dens cv hcv, hm.thcond cv hcv, hm.spheat cv hcv, hfs, Option.bind_eq_bind, Option.bind_some] at h
  obtain ⟨vs, -, h⟩ := Option.bind_eq_some_iff.1 h
  obtain ⟨⟨p, s1⟩, h1, h⟩ := Option.bind_eq_some_iff.1 h
  simp only [Option.pure_def, Option.some.injEq] at h
  obtain ⟨e1, e2, a1⟩ := heatFaces_spec hl hm hi hcv _ _ _ _ (fun _ h => h) h1
  simp only at e1 e2 a1
  rw [hiP]
  by_cases hdt : 0 < v.fl.dt
  · rw [if_pos hdt, e1, e2] at h
    refine (a1.trans (ψ := fun w => g.volume cv * c * ρ * (w iP - v.T0 cv) / v.fl.dt) (c := st') ⟨_, h.symm, ?_, fun a w => ?_⟩).congr fun w => ?_
    · intro t ht
      simp only [List.mem_cons, List.not_mem_nil, or_false] at ht
      rcases ht with rfl | rfl <;> trivial
    · simp only [List.map_cons, List.map_nil, List.sum_cons, List.sum_nil, Stamp.val, Stamp.valB, Int.toNat_natCast]
      ring
    · simp only [heatBalance, if_pos hdt, hiP]
  · rw [if_neg hdt] at h
    subst h
    exact a1.congr fun w => by simp only [heatBalance, if_neg hdt, add_zero]

end Heat
open Heat

/-- **C80.** The equations that `calculateTemperatureField` solves are the balances of heat of the cells, with the conductivities and boundary temperatures of the specification. -/
theorem C80_balance {m : FvmMesh K} (hl : Linked m) {g : Geom K} {v : Heat.State K} {ρ k c : K} (hm : OneFluid m v ρ k c) {sys : Sys K} (h : heatSystem m g v = some sys)
    {cv : Int} (hcv : cv ∈ m.cvs.ids) (w : Nat → K) : sys.row w (ix m cv) - sys.b (ix m cv) = heatBalance ρ k c m g v (fun id => w (ix m id)) cv := by
  unfold heatSystem at h
  obtain ⟨st, h1, h⟩ := Option.bind_eq_some_iff.1 h
  exact (cells_row hl.nodup (fun cv hcv st st' h => heatCell_spec hl hm hcv h) h1 h).2 cv hcv w


namespace Heat

theorem meanWith_one (m : FvmMesh K) (f : Int) : meanWith m (1 : K) 1 f = 1 := by
  unfold meanWith; split_ifs <;> norm_num

theorem heatSum_one (ρ c : K) (m : FvmMesh K) (g : Geom K) (v : State K) (T : Int → K) (cv : Int) : ∀ l : List Int,
    heatSum ρ 1 c m g v T cv 1 l = (l.map fun f => heatOut ρ c m g v T 1 cv f).sum := by
  intro l
  induction l with
  | nil => rfl
  | cons f t ih => simp only [heatSum, meanWith_one, ih, List.map_cons, List.sum_cons]

/-- The heat in the fluid. -/
def heat (ρ c : K) (m : FvmMesh K) (g : Geom K) (T : Int → K) : K := (m.cvs.ids.map fun cv => g.volume cv * c * ρ * T cv).sum

theorem system_n {m : FvmMesh K} (hl : Linked m) {g : Geom K} {v : State K} {ρ k c : K} (hm : OneFluid m v ρ k c) {sys : Sys K} (h : heatSystem m g v = some sys) :
    sys.n = m.cvs.ids.length := by
  unfold heatSystem at h
  obtain ⟨st, h1, h'⟩ := Option.bind_eq_some_iff.1 h
  exact (cells_row hl.nodup (fun cv hcv st st' h => heatCell_spec (g := g) (v := v) hl hm hcv h) h1 h').1

end Heat

/-- **C80.** For one conductivity the heat that leaves a cell through a face between two cells enters the other. -/
theorem C80_reaction {m : FvmMesh K} (hl : Linked m) (ρ c x : K) (g : Geom K) (v : Heat.State K) (T : Int → K) {f : Int} {F : FvmFace K} (hF : m.faces.get? f = some F)
    (hp : F.hasPair = true) : heatOut ρ c m g v T x F.nbId f = -heatOut ρ c m g v T x F.cvId f := by
  obtain ⟨hne, -⟩ := hl.pair f F hF hp
  have hpm : paired m f = true := by simp [paired, hF, hp]
  have a1 : across m F.nbId f = F.cvId := by simp [across, hF, FvmFace.neighborId, hne]
  have a2 : across m F.cvId f = F.nbId := by simp [across, hF, FvmFace.neighborId]
  have b1 : fluxSeen m v.fl F.cvId f = v.fl.flux f := by simp [fluxSeen, hF]
  have b2 : fluxSeen m v.fl F.nbId f = -v.fl.flux f := by simp [fluxSeen, hF, hne]
  simp only [heatOut, hpm, if_true, a1, a2, b1, b2]
  rw [add_comm (g.dist F.nbId f), add_comm (g.area F.nbId f)]
  rcases lt_trichotomy (v.fl.flux f) 0 with h | h | h
  · rw [if_pos (by linarith), if_neg (by linarith)]; ring
  · rw [h]; simp; ring
  · rw [if_neg (by linarith), if_pos h]; ring

/-- **C80, conservation, partial.** For a fluid of conductivity 1 an exact solution changes the heat by what leaves through the boundary only. Missing: for other conductivities the two
cells of a face use different ones (`C80_asymmetric`). -/
theorem C80_conservation_partial {m : FvmMesh K} (hl : Linked m) {g : Geom K} {v : Heat.State K} {ρ c : K} (hm : OneFluid m v ρ 1 c) (hdt : 0 < v.fl.dt) {sys : Sys K}
    (h : heatSystem m g v = some sys) {w : Nat → K} (hw : sys.Solves w) : heat ρ c m g (fun cv => w (ix m cv)) = heat ρ c m g v.T0 -
      v.fl.dt * (m.cvs.ids.map fun cv => (((cellFaces m cv).filter fun f => !paired m f).map fun f => heatOut ρ c m g v (fun id => w (ix m id)) 1 cv f).sum).sum := by
  have hn := system_n hl hm h
  have hz : ∀ cv ∈ m.cvs.ids, ((cellFaces m cv).map fun f => heatOut ρ c m g v (fun id => w (ix m id)) 1 cv f).sum =
      -(g.volume cv * c * ρ * (w (ix m cv) - v.T0 cv) / v.fl.dt) := by
    intro cv hcv
    have e := C80_balance hl hm h hcv w
    rw [hw (ix m cv) (by rw [hn]; exact ix_lt hcv), sub_self, heatBalance, if_pos hdt, heatSum_one] at e
    linear_combination -e
  have hx := sum_exchange hl (fun cv f => heatOut ρ c m g v (fun id => w (ix m id)) 1 cv f) (fun f F hF hp => C80_reaction hl ρ c 1 g v _ hF hp)
  rw [List.map_congr_left hz] at hx
  have hs : ∀ l : List Int, (l.map fun cv => -(g.volume cv * c * ρ * (w (ix m cv) - v.T0 cv) / v.fl.dt)).sum * v.fl.dt =
      (l.map fun cv => g.volume cv * c * ρ * v.T0 cv).sum - (l.map fun cv => g.volume cv * c * ρ * w (ix m cv)).sum := by
    intro l
    induction l with
    | nil => simp
    | cons a t ih =>
      simp only [List.map_cons, List.sum_cons]
      rw [add_mul, ih]
      field_simp
      ring
  have := hs m.cvs.ids
  rw [hx] at this
  unfold heat
  linear_combination this

/-- The geometry has areas that are not negative, positive distances and positive volumes. -/
structure GoodGeom (m : FvmMesh K) (g : Geom K) : Prop where
  area : ∀ cv ∈ m.cvs.ids, ∀ f ∈ cellFaces m cv, 0 ≤ g.area cv f
  dist : ∀ cv ∈ m.cvs.ids, ∀ f ∈ cellFaces m cv, 0 < g.dist cv f
  volume : ∀ cv ∈ m.cvs.ids, 0 < g.volume cv

namespace Heat

theorem across_face {m : FvmMesh K} (hl : Linked m) {cv f : Int} (hcv : cv ∈ m.cvs.ids) (hf : f ∈ cellFaces m cv) (hp : paired m f = true) : f ∈ cellFaces m (across m cv f) := by
  obtain ⟨F, hF, -⟩ := hl.face cv hcv f hf
  have hFp : F.hasPair = true := by simpa [paired, hF] using hp
  obtain ⟨-, e2, e3, -⟩ := hl.pair f F hF hFp
  simp only [across, hF, Option.map_some, Option.getD_some, FvmFace.neighborId]
  split_ifs
  · exact e3
  · exact e2

/-- The heat that leaves the hottest cell, apart from what its own fluid takes along, is not negative. -/
theorem heatSum_hot {m : FvmMesh K} (hl : Linked m) {g : Geom K} (hg : GoodGeom m g) {v : State K} {ρ k c : K} (hρc : 0 ≤ ρ * c) (hk : 0 ≤ k) {cv : Int} (hcv : cv ∈ m.cvs.ids)
    {T : Int → K} (hT : ∀ id ∈ m.cvs.ids, T id ≤ T cv) (hb : ∀ f ∈ cellFaces m cv, paired m f = false → v.Tf f / g.volume cv ≤ T cv ∧ v.fl.flux f = 0) :
    ∀ (l : List Int) (x : K), 0 ≤ x → (∀ f ∈ l, f ∈ cellFaces m cv) → ρ * c * T cv * (l.map fun f => fluxSeen m v.fl cv f).sum ≤ heatSum ρ k c m g v T cv x l := by
  intro l
  induction l with
  | nil => intro x _ _; simp [heatSum]
  | cons f t ih =>
    intro x hx hmem
    have hf := hmem f (by simp)
    have hx' : 0 ≤ meanWith m k x f := by unfold meanWith; split_ifs <;> linarith
    have hrec := ih (meanWith m k x f) hx' (fun f' h' => hmem f' (by simp [h']))
    simp only [List.map_cons, List.sum_cons, heatSum, mul_add]
    refine add_le_add ?_ hrec
    unfold heatOut
    by_cases hp : paired m f = true
    · simp only [hp, if_true]
      have hnb := across_mem hl hcv hf hp
      have hfn := across_face hl hcv hf hp
      have h1 := hg.area cv hcv f hf
      have h2 := hg.area _ hnb f hfn
      have h3 := hg.dist cv hcv f hf
      have h4 := hg.dist _ hnb f hfn
      have hcond : 0 ≤ meanWith m k x f * ((g.area cv f + g.area (across m cv f) f) / 2) * (T cv - T (across m cv f)) / (g.dist cv f + g.dist (across m cv f) f) :=
        div_nonneg (mul_nonneg (mul_nonneg hx' (by linarith)) (sub_nonneg.2 (hT _ hnb))) (by linarith)
      refine le_trans ?_ (le_add_of_nonneg_left hcond)
      by_cases hfl : 0 < fluxSeen m v.fl cv f
      · rw [if_pos hfl]; apply le_of_eq; ring
      · rw [if_neg hfl]
        have h5 : 0 ≤ -fluxSeen m v.fl cv f := by linarith
        have h6 := mul_nonneg (mul_nonneg hρc h5) (sub_nonneg.2 (hT _ hnb))
        nlinarith [h6]
    · have hp' : paired m f = false := by simpa using hp
      obtain ⟨h1, h2⟩ := hb f hf hp'
      have hfs : fluxSeen m v.fl cv f = 0 := by unfold fluxSeen; split_ifs <;> simp [h2]
      simp only [hp', Bool.false_eq_true, if_false, hfs, mul_zero, zero_mul, add_zero]
      exact div_nonneg (mul_nonneg (mul_nonneg hx' (hg.area cv hcv f hf)) (sub_nonneg.2 h1)) (hg.dist cv hcv f hf).le

theorem exists_hottest (T : Int → K) : ∀ l : List Int, l ≠ [] → ∃ a ∈ l, ∀ b ∈ l, T b ≤ T a := by
  intro l
  induction l with
  | nil => intro h; exact absurd rfl h
  | cons a t ih =>
    intro _
    by_cases ht : t = []
    · subst ht; exact ⟨a, by simp, by simp⟩
    · obtain ⟨b, hb, hm⟩ := ih ht
      rcases le_total (T a) (T b) with h | h
      · exact ⟨b, by simp [hb], fun x hx => by rcases List.mem_cons.1 hx with rfl | hx; exacts [h, hm x hx]⟩
      · exact ⟨a, by simp, fun x hx => by rcases List.mem_cons.1 hx with rfl | hx; exacts [le_rfl, (hm x hx).trans h]⟩

theorem upper {m : FvmMesh K} (hl : Linked m) {g : Geom K} (hg : GoodGeom m g) {v : State K} {ρ k c : K} (hρ : 0 < ρ) (hc : 0 < c) (hk : 0 ≤ k)
    (hdt : 0 < v.fl.dt) {T : Int → K} (hT : ∀ cv ∈ m.cvs.ids, heatBalance ρ k c m g v T cv = 0) {hi : K} (h0 : ∀ cv ∈ m.cvs.ids, v.T0 cv ≤ hi)
    (hb : ∀ cv ∈ m.cvs.ids, ∀ f ∈ cellFaces m cv, paired m f = false → v.Tf f / g.volume cv ≤ hi ∧ v.fl.flux f = 0)
    (hmass : ∀ cv ∈ m.cvs.ids, ((cellFaces m cv).map fun f => fluxSeen m v.fl cv f).sum = 0) : ∀ cv ∈ m.cvs.ids, T cv ≤ hi := by
  intro cv hcv
  obtain ⟨a, ha, hmax⟩ := exists_hottest T m.cvs.ids (List.ne_nil_of_mem hcv)
  refine (hmax cv hcv).trans ?_
  by_contra hcon
  have hcon := not_le.1 hcon
  have e := hT a ha
  rw [heatBalance, if_pos hdt] at e
  have hs := heatSum_hot hl hg (v := v) (mul_pos hρ hc).le hk ha hmax
    (fun f hf hp => ⟨((hb a ha f hf hp).1).trans hcon.le, (hb a ha f hf hp).2⟩) (cellFaces m a) k hk (fun _ h => h)
  rw [hmass a ha, mul_zero] at hs
  have hpos : 0 < g.volume a * c * ρ * (T a - v.T0 a) / v.fl.dt :=
    div_pos (mul_pos (mul_pos (mul_pos (hg.volume a ha) hc) hρ) (by linarith [h0 a ha])) hdt
  linarith

/-- The state with all temperatures negated. -/
def mirror (v : State K) : State K := { v with T0 := fun cv => -v.T0 cv, Tf := fun f => -v.Tf f }

theorem heatOut_mirror (ρ c : K) (m : FvmMesh K) (g : Geom K) (v : State K) (T : Int → K) (x : K) (cv f : Int) :
    heatOut ρ c m g (mirror v) (fun id => -T id) x cv f = -heatOut ρ c m g v T x cv f := by
  unfold heatOut mirror
  dsimp only
  split_ifs <;> ring

theorem heatSum_mirror (ρ k c : K) (m : FvmMesh K) (g : Geom K) (v : State K) (T : Int → K) (cv : Int) : ∀ (l : List Int) (x : K),
    heatSum ρ k c m g (mirror v) (fun id => -T id) cv x l = -heatSum ρ k c m g v T cv x l := by
  intro l
  induction l with
  | nil => intro x; simp [heatSum]
  | cons f t ih => intro x; simp only [heatSum, heatOut_mirror, ih]; ring

theorem heatBalance_mirror (ρ k c : K) (m : FvmMesh K) (g : Geom K) (v : State K) (T : Int → K) (cv : Int) :
    heatBalance ρ k c m g (mirror v) (fun id => -T id) cv = -heatBalance ρ k c m g v T cv := by
  have e := heatSum_mirror ρ k c m g v T cv (cellFaces m cv) k
  unfold heatBalance
  rw [e]
  change _ + (if 0 < v.fl.dt then g.volume cv * c * ρ * (-T cv - -v.T0 cv) / v.fl.dt else 0) = _
  split_ifs <;> ring

end Heat

/-- **C81, bounds of the temperature, partial.** A closed vessel with the fluxes of a balanced flow: an exact solution for the temperature lies between the lowest and the highest of the
temperatures before and of the temperatures of the boundary. Missing: the solver divides the temperatures of the boundary by the volume of the cell; the statement is about these
quotients, for the temperatures themselves it is false (`C81_overheats`). Flow through the boundary is left out: its flux has the wrong sign (`C79_filled`). -/
theorem C81_bounds_partial {m : FvmMesh K} (hl : Linked m) {g : Geom K} (hg : GoodGeom m g) {v : Heat.State K} {ρ k c : K} (hm : OneFluid m v ρ k c) (hρ : 0 < ρ) (hc : 0 < c)
    (hk : 0 ≤ k) (hdt : 0 < v.fl.dt) {sys : Sys K} (h : heatSystem m g v = some sys) {w : Nat → K} (hw : sys.Solves w) {lo hi : K}
    (h0 : ∀ cv ∈ m.cvs.ids, lo ≤ v.T0 cv ∧ v.T0 cv ≤ hi)
    (hb : ∀ cv ∈ m.cvs.ids, ∀ f ∈ cellFaces m cv, paired m f = false → lo ≤ v.Tf f / g.volume cv ∧ v.Tf f / g.volume cv ≤ hi ∧ v.fl.flux f = 0)
    (hmass : ∀ cv ∈ m.cvs.ids, ((cellFaces m cv).map fun f => fluxSeen m v.fl cv f).sum = 0) : ∀ cv ∈ m.cvs.ids, lo ≤ w (ix m cv) ∧ w (ix m cv) ≤ hi := by
  have hz : ∀ cv ∈ m.cvs.ids, heatBalance ρ k c m g v (fun id => w (ix m id)) cv = 0 := fun cv hcv => by
    rw [← C80_balance hl hm h hcv w, hw (ix m cv) (by rw [system_n hl hm h]; exact ix_lt hcv), sub_self]
  intro cv hcv
  refine ⟨?_, upper hl hg hρ hc hk hdt hz (fun cv h => (h0 cv h).2) (fun cv h f hf hp => (hb cv h f hf hp).2) hmass cv hcv⟩
  have := upper hl hg (v := mirror v) hρ hc hk hdt (T := fun id => -w (ix m id)) (hi := -lo) (fun cv hcv => by rw [heatBalance_mirror, hz cv hcv, neg_zero])
    (fun cv hcv => neg_le_neg (h0 cv hcv).1) (fun cv hcv f hf hp => ⟨by simp only [mirror, neg_div]; exact neg_le_neg (hb cv hcv f hf hp).1, (hb cv hcv f hf hp).2.2⟩) hmass cv hcv
  exact neg_le_neg_iff.1 this


namespace Heat

/-- A step of the flow solver leaves no flux through a wall. -/
theorem wall_flux {big : K} {m : FvmMesh K} (hl : Linked m) {g : Geom K} (ho : Opposite m g) {solveU solveP : Sys K → Nat → K} {dt : K} {s s' : Piso.State K}
    (hx : ExactPressure m g solveU solveP dt s) (h : Piso.iterate big m g solveU solveP dt s = some s') {cv f : Int} (hcv : cv ∈ m.cvs.ids) (hf : f ∈ cellFaces m cv)
    (hp' : paired m f = false) (hw : s.bt f = .wallNoSlip) : s'.flux f = 0 := by
  obtain ⟨S⟩ := stages h
  have h1 := velocity_same S.velocity
  have hbt1 : S.s1.bt = s.bt := by rw [h1]; rfl
  have h4 := correctVelocity_same _ _ _ S.correct
  have h2' : S.s2 = { S.t with p := fun id => match index m id with | some k => solveP S.sys k | Option.none => S.t.p id } := by
    have := S.pressure
    unfold calculatePressureField at this
    simp only [S.system, Option.bind_eq_bind, Option.bind_some, Option.pure_def, Option.some.injEq] at this
    exact this.symm
  obtain ⟨-, a2, -, a4, -⟩ := flux_spec hl ho S.system (hx _ _ _ S.velocity S.system) S.s2 h2' S.flux hcv
  have hbt2 : S.s2.bt = s.bt := by rw [h2', ← hbt1]; show S.t.bt = S.s1.bt; rw [a4.1]
  have e : s'.flux f = S.s3.flux f := congrFun S.flux_eq f
  rw [e, a2 f hf hp']
  simp [upd, hp', hbt2, hw]

end Heat

/-- **C80, a step.** `iterate` makes a step of the flow and then solves the equations for the temperature with the fluxes of that step; the temperatures before the call are the old ones. -/
theorem C80_step {big : K} {m : FvmMesh K} (hl : Linked m) {g : Geom K} {solveU solveP solveT : Sys K → Nat → K} {dt ρ k c : K} {v v' : Heat.State K} (hm : OneFluid m v ρ k c)
    (h : Heat.iterate big m g solveU solveP solveT dt v = some v') : Piso.iterate big m g solveU solveP dt v.fl = some v'.fl ∧ v'.fl.dt = dt ∧ v'.T0 = v.T ∧ v'.Tf = v.Tf ∧
      OneFluid m v' ρ k c ∧ ∃ sys, heatSystem m g v' = some sys ∧ ∀ cv ∈ m.cvs.ids, v'.T cv = solveT sys (ix m cv) := by
  unfold Heat.iterate at h
  obtain ⟨fl, h1, h⟩ := Option.bind_eq_some_iff.1 h
  unfold calculateTemperatureField at h
  obtain ⟨sys, h2, h⟩ := Option.bind_eq_some_iff.1 h
  simp only [Option.pure_def, Option.some.injEq] at h
  obtain ⟨d1, d2, d3⟩ := Vof.flow_keeps hl h1
  subst h
  refine ⟨h1, d3, rfl, rfl, ⟨fun cv hcv => ?_, hm.thcond, hm.spheat⟩, sys, ?_, fun cv hcv => ?_⟩
  · show fl.dens cv = _; rw [d1]; exact hm.dens cv hcv
  · rw [← h2]; rfl
  · have hi := index_spec hcv
    simp only [hi, ix, Option.getD_some]

/-- **C81, a closed vessel, partial.** In a vessel with walls all around, whatever the flow: if the equations for the pressure and the temperature are solved exactly, a call of `iterate`
leaves the temperatures between the lowest and the highest of the temperatures before and of those of the walls, divided by the volume of the cell (`C81_overheats`). -/
theorem C81_vessel_partial {big : K} {m : FvmMesh K} (hl : Linked m) {g : Geom K} (ho : Opposite m g) (hg : GoodGeom m g) {solveU solveP solveT : Sys K → Nat → K} {dt ρ k c : K}
    {v v' : Heat.State K} (hm : OneFluid m v ρ k c) (hρ : 0 < ρ) (hc : 0 < c) (hk : 0 ≤ k) (hdt : 0 < dt) (hx : ExactPressure m g solveU solveP dt v.fl)
    (hxT : ∀ sys, heatSystem m g v' = some sys → sys.Solves (solveT sys)) (h : Heat.iterate big m g solveU solveP solveT dt v = some v')
    (hw : ∀ cv ∈ m.cvs.ids, ∀ f ∈ cellFaces m cv, paired m f = false → v.fl.bt f = .wallNoSlip) {lo hi : K} (h0 : ∀ cv ∈ m.cvs.ids, lo ≤ v.T cv ∧ v.T cv ≤ hi)
    (hb : ∀ cv ∈ m.cvs.ids, ∀ f ∈ cellFaces m cv, paired m f = false → lo ≤ v.Tf f / g.volume cv ∧ v.Tf f / g.volume cv ≤ hi) :
    ∀ cv ∈ m.cvs.ids, lo ≤ v'.T cv ∧ v'.T cv ≤ hi := by
  obtain ⟨a1, a2, a3, a4, a5, sys, a6, a7⟩ := C80_step hl hm h
  intro cv hcv
  rw [a7 cv hcv]
  refine C81_bounds_partial hl hg a5 hρ hc hk (by rw [a2]; exact hdt) a6 (hxT sys a6) (by rw [a3]; exact h0) (fun cv hcv f hf hp => ?_) (fun cv hcv => ?_) cv hcv
  · rw [a4]
    exact ⟨(hb cv hcv f hf hp).1, (hb cv hcv f hf hp).2, wall_flux hl ho hx a1 hcv hf hp (hw cv hcv f hf hp)⟩
  · have := C73_iterate_partial hl ho hx a1 hcv (fun f hf hp => Or.inl (hw cv hcv f hf hp))
    rw [← this]
    unfold netOut
    congr 1
    apply List.map_congr_left
    intro f hf
    by_cases hp : paired m f = true
    · rw [if_pos hp]
      simp only [outThrough, fluxSeen, owns]
      obtain ⟨F, hF, -⟩ := hl.face cv hcv f hf
      simp [hF]
    · have hp' : paired m f = false := by simpa using hp
      rw [if_neg hp]
      have hz := wall_flux hl ho hx a1 hcv hf hp' (hw cv hcv f hf hp')
      unfold fluxSeen; split_ifs <;> simp [hz]

end ENigMA
