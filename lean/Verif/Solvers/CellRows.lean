import Verif.Solvers.PisoMomentum

/-!
# Systems assembled cell by cell and face by face

Lemmas shared by the solvers for the phase fraction and the temperature.
-/

set_option linter.unusedSectionVars false
set_option autoImplicit false

namespace ENigMA
namespace Piso
open Mesh FvmMesh
variable {K : Type} [Field K] [LinearOrder K] [IsStrictOrderedRing K]

/-- The statements added by a step: additions only, whose left side minus right side, tested with `v` at `w`, is the balance `φ w` of row `i`. -/
def Adds (i : Nat) (φ : (Nat → K) → K) (st st' : List (Stamp K)) : Prop :=
  ∃ add, st' = st ++ add ∧ (∀ t ∈ add, t.IsAdd) ∧ ∀ v w : Nat → K, (add.map (Stamp.val v w)).sum - (add.map (Stamp.valB v)).sum = v i * φ w

theorem Adds.trans {i : Nat} {φ ψ : (Nat → K) → K} {a b c : List (Stamp K)} (h : Adds i φ a b) (h' : Adds i ψ b c) : Adds i (fun w => φ w + ψ w) a c := by
  obtain ⟨x, a1, a2, a3⟩ := h
  obtain ⟨y, b1, b2, b3⟩ := h'
  refine ⟨x ++ y, by rw [b1, a1, List.append_assoc], fun t ht => ?_, fun v w => ?_⟩
  · rcases List.mem_append.1 ht with h | h
    · exact a2 t h
    · exact b2 t h
  · simp only [List.map_append, List.sum_append]
    have := a3 v w; have := b3 v w
    linear_combination a3 v w + b3 v w

theorem Adds.refl {i : Nat} (a : List (Stamp K)) : Adds i (fun _ => 0) a a := ⟨[], by simp, by simp, by simp⟩

theorem Adds.congr {i : Nat} {φ ψ : (Nat → K) → K} {a b : List (Stamp K)} (h : Adds i φ a b) (e : ∀ w, φ w = ψ w) : Adds i ψ a b := by
  have : φ = ψ := funext e
  rw [← this]; exact h

/-- The loop over the faces of a cell. -/
theorem faces_adds {i : Nat} {P : Int → Prop} {step : List (Stamp K) → Int → Option (List (Stamp K))} {ψ : (Nat → K) → Int → K}
    (hs : ∀ f, P f → ∀ st st', step st f = some st' → Adds i (fun w => ψ w f) st st') :
    ∀ (l : List Int) (st st' : List (Stamp K)), (∀ f ∈ l, P f) → l.foldlM step st = some st' → Adds i (fun w => (l.map (ψ w)).sum) st st' := by
  intro l
  induction l with
  | nil =>
    intro st st' _ h
    simp only [List.foldlM_nil, Option.pure_def, Option.some.injEq] at h
    subst h
    exact (Adds.refl st).congr fun w => by simp
  | cons f t ih =>
    intro st st' hP h
    rw [List.foldlM_cons] at h
    obtain ⟨s1, h1, h2⟩ := Option.bind_eq_some_iff.1 h
    exact ((hs f (hP f (by simp)) _ _ h1).trans (ih _ _ (fun f' h' => hP f' (by simp [h'])) h2)).congr fun w => by simp

/-- The loop over the cells, and the system that results. -/
theorem cells_row {m : FvmMesh K} (hn : m.cvs.ids.Nodup) {step : List (Stamp K) → Int → Option (List (Stamp K))} {β : (Nat → K) → Int → K}
    (hs : ∀ cv ∈ m.cvs.ids, ∀ st st', step st cv = some st' → Adds (ix m cv) (fun w => β w cv) st st') {st : List (Stamp K)} {sys : Sys K} {kind : MatrixType}
    (h : m.cvs.ids.foldlM step [] = some st) (ha : (Sys.zero kind m.cvs.ids.length).assemble st = some sys) :
    sys.n = m.cvs.ids.length ∧ ∀ cv ∈ m.cvs.ids, ∀ w, sys.row w (ix m cv) - sys.b (ix m cv) = β w cv := by
  have key : ∀ (l : List Int) (st st' : List (Stamp K)), (∀ cv ∈ l, cv ∈ m.cvs.ids) → l.foldlM step st = some st' →
      ∃ add, st' = st ++ add ∧ (∀ t ∈ add, t.IsAdd) ∧ ∀ v w : Nat → K, (add.map (Stamp.val v w)).sum - (add.map (Stamp.valB v)).sum =
        (l.map fun cv => v (ix m cv) * β w cv).sum := by
    intro l
    induction l with
    | nil =>
      intro st st' _ h
      simp only [List.foldlM_nil, Option.pure_def, Option.some.injEq] at h
      subst h
      exact ⟨[], by simp, by simp, by simp⟩
    | cons a t ih =>
      intro st st' hP h
      rw [List.foldlM_cons] at h
      obtain ⟨s1, h1, h2⟩ := Option.bind_eq_some_iff.1 h
      obtain ⟨x, a1, a2, a3⟩ := hs a (hP a (by simp)) _ _ h1
      obtain ⟨y, b1, b2, b3⟩ := ih _ _ (fun f' h' => hP f' (by simp [h'])) h2
      refine ⟨x ++ y, by rw [b1, a1, List.append_assoc], fun t ht => ?_, fun v w => ?_⟩
      · rcases List.mem_append.1 ht with h | h
        · exact a2 t h
        · exact b2 t h
      · simp only [List.map_append, List.sum_append, List.map_cons, List.sum_cons]
        linear_combination a3 v w + b3 v w
  obtain ⟨add, a1, a2, a3⟩ := key _ _ _ (fun _ h => h) h
  rw [List.nil_append] at a1
  subst a1
  have hn' : sys.n = m.cvs.ids.length := by
    have := (Sys.assemble_form st _ _ ha a2 (fun _ => 0) (fun _ => 0)).1
    rw [this]; rfl
  refine ⟨hn', fun cv hcv w => ?_⟩
  have hi := ix_lt hcv
  obtain ⟨-, -, f3, f4⟩ := Sys.assemble_form st _ _ ha a2 (fun r => if r = ix m cv then 1 else 0) w
  rw [Sys.zero_form, zero_add, Sys.form_row _ _ (by rw [hn']; exact hi)] at f3
  rw [Sys.zero_load, zero_add, Sys.load_single _ _ (by rw [hn']; exact hi)] at f4
  have h5 := a3 (fun r => if r = ix m cv then 1 else 0) w
  rw [← f3, ← f4] at h5
  rw [h5, sum_map_single hn hcv]
  · simp
  · intro b hb hne
    have : ix m b ≠ ix m cv := fun e => hne (ix_inj hb hcv e)
    simp [this]

/-- Something that leaves one cell through a face between two cells and enters the other: over all cells only the faces of the boundary count. -/
theorem sum_exchange {m : FvmMesh K} (hl : Linked m) (ψ : Int → Int → K)
    (ha : ∀ f F, m.faces.get? f = some F → F.hasPair = true → ψ F.nbId f = -ψ F.cvId f) :
    (m.cvs.ids.map fun cv => ((cellFaces m cv).map fun f => ψ cv f).sum).sum =
      (m.cvs.ids.map fun cv => (((cellFaces m cv).filter fun f => !paired m f).map fun f => ψ cv f).sum).sum := by
  let φ : Int → Int → K := fun cv f => if paired m f then ψ cv f else 0
  have h1 : ∀ cv, ((cellFaces m cv).map fun f => ψ cv f).sum =
      ((cellFaces m cv).map (φ cv)).sum + (((cellFaces m cv).filter fun f => !paired m f).map fun f => ψ cv f).sum := by
    intro cv
    induction cellFaces m cv with
    | nil => simp
    | cons f t ih =>
      rw [List.map_cons, List.sum_cons, ih, List.map_cons, List.sum_cons]
      by_cases hp : paired m f = true
      · rw [List.filter_cons_of_neg (by simp [hp])]; simp only [φ, hp, if_true]; ring
      · rw [List.filter_cons_of_pos (by simp [hp]), List.map_cons, List.sum_cons]; simp only [φ, hp]; ring_nf; simp
  have h2 : (m.cvs.ids.map fun cv => ((cellFaces m cv).map (φ cv)).sum).sum = 0 := by
    have hflat : (m.cvs.ids.map fun cv => ((cellFaces m cv).map (φ cv)).sum).sum =
        ((m.cvs.ids.flatMap fun id => (cellFaces m id).map fun f => (id, f)).map fun v => φ v.1 v.2).sum := by
      generalize m.cvs.ids = l
      induction l with
      | nil => rfl
      | cons a t ih => rw [List.map_cons, List.sum_cons, ih, List.flatMap_cons, List.map_append, List.sum_append, List.map_map]; rfl
    rw [hflat, sum_regroup _ (((m.cvs.ids.flatMap fun id => (cellFaces m id).map fun f => (id, f)).map Prod.snd).dedup) (List.nodup_dedup _)
      (fun v hv => List.mem_dedup.2 (List.mem_map.2 ⟨v, hv, rfl⟩)) φ]
    apply List.sum_eq_zero
    intro x hx
    obtain ⟨k, hk, rfl⟩ := List.mem_map.1 hx
    obtain ⟨v, hv, rfl⟩ := List.mem_map.1 (List.mem_dedup.1 hk)
    obtain ⟨v1, v2⟩ := mem_visits.1 hv
    obtain ⟨F, hF, -⟩ := hl.face v.1 v1 v.2 v2
    rw [filter_visits hl]
    by_cases hp : F.hasPair = true
    · rw [cells_of_paired hl hF hp]
      have hpm : paired m v.2 = true := by simp [paired, hF, hp]
      simp only [List.map_cons, List.map_nil, List.sum_cons, List.sum_nil, φ, hpm, if_true, ha v.2 F hF hp]
      ring
    · have hpm : paired m v.2 = false := by simpa [paired, hF] using hp
      simp [φ, hpm, Function.comp_def]
  rw [← zero_add ((m.cvs.ids.map fun cv => (((cellFaces m cv).filter fun f => !paired m f).map fun f => ψ cv f).sum).sum), ← h2, ← List.sum_map_add]
  exact congrArg List.sum (List.map_congr_left fun cv _ => h1 cv)

end Piso
end ENigMA
