import Verif.Mesh.Space

/-!
# Faces of tetrahedra that do not overlap
-/

set_option linter.unusedSectionVars false
set_option autoImplicit false

namespace ENigMA

/-! ### Triples -/

section
variable {A : Type}

theorem SameTri.refl (s : A × A × A) : SameTri s s := Or.inl rfl

theorem SameTri.symm {s t : A × A × A} (h : SameTri s t) : SameTri t s := by
  obtain ⟨a, b, c⟩ := s
  rcases h with rfl | rfl | rfl
  · exact Or.inl rfl
  · exact Or.inr (Or.inr rfl)
  · exact Or.inr (Or.inl rfl)

theorem SameTri.trans {s t u : A × A × A} (h : SameTri s t) (h' : SameTri t u) : SameTri s u := by
  obtain ⟨a, b, c⟩ := s
  rcases h with rfl | rfl | rfl <;> rcases h' with rfl | rfl | rfl <;> simp [SameTri]

theorem turned_turned (s : A × A × A) : turned (turned s) = s := rfl

theorem SameTri.turned {s t : A × A × A} (h : SameTri s t) : SameTri (turned s) (turned t) := by
  obtain ⟨a, b, c⟩ := s
  rcases h with rfl | rfl | rfl <;> simp [SameTri, ENigMA.turned]

theorem SameTri.map {B : Type} (f : A → B) {s t : A × A × A} (h : SameTri s t) : SameTri (f s.1, f s.2.1, f s.2.2) (f t.1, f t.2.1, f t.2.2) := by
  obtain ⟨a, b, c⟩ := s
  rcases h with rfl | rfl | rfl <;> simp [SameTri]

theorem SameTri.mem {s t : A × A × A} (h : SameTri s t) (n : A) : (n = s.1 ∨ n = s.2.1 ∨ n = s.2.2) ↔ (n = t.1 ∨ n = t.2.1 ∨ n = t.2.2) := by
  obtain ⟨a, b, c⟩ := s
  rcases h with rfl | rfl | rfl <;> simp <;> tauto

instance SameTri.dec [DecidableEq A] (s t : A × A × A) : Decidable (SameTri s t) := by unfold SameTri; infer_instance

/-- The entries are different. -/
def Distinct3 (s : A × A × A) : Prop := s.1 ≠ s.2.1 ∧ s.2.1 ≠ s.2.2 ∧ s.2.2 ≠ s.1

theorem not_turned {s : A × A × A} (h : Distinct3 s) : ¬ SameTri (turned s) s := by
  obtain ⟨a, b, c⟩ := s
  obtain ⟨h1, h2, h3⟩ := h
  simp only at h1 h2 h3
  rintro (h | h | h) <;> simp only [ENigMA.turned, Prod.mk.injEq] at h
  · exact h1 h.1
  · exact h2 h.2.1
  · exact h3 h.1.symm

theorem perm3 {s t : Int × Int × Int} (hs : Distinct3 s) (h : [s.1, s.2.1, s.2.2].Perm [t.1, t.2.1, t.2.2]) : SameTri s t ∨ SameTri (turned s) t := by
  obtain ⟨a, b, c⟩ := s
  obtain ⟨d, e, f⟩ := t
  obtain ⟨h1, h2, h3⟩ := hs
  simp only at h1 h2 h3 h
  have hd : [a, b, c].Nodup := by simp [h1, h2, Ne.symm h3]
  have hd' := h.nodup_iff.1 hd
  simp only [List.nodup_cons, List.mem_cons, List.not_mem_nil, or_false, not_or] at hd'
  have ha : a = d ∨ a = e ∨ a = f := by simpa using h.subset (show a ∈ [a, b, c] by simp)
  have hb : b = d ∨ b = e ∨ b = f := by simpa using h.subset (show b ∈ [a, b, c] by simp)
  have hc : c = d ∨ c = e ∨ c = f := by simpa using h.subset (show c ∈ [a, b, c] by simp)
  simp only [SameTri, ENigMA.turned, Prod.mk.injEq]
  rcases ha with rfl | rfl | rfl <;> rcases hb with rfl | rfl | rfl <;> rcases hc with rfl | rfl | rfl <;> first | exact absurd rfl h1 | exact absurd rfl h2 | exact absurd rfl h3 | simp

/-- Triples that are all different and closed under turning cancel. -/
theorem cancel3 {B : Type} [AddCommGroup B] [DecidableEq A] (g : A × A × A → B) (hg : ∀ s t, SameTri (turned s) t → g t = - g s) (k : ℕ) : ∀ T : List (A × A × A), T.length = k →
    (T.Pairwise fun s t => ¬ SameTri s t) → (∀ s ∈ T, Distinct3 s) → (∀ s ∈ T, ∃ t ∈ T, SameTri (turned s) t) → (T.map g).sum = 0 := by
  induction k using Nat.strong_induction_on with
  | _ k ih =>
    intro T hk hp hd hc
    match T, hk with
    | [], _ => rfl
    | s :: T', hk =>
      rw [List.pairwise_cons] at hp
      obtain ⟨t, ht, hst⟩ := hc s (by simp)
      have hne : t ≠ s := by rintro rfl; exact not_turned (hd t (by simp)) hst
      have ht' : t ∈ T' := (List.mem_cons.1 ht).resolve_left hne
      have hperm := List.perm_cons_erase ht'
      have hsym : ∀ {x y : A × A × A}, ¬ SameTri x y → ¬ SameTri y x := fun h h' => h (SameTri.symm h')
      have hp2 := (hperm.pairwise_iff (fun h => hsym h)).1 hp.2
      rw [List.pairwise_cons] at hp2
      have hlen := hperm.length_eq
      simp only [List.length_cons] at hk hlen
      have hsub : ∀ x ∈ T'.erase t, x ∈ T' := fun x hx => List.mem_of_mem_erase hx
      have h0 := ih (T'.erase t).length (by omega) (T'.erase t) rfl hp2.2 (fun x hx => hd x (List.mem_cons_of_mem _ (hsub x hx))) (by
        intro u hu
        obtain ⟨v, hv, huv⟩ := hc u (List.mem_cons_of_mem _ (hsub u hu))
        refine ⟨v, ?_, huv⟩
        have hvs : v ≠ s := by
          rintro rfl
          have h1 : SameTri u (turned v) := by have := huv.turned; rwa [turned_turned] at this
          exact hp2.1 u hu ((h1.trans hst).symm)
        have hvt : v ≠ t := by
          rintro rfl
          have h1 : SameTri u (turned v) := by have := huv.turned; rwa [turned_turned] at this
          have h2 : SameTri s (turned v) := by have := hst.turned; rwa [turned_turned] at this
          exact hp.1 u (hsub u hu) (h2.trans h1.symm)
        have := (hperm.mem_iff (a := v)).1 ((List.mem_cons.1 hv).resolve_left hvs)
        exact (List.mem_cons.1 this).resolve_left hvt)
      rw [List.map_cons, List.sum_cons, (hperm.map g).sum_eq, List.map_cons, List.sum_cons, h0, hg s t hst]
      abel

end

namespace Space
variable {K : Type} [Field K] [LinearOrder K] [IsStrictOrderedRing K]

/-! ### The same tetrahedron -/

/-- The same tetrahedron with its corners in another even order. -/
inductive Alike : Tet K → Tet K → Prop
  | refl (t) : Alike t t
  | turn {t a b c d} : Alike t ⟨a, b, c, d⟩ → Alike t ⟨b, c, a, d⟩
  | swap {t a b c d} : Alike t ⟨a, b, c, d⟩ → Alike t ⟨b, a, d, c⟩

theorem hull_alike {A : Type} [AddCommGroup A] {f : Tri K → A} (hf : Odd f) {t u : Tet K} (h : Alike t u) : hull f u = hull f t := by
  induction h with
  | refl => rfl
  | @turn a b c d _ ih =>
    rw [← ih]
    simp only [hull]
    rw [hf.turn a b c, hf.turn a c d, ← hf.turn b a d]
    abel
  | @swap a b c d _ ih =>
    rw [← ih]
    simp only [hull]
    rw [hf.turn a b c, ← hf.turn b a d]
    abel

theorem behind_turn (a b c p : Vec3 K) : behind ⟨b, c, a⟩ p = behind ⟨a, b, c⟩ p := det3_turn _ _ _

/-- Points inside, and the volume, in any order. -/
theorem inside_alike {t u : Tet K} (h : Alike t u) (p : Vec3 K) : u.Inside p ↔ t.Inside p := by
  induction h with
  | refl => rfl
  | @turn a b c d _ ih =>
    rw [← ih]
    simp only [Tet.Inside, Tet.faces, List.forall_mem_cons, List.not_mem_nil, false_imp_iff, implies_true, and_true]
    rw [behind_turn a b c, behind_turn a c d, ← behind_turn b a d]
    tauto
  | @swap a b c d _ ih =>
    rw [← ih]
    simp only [Tet.Inside, Tet.faces, List.forall_mem_cons, List.not_mem_nil, false_imp_iff, implies_true, and_true]
    rw [behind_turn a b c, ← behind_turn b a d]
    tauto

theorem positive_alike {t u : Tet K} (h : Alike t u) : u.Positive ↔ t.Positive := by
  have key : behind ⟨u.v0, u.v1, u.v2⟩ u.v3 = behind ⟨t.v0, t.v1, t.v2⟩ t.v3 := by rw [← hull_det, ← hull_det]; exact hull_alike det_odd h
  unfold Tet.Positive
  rw [key]

/-- Every face can be read first. -/
theorem face_first {t : Tet K} {f : Tri K} (hf : f ∈ t.faces) : ∃ d, Alike t ⟨f.v0, f.v1, f.v2, d⟩ := by
  obtain ⟨a, b, c, d⟩ := t
  simp only [Tet.faces, List.mem_cons, List.not_mem_nil, or_false] at hf
  rcases hf with rfl | rfl | rfl | rfl
  · exact ⟨d, Alike.refl _⟩
  · exact ⟨a, Alike.turn (Alike.swap (Alike.turn (Alike.refl _)))⟩
  · exact ⟨c, Alike.turn (Alike.swap (Alike.refl _))⟩
  · exact ⟨b, Alike.swap (Alike.turn (Alike.turn (Alike.refl _)))⟩

theorem dot_self_pos {n : Vec3 K} (h : n ≠ ⟨0, 0, 0⟩) : 0 < n.dot n := by
  refine lt_of_le_of_ne ?_ (dot_self_ne h).symm
  simp only [Vec3.dot]
  nlinarith [mul_self_nonneg n.x, mul_self_nonneg n.y, mul_self_nonneg n.z]

/-- Two tetrahedra on the same side of a triangle overlap. -/
theorem overlap_first {a b c d e : Vec3 K} (h1 : Tet.Positive ⟨a, b, c, d⟩) (h2 : Tet.Positive ⟨a, b, c, e⟩) : ∃ p, Tet.Inside ⟨a, b, c, d⟩ p ∧ Tet.Inside ⟨a, b, c, e⟩ p := by
  set g : Vec3 K := ⟨(a.x + b.x + c.x) / 3, (a.y + b.y + c.y) / 3, (a.z + b.z + c.z) / 3⟩ with hg
  set n := normal ⟨a, b, c⟩ with hn
  have hn0 : 0 < n.dot n := dot_self_pos (positive_normal h1 ⟨a, b, c⟩ (by simp [Tet.faces]))
  let d' : Vec3 K := ⟨-n.x, -n.y, -n.z⟩
  have hat : ∀ w : Vec3 K, Tet.Positive ⟨a, b, c, w⟩ → behind ⟨a, b, c⟩ g = 0 ∧ 0 < behind ⟨b, w, c⟩ g ∧ 0 < behind ⟨a, w, b⟩ g ∧ 0 < behind ⟨a, c, w⟩ g := by
    intro w hw
    unfold Tet.Positive at hw
    simp only at hw
    have e1 : behind ⟨a, b, c⟩ g = 0 := by simp only [hg, behind, det3, Vec3.cross, Vec3.dot, Vec3.sub_x, Vec3.sub_y, Vec3.sub_z]; ring
    have e2 : behind ⟨b, w, c⟩ g = behind ⟨a, b, c⟩ w / 3 := by simp only [hg, behind, det3, Vec3.cross, Vec3.dot, Vec3.sub_x, Vec3.sub_y, Vec3.sub_z]; ring
    have e3 : behind ⟨a, w, b⟩ g = behind ⟨a, b, c⟩ w / 3 := by simp only [hg, behind, det3, Vec3.cross, Vec3.dot, Vec3.sub_x, Vec3.sub_y, Vec3.sub_z]; ring
    have e4 : behind ⟨a, c, w⟩ g = behind ⟨a, b, c⟩ w / 3 := by simp only [hg, behind, det3, Vec3.cross, Vec3.dot, Vec3.sub_x, Vec3.sub_y, Vec3.sub_z]; ring
    rw [e2, e3, e4]
    have : 0 < behind ⟨a, b, c⟩ w / 3 := by positivity
    exact ⟨e1, this, this, this⟩
  obtain ⟨k1, k2, k3, k4⟩ := hat d h1
  obtain ⟨-, l2, l3, l4⟩ := hat e h2
  obtain ⟨δ, hδ, hs⟩ := small_step ([(⟨b, d, c⟩ : Tri K), ⟨a, d, b⟩, ⟨a, c, d⟩, ⟨b, e, c⟩, ⟨a, e, b⟩, ⟨a, c, e⟩].map fun f => (behind f g, rate f d')) (by
    intro u hu
    obtain ⟨f, hf, rfl⟩ := List.mem_map.1 hu
    simp only [List.mem_cons, List.not_mem_nil, or_false] at hf
    rcases hf with rfl | rfl | rfl | rfl | rfl | rfl <;> assumption)
  have hs' := hs (δ / 2) (by positivity) (by linarith)
  have hr : rate ⟨a, b, c⟩ d' = n.dot n := by rw [rate_normal, ← hn]; simp only [d', Vec3.dot]; ring
  have h0 : 0 < behind ⟨a, b, c⟩ (move g d' (δ / 2)) := by
    rw [behind_move, k1, hr, zero_add]
    positivity
  have hm : ∀ f ∈ [(⟨b, d, c⟩ : Tri K), ⟨a, d, b⟩, ⟨a, c, d⟩, ⟨b, e, c⟩, ⟨a, e, b⟩, ⟨a, c, e⟩], 0 < behind f (move g d' (δ / 2)) := by
    intro f hf
    rw [behind_move]
    exact hs' _ (List.mem_map.2 ⟨f, hf, rfl⟩)
  refine ⟨move g d' (δ / 2), ?_, ?_⟩
  · intro f hf
    simp only [Tet.faces, List.mem_cons, List.not_mem_nil, or_false] at hf
    rcases hf with rfl | rfl | rfl | rfl
    · exact h0
    all_goals exact hm _ (by simp)
  · intro f hf
    simp only [Tet.faces, List.mem_cons, List.not_mem_nil, or_false] at hf
    rcases hf with rfl | rfl | rfl | rfl
    · exact h0
    all_goals exact hm _ (by simp)

/-- The corners of a triangle. -/
def trip (f : Tri K) : Vec3 K × Vec3 K × Vec3 K := (f.v0, f.v1, f.v2)

theorem overlap {t u : Tet K} (ht : t.Positive) (hu : u.Positive) {f g : Tri K} (hf : f ∈ t.faces) (hg : g ∈ u.faces) (h : SameTri (trip f) (trip g)) :
    ∃ p, t.Inside p ∧ u.Inside p := by
  obtain ⟨d, hd⟩ := face_first hf
  obtain ⟨e, he⟩ := face_first hg
  have hd' : Alike t ⟨g.v0, g.v1, g.v2, d⟩ := by
    simp only [SameTri, trip, Prod.mk.injEq] at h
    rcases h with ⟨h1, h2, h3⟩ | ⟨h1, h2, h3⟩ | ⟨h1, h2, h3⟩
    · rw [h1, h2, h3]; exact hd
    · rw [h1, h2, h3]; exact Alike.turn hd
    · rw [h1, h2, h3]; exact Alike.turn (Alike.turn hd)
  obtain ⟨p, h1, h2⟩ := overlap_first ((positive_alike hd').2 ht) ((positive_alike he).2 hu)
  exact ⟨p, (inside_alike hd' p).1 h1, (inside_alike he p).1 h2⟩

/-- The corners of a tetrahedron of positive volume are different. -/
theorem corners_ne {t : Tet K} (h : t.Positive) : t.v0 ≠ t.v1 ∧ t.v0 ≠ t.v2 ∧ t.v0 ≠ t.v3 ∧ t.v1 ≠ t.v2 ∧ t.v1 ≠ t.v3 ∧ t.v2 ≠ t.v3 := by
  obtain ⟨a, b, c, d⟩ := t
  unfold Tet.Positive at h
  simp only at h ⊢
  have key : ∀ x : K, x = 0 → behind ⟨a, b, c⟩ d = x → False := by rintro x rfl h'; linarith
  refine ⟨?_, ?_, ?_, ?_, ?_, ?_⟩ <;> (rintro rfl; refine key _ rfl ?_; simp only [behind, det3, Vec3.cross, Vec3.dot, Vec3.sub_x, Vec3.sub_y, Vec3.sub_z]; ring)

theorem faces_once {t : Tet K} (h : t.Positive) : t.faces.Pairwise fun f g => ¬ SameTri (trip f) (trip g) := by
  obtain ⟨h1, h2, h3, h4, h5, h6⟩ := corners_ne h
  obtain ⟨a, b, c, d⟩ := t
  simp only at h1 h2 h3 h4 h5 h6
  simp [Tet.faces, SameTri, trip, h1, h2, h3, h4, h5, h6, Ne.symm h1, Ne.symm h2, Ne.symm h3, Ne.symm h4, Ne.symm h5, Ne.symm h6]

theorem apart_tail {t : Tet K} {l : List (Tet K)} (h : Apart (t :: l)) : Apart l := by
  intro p
  have := h p
  rw [List.countP_cons] at this
  omega

theorem once {l : List (Tet K)} (hl : ∀ t ∈ l, t.Positive) (ha : Apart l) : (l.flatMap Tet.faces).Pairwise fun f g => ¬ SameTri (trip f) (trip g) := by
  induction l with
  | nil => exact List.Pairwise.nil
  | cons t l ih =>
    rw [List.flatMap_cons, List.pairwise_append]
    refine ⟨faces_once (hl t (by simp)), ih (fun u hu => hl u (List.mem_cons_of_mem _ hu)) (apart_tail ha), ?_⟩
    intro f hf g hg h
    obtain ⟨u, hu, hg⟩ := List.mem_flatMap.1 hg
    obtain ⟨p, h1, h2⟩ := overlap (hl t (by simp)) (hl u (List.mem_cons_of_mem _ hu)) hf hg h
    have h3 := ha p
    rw [List.countP_cons, if_pos (by simpa using h1)] at h3
    have h4 : 0 < l.countP fun t => decide (t.Inside p) := List.countP_pos_iff.2 ⟨u, hu, by simpa using h2⟩
    omega

/-! ### The boundary -/

/-- How often the triangle is passed, with sign. -/
def passing (s : Vec3 K × Vec3 K × Vec3 K) (f : Tri K) : ℤ := (if SameTri s (trip f) then 1 else 0) - if SameTri (turned s) (trip f) then 1 else 0

theorem passing_odd (s : Vec3 K × Vec3 K × Vec3 K) : Odd (passing s) where
  turn a b c := by
    have h : ∀ u : Vec3 K × Vec3 K × Vec3 K, SameTri u (trip ⟨b, c, a⟩) ↔ SameTri u (trip ⟨a, b, c⟩) := fun u =>
      ⟨fun h => h.trans (Or.inr (Or.inr rfl)), fun h => h.trans (Or.inr (Or.inl rfl))⟩
    simp only [passing, h]
  swap a b c := by
    have h : ∀ u : Vec3 K × Vec3 K × Vec3 K, SameTri u (trip ⟨b, a, c⟩) ↔ SameTri (turned u) (trip ⟨a, b, c⟩) := fun u =>
      ⟨fun h => h.turned, fun h => by have := h.turned; rwa [turned_turned] at this⟩
    simp only [passing, h, turned_turned]
    ring

theorem count_once {l : List (Tri K)} (h : l.Pairwise fun f g => ¬ SameTri (trip f) (trip g)) (s : Vec3 K × Vec3 K × Vec3 K) :
    (l.map fun f => if SameTri s (trip f) then (1 : ℤ) else 0).sum = if ∃ f ∈ l, SameTri s (trip f) then 1 else 0 := by
  induction l with
  | nil => simp
  | cons f l ih =>
    rw [List.pairwise_cons] at h
    rw [List.map_cons, List.sum_cons, ih h.2]
    by_cases hf : SameTri s (trip f)
    · have hn : ¬ ∃ g ∈ l, SameTri s (trip g) := by
        rintro ⟨g, hg, h'⟩
        exact h.1 g hg (hf.symm.trans h')
      rw [if_pos hf, if_neg hn, if_pos ⟨f, by simp, hf⟩]
      rfl
    · rw [if_neg hf, zero_add]
      refine if_congr ?_ rfl rfl
      simp [hf]

theorem passing_sum (l : List (Tet K)) (s : Vec3 K × Vec3 K × Vec3 K) : (l.map (hull (passing s))).sum =
    ((l.flatMap Tet.faces).map fun f => if SameTri s (trip f) then (1 : ℤ) else 0).sum - ((l.flatMap Tet.faces).map fun f => if SameTri (turned s) (trip f) then (1 : ℤ) else 0).sum := by
  induction l with
  | nil => simp
  | cons t l ih =>
    rw [List.map_cons, List.sum_cons, ih, List.flatMap_cons, List.map_append, List.map_append, List.sum_append, List.sum_append]
    simp only [Tet.faces, hull, passing, List.map_cons, List.map_nil, List.sum_cons, List.sum_nil]
    ring

theorem hasFace_iff (l : List (Tet K)) (a b c : Vec3 K) : HasFace l a b c ↔ ∃ f ∈ l.flatMap Tet.faces, SameTri (a, b, c) (trip f) := by
  unfold HasFace
  simp only [List.mem_flatMap, trip]
  constructor
  · rintro ⟨t, ht, f, hf, h⟩; exact ⟨f, ⟨t, ht, hf⟩, h⟩
  · rintro ⟨f, ⟨t, ht, hf⟩, h⟩; exact ⟨t, ht, f, hf, h⟩

/-- **Fillings with the same boundary sum have the same boundary triangles.** -/
theorem boundary_same {l l' : List (Tet K)} (hl : ∀ t ∈ l, t.Positive) (hl' : ∀ t ∈ l', t.Positive) (ha : Apart l) (ha' : Apart l') (h : SameHull l l') (a b c : Vec3 K) :
    (HasFace l a b c ∧ ¬ HasFace l b a c) ↔ (HasFace l' a b c ∧ ¬ HasFace l' b a c) := by
  classical
  have e := h ℤ _ (passing_odd (a, b, c))
  rw [passing_sum, passing_sum, count_once (once hl ha), count_once (once hl ha), count_once (once hl' ha'), count_once (once hl' ha')] at e
  simp only [hasFace_iff]
  have e1 : turned (a, b, c) = (b, a, c) := rfl
  rw [e1] at e
  by_cases a1 : ∃ f ∈ l.flatMap Tet.faces, SameTri (a, b, c) (trip f) <;> by_cases a2 : ∃ f ∈ l.flatMap Tet.faces, SameTri (b, a, c) (trip f) <;>
    by_cases a3 : ∃ f ∈ l'.flatMap Tet.faces, SameTri (a, b, c) (trip f) <;> by_cases a4 : ∃ f ∈ l'.flatMap Tet.faces, SameTri (b, a, c) (trip f) <;>
    simp only [a1, a2, a3, a4, if_true, if_false, not_true_eq_false, not_false_eq_true, and_true, and_false, true_and] at e ⊢ <;> omega

end Space
end ENigMA
