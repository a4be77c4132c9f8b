import Verif.Stl.SplitReal

/-!
# Splitting the facets of a surface
-/

set_option linter.unusedSectionVars false
set_option autoImplicit false

namespace ENigMA

/-- Splitting never fails and, after any number of rounds, leaves a surface as sound as before. It covers the same region: every quantity that adds up when triangles are cut has the same sum, facets lie within facets there were before,
all corners there were are still there. The rim is the same. -/
theorem C110_split {K : Type} [Field K] [LinearOrder K] [IsStrictOrderedRing K] [FloorRing K] (g : Stl.Gauge K) {size : K} (_hsize : 0 < size) (fq : K) {s : Stl.File K} (hs : Stl.Sound s) (rounds : Nat) :
    ∃ s' i, Stl.splitLoop g size fq rounds 0 s = some (s', i) ∧ Stl.Sound s' ∧ s.count ≤ s'.count ∧
      (∀ (M : Type) [AddCommMonoid M] (F : Vec3 K → Vec3 K → Vec3 K → M), Stl.Additive F → Stl.total F s' = Stl.total F s) ∧
      (∀ id f, s'.get? id = some f → ∃ id0 f0, s.get? id0 = some f0 ∧ ∀ v ∈ f.verts, Stl.InHull f0.verts v) ∧
      (∀ id f, s.get? id = some f → ∀ v ∈ f.verts, ∃ id' f', s'.get? id' = some f' ∧ v ∈ f'.verts) ∧
      (∀ a b, Stl.Rim s' a b ↔ Stl.Rim s a b) := by
  obtain ⟨s', i, h, st⟩ := Stl.splitLoop_step g size fq rounds (i := 0) hs
  exact ⟨s', i, h, st.sound, st.more, st.sums, st.inside, st.kept, st.rim⟩

/-- With the measures of the code, a positive least quality and a size that is not tiny, the loop ends: all facets have been visited. -/
theorem C110_terminates {eps size fq : ℝ} (h0 : 0 < eps) (hs : 2 * √eps ≤ size) (hq : 0 < fq) (normal : Vec3 ℝ → Vec3 ℝ → Vec3 ℝ → Vec3 ℝ) {s : Stl.File ℝ} (hsound : Stl.Sound s) :
    ∃ N s', ∀ rounds, N ≤ rounds → Stl.splitLoop (Stl.realGauge eps normal) size fq rounds 0 s = some (s', s'.count) := by
  have he : 0 < √eps := Real.sqrt_pos.2 h0
  have ha : 0 < fq * size * √eps / 2 := by
    have : 0 < size := by linarith
    positivity
  obtain ⟨s', h⟩ := Stl.splitLoop_ends (Stl.realGauge eps normal) Stl.area2_like ha (Stl.big_area h0 hs hq normal) _ hsound (Nat.zero_le _) (le_refl _)
  exact ⟨_, s', h⟩

namespace Stl

/-- Two triangles of a square. -/
def square (K : Type) [Field K] : File K :=
  (Cont.empty.add 0 ⟨[⟨0, 0, 0⟩, ⟨1, 0, 0⟩, ⟨1, 1, 0⟩], ⟨0, 0, 1⟩, (0, 0), [⟨-1, -1, true⟩, ⟨-1, -1, true⟩, ⟨1, 2, false⟩]⟩).add 1
    ⟨[⟨0, 0, 0⟩, ⟨1, 1, 0⟩, ⟨0, 1, 0⟩], ⟨0, 0, 1⟩, (0, 0), [⟨0, 1, false⟩, ⟨-1, -1, true⟩, ⟨-1, -1, true⟩]⟩

section
variable {K : Type} [Field K]

theorem square_get (id : Int) : (square K).get? id =
    if id = 0 then some ⟨[⟨0, 0, 0⟩, ⟨1, 0, 0⟩, ⟨1, 1, 0⟩], ⟨0, 0, 1⟩, (0, 0), [⟨-1, -1, true⟩, ⟨-1, -1, true⟩, ⟨1, 2, false⟩]⟩
    else if id = 1 then some ⟨[⟨0, 0, 0⟩, ⟨1, 1, 0⟩, ⟨0, 1, 0⟩], ⟨0, 0, 1⟩, (0, 0), [⟨0, 1, false⟩, ⟨-1, -1, true⟩, ⟨-1, -1, true⟩]⟩ else none := by
  unfold square
  rw [Cont.get?_add, Cont.get?_add]
  have : (Cont.empty : Cont (Facet K)).get? id = none := by simp [Cont.get?, Cont.empty, SMap.find?, SMap.empty, SMap.findL]
  by_cases h0 : id = 0
  · subst h0; simp
  · by_cases h1 : id = 1
    · subst h1; simp
    · simp [h0, h1, this]

theorem square_good : Good (square K) := by
  have h : (square K).Ok := Cont.add_ok (Cont.add_ok Cont.empty_ok _ (by simp [Cont.empty])) _ (by simp [Cont.empty, Cont.add])
  refine ⟨h, fun id f hf => ?_⟩
  rw [square_get] at hf
  split_ifs at hf
  all_goals (rw [Option.some.injEq] at hf; subst hf; simp)

/-- The neighbours in the square. -/
def squareL (x : Int × Nat) : Option (Int × Nat) := if x = (0, 2) then some (1, 0) else if x = (1, 0) then some (0, 2) else none

theorem square_sound : Sound (square K) := by
  have hg := square_good (K := K)
  refine sound_of (L := squareL) hg rfl ?_ ?_
  · refine ⟨?_, ?_, ?_, ?_⟩
    · rintro ⟨id, j⟩ ⟨h1, h2⟩
      have h1' : id = 0 ∨ id = 1 := by simpa [square, Cont.add, Cont.empty] using h1
      simp only at h2
      rcases h1' with rfl | rfl <;> rcases (by omega : j = 0 ∨ j = 1 ∨ j = 2) with rfl | rfl | rfl <;> simp [edgeAt, edge?, square_get, squareL, Points]
    · intro x hx
      unfold squareL
      rw [if_neg, if_neg]
      · rintro rfl; exact hx ⟨by simp [square, Cont.add, Cont.empty], by norm_num⟩
      · rintro rfl; exact hx ⟨by simp [square, Cont.add, Cont.empty], by norm_num⟩
    · intro x y hxy
      unfold squareL at hxy
      split_ifs at hxy with h1 h2 <;> rw [Option.some.injEq] at hxy <;> subst hxy <;> subst_vars <;> rfl
    · intro x y hxy
      unfold squareL at hxy
      split_ifs at hxy with h1 h2 <;> rw [Option.some.injEq] at hxy <;> subst hxy <;> subst_vars <;> decide
  · intro x y hxy
    unfold squareL at hxy
    split_ifs at hxy with h1 h2
    all_goals
      rw [Option.some.injEq] at hxy
      subst hxy
      subst_vars
      simp [Opposed, vert, after, square_get]

end

/-- The surface of a tetrahedron, its facets in order. -/
def solid : File ℚ :=
  (((Cont.empty.add 0 ⟨[⟨0, 0, 0⟩, ⟨0, 2, 0⟩, ⟨2, 0, 0⟩], ⟨0, 0, 0⟩, (0, 0), [⟨3, 1, false⟩, ⟨2, 2, false⟩, ⟨1, 2, false⟩]⟩).add 1
    ⟨[⟨0, 0, 0⟩, ⟨2, 0, 0⟩, ⟨0, 0, 2⟩], ⟨0, 0, 0⟩, (0, 0), [⟨0, 1, false⟩, ⟨2, 1, false⟩, ⟨3, 2, false⟩]⟩).add 2
    ⟨[⟨2, 0, 0⟩, ⟨0, 2, 0⟩, ⟨0, 0, 2⟩], ⟨0, 0, 0⟩, (0, 0), [⟨0, 0, false⟩, ⟨3, 0, false⟩, ⟨1, 0, false⟩]⟩).add 3
    ⟨[⟨0, 0, 0⟩, ⟨0, 0, 2⟩, ⟨0, 2, 0⟩], ⟨0, 0, 0⟩, (0, 0), [⟨1, 1, false⟩, ⟨2, 0, false⟩, ⟨0, 2, false⟩]⟩

/-- A call that has returned has returned. -/
theorem splitLoop_more {K : Type} [Field K] [LinearOrder K] [FloorRing K] {g : Gauge K} {size fq : K} {n : Nat} : ∀ {i : Nat} {s s' : File K}, splitLoop g size fq n i s = some (s', s'.count) → ∀ m, n ≤ m → splitLoop g size fq m i s = some (s', s'.count) := by
  induction n with
  | zero =>
    intro i s s' h m _
    simp only [splitLoop, Option.some.injEq, Prod.mk.injEq] at h
    obtain ⟨rfl, rfl⟩ := h
    cases m with
    | zero => rfl
    | succ r => unfold splitLoop; rw [if_neg (lt_irrefl _)]
  | succ n ih =>
    intro i s s' h m hm
    obtain ⟨r, rfl⟩ : ∃ r, m = r + 1 := ⟨m - 1, by omega⟩
    unfold splitLoop at h ⊢
    by_cases hi : i < s.count
    · rw [if_pos hi] at h ⊢
      cases h1 : splitFacet g size fq s i with
      | none => rw [h1] at h; cases h
      | some s1 =>
        rw [h1] at h
        exact ih h r (by omega)
    · rw [if_neg hi] at h ⊢
      exact h

theorem joined_of_links {K : Type} [Field K] [LinearOrder K] {s : File K} (hg : Good s) (hpos : ∀ id ∈ s.ids, 0 ≤ id) (hm : Mutual s) (hc : Clean s) (hn : NoSelf s) (h : ∀ x ∈ corners s, ∀ y ∈ link s x, Opposed s x y) : Joined s :=
  (joined_iff hg hpos ((net_iff hg hpos).2 ⟨hm, hc, hn⟩)).2 (links_of hg h)

theorem solid_sound : Sound solid := by
  have hok : solid.Ok := Cont.add_ok (Cont.add_ok (Cont.add_ok (Cont.add_ok Cont.empty_ok _ (by decide +kernel)) _ (by decide +kernel)) _ (by decide +kernel)) _ (by decide +kernel)
  have hg : Good solid := ⟨hok, ok_of_adds hok (by decide +kernel)⟩
  have hpos : ∀ id ∈ solid.ids, 0 ≤ id := by decide +kernel
  have hm : Mutual solid := mutual_of hg hpos (by decide +kernel)
  have hc : Clean solid := edges_of hg (by decide +kernel)
  have hn : NoSelf solid := edges_of hg (by decide +kernel)
  exact ⟨hok, hg.tri, by unfold Plain; decide +kernel, joined_of_links hg hpos hm hc hn (by decide +kernel), hm, hc, hn⟩

/-- Lengths in the maximum norm; all facets are good. -/
def plainGauge : Gauge ℚ := ⟨supNorm, fun _ _ _ => 1, fun _ _ _ => 0⟩

/-- The same surface, with other ids. -/
def solid' : File ℚ :=
  (((Cont.empty.add 3 ⟨[⟨0, 0, 0⟩, ⟨0, 2, 0⟩, ⟨2, 0, 0⟩], ⟨0, 0, 0⟩, (0, 0), [⟨9, 1, false⟩, ⟨4, 2, false⟩, ⟨5, 2, false⟩]⟩).add 5
    ⟨[⟨0, 0, 0⟩, ⟨2, 0, 0⟩, ⟨0, 0, 2⟩], ⟨0, 0, 0⟩, (0, 0), [⟨3, 1, false⟩, ⟨4, 1, false⟩, ⟨9, 2, false⟩]⟩).add 4
    ⟨[⟨2, 0, 0⟩, ⟨0, 2, 0⟩, ⟨0, 0, 2⟩], ⟨0, 0, 0⟩, (0, 0), [⟨3, 0, false⟩, ⟨9, 0, false⟩, ⟨5, 0, false⟩]⟩).add 9
    ⟨[⟨0, 0, 0⟩, ⟨0, 0, 2⟩, ⟨0, 2, 0⟩], ⟨0, 0, 0⟩, (0, 0), [⟨5, 1, false⟩, ⟨4, 0, false⟩, ⟨3, 2, false⟩]⟩

end Stl

/-- A round, and a complete call, on a closed surface. The quantities that add up are, among others, the areas, the volume under the facets and the sum of the normals. -/
example : Stl.Sound Stl.solid ∧ Stl.Sound (Stl.square ℝ) ∧ (0 : ℝ) < 1 / 100 ∧ 2 * √(1 / 100 : ℝ) ≤ 1 ∧ (Stl.splitLoop Stl.plainGauge (3 / 2) 1 24 0 Stl.solid).map (fun r => (r.1.count, r.2)) = some (24, 24) ∧
    Stl.Additive Stl.area2 ∧ Stl.Additive (fun a b c : Vec3 ℚ => a.dot (b.cross c)) ∧ Stl.Additive (fun a b c : Vec3 ℚ => (b - a).cross (c - a)) := by
  refine ⟨Stl.solid_sound, Stl.square_sound, by norm_num, ?_, by decide +kernel, Stl.area2_additive, ⟨fun a b c => ?_, fun a b c t _ _ => ?_⟩, ⟨fun a b c => ?_, fun a b c t _ _ => ?_⟩⟩
  · rw [show (1 / 100 : ℝ) = (1 / 10) ^ 2 by norm_num, Real.sqrt_sq (by norm_num)]
    norm_num
  · simp only [Vec3.dot, Vec3.cross_x, Vec3.cross_y, Vec3.cross_z]; ring
  · simp only [Vec3.dot, Vec3.cross_x, Vec3.cross_y, Vec3.cross_z, Vec3.add_x, Vec3.add_y, Vec3.add_z, Vec3.smul_x, Vec3.smul_y, Vec3.smul_z, Vec3.sub_x, Vec3.sub_y, Vec3.sub_z]; ring
  · ext <;> simp <;> ring
  · ext <;> simp <;> ring

/-- The ids have to be positions: with others, one round on a closed surface leaves neighbours that do not know of each other. -/
theorem C110_ids_needed : ∃ (s s' : Stl.File ℚ) (x y : Int × Nat), s.Ok ∧ Stl.Triangular s ∧ (∀ id ∈ s.ids, 0 ≤ id) ∧ Stl.Joined s ∧ Stl.Mutual s ∧ Stl.Clean s ∧ Stl.NoSelf s ∧
    Stl.splitFacet Stl.plainGauge (3 / 2) 1 s 0 = some s' ∧ Stl.link s' x = some y ∧ Stl.link s' y ≠ some x ∧ y.1 ∉ s'.ids := by
  have hok : Stl.solid'.Ok := Cont.add_ok (Cont.add_ok (Cont.add_ok (Cont.add_ok Cont.empty_ok _ (by decide +kernel)) _ (by decide +kernel)) _ (by decide +kernel)) _ (by decide +kernel)
  have hg : Stl.Good Stl.solid' := ⟨hok, Stl.ok_of_adds hok (by decide +kernel)⟩
  have hpos : ∀ id ∈ Stl.solid'.ids, 0 ≤ id := by decide +kernel
  have hm : Stl.Mutual Stl.solid' := Stl.mutual_of hg hpos (by decide +kernel)
  have hc : Stl.Clean Stl.solid' := Stl.edges_of hg (by decide +kernel)
  have hn : Stl.NoSelf Stl.solid' := Stl.edges_of hg (by decide +kernel)
  refine ⟨Stl.solid', ((Stl.splitFacet Stl.plainGauge (3 / 2) 1 Stl.solid' 0).getD Cont.empty), (10, 2), (0, 1), hok, hg.tri, hpos, Stl.joined_of_links hg hpos hm hc hn (by decide +kernel), hm, hc, hn, ?_, ?_⟩
  · have : (Stl.splitFacet Stl.plainGauge (3 / 2) 1 Stl.solid' 0).isSome = true := by decide +kernel
    obtain ⟨r, hr⟩ := Option.isSome_iff_exists.1 this
    rw [hr]; rfl
  · decide +kernel

/-- Has the call returned, with a long edge of facet 4? -/
def Stl.longLeft (r : Option (Stl.File ℚ × Nat)) : Bool :=
  match r with
  | some (s', i) => decide (i = s'.count) && (match s'.get? 4 with | some f => (match f.verts with | [a, b, c] => decide (1 / 2 < (Stl.bigEdge Stl.plainGauge a b c).2) | _ => false) | none => false)
  | none => false

/-- A complete call can leave good facets with edges longer than asked for: each facet is visited once. -/
theorem C110_long_edges_remain : ∃ (s s' : Stl.File ℚ) (id : Int) (f : Stl.Facet ℚ) (a b c : Vec3 ℚ), Stl.Sound s ∧ (∀ rounds, 124 ≤ rounds → Stl.splitLoop Stl.plainGauge (1 / 2) 1 rounds 0 s = some (s', s'.count)) ∧
    s'.get? id = some f ∧ f.verts = [a, b, c] ∧ 1 ≤ Stl.plainGauge.quality a b c ∧ 1 / 2 < (Stl.bigEdge Stl.plainGauge a b c).2 := by
  have h : Stl.longLeft (Stl.splitLoop Stl.plainGauge (1 / 2) 1 124 0 Stl.solid) = true := by decide +kernel
  cases h1 : Stl.splitLoop Stl.plainGauge (1 / 2) 1 124 0 Stl.solid with
  | none => rw [h1] at h; simp [Stl.longLeft] at h
  | some r =>
    obtain ⟨s', i⟩ := r
    rw [h1] at h
    unfold Stl.longLeft at h
    simp only [Bool.and_eq_true, decide_eq_true_eq] at h
    obtain ⟨h2, h3⟩ := h
    rw [h2] at h1
    have hall := Stl.splitLoop_more h1
    cases hf : s'.get? 4 with
    | none => simp [hf] at h3
    | some f =>
      simp only [hf] at h3
      cases hv : f.verts with
      | nil => simp [hv] at h3
      | cons a l =>
        cases l with
        | nil => simp [hv] at h3
        | cons b l =>
          cases l with
          | nil => simp [hv] at h3
          | cons c l =>
            cases l with
            | nil =>
              simp only [hv, decide_eq_true_eq] at h3
              exact ⟨Stl.solid, s', 4, f, a, b, c, Stl.solid_sound, hall, hf, hv, le_refl _, h3⟩
            | cons d l => simp [hv] at h3

end ENigMA
