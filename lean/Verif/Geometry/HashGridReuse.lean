import Verif.Geometry.HashGridProps

/-!
# C13: a hash grid used again and again

`reset()` clears the objects and the cells of a `CGeoHashGrid` but keeps its bounding box. The search stays exact.
-/

set_option linter.unusedSectionVars false
set_option autoImplicit false

namespace ENigMA
open HashGrid

variable {K : Type} [Field K] [LinearOrder K] [IsStrictOrderedRing K] [FloorRing K]

namespace HashGrid

/-- One use of a grid: `reset()`, the objects one by one, `build()`. -/
def Grid.round (m : Machine K) (objs : List (Int × Vec3 K)) (g : Grid K) : Option (Grid K) := (g.reset.addAll objs).build m

/-- Several uses, one after the other, starting from a new grid. -/
def rounds (m : Machine K) : List (List (Int × Vec3 K)) → Grid K → Option (Grid K)
  | [], g => some g
  | objs :: t, g => (g.round m objs).bind (rounds m t)

/-- What the box of a grid is at any time: it has not met a point yet, or it holds points and has some extent. -/
def BoxOk (m : Machine K) (b : BBox K) : Prop :=
  ((m.big ≤ b.min.x ∧ m.big ≤ b.min.y ∧ m.big ≤ b.min.z) ∧ b.max.x ≤ -m.big ∧ b.max.y ≤ -m.big ∧ b.max.z ≤ -m.big) ∨
  ((b.min.x ≤ b.max.x ∧ b.min.y ≤ b.max.y ∧ b.min.z ≤ b.max.z) ∧
    (m.bad ≠ none ∨ b.min.x < b.max.x ∨ b.min.y < b.max.y ∨ b.min.z < b.max.z))

/-- Objects a grid can be built for: bounded, and not all at one place (unless the cast of a NaN is harmless). -/
structure Searchable (m : Machine K) (objs : List (Int × Vec3 K)) : Prop where
  bounded : ∀ o ∈ objs, o.2.Bounded m.big
  spread : m.bad ≠ none ∨ objs = [] ∨ ∃ o ∈ objs, ∃ o' ∈ objs, o.2 ≠ o'.2

theorem boxOk_fold {m : Machine K} {b : BBox K} (hb : BoxOk m b) {objs : List (Int × Vec3 K)} (ho : Searchable m objs) :
    BoxOk m ((objs.map (·.2)).foldl BBox.addCoordinate b) := by
  by_cases hne : objs = []
  · subst hne; simpa using hb
  have H := BBox.foldl_min_le (objs.map (·.2)) b
  set B := (objs.map (·.2)).foldl BBox.addCoordinate b with hB
  have h := H B.min B.max
  simp only [le_refl, true_iff] at h
  obtain ⟨⟨hx, hy, hz⟩, hx', hy', hz'⟩ := h
  have mem : ∀ o ∈ objs, o.2 ∈ objs.map (·.2) := fun o h => List.mem_map.2 ⟨o, h, rfl⟩
  right
  obtain ⟨o, ho1⟩ := List.exists_mem_of_ne_nil _ hne
  refine ⟨⟨(hx.2 _ (mem o ho1)).trans (hx'.2 _ (mem o ho1)), (hy.2 _ (mem o ho1)).trans (hy'.2 _ (mem o ho1)),
    (hz.2 _ (mem o ho1)).trans (hz'.2 _ (mem o ho1))⟩, ?_⟩
  rcases ho.spread with h | h | ⟨p, hp, p', hp', hpp⟩
  · exact Or.inl h
  · exact absurd h hne
  · right
    by_contra hcon
    push Not at hcon
    obtain ⟨c1, c2, c3⟩ := hcon
    apply hpp
    have a := mem p hp
    have a' := mem p' hp'
    ext
    · linarith [hx.2 _ a, hx'.2 _ a, hx.2 _ a', hx'.2 _ a']
    · linarith [hy.2 _ a, hy'.2 _ a, hy.2 _ a', hy'.2 _ a']
    · linarith [hz.2 _ a, hz'.2 _ a, hz.2 _ a', hz'.2 _ a']

/-- One round: the search is exact, and the box is good for the next round. -/
theorem round_spec {m : Machine K} (heps : 0 < m.eps) (hbig : 0 < m.big) {g₀ : Grid K} (hb : BoxOk m g₀.box) {objs : List (Int × Vec3 K)}
    (ho : Searchable m objs) :
    ∃ g, g₀.round m objs = some g ∧ BoxOk m g.box ∧ ∀ q tol, ∃ r, g.find m q tol = some r ∧
      r.Perm ((objs.filter (fun o => decide (Vec3.Within o.2 q tol))).map (·.1)) := by
  have hB := boxOk_fold hb ho
  set B := (objs.map (·.2)).foldl BBox.addCoordinate g₀.box with hBdef
  have hgo : (g₀.reset.addAll objs).objs = objs := by rw [addAll_objs]; simp [Grid.reset]
  have hgb : (g₀.reset.addAll objs).box = g₀.box := by rw [addAll_objs]; simp [Grid.reset]
  have hn := (setup_sizes m (g₀.reset.addAll objs)).nX1
  obtain ⟨r, hr, e, he, hdelta, hbox⟩ : ∃ r : K, 0 < r ∧ ∃ e : K,
      e = m.eps * max (B.max.x - B.min.x) (max (B.max.y - B.min.y) (B.max.z - B.min.z)) ∧
      ((g₀.reset.addAll objs).setup m).delta = ⟨(B.max.x - B.min.x + 2 * e) * r, (B.max.y - B.min.y + 2 * e) * r,
        (B.max.z - B.min.z + 2 * e) * r⟩ ∧ ((g₀.reset.addAll objs).setup m).box = B.grow e := by
    refine ⟨1 / ((((g₀.reset.addAll objs).setup m).nX : ℕ) : K), ?_, _, rfl, ?_, ?_⟩
    · have : (0 : K) < ((((g₀.reset.addAll objs).setup m).nX : ℕ) : K) := by exact_mod_cast hn
      positivity
    · have hb' : ((g₀.reset.addAll objs).objs.map (·.2)).foldl BBox.addCoordinate (g₀.reset.addAll objs).box = B := by
        rw [hgo, hgb]
      simp only [Grid.setup, hb']
      ext <;> simp only [BBox.grow] <;> ring
    · have hb' : ((g₀.reset.addAll objs).objs.map (·.2)).foldl BBox.addCoordinate (g₀.reset.addAll objs).box = B := by
        rw [hgo, hgb]
      simp only [Grid.setup, hb']
  have key : Castable m ((g₀.reset.addAll objs).setup m) ∧ BoxOk m (B.grow e) ∧
      (objs ≠ [] → 0 ≤ B.max.x - B.min.x + 2 * e ∧ 0 ≤ B.max.y - B.min.y + 2 * e ∧ 0 ≤ B.max.z - B.min.z + 2 * e) := by
    rcases hB with ⟨⟨a1, a2, a3⟩, b1, b2, b3⟩ | ⟨⟨a1, a2, a3⟩, hs⟩
    · have hmx : max (B.max.x - B.min.x) (max (B.max.y - B.min.y) (B.max.z - B.min.z)) < 0 :=
        max_lt (by linarith) (max_lt (by linarith) (by linarith))
      have he0 : e < 0 := by rw [he]; exact mul_neg_of_pos_of_neg heps hmx
      refine ⟨?_, Or.inl ?_, ?_⟩
      · unfold Castable
        rw [hdelta]
        exact ⟨Or.inl (mul_ne_zero (ne_of_lt (by linarith)) (ne_of_gt hr)), Or.inl (mul_ne_zero (ne_of_lt (by linarith)) (ne_of_gt hr)),
          Or.inl (mul_ne_zero (ne_of_lt (by linarith)) (ne_of_gt hr))⟩
      · simp only [BBox.grow]
        exact ⟨⟨by linarith, by linarith, by linarith⟩, by linarith, by linarith, by linarith⟩
      · intro hne
        exfalso
        obtain ⟨o, ho1⟩ := List.exists_mem_of_ne_nil _ hne
        have h := BBox.foldl_min_le (objs.map (·.2)) g₀.box B.min B.max
        rw [← hBdef] at h
        simp only [le_refl, true_iff] at h
        have hm : o.2 ∈ objs.map (·.2) := List.mem_map.2 ⟨o, ho1, rfl⟩
        have h1 := h.1.1.2 _ hm
        have h2 := h.2.1.2 _ hm
        linarith
    · have hmx : 0 ≤ max (B.max.x - B.min.x) (max (B.max.y - B.min.y) (B.max.z - B.min.z)) :=
        (sub_nonneg.2 a1).trans (le_max_left _ _)
      have he0 : 0 ≤ e := by rw [he]; exact mul_nonneg (le_of_lt heps) hmx
      have hpos : (B.min.x < B.max.x ∨ B.min.y < B.max.y ∨ B.min.z < B.max.z) → 0 < e := by
        intro h
        rw [he]
        refine mul_pos heps ?_
        rcases h with h | h | h
        · exact lt_of_lt_of_le (sub_pos.2 h) (le_max_left _ _)
        · exact lt_of_lt_of_le (sub_pos.2 h) ((le_max_left _ _).trans (le_max_right _ _))
        · exact lt_of_lt_of_le (sub_pos.2 h) ((le_max_right _ _).trans (le_max_right _ _))
      refine ⟨?_, Or.inr ?_, fun _ => ⟨by linarith, by linarith, by linarith⟩⟩
      · unfold Castable
        rw [hdelta]
        rcases hs with h | h
        · exact ⟨Or.inr h, Or.inr h, Or.inr h⟩
        · have := hpos h
          exact ⟨Or.inl (mul_ne_zero (ne_of_gt (by linarith)) (ne_of_gt hr)), Or.inl (mul_ne_zero (ne_of_gt (by linarith)) (ne_of_gt hr)),
            Or.inl (mul_ne_zero (ne_of_gt (by linarith)) (ne_of_gt hr))⟩
      · simp only [BBox.grow]
        refine ⟨⟨by linarith, by linarith, by linarith⟩, ?_⟩
        rcases hs with h | h
        · exact Or.inl h
        · have := hpos h
          exact Or.inr (Or.inl (by linarith))
  obtain ⟨k1, k2, k3⟩ := key
  obtain ⟨g, h1, h2, h3⟩ := build_find_of_clear m objs (g₀.reset.addAll objs) hgo
    (by rw [addAll_objs]; simp [Grid.reset, Arr.empty]) k1 (by
      intro hne
      obtain ⟨d1, d2, d3⟩ := k3 hne
      rw [hdelta]
      exact ⟨mul_nonneg d1 (le_of_lt hr), mul_nonneg d2 (le_of_lt hr), mul_nonneg d3 (le_of_lt hr)⟩)
  exact ⟨g, h1, by rw [h2, hbox]; exact k2, h3⟩

theorem boxOk_new (m : Machine K) : BoxOk m (Grid.new m).box := by
  left; simp [Grid.new, BBox.reset]

end HashGrid

/-- **C13 (reuse).** Fill, build and search a grid, reset it, fill it with other objects, build and search again, any number of times:
every search gives exactly the objects of the last filling within the distance, each as often as it was added, whatever the grid held
before. -/
theorem C13_reuse (m : Machine K) (heps : 0 < m.eps) (hbig : 0 < m.big) (before : List (List (Int × Vec3 K))) (objs : List (Int × Vec3 K))
    (hb : ∀ l ∈ before, Searchable m l) (ho : Searchable m objs) :
    ∃ g, rounds m (before ++ [objs]) (Grid.new m) = some g ∧ ∀ q tol, ∃ r, g.find m q tol = some r ∧
      r.Perm ((objs.filter (fun o => decide (Vec3.Within o.2 q tol))).map (·.1)) := by
  have main : ∀ (l : List (List (Int × Vec3 K))), (∀ x ∈ l, Searchable m x) → ∀ g₀ : Grid K, BoxOk m g₀.box →
      ∃ g, rounds m (l ++ [objs]) g₀ = some g ∧ ∀ q tol, ∃ r, g.find m q tol = some r ∧
      r.Perm ((objs.filter (fun o => decide (Vec3.Within o.2 q tol))).map (·.1)) := by
    intro l
    induction l with
    | nil =>
      intro _ g₀ hg
      obtain ⟨g, h1, -, h2⟩ := round_spec heps hbig hg ho
      exact ⟨g, by simp [rounds, h1], h2⟩
    | cons a t ih =>
      intro hl g₀ hg
      obtain ⟨g, h1, h2, -⟩ := round_spec heps hbig hg (hl a (by simp))
      obtain ⟨g', h3, h4⟩ := ih (fun x hx => hl x (by simp [hx])) g h2
      exact ⟨g', by simp [rounds, h1, h3], h4⟩
  exact main before hb _ (boxOk_new m)

/-- `build()` called `n` times in a row. -/
def HashGrid.Grid.buildTimes (m : Machine K) : Nat → Grid K → Option (Grid K)
  | 0, g => some g
  | n + 1, g => (g.build m).bind (buildTimes m n)

/-- A machine with small numbers. -/
def smallGridMachine : Machine ℚ := { eps := 1 / 1024, big := 1000, cbrt := fun n => n / 3, bad := none }

/-- The ids a fresh grid with `sampleObjs` gives around the origin (where only the object 10 lies) after `n` calls of `build()`. -/
def builtTimes (n : Nat) : Option (List Int) :=
  (((Grid.new smallGridMachine).addAll sampleObjs).buildTimes smallGridMachine n).bind fun g => g.find smallGridMachine 0 (1 / 2)

/-- **C13 (build twice).** Without `reset()` the second `build()` counts on top of the old cell pointers: the object is found ten
times instead of once. -/
theorem C13_rebuild_without_reset : builtTimes 1 = some [10] ∧ builtTimes 2 = some (List.replicate 10 10) := by
  decide +kernel

/-- `C13_reuse` applies to three rounds with different objects. -/
example : (∀ l ∈ [sampleObjs, []], Searchable sampleMachine l) ∧ Searchable sampleMachine (sampleObjs.map fun o => (o.1, o.2 + ⟨5, 0, 0⟩)) := by
  have h : Searchable sampleMachine sampleObjs := ⟨by simp [sampleObjs, sampleMachine, Vec3.Bounded]; norm_num,
    Or.inr (Or.inr ⟨(10, ⟨0, 0, 0⟩), by simp [sampleObjs], (20, ⟨1, 0, 0⟩), by simp [sampleObjs], by simp⟩)⟩
  refine ⟨?_, ?_, ?_⟩
  · intro l hl
    simp only [List.mem_cons, List.not_mem_nil, or_false] at hl
    rcases hl with rfl | rfl
    · exact h
    · exact ⟨by simp, Or.inr (Or.inl rfl)⟩
  · simp [sampleObjs, sampleMachine, Vec3.Bounded]; norm_num
  · refine Or.inr (Or.inr ⟨(10, ⟨5, 0, 0⟩), ?_, (20, ⟨6, 0, 0⟩), ?_, by simp⟩)
    · simp [sampleObjs]; rfl
    · simp [sampleObjs]; ext <;> norm_num

end ENigMA
