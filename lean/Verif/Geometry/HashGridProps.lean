import Verif.Geometry.HashGridLemmas
import Mathlib.Data.Rat.Floor

/-! # C13: the hash grid finds exactly the points within the tolerance -/

set_option linter.unusedSectionVars false

namespace ENigMA
namespace HashGrid
variable {K : Type} [Field K] [LinearOrder K] [IsStrictOrderedRing K] [FloorRing K]

/-- The un-grown box of the objects. -/
theorem setup_delta (m : Machine K) (objs : List (Int × Vec3 K)) :
    ∃ r : K, 0 < r ∧ ∃ e : K,
      e = m.eps * max ((BBox.ofPoints m.big (objs.map (·.2))).max.x - (BBox.ofPoints m.big (objs.map (·.2))).min.x)
        (max ((BBox.ofPoints m.big (objs.map (·.2))).max.y - (BBox.ofPoints m.big (objs.map (·.2))).min.y)
          ((BBox.ofPoints m.big (objs.map (·.2))).max.z - (BBox.ofPoints m.big (objs.map (·.2))).min.z)) ∧
      (((Grid.new m).addAll objs).setup m).delta =
        ⟨((BBox.ofPoints m.big (objs.map (·.2))).max.x - (BBox.ofPoints m.big (objs.map (·.2))).min.x + 2 * e) * r,
         ((BBox.ofPoints m.big (objs.map (·.2))).max.y - (BBox.ofPoints m.big (objs.map (·.2))).min.y + 2 * e) * r,
         ((BBox.ofPoints m.big (objs.map (·.2))).max.z - (BBox.ofPoints m.big (objs.map (·.2))).min.z + 2 * e) * r⟩ := by
  rw [addAll_objs]
  have hn := (setup_sizes m { Grid.new m with objs := (Grid.new m).objs ++ objs }).nX1
  refine ⟨1 / (((({ Grid.new m with objs := (Grid.new m).objs ++ objs } : Grid K).setup m).nX : ℕ) : K), ?_, _, rfl, ?_⟩
  · have : (0 : K) < (((({ Grid.new m with objs := (Grid.new m).objs ++ objs } : Grid K).setup m).nX : ℕ) : K) := by
      exact_mod_cast hn
    positivity
  · simp only [Grid.setup, Grid.new, List.nil_append, BBox.grow, BBox.ofPoints]
    ext <;> simp only <;> ring

end HashGrid

open HashGrid
variable {K : Type} [Field K] [LinearOrder K] [IsStrictOrderedRing K] [FloorRing K]

/-- **C13 (exactness).** For every list of finite points with ids, added to a new hash grid, `build()` is defined and
every `find(ids, q, tol)` is defined and returns exactly the ids of the points with `|p - q| ≤ tol`, each as often as it
was added (`List.Perm`); except that, if casting NaN to an integer counts as undefined (`bad = none`), the points must not
all coincide. No access is out of range. -/
theorem C13_find_exact (m : Machine K) (heps : 0 < m.eps) (hbig : 0 < m.big) (objs : List (Int × Vec3 K))
    (hb : ∀ o ∈ objs, o.2.Bounded m.big)
    (hok : m.bad ≠ none ∨ objs = [] ∨ ∃ o ∈ objs, ∃ o' ∈ objs, o.2 ≠ o'.2) :
    ∃ g, ofList m objs = some g ∧ ∀ q tol, ∃ r, g.find m q tol = some r ∧
      r.Perm ((objs.filter (fun o => decide (Vec3.Within o.2 q tol))).map (·.1)) := by
  obtain ⟨r, hr, e, he, hdelta⟩ := setup_delta m objs
  have hin := (C17_least_box m.big (objs.map (·.2)) (by simpa using fun b a h => hb (a, b) h)).1
  set B := BBox.ofPoints m.big (objs.map (·.2)) with hB
  have hin' : ∀ o ∈ objs, InBox B.min B.max o.2 := by
    intro o ho
    have := hin o.2 (List.mem_map.2 ⟨o, ho, rfl⟩)
    rw [BBox.containsPt_iff] at this
    simpa using this
  have hext : objs ≠ [] → 0 ≤ B.max.x - B.min.x ∧ 0 ≤ B.max.y - B.min.y ∧ 0 ≤ B.max.z - B.min.z := by
    intro hne
    obtain ⟨o, ho⟩ := List.exists_mem_of_ne_nil _ hne
    obtain ⟨⟨a1, a2⟩, ⟨a3, a4⟩, ⟨a5, a6⟩⟩ := hin' o ho
    exact ⟨by linarith, by linarith, by linarith⟩
  have he0 : objs ≠ [] → 0 ≤ e := by
    intro hne
    have := (hext hne).1
    rw [he]
    exact mul_nonneg (le_of_lt heps) (this.trans (le_max_left _ _))
  apply build_find
  · -- the casts are defined
    by_cases hbad : m.bad ≠ none
    · exact ⟨Or.inr hbad, Or.inr hbad, Or.inr hbad⟩
    · rcases hok with h | h | h
      · exact absurd h hbad
      · -- no objects: the box is the reset box
        subst h
        have hB0 : B = BBox.reset m.big := rfl
        simp only [hB0, BBox.reset, max_self] at he hdelta
        have : -m.big - m.big + 2 * e < 0 := by rw [he]; nlinarith [mul_pos heps hbig]
        have hne : (-m.big - m.big + 2 * e) * r ≠ 0 := mul_ne_zero (ne_of_lt this) (ne_of_gt hr)
        unfold Castable
        rw [hdelta]
        exact ⟨Or.inl hne, Or.inl hne, Or.inl hne⟩
      · obtain ⟨o, ho, o', ho', hne⟩ := h
        have hnil : objs ≠ [] := List.ne_nil_of_mem ho
        obtain ⟨e1, e2, e3⟩ := hext hnil
        obtain ⟨⟨a1, a2⟩, ⟨a3, a4⟩, ⟨a5, a6⟩⟩ := hin' o ho
        obtain ⟨⟨b1, b2⟩, ⟨b3, b4⟩, ⟨b5, b6⟩⟩ := hin' o' ho'
        have hpos : 0 < e := by
          rw [he]
          refine mul_pos heps ?_
          by_contra hle
          rw [not_lt] at hle
          have c1 := (le_max_left _ _).trans hle
          have c2 := ((le_max_left _ _).trans (le_max_right _ _)).trans hle
          have c3 := ((le_max_right _ _).trans (le_max_right _ _)).trans hle
          apply hne
          ext <;> linarith
        unfold Castable
        rw [hdelta]
        refine ⟨Or.inl ?_, Or.inl ?_, Or.inl ?_⟩ <;>
          exact mul_ne_zero (ne_of_gt (by linarith)) (ne_of_gt hr)
  · intro hne
    obtain ⟨e1, e2, e3⟩ := hext hne
    have := he0 hne
    rw [hdelta]
    refine ⟨?_, ?_, ?_⟩ <;> exact mul_nonneg (by linarith) (le_of_lt hr)

/-- **C13 (the excluded case).** If the points all coincide (in particular for a single point) the code divides by zero
and casts NaN to an integer: with the standard's reading, `build()` has undefined behaviour. -/
theorem C13_coincident_undefined (m : Machine K) (hbad : m.bad = none) (p : Vec3 K) (hp : p.Bounded m.big)
    (objs : List (Int × Vec3 K)) (hne : objs ≠ []) (hall : ∀ o ∈ objs, o.2 = p) : ofList m objs = none := by
  obtain ⟨r, hr, e, he, hdelta⟩ := setup_delta m objs
  have hb : ∀ q ∈ objs.map (·.2), q.Bounded m.big := by
    intro q hq
    obtain ⟨o, ho, rfl⟩ := List.mem_map.1 hq
    rw [hall o ho]; exact hp
  have hl := C17_least_box m.big (objs.map (·.2)) hb
  set B := BBox.ofPoints m.big (objs.map (·.2)) with hB
  obtain ⟨o, ho⟩ := List.exists_mem_of_ne_nil _ hne
  have hpm : p ∈ objs.map (·.2) := by rw [← hall o ho]; exact List.mem_map.2 ⟨o, ho, rfl⟩
  have h1 := hl.1 p hpm
  rw [BBox.containsPt_iff] at h1
  simp only [sub_zero, add_zero, InBox] at h1
  have sub : ∀ q ∈ objs.map (·.2), InBox p p q := by
    intro q hq
    obtain ⟨o, ho, rfl⟩ := List.mem_map.1 hq
    rw [hall o ho]; simp [InBox]
  have hmin := hl.2 (by simpa using hne) p p sub B.min (by
    rw [BBox.containsPt_iff]; simp only [sub_zero, add_zero, InBox]
    exact ⟨⟨le_refl _, h1.1.1.trans h1.1.2⟩, ⟨le_refl _, h1.2.1.1.trans h1.2.1.2⟩, ⟨le_refl _, h1.2.2.1.trans h1.2.2.2⟩⟩)
  have hmax := hl.2 (by simpa using hne) p p sub B.max (by
    rw [BBox.containsPt_iff]; simp only [sub_zero, add_zero, InBox]
    exact ⟨⟨h1.1.1.trans h1.1.2, le_refl _⟩, ⟨h1.2.1.1.trans h1.2.1.2, le_refl _⟩, ⟨h1.2.2.1.trans h1.2.2.2, le_refl _⟩⟩)
  have ex : B.max.x - B.min.x = 0 := by linarith [hmin.1.1, hmin.1.2, hmax.1.1, hmax.1.2]
  have ey : B.max.y - B.min.y = 0 := by linarith [hmin.2.1.1, hmin.2.1.2, hmax.2.1.1, hmax.2.1.2]
  have ez : B.max.z - B.min.z = 0 := by linarith [hmin.2.2.1, hmin.2.2.2, hmax.2.2.1, hmax.2.2.2]
  rw [ex, ey, ez] at he hdelta
  simp only [max_self, mul_zero] at he
  subst he
  simp only [mul_zero, add_zero, zero_mul] at hdelta
  unfold ofList Grid.build
  have hobjs : (((Grid.new m).addAll objs).setup m).objs = objs := by
    rw [addAll_objs]; simp [Grid.setup, Grid.new]
  obtain ⟨o', t, rfl⟩ := List.exists_cons_of_ne_nil hne
  have hcell : ∀ q, (((Grid.new m).addAll (o' :: t)).setup m).cellOf m q = none := by
    intro q
    simp [Grid.cellOf, cellCoord, hdelta, hbad]
  simp only [hobjs, List.map_cons, List.mapM_cons, hcell, Option.bind_eq_bind, Option.bind_none]

/-- A machine with `double`-like constants over `ℚ`, treating the cast of NaN as undefined. -/
def sampleMachine : Machine ℚ := { eps := 1 / 4503599627370496, big := 10 ^ 200, cbrt := fun n => n / 3, bad := none }

/-- Four points with ids; two of them coincide. -/
def sampleObjs : List (Int × Vec3 ℚ) := [(10, ⟨0, 0, 0⟩), (20, ⟨1, 0, 0⟩), (30, ⟨0, 2, 0⟩), (40, ⟨1, 0, 0⟩)]

/-- The hypotheses of `C13_find_exact` are met by `sampleObjs`, and the search around `(1,0,0)` has two results. -/
example : 0 < sampleMachine.eps ∧ 0 < sampleMachine.big ∧ (∀ o ∈ sampleObjs, o.2.Bounded sampleMachine.big) ∧
    (∃ o ∈ sampleObjs, ∃ o' ∈ sampleObjs, o.2 ≠ o'.2) ∧
    ((sampleObjs.filter (fun o => decide (Vec3.Within o.2 (⟨1, 0, 0⟩ : Vec3 ℚ) (1 / 2)))).map (·.1)) = [20, 40] := by
  refine ⟨by norm_num [sampleMachine], by norm_num [sampleMachine], ?_, ?_, ?_⟩
  · simp [sampleObjs, sampleMachine, Vec3.Bounded]; norm_num
  · exact ⟨(10, ⟨0, 0, 0⟩), by simp [sampleObjs], (20, ⟨1, 0, 0⟩), by simp [sampleObjs], by simp⟩
  · simp [sampleObjs, Vec3.Within, Vec3.normSq, Vec3.dot, List.filter_cons]; norm_num

end ENigMA
