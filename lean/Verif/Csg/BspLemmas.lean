import Verif.Csg.Bsp
import Verif.Geometry.PolygonProps

/-!
# Lemmas for C45, C46: splitting labelled vertex cycles
-/

set_option linter.unusedSectionVars false

namespace ENigMA
namespace Csg

section Labels
variable {K : Type} [Field K] [LinearOrder K] [IsStrictOrderedRing K]

abbrev LV (K : Type) := Vec3 K × Side

/-- All points, the points not behind, the points not in front, the points on the plane. -/
def ptsP (l : List (LV K)) : List (Vec3 K) := l.map Prod.fst
def ptsF (l : List (LV K)) : List (Vec3 K) := (l.filter fun p => p.2 ≠ .back).map Prod.fst
def ptsB (l : List (LV K)) : List (Vec3 K) := (l.filter fun p => p.2 ≠ .front).map Prod.fst
def ptsC (l : List (LV K)) : List (Vec3 K) := (l.filter fun p => p.2 = .coplanar).map Prod.fst

/-- Consecutive points are not on opposite sides. -/
def Adj (a b : LV K) : Prop := spans a.2 b.2 = false

theorem area_paths (l : List (LV K)) : ∀ (x : LV K), List.IsChain Adj (x :: l) →
    (x.2 = .front → ∀ c, openArea2 (x.1 :: ptsF l) + openArea2 (c :: ptsB l) =
      openArea2 (x.1 :: ptsP l) + openArea2 (c :: ptsC l)) ∧
    (x.2 = .back → ∀ c, openArea2 (c :: ptsF l) + openArea2 (x.1 :: ptsB l) =
      openArea2 (x.1 :: ptsP l) + openArea2 (c :: ptsC l)) ∧
    (x.2 = .coplanar → openArea2 (x.1 :: ptsF l) + openArea2 (x.1 :: ptsB l) =
      openArea2 (x.1 :: ptsP l) + openArea2 (x.1 :: ptsC l)) := by
  induction l with
  | nil => intro x _; simp [ptsF, ptsB, ptsC, ptsP]
  | cons y l ih =>
    intro x hx
    obtain ⟨hxy, hl⟩ := List.isChain_cons_cons.1 hx
    obtain ⟨i1, i2, i3⟩ := ih y hl
    obtain ⟨y, ty⟩ := y
    obtain ⟨x, tx⟩ := x
    simp only [Adj] at hxy
    simp only [ptsF, ptsB, ptsC, ptsP] at i1 i2 i3 ⊢
    refine ⟨?_, ?_, ?_⟩
    · rintro rfl c
      cases ty <;> simp [spans] at hxy ⊢
      · have := i3 rfl
        simp at this
        rw [← sub_eq_zero] at this ⊢; rw [← this]; abel
      · have := i1 rfl c
        simp at this
        rw [← sub_eq_zero] at this ⊢; rw [← this]; abel
    · rintro rfl c
      cases ty <;> simp [spans] at hxy ⊢
      · have := i3 rfl
        simp at this
        rw [← sub_eq_zero] at this ⊢; rw [← this]; abel
      · have := i2 rfl c
        simp at this
        rw [← sub_eq_zero] at this ⊢; rw [← this]; abel
    · rintro rfl
      cases ty <;> simp
      · have := i3 rfl
        simp at this
        rw [← sub_eq_zero] at this ⊢; rw [← this]; abel
      · have := i1 rfl x
        simp at this
        rw [← sub_eq_zero] at this ⊢; rw [← this]; abel
      · have := i2 rfl x
        simp at this
        rw [← sub_eq_zero] at this ⊢; rw [← this]; abel

theorem chain_same {l : List (LV K)} {x : LV K} (h : List.IsChain Adj (x :: l))
    (hn : ∀ p ∈ x :: l, p.2 ≠ .coplanar) : ∀ p ∈ l, p.2 = x.2 := by
  induction l generalizing x with
  | nil => simp
  | cons y l ih =>
    obtain ⟨hxy, hl⟩ := List.isChain_cons_cons.1 h
    have hy : y.2 = x.2 := by
      have h1 := hn x (by simp)
      have h2 := hn y (by simp)
      simp only [Adj] at hxy
      cases h3 : x.2 <;> cases h4 : y.2 <;> simp_all [spans]
    intro p hp
    rcases List.mem_cons.1 hp with rfl | hp
    · exact hy
    · rw [ih hl (fun q hq => hn q (List.mem_cons_of_mem _ hq)) p hp, hy]

/-- The areas of the two pieces of a labelled cycle overlap exactly in the cycle of the points on the plane. -/
theorem area_cycle (l : List (LV K)) (x : LV K) (h : List.IsChain Adj (x :: l ++ [x])) :
    vecArea2 (ptsF (x :: l)) + vecArea2 (ptsB (x :: l)) = vecArea2 (ptsP (x :: l)) + vecArea2 (ptsC (x :: l)) := by
  by_cases hc : ∀ p ∈ x :: l, p.2 ≠ .coplanar
  · have hs := chain_same (l := l) (x := x) (by
      have := List.IsChain.left_of_append (l₁ := x :: l) (l₂ := [x]) h
      exact this) hc
    have hC : ptsC (x :: l) = [] := by
      simp only [ptsC, List.map_eq_nil_iff, List.filter_eq_nil_iff, decide_eq_true_eq]
      exact hc
    have hx := hc x (by simp)
    cases hx2 : x.2 with
    | coplanar => exact absurd hx2 hx
    | front =>
      have hB : ptsB (x :: l) = [] := by
        simp only [ptsB, List.map_eq_nil_iff, List.filter_eq_nil_iff, decide_eq_true_eq]
        intro p hp
        rcases List.mem_cons.1 hp with rfl | hp
        · simp [hx2]
        · simp [hs p hp, hx2]
      have hF : ptsF (x :: l) = ptsP (x :: l) := by
        simp only [ptsF, ptsP]
        rw [List.filter_eq_self.2]
        intro p hp
        rcases List.mem_cons.1 hp with rfl | hp
        · simp [hx2]
        · simp [hs p hp, hx2]
      rw [hC, hB, hF]
    | back =>
      have hB : ptsF (x :: l) = [] := by
        simp only [ptsF, List.map_eq_nil_iff, List.filter_eq_nil_iff, decide_eq_true_eq]
        intro p hp
        rcases List.mem_cons.1 hp with rfl | hp
        · simp [hx2]
        · simp [hs p hp, hx2]
      have hF : ptsB (x :: l) = ptsP (x :: l) := by
        simp only [ptsB, ptsP]
        rw [List.filter_eq_self.2]
        intro p hp
        rcases List.mem_cons.1 hp with rfl | hp
        · simp [hx2]
        · simp [hs p hp, hx2]
      rw [hC, hB, hF, add_comm]
  · push Not at hc
    obtain ⟨c, hcm, hc⟩ := hc
    obtain ⟨s, t, hst⟩ := List.append_of_mem hcm
    -- start the cycle at a point on the plane
    have hrot : List.IsChain Adj (c :: (t ++ s) ++ [c]) := by
      rw [hst] at h
      have h2 := h
      rw [List.append_assoc, List.cons_append] at h2
      have ha := (List.isChain_split.1 h2).1
      have hb := (List.isChain_split.1 h2).2
      cases s with
      | nil =>
        simp only [List.nil_append, List.cons.injEq] at hst
        obtain ⟨rfl, rfl⟩ := hst
        simpa using h
      | cons y s =>
        simp only [List.cons_append, List.cons.injEq] at hst
        obtain ⟨rfl, rfl⟩ := hst
        rw [show c :: (t ++ x :: s) ++ [c] = (c :: t) ++ x :: (s ++ [c]) by simp]
        exact List.isChain_split.2 ⟨by simpa using hb, by simpa using ha⟩
    have hp := (area_paths ((t ++ s) ++ [c]) c (by simpa using hrot)).2.2 hc
    have e : ∀ (f : List (LV K) → List (Vec3 K)), (∀ a b, f (a ++ b) = f a ++ f b) → f [c] = [c.1] →
        openArea2 (c.1 :: f (t ++ s ++ [c])) = vecArea2 (f (x :: l)) := by
      intro f hf hfc
      rw [hst, show s ++ c :: t = s ++ ([c] ++ t) by simp, hf s, vecArea2_append_comm, hf, hf, hf, hfc]
      simp [vecArea2]
    rw [e ptsF (by simp [ptsF]) (by simp [ptsF, hc]), e ptsB (by simp [ptsB]) (by simp [ptsB, hc]),
      e ptsP (by simp [ptsP]) (by simp [ptsP]), e ptsC (by simp [ptsC]) (by simp [ptsC, hc])] at hp
    exact hp

/-- The edges with the crossing points inserted, each point with its side. -/
def refine (tol : K) (pl : GPlane K) (first : Vec3 K) : List (Vec3 K) → List (LV K)
  | [] => []
  | vi :: rest =>
    (vi, side tol pl vi) ::
      ((if spans (side tol pl vi) (side tol pl (rest.headD first)) then
        [(crossing pl vi (rest.headD first), .coplanar)] else []) ++ refine tol pl first rest)

theorem splitLoop_eq (tol : K) (pl : GPlane K) (first : Vec3 K) (l : List (Vec3 K)) :
    splitLoop tol pl first l = (ptsF (refine tol pl first l), ptsB (refine tol pl first l)) := by
  induction l with
  | nil => rfl
  | cons v l ih =>
    simp only [splitLoop, refine, ih, ptsF, ptsB]
    cases hs : side tol pl v <;> cases ht : side tol pl (l.headD first) <;> simp [spans]

theorem refine_chain (tol : K) (pl : GPlane K) (first : Vec3 K) (l : List (Vec3 K)) :
    List.IsChain Adj (refine tol pl first l ++ [(first, side tol pl first)]) := by
  induction l with
  | nil => simp [refine]
  | cons v l ih =>
    have hh : ∃ r, refine tol pl first l ++ [(first, side tol pl first)] =
        (l.headD first, side tol pl (l.headD first)) :: r := by
      cases l with
      | nil => exact ⟨[], rfl⟩
      | cons w l => exact ⟨_, rfl⟩
    obtain ⟨r, hr⟩ := hh
    rw [hr] at ih
    simp only [refine, List.cons_append, List.append_assoc, hr]
    split_ifs with h
    · simp only [List.cons_append, List.nil_append, List.isChain_cons_cons]
      refine ⟨?_, ?_, ih⟩
      · simp only [Adj]; cases side tol pl v <;> rfl
      · simp only [Adj]; cases side tol pl (l.headD first) <;> rfl
    · simp only [List.nil_append, List.isChain_cons_cons]
      exact ⟨by simpa [Adj] using h, ih⟩

/-- The inserted points do not change the area. -/
theorem refine_area (tol : K) (pl : GPlane K) (first : Vec3 K) (l : List (Vec3 K)) :
    openArea2 (ptsP (refine tol pl first l) ++ [first]) = openArea2 (l ++ [first]) := by
  induction l with
  | nil => rfl
  | cons v l ih =>
    have hh : ∃ r, ptsP (refine tol pl first l) ++ [first] = l.headD first :: r := by
      cases l with
      | nil => exact ⟨[], rfl⟩
      | cons w l => exact ⟨_, rfl⟩
    have hh2 : ∃ r, l ++ [first] = l.headD first :: r := by
      cases l with
      | nil => exact ⟨[], rfl⟩
      | cons w l => exact ⟨_, rfl⟩
    obtain ⟨r, hr⟩ := hh
    obtain ⟨r2, hr2⟩ := hh2
    have e1 : ptsP (refine tol pl first (v :: l)) ++ [first] = v ::
        ((if spans (side tol pl v) (side tol pl (l.headD first)) then [crossing pl v (l.headD first)] else []) ++
          (ptsP (refine tol pl first l) ++ [first])) := by
      simp only [refine, ptsP]
      split_ifs <;> simp
    rw [e1, List.cons_append, hr, hr2, openArea2_cons_cons, ← hr2, ← ih, hr]
    split_ifs
    · simp only [List.cons_append, List.nil_append, openArea2_cons_cons, crossing]
      rw [← add_assoc, Vec3.cross_add_right, Vec3.cross_add_left, Vec3.cross_smul_right, Vec3.cross_smul_left,
        Vec3.cross_sub_right, Vec3.cross_sub_left, Vec3.cross_self, Vec3.cross_self]
      simp
    · simp

theorem side_front {tol : K} (ht : 0 ≤ tol) {pl : GPlane K} {v : Vec3 K} :
    side tol pl v = .front ↔ tol < pl.normal.dot v - pl.d := by
  simp only [side]
  split_ifs <;> simp <;> linarith

theorem side_back {tol : K} {pl : GPlane K} {v : Vec3 K} :
    side tol pl v = .back ↔ pl.normal.dot v - pl.d < -tol := by
  simp only [side]
  split_ifs <;> simp <;> linarith

theorem side_coplanar {tol : K} {pl : GPlane K} {v : Vec3 K} :
    side tol pl v = .coplanar ↔ -tol ≤ pl.normal.dot v - pl.d ∧ pl.normal.dot v - pl.d ≤ tol := by
  simp only [side]
  split_ifs with h1 h2
  · simp; intro h; linarith
  · simp; intro _; linarith
  · simp; constructor <;> linarith

theorem spans_iff {a b : Side} : spans a b = true ↔ (a = .front ∧ b = .back) ∨ (a = .back ∧ b = .front) := by
  cases a <;> cases b <;> simp [spans]

/-- A crossing point lies on the plane, strictly between the ends of the edge. -/
theorem crossing_spec {tol : K} (ht : 0 ≤ tol) {pl : GPlane K} {a b : Vec3 K}
    (h : spans (side tol pl a) (side tol pl b) = true) :
    pl.normal.dot (crossing pl a b) = pl.d ∧
      ∃ s : K, 0 < s ∧ s < 1 ∧ crossing pl a b = a + s • (b - a) := by
  have hne : (pl.normal.dot (b - a) < 0 ∧ pl.d - pl.normal.dot a < 0 ∧ pl.normal.dot b - pl.d < 0) ∨
      (0 < pl.normal.dot (b - a) ∧ 0 < pl.d - pl.normal.dot a ∧ 0 < pl.normal.dot b - pl.d) := by
    rw [Vec3.dot_sub]
    rcases spans_iff.1 h with ⟨h1, h2⟩ | ⟨h1, h2⟩
    · rw [side_front ht] at h1
      rw [side_back] at h2
      left; refine ⟨?_, ?_, ?_⟩ <;> linarith
    · rw [side_front ht] at h2
      rw [side_back] at h1
      right; refine ⟨?_, ?_, ?_⟩ <;> linarith
  have hn0 : pl.normal.dot (b - a) ≠ 0 := by
    rcases hne with h | h
    · exact h.1.ne
    · exact h.1.ne'
  refine ⟨?_, (pl.d - pl.normal.dot a) / pl.normal.dot (b - a), ?_, ?_, rfl⟩
  · rw [crossing, Vec3.dot_add, Vec3.dot_smul]
    field_simp
    ring
  · rcases hne with h | h
    · exact div_pos_of_neg_of_neg h.2.1 h.1
    · exact div_pos h.2.1 h.1
  · rw [Vec3.dot_sub] at hne ⊢
    rcases hne with h | h
    · rw [div_lt_one_of_neg h.1]; linarith
    · rw [div_lt_one h.1]; linarith

/-- Every point of the refined cycle is a vertex with its side, or a crossing on an edge. -/
theorem refine_mem (tol : K) (pl : GPlane K) (first : Vec3 K) (l : List (Vec3 K)) :
    ∀ p ∈ refine tol pl first l, (p.1 ∈ l ∧ p.2 = side tol pl p.1) ∨
      (p.2 = .coplanar ∧ ∃ k, k < l.length ∧ ∃ a b, l[k]? = some a ∧ (l ++ [first])[k + 1]? = some b ∧
        spans (side tol pl a) (side tol pl b) = true ∧ p.1 = crossing pl a b) := by
  induction l with
  | nil => simp [refine]
  | cons v l ih =>
    intro p hp
    simp only [refine, List.mem_cons, List.mem_append] at hp
    rcases hp with rfl | hp | hp
    · left; simp
    · split_ifs at hp with h
      · simp only [List.mem_singleton] at hp
        subst hp
        right
        refine ⟨rfl, 0, by simp, v, l.headD first, by simp, ?_, h, rfl⟩
        cases l <;> simp
      · simp at hp
    · rcases ih p hp with ⟨h1, h2⟩ | ⟨h1, k, hk, a, b, ha, hb, hs, hx⟩
      · left; exact ⟨List.mem_cons_of_mem _ h1, h2⟩
      · right
        exact ⟨h1, k + 1, by simpa using hk, a, b, by simpa using ha, by simpa using hb, hs, hx⟩

end Labels
end Csg
end ENigMA
