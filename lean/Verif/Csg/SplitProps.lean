import Verif.Csg.BspLemmas

/-!
# C45: splitting a polygon by a plane
-/

set_option linter.unusedSectionVars false

namespace ENigMA
namespace Csg

variable {K : Type} [Field K] [LinearOrder K] [IsStrictOrderedRing K]

/-- All pieces one split produces. -/
def Split.pieces (s : Split K) : List (Poly K) := s.coFront ++ s.coBack ++ s.front ++ s.back

/-- Sum of twice the vector areas of polygons. -/
def areaSum (ps : List (Poly K)) : Vec3 K := (ps.map fun q => vecArea2 q.vs).sum

/-- `v` lies strictly inside a side of the polygon `vs`. -/
def OnEdge (vs : List (Vec3 K)) (v : Vec3 K) : Prop :=
  ∃ (k : Nat) (a b : Vec3 K) (s : K), vs[k]? = some a ∧ vs[(k + 1) % vs.length]? = some b ∧
    0 < s ∧ s < 1 ∧ v = a + s • (b - a)

@[simp] theorem areaSum_nil : areaSum ([] : List (Poly K)) = 0 := rfl
@[simp] theorem areaSum_cons (p : Poly K) (ps : List (Poly K)) :
    areaSum (p :: ps) = vecArea2 p.vs + areaSum ps := by simp [areaSum]
@[simp] theorem areaSum_append (ps qs : List (Poly K)) : areaSum (ps ++ qs) = areaSum ps + areaSum qs := by
  simp [areaSum]

theorem closeExact_eq {nrm : Vec3 K → K} (hn : IsNorm nrm) (vs : List (Vec3 K)) (h : 2 < vs.length) :
    closeExact vs = Polyline.close nrm 0 vs := by
  unfold closeExact Polyline.close
  cases vs.head? <;> cases vs.getLast? <;> simp only
  rename_i a b
  by_cases hab : b = a
  · have : ¬ (2 < vs.length ∧ 0 < nrm (b - a)) := by
      rintro ⟨_, h⟩; rw [hab, sub_self, hn.zero] at h; exact lt_irrefl _ h
    rw [if_neg this, if_neg (by simpa using hab)]
  · have : 0 < nrm (b - a) := hn.pos (sub_ne_zero.2 hab)
    rw [if_pos hab, if_pos ⟨h, this⟩]

theorem closeExact_cases (vs : List (Vec3 K)) :
    closeExact vs = vs ∨ ∃ a l, vs = a :: l ∧ closeExact vs = vs ++ [a] := by
  unfold closeExact
  cases vs with
  | nil => simp
  | cons a l =>
    simp only [List.head?_cons]
    cases (a :: l).getLast? with
    | none => left; rfl
    | some b =>
      by_cases h : b = a
      · left; simp [h]
      · right; exact ⟨a, l, rfl, by simp [h]⟩

theorem closeExact_mem (vs : List (Vec3 K)) (v : Vec3 K) : v ∈ closeExact vs ↔ v ∈ vs := by
  rcases closeExact_cases vs with h | ⟨a, l, rfl, h⟩
  · rw [h]
  · rw [h]; simp only [List.mem_append, List.mem_cons, List.not_mem_nil, or_false]; tauto

theorem closeExact_area (vs : List (Vec3 K)) : vecArea2 (closeExact vs) = vecArea2 vs := by
  rcases closeExact_cases vs with h | ⟨a, l, rfl, h⟩
  · rw [h]
  · rw [h]; exact vecArea2_closed a l

theorem vecArea2_short (vs : List (Vec3 K)) (h : vs.length ≤ 2) : vecArea2 vs = 0 := by
  match vs, h with
  | [], _ => rfl
  | [a], _ => simp [vecArea2, Vec3.cross_self]
  | [a, b], _ =>
    simp only [vecArea2, List.cons_append, List.nil_append, openArea2_cons_cons, openArea2_single, add_zero]
    rw [Vec3.cross_swap b a]; simp

theorem piece_area (m : Vec3 K) (vs : List (Vec3 K)) : areaSum (piece m vs) = vecArea2 vs := by
  unfold piece
  split_ifs with h
  · simp [closeExact_area]
  · rw [vecArea2_short vs (by omega)]; rfl

theorem piece_mem {m : Vec3 K} {vs : List (Vec3 K)} {q : Poly K} (hq : q ∈ piece m vs) :
    q.normal = m ∧ 2 < q.vs.length ∧ ∀ v, v ∈ q.vs ↔ v ∈ vs := by
  unfold piece at hq
  split_ifs at hq with h
  · simp only [List.mem_singleton] at hq
    subst hq
    refine ⟨rfl, ?_, closeExact_mem vs⟩
    rcases closeExact_cases vs with h' | ⟨a, l, _, h'⟩
    · simpa [h'] using h
    · simp only [h']; simp; omega
  · simp at hq

/-- The four possible outcomes of a split. -/
theorem splitPolygon_cases {tol : K} (pl : GPlane K) (p : Poly K) :
    ((∀ v ∈ p.vs, side tol pl v = .coplanar) ∧ 0 < pl.normal.dot p.normal ∧
        splitPolygon tol pl p = { coFront := [p] }) ∨
    ((∀ v ∈ p.vs, side tol pl v = .coplanar) ∧ ¬ 0 < pl.normal.dot p.normal ∧
        splitPolygon tol pl p = { coBack := [p] }) ∨
    ((∃ v ∈ p.vs, side tol pl v = .front) ∧ (∀ v ∈ p.vs, side tol pl v ≠ .back) ∧
        splitPolygon tol pl p = { front := [p] }) ∨
    ((∃ v ∈ p.vs, side tol pl v = .back) ∧ (∀ v ∈ p.vs, side tol pl v ≠ .front) ∧
        splitPolygon tol pl p = { back := [p] }) ∨
    ((∃ v ∈ p.vs, side tol pl v = .front) ∧ (∃ v ∈ p.vs, side tol pl v = .back) ∧
      ∃ v0 rest, p.vs = v0 :: rest ∧ splitPolygon tol pl p =
        { front := piece p.normal (ptsF (refine tol pl v0 p.vs)),
          back := piece p.normal (ptsB (refine tol pl v0 p.vs)) }) := by
  unfold splitPolygon
  by_cases hf : ∃ v ∈ p.vs, side tol pl v = .front
  · have hf' : (p.vs.any fun v => side tol pl v == .front) = true := by simpa using hf
    by_cases hb : ∃ v ∈ p.vs, side tol pl v = .back
    · have hb' : (p.vs.any fun v => side tol pl v == .back) = true := by simpa using hb
      right; right; right; right
      refine ⟨hf, hb, ?_⟩
      simp only [hf', hb']
      cases hvs : p.vs with
      | nil => simp [hvs] at hf
      | cons v0 rest =>
        refine ⟨v0, rest, rfl, ?_⟩
        simp only [splitLoop_eq]
    · have hb' : (p.vs.any fun v => side tol pl v == .back) = false := by
        push Not at hb
        simpa using hb
      right; right; left
      push Not at hb
      refine ⟨hf, hb, ?_⟩
      simp only [hf', hb']
  · have hf' : (p.vs.any fun v => side tol pl v == .front) = false := by
      push Not at hf
      simpa using hf
    push Not at hf
    by_cases hb : ∃ v ∈ p.vs, side tol pl v = .back
    · have hb' : (p.vs.any fun v => side tol pl v == .back) = true := by simpa using hb
      right; right; right; left
      refine ⟨hb, hf, ?_⟩
      simp only [hf', hb']
    · have hb' : (p.vs.any fun v => side tol pl v == .back) = false := by
        push Not at hb
        simpa using hb
      push Not at hb
      have hc : ∀ v ∈ p.vs, side tol pl v = .coplanar := by
        intro v hv
        have h1 := hf v hv
        have h2 := hb v hv
        cases h : side tol pl v <;> simp_all
      by_cases h0 : 0 < pl.normal.dot p.normal
      · left; exact ⟨hc, h0, by simp only [hf', hb', if_pos h0]⟩
      · right; left; exact ⟨hc, h0, by simp only [hf', hb', if_neg h0]⟩

theorem edge_of_getElem {v0 : Vec3 K} {rest : List (Vec3 K)} {k : Nat} {b : Vec3 K}
    (hk : k < (v0 :: rest).length) (h : ((v0 :: rest) ++ [v0])[k + 1]? = some b) :
    (v0 :: rest)[(k + 1) % (v0 :: rest).length]? = some b := by
  rcases Nat.lt_or_ge (k + 1) (v0 :: rest).length with h1 | h1
  · rw [Nat.mod_eq_of_lt h1]
    rwa [List.getElem?_append_left h1] at h
  · have : k + 1 = (v0 :: rest).length := by omega
    rw [this, Nat.mod_self]
    rw [this, List.getElem?_append_right (le_refl _)] at h
    simpa using h

theorem refine_vertex {tol : K} (ht : 0 ≤ tol) (pl : GPlane K) (v0 : Vec3 K) (rest : List (Vec3 K))
    (p : LV K) (hp : p ∈ refine tol pl v0 (v0 :: rest)) :
    (p.1 ∈ v0 :: rest ∧ p.2 = side tol pl p.1) ∨
      (p.2 = .coplanar ∧ pl.normal.dot p.1 = pl.d ∧ OnEdge (v0 :: rest) p.1) := by
  rcases refine_mem tol pl v0 _ p hp with h | ⟨h1, k, hk, a, b, ha, hb, hs, hx⟩
  · exact Or.inl h
  · obtain ⟨e1, s, h0, h1', e2⟩ := crossing_spec ht hs
    refine Or.inr ⟨h1, by rw [hx]; exact e1, k, a, b, s, ha, edge_of_getElem hk hb, h0, h1', by rw [hx]; exact e2⟩

/-- A vector whose cross product with `w` vanishes is a multiple of `w`. -/
theorem parallel_of_cross {w x : Vec3 K} (hw : w ≠ 0) (h : Vec3.cross x w = 0) :
    x = (x.dot w / w.normSq) • w := by
  have hn : w.normSq ≠ 0 := fun h0 => hw (Vec3.normSq_eq_zero.1 h0)
  have q1 := congrArg Vec3.x h; have q2 := congrArg Vec3.y h; have q3 := congrArg Vec3.z h
  simp only [Vec3.cross_x, Vec3.cross_y, Vec3.cross_z, Vec3.zero_x, Vec3.zero_y, Vec3.zero_z] at q1 q2 q3
  ext
  · rw [Vec3.smul_x, div_mul_eq_mul_div, eq_div_iff hn]
    simp only [Vec3.normSq, Vec3.dot]
    linear_combination w.y * q3 - w.z * q2
  · rw [Vec3.smul_y, div_mul_eq_mul_div, eq_div_iff hn]
    simp only [Vec3.normSq, Vec3.dot]
    linear_combination w.z * q1 - w.x * q3
  · rw [Vec3.smul_z, div_mul_eq_mul_div, eq_div_iff hn]
    simp only [Vec3.normSq, Vec3.dot]
    linear_combination w.x * q2 - w.y * q1

theorem openArea2_line {w : Vec3 K} {l : List (Vec3 K)} (h : ∀ v ∈ l, ∃ k : K, v = k • w) : openArea2 l = 0 := by
  induction l with
  | nil => rfl
  | cons a l ih =>
    cases l with
    | nil => rfl
    | cons b l =>
      obtain ⟨k, hk⟩ := h a (by simp)
      obtain ⟨k', hk'⟩ := h b (by simp)
      rw [openArea2_cons_cons, ih fun v hv => h v (List.mem_cons_of_mem _ hv), hk, hk', Vec3.cross_smul_left,
        Vec3.cross_smul_right, Vec3.cross_self]
      simp

/-- The vector area of points that lie in two planes which are not parallel is zero. -/
theorem vecArea2_on_line {m n : Vec3 K} {c d : K} {vs : List (Vec3 K)} (hmn : Vec3.cross m n ≠ 0)
    (hm : ∀ v ∈ vs, m.dot v = c) (hn : ∀ v ∈ vs, n.dot v = d) : vecArea2 vs = 0 := by
  cases vs with
  | nil => rfl
  | cons a l =>
    rw [← vecArea2_translate a]
    have : ∀ v ∈ (a :: l).map (· - a), ∃ k : K, v = k • Vec3.cross m n := by
      intro v hv
      obtain ⟨u, hu, rfl⟩ := List.mem_map.1 hv
      refine ⟨_, parallel_of_cross hmn ?_⟩
      have h1 : m.dot (u - a) = 0 := by rw [Vec3.dot_sub, hm u hu, hm a (by simp), sub_self]
      have h2 : n.dot (u - a) = 0 := by rw [Vec3.dot_sub, hn u hu, hn a (by simp), sub_self]
      generalize u - a = x at h1 h2
      simp only [Vec3.dot] at h1 h2
      ext
      · simp only [Vec3.cross_x, Vec3.cross_y, Vec3.cross_z, Vec3.zero_x]
        linear_combination m.x * h2 - n.x * h1
      · simp only [Vec3.cross_x, Vec3.cross_y, Vec3.cross_z, Vec3.zero_y]
        linear_combination m.y * h2 - n.y * h1
      · simp only [Vec3.cross_x, Vec3.cross_y, Vec3.cross_z, Vec3.zero_z]
        linear_combination m.z * h2 - n.z * h1
    simp only [List.map_cons, vecArea2] at this ⊢
    apply openArea2_line (w := Vec3.cross m n)
    intro v hv
    apply this
    simp only [List.mem_append, List.mem_cons, List.not_mem_nil, or_false] at hv ⊢
    tauto

/-- The sides of the pieces and where their vertices come from, for any tolerance. -/
theorem split_sides {tol : K} (ht : 0 ≤ tol) (pl : GPlane K) (p : Poly K) :
    (∀ q ∈ (splitPolygon tol pl p).front, ∀ v ∈ q.vs, pl.d - tol ≤ pl.normal.dot v) ∧
    (∀ q ∈ (splitPolygon tol pl p).back, ∀ v ∈ q.vs, pl.normal.dot v ≤ pl.d + tol) ∧
    (∀ q ∈ (splitPolygon tol pl p).coFront ++ (splitPolygon tol pl p).coBack, q = p ∧
      ∀ v ∈ q.vs, |pl.normal.dot v - pl.d| ≤ tol) ∧
    (∀ q ∈ (splitPolygon tol pl p).pieces, q.normal = p.normal ∧
      ∀ v ∈ q.vs, v ∈ p.vs ∨ (pl.normal.dot v = pl.d ∧ OnEdge p.vs v)) := by
  have nb : ∀ v, side tol pl v ≠ .back → pl.d - tol ≤ pl.normal.dot v := by
    intro v hv
    rw [Ne, side_back] at hv
    linarith
  have nf : ∀ v, side tol pl v ≠ .front → pl.normal.dot v ≤ pl.d + tol := by
    intro v hv
    rw [Ne, side_front ht] at hv
    linarith
  have co : ∀ v, side tol pl v = .coplanar → |pl.normal.dot v - pl.d| ≤ tol := by
    intro v hv
    rw [side_coplanar] at hv
    exact abs_le.2 hv
  rcases splitPolygon_cases (tol := tol) pl p with ⟨h1, h2, h⟩ | ⟨h1, h2, h⟩ | ⟨h1, h2, h⟩ | ⟨h1, h2, h⟩ |
      ⟨h1, h2, v0, rest, hvs, h⟩
  · rw [h]
    simp only [Split.pieces, List.not_mem_nil, false_imp_iff, implies_true, List.append_nil, List.mem_singleton,
      forall_eq, true_and]
    exact ⟨fun v hv => co v (h1 v hv), fun v hv => Or.inl hv⟩
  · rw [h]
    simp only [Split.pieces, List.not_mem_nil, false_imp_iff, implies_true, List.append_nil, List.nil_append,
      List.mem_singleton, forall_eq, true_and]
    exact ⟨fun v hv => co v (h1 v hv), fun v hv => Or.inl hv⟩
  · rw [h]
    simp only [Split.pieces, List.not_mem_nil, false_imp_iff, implies_true, List.append_nil, List.nil_append,
      List.mem_singleton, forall_eq, true_and]
    exact ⟨fun v hv => nb v (h2 v hv), fun v hv => Or.inl hv⟩
  · rw [h]
    simp only [Split.pieces, List.not_mem_nil, false_imp_iff, implies_true, List.append_nil, List.nil_append,
      List.mem_singleton, forall_eq, true_and]
    exact ⟨fun v hv => nf v (h2 v hv), fun v hv => Or.inl hv⟩
  · rw [h]
    simp only [Split.pieces, List.append_nil, List.nil_append, List.not_mem_nil, false_imp_iff, implies_true,
      true_and, List.mem_append]
    rw [hvs]
    have hv := refine_vertex ht pl v0 rest
    refine ⟨?_, ?_, ?_⟩
    · intro q hq v hvq
      obtain ⟨w, hw, rfl⟩ := List.mem_map.1 (((piece_mem hq).2.2 v).1 hvq)
      obtain ⟨hw, hb⟩ := List.mem_filter.1 hw
      simp only [decide_eq_true_eq] at hb
      rcases hv w hw with ⟨_, h4⟩ | ⟨_, h4, _⟩
      · exact nb _ (h4 ▸ hb)
      · rw [h4]; linarith
    · intro q hq v hvq
      obtain ⟨w, hw, rfl⟩ := List.mem_map.1 (((piece_mem hq).2.2 v).1 hvq)
      obtain ⟨hw, hb⟩ := List.mem_filter.1 hw
      simp only [decide_eq_true_eq] at hb
      rcases hv w hw with ⟨_, h4⟩ | ⟨_, h4, _⟩
      · exact nf _ (h4 ▸ hb)
      · rw [h4]; linarith
    · have key : ∀ w ∈ refine tol pl v0 (v0 :: rest), w.1 ∈ v0 :: rest ∨
          (pl.normal.dot w.1 = pl.d ∧ OnEdge (v0 :: rest) w.1) := by
        intro w hw
        rcases hv w hw with ⟨h4, _⟩ | ⟨_, h4⟩
        · exact Or.inl h4
        · exact Or.inr h4
      rintro q (hq | hq)
      · refine ⟨(piece_mem hq).1, fun v hvq => ?_⟩
        obtain ⟨w, hw, rfl⟩ := List.mem_map.1 (((piece_mem hq).2.2 v).1 hvq)
        exact key w (List.mem_filter.1 hw).1
      · refine ⟨(piece_mem hq).1, fun v hvq => ?_⟩
        obtain ⟨w, hw, rfl⟩ := List.mem_map.1 (((piece_mem hq).2.2 v).1 hvq)
        exact key w (List.mem_filter.1 hw).1

/-- The areas of the pieces exceed that of the polygon by the area of a cycle of points within the tolerance of the
plane. -/
theorem split_area {tol : K} (ht : 0 ≤ tol) (pl : GPlane K) (p : Poly K) :
    ∃ c : List (Vec3 K), (∀ v ∈ c, |pl.normal.dot v - pl.d| ≤ tol ∧ (v ∈ p.vs ∨ OnEdge p.vs v)) ∧
      (c ≠ [] → (∃ v ∈ p.vs, side tol pl v = .front) ∧ (∃ v ∈ p.vs, side tol pl v = .back)) ∧
      areaSum (splitPolygon tol pl p).pieces = vecArea2 p.vs + vecArea2 c := by
  rcases splitPolygon_cases (tol := tol) pl p with ⟨h1, h2, h⟩ | ⟨h1, h2, h⟩ | ⟨h1, h2, h⟩ | ⟨h1, h2, h⟩ |
      ⟨h1, h2, v0, rest, hvs, h⟩
  · exact ⟨[], by simp, by simp, by rw [h]; simp [Split.pieces, vecArea2]⟩
  · exact ⟨[], by simp, by simp, by rw [h]; simp [Split.pieces, vecArea2]⟩
  · exact ⟨[], by simp, by simp, by rw [h]; simp [Split.pieces, vecArea2]⟩
  · exact ⟨[], by simp, by simp, by rw [h]; simp [Split.pieces, vecArea2]⟩
  · refine ⟨ptsC (refine tol pl v0 p.vs), ?_, fun _ => ⟨h1, h2⟩, ?_⟩
    · intro v hv
      obtain ⟨w, hw, rfl⟩ := List.mem_map.1 hv
      obtain ⟨hw, hb⟩ := List.mem_filter.1 hw
      simp only [decide_eq_true_eq] at hb
      rw [hvs] at hw ⊢
      rcases refine_vertex ht pl v0 rest w hw with ⟨h3, h4⟩ | ⟨_, h4, h5⟩
      · rw [h4, side_coplanar] at hb
        exact ⟨abs_le.2 hb, Or.inl h3⟩
      · exact ⟨by rw [h4, sub_self, abs_zero]; exact ht, Or.inr h5⟩
    · rw [h]
      simp only [Split.pieces, List.append_nil, List.nil_append, areaSum_append, piece_area]
      rw [hvs]
      have hch := refine_chain tol pl v0 (v0 :: rest)
      have har := refine_area tol pl v0 (v0 :: rest)
      rw [refine] at hch har ⊢
      rw [area_cycle _ _ hch]
      congr 1

end Csg

open Csg

variable {K : Type} [Field K] [LinearOrder K] [IsStrictOrderedRing K]

/-- **C45.** At tolerance 0, splitting a planar polygon: the front piece lies on the non-negative side of the
plane and the back piece on the non-positive side, a polygon filed as coplanar lies in the plane and is passed on
whole; every piece carries the polygon's normal and consists of vertices of the polygon and of new vertices which
lie on the plane and strictly inside a side of the polygon; and the vector areas of the pieces add up to that of
the polygon. -/
theorem C45_split (pl : GPlane K) (p : Poly K) (m : Vec3 K) (e : K) (hm : m ≠ 0)
    (hp : ∀ v ∈ p.vs, m.dot v = e) :
    let s := splitPolygon 0 pl p
    (∀ q ∈ s.front, ∀ v ∈ q.vs, pl.d ≤ pl.normal.dot v) ∧
    (∀ q ∈ s.back, ∀ v ∈ q.vs, pl.normal.dot v ≤ pl.d) ∧
    (∀ q ∈ s.coFront ++ s.coBack, q = p ∧ ∀ v ∈ q.vs, pl.normal.dot v = pl.d) ∧
    (∀ q ∈ s.coFront ++ s.coBack ++ s.front ++ s.back, q.normal = p.normal ∧
      ∀ v ∈ q.vs, v ∈ p.vs ∨ (pl.normal.dot v = pl.d ∧ OnEdge p.vs v)) ∧
    areaSum (s.coFront ++ s.coBack ++ s.front ++ s.back) = vecArea2 p.vs := by
  obtain ⟨s1, s2, s3, s4⟩ := split_sides (le_refl (0 : K)) pl p
  obtain ⟨c, hc, hc2, ha⟩ := split_area (le_refl (0 : K)) pl p
  refine ⟨by simpa using s1, by simpa using s2, ?_, s4, ?_⟩
  · intro q hq
    refine ⟨(s3 q hq).1, fun v hv => ?_⟩
    have := (s3 q hq).2 v hv
    exact sub_eq_zero.1 (abs_eq_zero.1 (le_antisymm this (abs_nonneg _)))
  · have hz : vecArea2 c = 0 := by
      by_cases hcn : c = []
      · rw [hcn]; rfl
      · obtain ⟨⟨v, hv, hv'⟩, ⟨w, hw, hw'⟩⟩ := hc2 hcn
        rw [side_front (le_refl _)] at hv'
        rw [side_back] at hw'
        apply vecArea2_on_line (m := m) (n := pl.normal) (c := e) (d := pl.d)
        · intro h0
          have h1 : m.dot (v - w) = 0 := by rw [Vec3.dot_sub, hp v hv, hp w hw, sub_self]
          have h2 : pl.normal.dot (v - w) ≠ 0 := by rw [Vec3.dot_sub]; intro h; linarith
          apply h2
          have hn : pl.normal = (pl.normal.dot m / m.normSq) • m :=
            parallel_of_cross hm (by rw [Vec3.cross_swap, h0, neg_zero])
          rw [hn, Vec3.smul_dot, h1, mul_zero]
        · intro x hx
          rcases (hc x hx).2 with h | ⟨k, a, b, s, hka, hkb, _, _, rfl⟩
          · exact hp x h
          · rw [Vec3.dot_add, Vec3.dot_smul, Vec3.dot_sub, hp a (List.mem_of_getElem? hka),
              hp b (List.mem_of_getElem? hkb)]
            ring
        · intro x hx
          exact sub_eq_zero.1 (abs_eq_zero.1 (le_antisymm (hc x hx).1 (abs_nonneg _)))
    rw [hz, add_zero] at ha
    exact ha

/-- A square cut by the plane x = 1/2: two pieces of area 1/2. -/
example : let p : Poly ℚ := ⟨[⟨0, 0, 0⟩, ⟨1, 0, 0⟩, ⟨1, 1, 0⟩, ⟨0, 1, 0⟩, ⟨0, 0, 0⟩], ⟨0, 0, 1⟩⟩
    let s := splitPolygon 0 ⟨⟨1, 0, 0⟩, 1 / 2⟩ p
    (∀ v ∈ p.vs, (⟨0, 0, 1⟩ : Vec3 ℚ).dot v = 0) ∧
    s.front = [⟨[⟨1 / 2, 0, 0⟩, ⟨1, 0, 0⟩, ⟨1, 1, 0⟩, ⟨1 / 2, 1, 0⟩, ⟨1 / 2, 0, 0⟩], ⟨0, 0, 1⟩⟩] ∧
    areaSum s.front = ⟨0, 0, 1⟩ ∧ areaSum s.back = ⟨0, 0, 1⟩ := by decide +kernel

/-- **C45**, which list: a coplanar polygon goes to the first list exactly if its normal points along the plane's,
and only polygons with vertices on both sides are cut. -/
theorem C45_split_files (tol : K) (pl : GPlane K) (p : Poly K) (ht : 0 ≤ tol) :
    ((splitPolygon tol pl p).coFront = [p] ↔
      (∀ v ∈ p.vs, |pl.normal.dot v - pl.d| ≤ tol) ∧ 0 < pl.normal.dot p.normal) ∧
    ((splitPolygon tol pl p).coBack = [p] ↔
      (∀ v ∈ p.vs, |pl.normal.dot v - pl.d| ≤ tol) ∧ pl.normal.dot p.normal ≤ 0) ∧
    ((∃ v ∈ p.vs, tol < pl.normal.dot v - pl.d) → (∀ v ∈ p.vs, -tol ≤ pl.normal.dot v - pl.d) →
      (splitPolygon tol pl p).pieces = [p] ∧ (splitPolygon tol pl p).front = [p]) ∧
    ((∃ v ∈ p.vs, pl.normal.dot v - pl.d < -tol) → (∀ v ∈ p.vs, pl.normal.dot v - pl.d ≤ tol) →
      (splitPolygon tol pl p).pieces = [p] ∧ (splitPolygon tol pl p).back = [p]) := by
  have co : ∀ v, side tol pl v = .coplanar ↔ |pl.normal.dot v - pl.d| ≤ tol := by
    intro v; rw [side_coplanar, abs_le]
  have fr : ∀ v, side tol pl v = .front ↔ tol < pl.normal.dot v - pl.d := fun v => side_front ht
  have ba : ∀ v, side tol pl v = .back ↔ pl.normal.dot v - pl.d < -tol := fun v => side_back
  rcases splitPolygon_cases (tol := tol) pl p with ⟨h1, h2, h⟩ | ⟨h1, h2, h⟩ | ⟨h1, h2, h⟩ | ⟨h1, h2, h⟩ |
      ⟨h1, h2, v0, rest, hvs, h⟩ <;> rw [h]
  · simp only [co] at h1
    refine ⟨?_, ?_, ?_, ?_⟩
    · simp only [true_iff]; exact ⟨h1, h2⟩
    · simp only [List.nil_eq, List.cons_ne_nil, false_iff, not_and, not_le]; exact fun _ => h2
    · rintro ⟨v, hv, h'⟩ _; have := abs_le.1 (h1 v hv); linarith
    · rintro ⟨v, hv, h'⟩ _; have := abs_le.1 (h1 v hv); linarith
  · simp only [co] at h1
    refine ⟨?_, ?_, ?_, ?_⟩
    · simp only [List.nil_eq, List.cons_ne_nil, false_iff, not_and]; exact fun _ => h2
    · simp only [true_iff]; exact ⟨h1, not_lt.1 h2⟩
    · rintro ⟨v, hv, h'⟩ _; have := abs_le.1 (h1 v hv); linarith
    · rintro ⟨v, hv, h'⟩ _; have := abs_le.1 (h1 v hv); linarith
  · simp only [fr] at h1
    obtain ⟨v, hv, h'⟩ := h1
    refine ⟨?_, ?_, ?_, ?_⟩
    · simp only [List.nil_eq, List.cons_ne_nil, false_iff]; rintro ⟨h3, _⟩; have := abs_le.1 (h3 v hv); linarith
    · simp only [List.nil_eq, List.cons_ne_nil, false_iff]; rintro ⟨h3, _⟩; have := abs_le.1 (h3 v hv); linarith
    · intro _ _; simp [Split.pieces]
    · intro _ h3; have := h3 v hv; linarith
  · simp only [ba] at h1
    obtain ⟨v, hv, h'⟩ := h1
    refine ⟨?_, ?_, ?_, ?_⟩
    · simp only [List.nil_eq, List.cons_ne_nil, false_iff]; rintro ⟨h3, _⟩; have := abs_le.1 (h3 v hv); linarith
    · simp only [List.nil_eq, List.cons_ne_nil, false_iff]; rintro ⟨h3, _⟩; have := abs_le.1 (h3 v hv); linarith
    · intro _ h3; have := h3 v hv; linarith
    · intro _ _; simp [Split.pieces]
  · simp only [fr] at h1
    simp only [ba] at h2
    obtain ⟨v, hv, h'⟩ := h1
    obtain ⟨w, hw, h''⟩ := h2
    refine ⟨?_, ?_, ?_, ?_⟩
    · simp only [List.nil_eq, List.cons_ne_nil, false_iff]; rintro ⟨h3, _⟩; have := abs_le.1 (h3 v hv); linarith
    · simp only [List.nil_eq, List.cons_ne_nil, false_iff]; rintro ⟨h3, _⟩; have := abs_le.1 (h3 v hv); linarith
    · intro _ h3; have := h3 w hw; linarith
    · intro _ h3; have := h3 v hv; linarith

/-- **C45**, other tolerances: the vertices may lie on the wrong side by the tolerance, and the areas of the pieces
exceed the polygon's by the area of a cycle of points within the tolerance of the plane. -/
theorem C45_split_tolerance (tol : K) (ht : 0 ≤ tol) (pl : GPlane K) (p : Poly K) :
    let s := splitPolygon tol pl p
    (∀ q ∈ s.front, ∀ v ∈ q.vs, pl.d - tol ≤ pl.normal.dot v) ∧
    (∀ q ∈ s.back, ∀ v ∈ q.vs, pl.normal.dot v ≤ pl.d + tol) ∧
    ∃ c : List (Vec3 K), (∀ v ∈ c, |pl.normal.dot v - pl.d| ≤ tol ∧ (v ∈ p.vs ∨ OnEdge p.vs v)) ∧
      areaSum (s.coFront ++ s.coBack ++ s.front ++ s.back) = vecArea2 p.vs + vecArea2 c := by
  obtain ⟨s1, s2, _, _⟩ := split_sides ht pl p
  obtain ⟨c, hc, _, ha⟩ := split_area ht pl p
  exact ⟨s1, s2, c, hc, ha⟩

/-- The excess can be real: with tolerance 1 this trapezium of area 3 (twice: 6) is cut into two pieces which
overlap in a triangle. -/
theorem C45_tolerance_overlap :
    let p : Poly ℚ := ⟨[⟨-2, 0, 0⟩, ⟨2, 0, 0⟩, ⟨1, 1, 0⟩, ⟨-1, 1, 0⟩, ⟨-2, 0, 0⟩], ⟨0, 0, 1⟩⟩
    vecArea2 p.vs = ⟨0, 0, 6⟩ ∧ areaSum (splitPolygon 1 ⟨⟨1, 0, 0⟩, 0⟩ p).pieces = ⟨0, 0, 8⟩ := by
  decide +kernel

end ENigMA
