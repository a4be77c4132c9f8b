import Verif.Stl.FlipResults
import Verif.Stl.SplitReal

/-!
# Flips with the measures of the code
-/

set_option linter.unusedSectionVars false
set_option autoImplicit false

namespace ENigMA
namespace Stl

/-- trunk/src/geometry/GeoTriangle_Imp.hpp:58-75: the normal of a facet, of length one unless it has no area. -/
noncomputable def normalOf (s : File ℝ) (id : Int) : Vec3 ℝ :=
  match s.get? id with
  | some f => (match f.verts with
    | a :: b :: c :: _ => if 0 < length (Vec3.cross (b - a) (c - a)) then (length (Vec3.cross (b - a) (c - a)))⁻¹ • Vec3.cross (b - a) (c - a) else Vec3.cross (b - a) (c - a)
    | _ => 0)
  | none => 0

/-- What is kept when nothing was kept before the call. -/
noncomputable def fresh (eps : ℝ) (s : File ℝ) : Kept ℝ where
  bend i j := |angle eps (normalOf s i) (normalOf s j)|
  area i := match s.get? i with
    | some f => (match f.verts with
      | a :: b :: c :: _ => length (Vec3.cross (b - a) (c - a)) * (1 / 2)
      | _ => 0)
    | none => 0

theorem angle_comm (eps : ℝ) (u v : Vec3 ℝ) : angle eps u v = angle eps v u := by
  unfold angle
  rw [show u.dot v = v.dot u by simp only [Vec3.dot]; ring, mul_comm u.normSq]
  by_cases h1 : eps < u.normSq <;> by_cases h2 : eps < v.normSq <;> simp [h1, h2]

theorem fresh_comm (eps : ℝ) (s : File ℝ) (i j : Int) : (fresh eps s).bend i j = (fresh eps s).bend j i := by
  show |angle eps _ _| = |angle eps _ _|
  rw [angle_comm]

theorem quality_turn (eps : ℝ) (a b c : Vec3 ℝ) : quality eps a b c = quality eps b c a := by
  unfold quality
  simp only
  generalize Real.sin (angle eps (b - a) (-(a - c))) = x
  generalize Real.sin (angle eps (c - b) (-(b - a))) = y
  generalize Real.sin (angle eps (a - c) (-(c - b))) = z
  rw [show y + z + x = x + y + z by ring, show 4 * y * z * x = 4 * x * y * z by ring]

theorem length_of {v : Vec3 ℝ} {l : ℝ} (hl : 0 ≤ l) (h : v.normSq = l ^ 2) : length v = l := by
  unfold length
  rw [h, Real.sqrt_sq hl]

/-- The quality from the lengths of the edges and twice the area. -/
theorem quality_of {eps : ℝ} (h0 : 0 ≤ eps) {a b c : Vec3 ℝ} {l0 l1 l2 r : ℝ} (p0 : 0 < l0) (p1 : 0 < l1) (p2 : 0 < l2) (pr : 0 ≤ r) (e0 : (b - a).normSq = l0 ^ 2) (e1 : (c - b).normSq = l1 ^ 2) (e2 : (a - c).normSq = l2 ^ 2)
    (er : (Vec3.cross (b - a) (c - a)).normSq = r ^ 2) (g0 : eps < l0 ^ 2) (g1 : eps < l1 ^ 2) (g2 : eps < l2 ^ 2) (gs : eps < r / (l0 * l2) + r / (l1 * l0) + r / (l2 * l1)) :
    quality eps a b c = 4 * (r / (l0 * l2)) * (r / (l1 * l0)) * (r / (l2 * l1)) / (r / (l0 * l2) + r / (l1 * l0) + r / (l2 * l1)) := by
  have neg : ∀ v : Vec3 ℝ, (-v).normSq = v.normSq := fun v => by simp [Vec3.normSq, Vec3.dot]
  have sin : ∀ {u v : Vec3 ℝ} {m n : ℝ}, 0 < m → 0 < n → u.normSq = m ^ 2 → v.normSq = n ^ 2 → eps < m ^ 2 → eps < n ^ 2 → (Vec3.cross u v).normSq = r ^ 2 → Real.sin (angle eps u v) = r / (m * n) := by
    intro u v m n hm hn hu hv gm gn hc
    have := sin_angle h0 (by rw [hu]; exact gm : eps < u.normSq) (by rw [hv]; exact gn : eps < v.normSq)
    rw [length_of hm.le hu, length_of hn.le hv, length_of pr hc] at this
    rw [eq_div_iff (by positivity)]
    exact this
  have s0 : Real.sin (angle eps (b - a) (-(a - c))) = r / (l0 * l2) := sin p0 p2 e0 (by rw [neg, e2]) g0 g2 (by rw [← er]; congr 1; ext <;> simp)
  have s1 : Real.sin (angle eps (c - b) (-(b - a))) = r / (l1 * l0) := sin p1 p0 e1 (by rw [neg, e0]) g1 g0 (by rw [← er]; congr 1; ext <;> simp <;> ring)
  have s2 : Real.sin (angle eps (a - c) (-(c - b))) = r / (l2 * l1) := sin p2 p1 e2 (by rw [neg, e1]) g2 g1 (by rw [← er]; congr 1; ext <;> simp <;> ring)
  unfold quality
  simp only
  rw [s0, s1, s2, if_pos gs]

/-- Two triangles in a plane that form a kite with a dent: the edge between them runs from the dent. -/
def kite (K : Type) [Field K] : File K :=
  (Cont.empty.add 0 ⟨[⟨0, 0, 0⟩, ⟨0, 26, 0⟩, ⟨-12, -9, 0⟩], ⟨0, 0, 1⟩, (0, 0), [⟨1, 2, false⟩, ⟨-1, -1, true⟩, ⟨-1, -1, true⟩]⟩).add 1
    ⟨[⟨0, 26, 0⟩, ⟨0, 0, 0⟩, ⟨12, -9, 0⟩], ⟨0, 0, 1⟩, (0, 0), [⟨0, 2, false⟩, ⟨-1, -1, true⟩, ⟨-1, -1, true⟩]⟩

section
variable {K : Type} [Field K]

theorem kite_get (id : Int) : (kite K).get? id =
    if id = 0 then some ⟨[⟨0, 0, 0⟩, ⟨0, 26, 0⟩, ⟨-12, -9, 0⟩], ⟨0, 0, 1⟩, (0, 0), [⟨1, 2, false⟩, ⟨-1, -1, true⟩, ⟨-1, -1, true⟩]⟩
    else if id = 1 then some ⟨[⟨0, 26, 0⟩, ⟨0, 0, 0⟩, ⟨12, -9, 0⟩], ⟨0, 0, 1⟩, (0, 0), [⟨0, 2, false⟩, ⟨-1, -1, true⟩, ⟨-1, -1, true⟩]⟩ else none := by
  unfold kite
  rw [Cont.get?_add, Cont.get?_add]
  have : (Cont.empty : Cont (Facet K)).get? id = none := by simp [Cont.get?, Cont.empty, SMap.find?, SMap.empty, SMap.findL]
  by_cases h0 : id = 0
  · subst h0; simp
  · by_cases h1 : id = 1
    · subst h1; simp
    · simp [h0, h1, this]

theorem kite_ids : (kite K).ids = [0, 1] := by simp [kite, Cont.add, Cont.empty]

theorem kite_good : Good (kite K) := by
  have h : (kite K).Ok := Cont.add_ok (Cont.add_ok Cont.empty_ok _ (by simp [Cont.empty])) _ (by simp [Cont.empty, Cont.add])
  refine ⟨h, fun id f hf => ?_⟩
  rw [kite_get] at hf
  split_ifs at hf
  all_goals (rw [Option.some.injEq] at hf; subst hf; simp)

/-- The neighbours in the kite. -/
def kiteL (x : Int × Nat) : Option (Int × Nat) := if x = (0, 0) then some (1, 0) else if x = (1, 0) then some (0, 0) else none

theorem kite_net : Net (kite K) kiteL := by
  refine ⟨?_, ?_, ?_, ?_⟩
  · rintro ⟨id, j⟩ ⟨h1, h2⟩
    have h1' : id = 0 ∨ id = 1 := by simpa [kite, Cont.add, Cont.empty] using h1
    simp only at h2
    rcases h1' with rfl | rfl <;> rcases (by omega : j = 0 ∨ j = 1 ∨ j = 2) with rfl | rfl | rfl <;> simp [edgeAt, edge?, kite_get, kiteL, Points]
  · intro x hx
    unfold kiteL
    rw [if_neg, if_neg]
    · rintro rfl; exact hx ⟨by simp [kite, Cont.add, Cont.empty], by norm_num⟩
    · rintro rfl; exact hx ⟨by simp [kite, Cont.add, Cont.empty], by norm_num⟩
  · intro x y hxy
    unfold kiteL at hxy
    split_ifs at hxy with h1 h2 <;> rw [Option.some.injEq] at hxy <;> subst hxy <;> subst_vars <;> rfl
  · intro x y hxy
    unfold kiteL at hxy
    split_ifs at hxy with h1 h2 <;> rw [Option.some.injEq] at hxy <;> subst hxy <;> subst_vars <;> decide

theorem kite_sound : Sound (kite K) := by
  refine sound_of (L := kiteL) kite_good rfl kite_net ?_
  intro x y hxy
  unfold kiteL at hxy
  split_ifs at hxy with h1 h2
  all_goals
    rw [Option.some.injEq] at hxy
    subst hxy
    subst_vars
    simp [Opposed, vert, after, kite_get]

theorem kite_link (x : Int × Nat) : link (kite K) x = kiteL x := kite_net.link kite_good kite_sound.plain.pos x

end

theorem kite_normal (id : Int) (h : id = 0 ∨ id = 1) : normalOf (kite ℝ) id = ⟨0, 0, 1⟩ := by
  unfold normalOf
  rcases h with rfl | rfl
  · simp only [kite_get, if_true]
    have hl : length (Vec3.cross ((⟨0, 26, 0⟩ : Vec3 ℝ) - ⟨0, 0, 0⟩) (⟨-12, -9, 0⟩ - ⟨0, 0, 0⟩)) = 312 := length_of (by norm_num) (by simp [Vec3.normSq, Vec3.dot]; norm_num)
    rw [hl, if_pos (by norm_num)]
    ext <;> simp <;> norm_num
  · simp only [kite_get, if_true, one_ne_zero, if_false]
    have hl : length (Vec3.cross ((⟨0, 0, 0⟩ : Vec3 ℝ) - ⟨0, 26, 0⟩) (⟨12, -9, 0⟩ - ⟨0, 26, 0⟩)) = 312 := length_of (by norm_num) (by simp [Vec3.normSq, Vec3.dot]; norm_num)
    rw [hl, if_pos (by norm_num)]
    ext <;> simp <;> norm_num

theorem kite_area (id : Int) (h : id = 0 ∨ id = 1) (eps : ℝ) : (fresh eps (kite ℝ)).area id = 156 := by
  unfold fresh
  rcases h with rfl | rfl
  · simp only [kite_get, if_true]
    have hl : length (Vec3.cross ((⟨0, 26, 0⟩ : Vec3 ℝ) - ⟨0, 0, 0⟩) (⟨-12, -9, 0⟩ - ⟨0, 0, 0⟩)) = 312 := length_of (by norm_num) (by simp [Vec3.normSq, Vec3.dot]; norm_num)
    rw [hl]; norm_num
  · simp only [kite_get, if_true, one_ne_zero, if_false]
    have hl : length (Vec3.cross ((⟨0, 0, 0⟩ : Vec3 ℝ) - ⟨0, 26, 0⟩) (⟨12, -9, 0⟩ - ⟨0, 26, 0⟩)) = 312 := length_of (by norm_num) (by simp [Vec3.normSq, Vec3.dot]; norm_num)
    rw [hl]; norm_num

theorem kite_bend (eps : ℝ) (h1 : eps < 1) : (fresh eps (kite ℝ)).bend 0 1 = 0 := by
  show |angle eps _ _| = 0
  rw [kite_normal 0 (Or.inl rfl), kite_normal 1 (Or.inr rfl)]
  unfold angle
  have h2 : ¬ (1 : ℝ) < -1 := by norm_num
  have h3 : ¬ (1 : ℝ) < 0 := by norm_num
  simp [Vec3.normSq, Vec3.dot, h1, h3]

theorem kite_gains {eps : ℝ} (h0 : 0 ≤ eps) (h1 : eps < 1) (normal : Vec3 ℝ → Vec3 ℝ → Vec3 ℝ → Vec3 ℝ) {swap : ℝ} (hsw : 0 < swap) (tiny : ℝ) :
    Gains (realGauge eps normal) (fresh eps (kite ℝ)) swap tiny (kite ℝ) (0, 0) (1, 0) ⟨0, 0, 0⟩ ⟨0, 26, 0⟩ ⟨-12, -9, 0⟩ ⟨12, -9, 0⟩ := by
  refine ⟨by simp [vert, kite_get], by simp [vert, after, kite_get], by simp [vert, after, kite_get], by simp [vert, after, kite_get], Or.inl ?_, ?_, ?_⟩
  · show (fresh eps (kite ℝ)).bend 0 1 < swap
    rw [kite_bend eps h1]; exact hsw
  · show 0 < (fresh eps (kite ℝ)).area 0 + (fresh eps (kite ℝ)).area 1
    rw [kite_area 0 (Or.inl rfl), kite_area 1 (Or.inr rfl)]; norm_num
  · show min (quality eps _ _ _) (quality eps _ _ _) < min (quality eps _ _ _) (quality eps _ _ _)
    rw [quality_of (l0 := 26) (l1 := 37) (l2 := 15) (r := 312) h0 (by norm_num) (by norm_num) (by norm_num) (by norm_num) (by simp [Vec3.normSq, Vec3.dot]; norm_num) (by simp [Vec3.normSq, Vec3.dot]; norm_num)
      (by simp [Vec3.normSq, Vec3.dot]; norm_num) (by simp [Vec3.normSq, Vec3.dot]; norm_num) (by linarith) (by linarith) (by linarith) (by norm_num; linarith)]
    rw [quality_of (a := ⟨0, 0, 0⟩) (b := ⟨12, -9, 0⟩) (c := ⟨-12, -9, 0⟩) (l0 := 15) (l1 := 24) (l2 := 15) (r := 216) h0 (by norm_num) (by norm_num) (by norm_num) (by norm_num) (by simp [Vec3.normSq, Vec3.dot]; norm_num) (by simp [Vec3.normSq, Vec3.dot]; norm_num)
      (by simp [Vec3.normSq, Vec3.dot]; norm_num) (by simp [Vec3.normSq, Vec3.dot]; norm_num) (by linarith) (by linarith) (by linarith) (by norm_num; linarith)]
    rw [quality_of (a := ⟨0, 26, 0⟩) (b := ⟨-12, -9, 0⟩) (c := ⟨12, -9, 0⟩) (l0 := 37) (l1 := 24) (l2 := 37) (r := 840) h0 (by norm_num) (by norm_num) (by norm_num) (by norm_num) (by simp [Vec3.normSq, Vec3.dot]; norm_num) (by simp [Vec3.normSq, Vec3.dot]; norm_num)
      (by simp [Vec3.normSq, Vec3.dot]; norm_num) (by simp [Vec3.normSq, Vec3.dot]; norm_num) (by linarith) (by linarith) (by linarith) (by norm_num; linarith)]
    refine lt_of_le_of_lt (min_le_left _ _) ?_
    norm_num

theorem area2_turn (a b c : Vec3 ℝ) : area2 a b c = area2 b c a := area2_like.turn a b c

end Stl

/-- The area is not tested: with the measures of the code, two triangles in a plane that form a kite with a dent are flipped although the new ones overlap, and their areas grow from 312 to 528 (twice the areas are shown here). -/
theorem C113_overlaps {eps : ℝ} (h0 : 0 ≤ eps) (h1 : eps < 1) (normal : Vec3 ℝ → Vec3 ℝ → Vec3 ℝ → Vec3 ℝ) {swap : ℝ} (hsw : 0 < swap) (tiny : ℝ) :
    Stl.Sound (Stl.kite ℝ) ∧ ∃ s', Stl.flipEdges (Stl.realGauge eps normal) (Stl.fresh eps (Stl.kite ℝ)) swap tiny (Stl.kite ℝ) = some s' ∧ Stl.total Stl.area2 (Stl.kite ℝ) = 624 ∧ Stl.shape Stl.area2 s' = 1056 := by
  refine ⟨Stl.kite_sound, ?_⟩
  obtain ⟨s', l, e1, e2, -, -, e3, -, e4⟩ := C113_flip (Stl.realGauge eps normal) (Stl.quality_turn eps) (Stl.fresh eps (Stl.kite ℝ)) swap tiny (Stl.kite_sound (K := ℝ)).web
  obtain ⟨p, hp, -⟩ := e4 (0, 0) (1, 0) _ _ _ _ (Stl.kite_link _) (Stl.kite_gains h0 h1 normal hsw tiny)
  obtain ⟨hL, a, b, c, d, hG, hfr⟩ := e3 p hp
  refine ⟨s', e1, ?_, ?_⟩
  · unfold Stl.total
    rw [Stl.kite_ids]
    simp only [List.map_cons, List.map_nil, List.sum_cons, List.sum_nil, Stl.kite_get, if_true, one_ne_zero, if_false, Stl.Facet.value, Stl.area2]
    rw [Stl.length_of (l := 312) (by norm_num) (by simp [Vec3.normSq, Vec3.dot]; norm_num), Stl.length_of (l := 312) (by norm_num) (by simp [Vec3.normSq, Vec3.dot]; norm_num)]
    norm_num
  · have hsum : Stl.area2 a d c + Stl.area2 b c d = 1056 := by
      obtain ⟨w1, w2, w3, w4, -⟩ := hG
      rw [Stl.kite_link] at hL
      unfold Stl.kiteL at hL
      have n1 : Stl.area2 (⟨0, 0, 0⟩ : Vec3 ℝ) ⟨12, -9, 0⟩ ⟨-12, -9, 0⟩ = 216 := Stl.length_of (by norm_num) (by simp [Vec3.normSq, Vec3.dot]; norm_num)
      have n2 : Stl.area2 (⟨0, 26, 0⟩ : Vec3 ℝ) ⟨-12, -9, 0⟩ ⟨12, -9, 0⟩ = 840 := Stl.length_of (by norm_num) (by simp [Vec3.normSq, Vec3.dot]; norm_num)
      split_ifs at hL with q1 q2
      · rw [Option.some.injEq] at hL
        rw [q1] at w1 w2 w3
        rw [← hL] at w4
        simp [Stl.vert, Stl.after, Stl.kite_get] at w1 w2 w3 w4
        rw [← w1, ← w2, ← w3, ← w4, n1, n2]; norm_num
      · rw [Option.some.injEq] at hL
        rw [q2] at w1 w2 w3
        rw [← hL] at w4
        simp [Stl.vert, Stl.after, Stl.kite_get] at w1 w2 w3 w4
        rw [← w1, ← w2, ← w3, ← w4, n1, n2]; norm_num
    have hid : (p.1.1 = 0 ∧ p.2.1 = 1) ∨ (p.1.1 = 1 ∧ p.2.1 = 0) := by
      rw [Stl.kite_link] at hL
      unfold Stl.kiteL at hL
      split_ifs at hL with q1 q2
      · rw [Option.some.injEq] at hL; rw [q1, ← hL]; simp
      · rw [Option.some.injEq] at hL; rw [q2, ← hL]; simp
    unfold Stl.shape
    rw [e2, Stl.kite_ids]
    simp only [List.map_cons, List.map_nil, List.sum_cons, List.sum_nil]
    rcases hid with ⟨i1, i2⟩ | ⟨i1, i2⟩ <;> rw [i1, i2] at hfr <;> rcases hfr with ⟨f1, f2⟩ | ⟨f1, f2⟩ <;> rw [f1.head Stl.area2_turn, f2.head Stl.area2_turn] <;> linarith

/-- The records of the edges are not brought up to date: after the flip of an edge, neighbours do not share their edge any more, and the facets have six vertices. -/
theorem C113_stale : ∃ (g : Stl.Gauge ℚ) (k : Stl.Kept ℚ) (s s' : Stl.File ℚ) (x y : Int × Nat) (f : Stl.Facet ℚ), (∀ a b c, g.quality a b c = g.quality b c a) ∧ Stl.Sound s ∧ Stl.flipEdges g k 1 0 s = some s' ∧
    Stl.link s' x = some y ∧ Stl.vert s' y ≠ Stl.vert s' (Stl.after x) ∧ s'.get? x.1 = some f ∧ f.verts.length = 6 := by
  let g : Stl.Gauge ℚ := ⟨supNorm, fun a b c => (Vec3.cross (b - a) (c - a)).normSq / ((b - a).normSq + (c - b).normSq + (a - c).normSq) ^ 2, fun _ _ _ => 0⟩
  have hsome : (Stl.flipEdges g ⟨fun _ _ => 0, fun _ => 1⟩ 1 0 (Stl.kite ℚ)).isSome = true := by decide +kernel
  obtain ⟨s', hs'⟩ := Option.isSome_iff_exists.1 hsome
  have key : (Stl.flipEdges g ⟨fun _ _ => 0, fun _ => 1⟩ 1 0 (Stl.kite ℚ)).map (fun s' => decide (Stl.link s' (0, 0) = some (1, 0) ∧ Stl.vert s' (1, 0) ≠ Stl.vert s' (Stl.after (0, 0)) ∧ (s'.get? 0).map (fun f => f.verts.length) = some 6)) = some true := by decide +kernel
  rw [hs'] at key
  simp only [Option.map_some, Option.some.injEq, decide_eq_true_eq] at key
  obtain ⟨k1, k2, k3⟩ := key
  obtain ⟨f, hf, hl⟩ := Option.map_eq_some_iff.1 k3
  refine ⟨g, ⟨fun _ _ => 0, fun _ => 1⟩, Stl.kite ℚ, s', (0, 0), (1, 0), f, fun a b c => ?_, Stl.kite_sound, hs', k1, k2, hf, hl⟩
  show _ / _ = _ / _
  congr 1
  · congr 1; ext <;> simp <;> ring
  · congr 1; ring

/-- The hypotheses, for the measures of the code and two triangles that a flip improves; marks at the edges of a tetrahedron keep all its vertices. -/
example (eps : ℝ) (h0 : 0 ≤ eps) (h1 : eps < 1) (normal : Vec3 ℝ → Vec3 ℝ → Vec3 ℝ → Vec3 ℝ) : (∀ a b c, (Stl.realGauge eps normal).quality a b c = (Stl.realGauge eps normal).quality b c a) ∧ Stl.Web (Stl.kite ℝ) ∧
    Stl.Gains (Stl.realGauge eps normal) (Stl.fresh eps (Stl.kite ℝ)) 1 0 (Stl.kite ℝ) (0, 0) (1, 0) ⟨0, 0, 0⟩ ⟨0, 26, 0⟩ ⟨-12, -9, 0⟩ ⟨12, -9, 0⟩ ∧
    (∀ i j, (Stl.fresh eps (Stl.kite ℝ)).bend i j = (Stl.fresh eps (Stl.kite ℝ)).bend j i) ∧ Stl.Web Stl.solid ∧ Stl.OneCorner Stl.solid ∧
    (Stl.relaxVertices (Stl.isOutline ⟨fun i j => if i = j then 0 else 2, fun _ => 1⟩ 1 Stl.solid) (fun _ _ => true) Stl.solid).map (fun s => (Stl.corners s).map fun x => Stl.vert s x) = some ((Stl.corners Stl.solid).map fun x => Stl.vert Stl.solid x) ∧
    (Stl.checkEdges (Stl.square ℚ)).map (fun s => (Stl.corners s).map fun x => (Stl.edgeAt s x).map fun e => e.naked) = some [some true, some true, some false, some false, some true, some true] :=
  ⟨Stl.quality_turn eps, Stl.kite_sound.web, Stl.kite_gains h0 h1 normal (by norm_num) 0, Stl.fresh_comm eps _, Stl.solid_sound.web, Stl.solid_one, by decide +kernel, by decide +kernel⟩

end ENigMA
