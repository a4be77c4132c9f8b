import Verif.Csg.BspProps

/-!
# C46 for solids whose faces may share planes

`C46_convex_solid` asks that no face lies in the plane of an earlier one. A cylinder's caps are made of many triangles
in one plane; this file covers such solids.
-/

set_option linter.unusedSectionVars false
set_option autoImplicit false

namespace ENigMA
open Csg Csg.Bsp

variable {K : Type} [Field K] [LinearOrder K] [IsStrictOrderedRing K]

/-- The faces of a convex solid around the point `o`: every face is a proper polygon whose normal is perpendicular to
three of its corners that are not on a line, no face has a corner in front of the plane of any face, and `o` is behind the planes of
all of them. -/
structure ConvexFaces (ps : List (Poly K)) (o : Vec3 K) : Prop where
  proper : ∀ p ∈ ps, Proper p
  span : ∀ p ∈ ps, ∃ a ∈ p.vs, ∃ b ∈ p.vs, ∃ c ∈ p.vs, ∃ k : K, p.normal = k • Vec3.cross (b - a) (c - a)
  behind : ∀ p ∈ ps, ∀ q ∈ ps, ∀ v ∈ q.vs, ∀ w ∈ p.vs, p.normal.dot v ≤ p.normal.dot w
  inner : ∀ p ∈ ps, ∀ w ∈ p.vs, p.normal.dot o < p.normal.dot w

namespace ConvexFaces

/-- Two faces in one plane have normals in the same direction. -/
theorem parallel {p q : Poly K} {o : Vec3 K} (hq : Proper q)
    (hs : ∃ a ∈ q.vs, ∃ b ∈ q.vs, ∃ c ∈ q.vs, ∃ k : K, q.normal = k • Vec3.cross (b - a) (c - a))
    (hpq : ∀ v ∈ q.vs, p.normal.dot o < p.normal.dot v) (hqo : ∀ v ∈ q.vs, q.normal.dot o < q.normal.dot v)
    (h : ∀ v ∈ q.vs, ∀ w ∈ q.vs, p.normal.dot v = p.normal.dot w) :
    ∃ t : K, 0 < t ∧ p.normal = t • q.normal := by
  obtain ⟨a, ha, b, hb, c, hc, k, hk⟩ := hs
  have h1 := h b hb a ha
  have h2 := h c hc a ha
  have hk0 : k ≠ 0 := by rintro rfl; exact hq.2.1 (by rw [hk, zero_smul])
  set E := Vec3.cross (b - a) (c - a) with hE
  have hE0 : E.normSq ≠ 0 := by
    intro h0
    exact hq.2.1 (by rw [hk, Vec3.normSq_eq_zero.1 h0, smul_zero])
  have key : E.normSq • p.normal = (p.normal.dot E) • E := by
    simp only [Vec3.dot] at h1 h2
    have e1 : p.normal.x * (b.x - a.x) + p.normal.y * (b.y - a.y) + p.normal.z * (b.z - a.z) = 0 := by linarith
    have e2 : p.normal.x * (c.x - a.x) + p.normal.y * (c.y - a.y) + p.normal.z * (c.z - a.z) = 0 := by linarith
    ext <;> simp [hE, Vec3.normSq, Vec3.dot, Vec3.cross]
    · linear_combination ((c.x - a.x) * ((b.x - a.x) * (c.x - a.x) + (b.y - a.y) * (c.y - a.y) + (b.z - a.z) * (c.z - a.z)) * (-1) + (b.x - a.x) * ((c.x - a.x) ^ 2 + (c.y - a.y) ^ 2 + (c.z - a.z) ^ 2)) * e1 + ((c.x - a.x) * ((b.x - a.x) ^ 2 + (b.y - a.y) ^ 2 + (b.z - a.z) ^ 2) - (b.x - a.x) * ((b.x - a.x) * (c.x - a.x) + (b.y - a.y) * (c.y - a.y) + (b.z - a.z) * (c.z - a.z))) * e2
    · linear_combination ((c.y - a.y) * ((b.x - a.x) * (c.x - a.x) + (b.y - a.y) * (c.y - a.y) + (b.z - a.z) * (c.z - a.z)) * (-1) + (b.y - a.y) * ((c.x - a.x) ^ 2 + (c.y - a.y) ^ 2 + (c.z - a.z) ^ 2)) * e1 + ((c.y - a.y) * ((b.x - a.x) ^ 2 + (b.y - a.y) ^ 2 + (b.z - a.z) ^ 2) - (b.y - a.y) * ((b.x - a.x) * (c.x - a.x) + (b.y - a.y) * (c.y - a.y) + (b.z - a.z) * (c.z - a.z))) * e2
    · linear_combination ((c.z - a.z) * ((b.x - a.x) * (c.x - a.x) + (b.y - a.y) * (c.y - a.y) + (b.z - a.z) * (c.z - a.z)) * (-1) + (b.z - a.z) * ((c.x - a.x) ^ 2 + (c.y - a.y) ^ 2 + (c.z - a.z) ^ 2)) * e1 + ((c.z - a.z) * ((b.x - a.x) ^ 2 + (b.y - a.y) ^ 2 + (b.z - a.z) ^ 2) - (b.z - a.z) * ((b.x - a.x) * (c.x - a.x) + (b.y - a.y) * (c.y - a.y) + (b.z - a.z) * (c.z - a.z))) * e2
  have hn : p.normal = ((p.normal.dot E) / E.normSq / k) • q.normal := by
    rw [hk, smul_smul, div_mul_cancel₀ _ hk0, div_eq_inv_mul, mul_smul, ← key, smul_smul, inv_mul_cancel₀ hE0, one_smul]
  refine ⟨_, ?_, hn⟩
  set t := (p.normal.dot E) / E.normSq / k
  have g1 := hpq a ha
  have g2 := hqo a ha
  rw [hn] at g1
  have g3 : t * (q.normal.dot a - q.normal.dot o) > 0 := by
    simp only [Vec3.dot, Vec3.smul_x, Vec3.smul_y, Vec3.smul_z] at g1 ⊢
    linarith
  by_contra hneg
  nlinarith

theorem split_coplanar {p q : Poly K} {v : Vec3 K} (hpos : 0 < p.normal.dot q.normal)
    (h : ∀ w ∈ q.vs, p.normal.dot w = p.normal.dot v) :
    splitPolygon 0 ⟨p.normal, p.normal.dot v⟩ q = { coFront := [q] } := by
  have key : ∀ w ∈ q.vs, side 0 ⟨p.normal, p.normal.dot v⟩ w = .coplanar := by
    intro w hw
    rw [side_coplanar]
    simp only [h w hw, sub_self]
    exact ⟨by simp, le_refl _⟩
  rcases splitPolygon_cases (tol := 0) ⟨p.normal, p.normal.dot v⟩ q with ⟨a1, a2, a⟩ | ⟨a1, a2, a⟩ |
      ⟨⟨u, hu, a1⟩, a2, a⟩ | ⟨⟨u, hu, a1⟩, a2, a⟩ | ⟨⟨u, hu, a1⟩, a2, v0, rest, hvs, a⟩
  · exact a
  · exact absurd hpos a2
  · rw [key u hu] at a1; simp at a1
  · rw [key u hu] at a1; simp at a1
  · rw [key u hu] at a1; simp at a1

/-- What the plane of the first face does to a face. -/
theorem cases {ps : List (Poly K)} {o : Vec3 K} (h : ConvexFaces ps o) {p q : Poly K} (hp : p ∈ ps) (hq : q ∈ ps)
    {v : Vec3 K} (hv : v ∈ p.vs) :
    splitPolygon 0 ⟨p.normal, p.normal.dot v⟩ q = { back := [q] } ∨
    (splitPolygon 0 ⟨p.normal, p.normal.dot v⟩ q = { coFront := [q] } ∧ (∀ w ∈ q.vs, p.normal.dot w = p.normal.dot v) ∧
      ∃ t : K, 0 < t ∧ p.normal = t • q.normal) := by
  by_cases hall : ∀ w ∈ q.vs, p.normal.dot w = p.normal.dot v
  · right
    obtain ⟨t, ht, hn⟩ := parallel (p := p) (o := o) (h.proper q hq) (h.span q hq)
      (fun w hw => by rw [hall w hw]; exact h.inner p hp v hv) (h.inner q hq)
      (fun a ha b hb => by rw [hall a ha, hall b hb])
    refine ⟨split_coplanar ?_ hall, hall, t, ht, hn⟩
    have h0 : 0 < q.normal.normSq := by
      rcases lt_or_eq_of_le (Vec3.normSq_nonneg q.normal) with h0 | h0
      · exact h0
      · exact absurd (Vec3.normSq_eq_zero.1 h0.symm) (h.proper q hq).2.1
    have : p.normal.dot q.normal = t * q.normal.normSq := by
      rw [hn]; simp only [Vec3.normSq, Vec3.dot, Vec3.smul_x, Vec3.smul_y, Vec3.smul_z]; ring
    rw [this]; positivity
  · left
    push Not at hall
    obtain ⟨w, hw, hne⟩ := hall
    refine split_behind ⟨fun a ha b hb => h.behind p hp q hq a ha b hb, w, hw, fun b hb => ?_⟩ hv
    rw [(h.proper p hp).2.2 b hb v hv]
    exact lt_of_le_of_ne (h.behind p hp q hq w hw v hv) hne

end ConvexFaces

open ConvexFaces in
/-- **C46.** For the faces of a convex solid, which may share planes, the tree's inside is the intersection of the half spaces behind the
faces, its outside the union of the half spaces in front of them, and the stored polygons are the faces themselves, uncut. -/
theorem C46_convex_faces (ps : List (Poly K)) (o : Vec3 K) (hne : ps ≠ []) (h : ConvexFaces ps o) :
    ∃ t : Bsp K, (∀ fuel, ps.length < fuel → ofPolygons 0 fuel ps = some t) ∧ t.allPolygons.1.Perm ps ∧
      (∀ x, t.Inside x ↔ ∀ p ∈ ps, ∀ v ∈ p.vs, p.normal.dot x ≤ p.normal.dot v) ∧
      (∀ x, t.Outside x ↔ ∃ p ∈ ps, ∃ v ∈ p.vs, p.normal.dot v ≤ p.normal.dot x) := by
  simp only [allPolygons_eq]
  obtain ⟨n, hn⟩ : ∃ n, ps.length = n := ⟨_, rfl⟩
  induction n using Nat.strong_induction_on generalizing ps with
  | _ n ih =>
  cases ps with
  | nil => exact absurd rfl hne
  | cons p ps =>
    have hP := h.proper p (by simp)
    obtain ⟨v, vs, hv⟩ := List.exists_cons_of_ne_nil hP.1
    have hvm : v ∈ p.vs := by simp [hv]
    have hpm : p ∈ p :: ps := by simp
    have hsplit := fun q (hq : q ∈ p :: ps) => h.cases hpm hq hvm
    classical
    let isB : Poly K → Bool := fun q => decide (splitPolygon 0 ⟨p.normal, p.normal.dot v⟩ q = { back := [q] })
    have hpB : isB p = false := by
      simp only [isB, decide_eq_false_iff_not, split_self hP hvm]
      intro hh
      have := congrArg Split.back hh
      simp at this
    have hB : ∀ q ∈ p :: ps, isB q = true → splitPolygon 0 ⟨p.normal, p.normal.dot v⟩ q = { back := [q] } := fun q _ hb => by
      simpa [isB] using hb
    have hC : ∀ q ∈ p :: ps, isB q = false → splitPolygon 0 ⟨p.normal, p.normal.dot v⟩ q = { coFront := [q] } ∧
        (∀ w ∈ q.vs, p.normal.dot w = p.normal.dot v) ∧ ∃ t : K, 0 < t ∧ p.normal = t • q.normal := fun q hq hb => by
      rcases hsplit q hq with h1 | h1
      · simp [isB, h1] at hb
      · exact h1
    have hflat : ∀ (l : List (Poly K)), (∀ q ∈ l, q ∈ p :: ps) →
        (l.map (splitPolygon 0 ⟨p.normal, p.normal.dot v⟩)).flatMap Split.front = [] ∧
        (l.map (splitPolygon 0 ⟨p.normal, p.normal.dot v⟩)).flatMap Split.back = l.filter isB ∧
        (l.map (splitPolygon 0 ⟨p.normal, p.normal.dot v⟩)).flatMap (fun s => s.coFront ++ s.coBack) = l.filter (fun q => !isB q) := by
      intro l
      induction l with
      | nil => intro _; simp
      | cons q l ihl =>
        intro hl
        obtain ⟨i1, i2, i3⟩ := ihl fun a ha => hl a (List.mem_cons_of_mem _ ha)
        have hq := hl q (by simp)
        simp only [List.map_cons, List.flatMap_cons, i1, i2, i3]
        cases hb : isB q with
        | true => rw [hB q hq hb]; simp [hb]
        | false => rw [(hC q hq hb).1]; simp [hb]
    obtain ⟨e1, e2, e3⟩ := hflat (p :: ps) fun q hq => hq
    set B := (p :: ps).filter isB with hBdef
    set C := (p :: ps).filter (fun q => !isB q) with hCdef
    have hperm : (C ++ B).Perm (p :: ps) := by
      refine List.perm_append_comm.trans ?_
      exact List.filter_append_perm isB (p :: ps)
    have hBsub : ∀ q ∈ B, q ∈ p :: ps := fun q hq => (List.mem_filter.1 hq).1
    have hlen : B.length < n := by
      have : B = ps.filter isB := by rw [hBdef, List.filter_cons]; simp [hpB]
      rw [this, ← hn, List.length_cons]
      exact Nat.lt_succ_of_le (List.length_filter_le _ _)
    have hpv : ∀ w ∈ p.vs, p.normal.dot w = p.normal.dot v := fun w hw => hP.2.2 w hw v hvm
    -- the plane of `p` speaks for all the faces in it
    have iC : ∀ x, p.normal.dot x ≤ p.normal.dot v ↔ ∀ q ∈ C, ∀ w ∈ q.vs, q.normal.dot x ≤ q.normal.dot w := by
      intro x
      constructor
      · intro hx q hq w hw
        obtain ⟨hq1, hq2⟩ := List.mem_filter.1 hq
        obtain ⟨-, g1, t, ht, g2⟩ := hC q hq1 (by simpa using hq2)
        have g3 := g1 w hw
        rw [← g3, g2] at hx
        simp only [Vec3.dot, Vec3.smul_x, Vec3.smul_y, Vec3.smul_z] at hx ⊢
        by_contra hcon
        push Not at hcon
        nlinarith [mul_lt_mul_of_pos_left hcon ht]
      · intro hx
        exact hx p (List.mem_filter.2 ⟨hpm, by simp [hpB]⟩) v hvm
    have oC : ∀ x, p.normal.dot v ≤ p.normal.dot x ↔ ∃ q ∈ C, ∃ w ∈ q.vs, q.normal.dot w ≤ q.normal.dot x := by
      intro x
      constructor
      · intro hx
        exact ⟨p, List.mem_filter.2 ⟨hpm, by simp [hpB]⟩, v, hvm, hx⟩
      · rintro ⟨q, hq, w, hw, hx⟩
        obtain ⟨hq1, hq2⟩ := List.mem_filter.1 hq
        obtain ⟨-, g1, t, ht, g2⟩ := hC q hq1 (by simpa using hq2)
        rw [← g1 w hw, g2]
        simp only [Vec3.dot, Vec3.smul_x, Vec3.smul_y, Vec3.smul_z] at hx ⊢
        nlinarith [mul_le_mul_of_nonneg_left hx ht.le]
    have iAll : ∀ x, (∀ q ∈ p :: ps, ∀ w ∈ q.vs, q.normal.dot x ≤ q.normal.dot w) ↔
        (∀ q ∈ C, ∀ w ∈ q.vs, q.normal.dot x ≤ q.normal.dot w) ∧ ∀ q ∈ B, ∀ w ∈ q.vs, q.normal.dot x ≤ q.normal.dot w := by
      intro x
      simp only [← hperm.mem_iff, List.mem_append]
      exact ⟨fun hh => ⟨fun q hq => hh q (Or.inl hq), fun q hq => hh q (Or.inr hq)⟩, fun hh q hq => hq.elim (hh.1 q) (hh.2 q)⟩
    have oAll : ∀ x, (∃ q ∈ p :: ps, ∃ w ∈ q.vs, q.normal.dot w ≤ q.normal.dot x) ↔
        (∃ q ∈ C, ∃ w ∈ q.vs, q.normal.dot w ≤ q.normal.dot x) ∨ ∃ q ∈ B, ∃ w ∈ q.vs, q.normal.dot w ≤ q.normal.dot x := by
      intro x
      simp only [← hperm.mem_iff, List.mem_append, or_and_right, exists_or]
    by_cases hps : B = []
    · refine ⟨.node (some ⟨p.normal, p.normal.dot v⟩) C .nil .nil, ?_, ?_, ?_, ?_⟩
      · intro fuel hf
        obtain ⟨n, rfl⟩ : ∃ n, fuel = n + 1 := ⟨fuel - 1, by simp at hf; omega⟩
        rw [ofPolygons, build_cons 0 n .nil p ps v vs hv]
        simp only [e1, e2, e3, hps]
        rfl
      · simpa [stored, hps] using hperm
      · intro x
        simp only [Inside, ne_eq, not_true, false_and, and_false, and_true, false_or, iAll, hps, iC]
        simp
      · intro x
        simp only [Outside, ne_eq, not_true, false_and, and_false, and_true, or_false, oAll, hps, oC]
        simp
    · obtain ⟨t, h1, h2, h3, h4⟩ := ih B.length hlen B hps
        ⟨fun q hq => h.proper q (hBsub q hq), fun q hq => h.span q (hBsub q hq),
          fun a ha b hb => h.behind a (hBsub a ha) b (hBsub b hb), fun q hq => h.inner q (hBsub q hq)⟩ rfl
      have htn : t ≠ .nil := by
        rintro rfl
        exact hps (by simpa [stored] using h2)
      refine ⟨.node (some ⟨p.normal, p.normal.dot v⟩) C .nil t, ?_, ?_, ?_, ?_⟩
      · intro fuel hf
        obtain ⟨n, rfl⟩ : ∃ n, fuel = n + 1 := ⟨fuel - 1, by simp at hf; omega⟩
        rw [ofPolygons, build_cons 0 n .nil p ps v vs hv]
        simp only [e1, e2, e3, if_true, if_neg hps, parts, Option.bind_some]
        have := h1 n (by simp at hf hn; omega)
        rw [ofPolygons] at this
        rw [this]
        rfl
      · simp only [stored, List.append_nil]
        exact (List.Perm.append_left C h2).trans hperm
      · intro x
        simp only [Inside, ne_eq, not_true, false_and, and_false, false_or, h3, iAll, iC]
      · intro x
        simp only [Outside, and_true, h4, oAll, ← oC]
        constructor
        · rintro (h | ⟨_, _, h⟩)
          · exact Or.inl h
          · exact Or.inr h
        · rintro (h | h)
          · exact Or.inl h
          · rcases le_total (p.normal.dot v) (p.normal.dot x) with h0 | h0
            · exact Or.inl h0
            · exact Or.inr ⟨h0, htn, h⟩

/-- The faces of a tetrahedron, one of them in two pieces that share a plane. -/
def splitTetra : List (Poly ℚ) := [
  ⟨[⟨0, 0, 0⟩, ⟨0, 2, 0⟩, ⟨1, 0, 0⟩, ⟨0, 0, 0⟩], ⟨0, 0, -1⟩⟩,
  ⟨[⟨1, 0, 0⟩, ⟨0, 2, 0⟩, ⟨2, 0, 0⟩, ⟨1, 0, 0⟩], ⟨0, 0, -3⟩⟩,
  ⟨[⟨0, 0, 0⟩, ⟨2, 0, 0⟩, ⟨0, 0, 2⟩, ⟨0, 0, 0⟩], ⟨0, -1, 0⟩⟩,
  ⟨[⟨0, 0, 0⟩, ⟨0, 0, 2⟩, ⟨0, 2, 0⟩, ⟨0, 0, 0⟩], ⟨-1, 0, 0⟩⟩,
  ⟨[⟨2, 0, 0⟩, ⟨0, 2, 0⟩, ⟨0, 0, 2⟩, ⟨2, 0, 0⟩], ⟨1, 1, 1⟩⟩]

theorem splitTetra_convex : ConvexFaces splitTetra ⟨1/4, 1/4, 1/4⟩ where
  proper := by simp only [Proper]; decide +kernel
  span := by
    simp only [splitTetra, List.mem_cons, List.not_mem_nil, or_false, forall_eq_or_imp, forall_eq]
    refine ⟨⟨⟨0, 0, 0⟩, by simp, ⟨0, 2, 0⟩, by simp, ⟨1, 0, 0⟩, by simp, 1/2, by decide +kernel⟩,
      ⟨⟨1, 0, 0⟩, by simp, ⟨0, 2, 0⟩, by simp, ⟨2, 0, 0⟩, by simp, 3/2, by decide +kernel⟩,
      ⟨⟨0, 0, 0⟩, by simp, ⟨2, 0, 0⟩, by simp, ⟨0, 0, 2⟩, by simp, 1/4, by decide +kernel⟩,
      ⟨⟨0, 0, 0⟩, by simp, ⟨0, 0, 2⟩, by simp, ⟨0, 2, 0⟩, by simp, 1/4, by decide +kernel⟩,
      ⟨⟨2, 0, 0⟩, by simp, ⟨0, 2, 0⟩, by simp, ⟨0, 0, 2⟩, by simp, 1/4, by decide +kernel⟩⟩
  behind := by decide +kernel
  inner := by decide +kernel

example : ∃ t : Bsp ℚ, (∀ fuel, 5 < fuel → ofPolygons 0 fuel splitTetra = some t) ∧ t.Inside ⟨1/4, 1/4, 1/4⟩ ∧ t.Outside ⟨1, 1, 1⟩ := by
  obtain ⟨t, h1, -, h3, h4⟩ := C46_convex_faces splitTetra _ (by simp [splitTetra]) splitTetra_convex
  exact ⟨t, h1, (h3 _).2 (by decide +kernel), (h4 _).2 (by decide +kernel)⟩

end ENigMA
