import Verif.Stl.FlipProps
import Verif.Stl.RelaxResults

/-!
# Marking and flipping the edges of a surface
-/

set_option linter.unusedSectionVars false
set_option autoImplicit false

namespace ENigMA
namespace Stl

section
variable {K : Type} [Field K] [LinearOrder K] [IsStrictOrderedRing K]

/-! ### The marks -/

/-- The mark that an edge gets. -/
def marked (e : Edge) : Edge := { e with naked := decide (e.neighbor = -1) }

/-- The file with the edges in `D` marked. -/
structure Checked (s s' : File K) (D : Int × Nat → Prop) : Prop where
  good : Good s'
  ids : s'.ids = s.ids
  verts : ∀ x, vert s' x = vert s x
  done : ∀ x, D x → edgeAt s' x = (edgeAt s x).map marked
  rest : ∀ x, ¬ D x → edgeAt s' x = edgeAt s x

theorem checkEdge_spec {s : File K} (hs : Web s) {s1 : File K} {D : Int × Nat → Prop} (h : Checked s s1 D) {x : Int × Nat} (hx : Corner s x) (hD : ¬ D x) :
    ∃ s2, checkEdge s1 x = some s2 ∧ Checked s s2 (fun y => y = x ∨ D y) := by
  obtain ⟨id, j⟩ := x
  have hc : ∀ i, i < 3 → Corner s1 (id, i) := fun i hi => ⟨by rw [h.ids]; exact hx.1, hi⟩
  have hj : j < 3 := hx.2
  obtain ⟨a, ha⟩ := (vert_some h.good (id, (j + 0) % 3)).2 (hc _ (Nat.mod_lt _ (by omega)))
  obtain ⟨b, hb⟩ := (vert_some h.good (id, (j + 1) % 3)).2 (hc _ (Nat.mod_lt _ (by omega)))
  obtain ⟨e, he, hp⟩ := hs.net.pts (id, j) hx
  have he1 : edge? s1 id j = some e := (h.rest (id, j) hD).trans he
  unfold checkEdge
  simp only [vertexOf_eq h.good (Nat.mod_lt (j + 0) (by omega : 0 < 3)), vertexOf_eq h.good (Nat.mod_lt (j + 1) (by omega : 0 < 3)), ha, hb, he1, Option.bind_eq_bind, Option.bind_some]
  have fin : ∀ (u : Edge → Edge), u e = marked e → ∀ s2, Change s1 s2 (vert s1) (fun y => if y = (id, j) then (edgeAt s1 y).map u else edgeAt s1 y) → Checked s s2 (fun y => y = (id, j) ∨ D y) := by
    intro u hu s2 c
    refine ⟨c.good, c.ids.trans h.ids, fun y => (c.verts y).trans (h.verts y), fun y hy => ?_, fun y hy => ?_⟩
    · rw [c.edges]
      by_cases hyx : y = (id, j)
      · subst hyx
        rw [if_pos rfl, he]
        show Option.map u (edge? s1 id j) = _
        rw [he1]
        simp [hu]
      · rw [if_neg hyx]
        exact h.done y (hy.resolve_left hyx)
    · rw [c.edges, if_neg (fun e => hy (Or.inl e))]
      exact h.rest y fun e => hy (Or.inr e)
  by_cases hn : e.neighbor = -1
  · rw [if_neg (by simp [hn])]
    obtain ⟨s2, e1, c⟩ := setEdge_spec h.good (x := (id, j)) (hc j hj) fun e => { e with naked := true }
    exact ⟨s2, e1, fin _ (by simp [marked, hn]) s2 c⟩
  · rw [if_pos hn]
    obtain ⟨s2, e1, c⟩ := setEdge_spec h.good (x := (id, j)) (hc j hj) fun e => { e with naked := false }
    rw [e1, Option.bind_some]
    cases hL : link s (id, j) with
    | none => rw [hL] at hp; exact absurd hp.1 hn
    | some y =>
      rw [hL] at hp
      obtain ⟨f, hf⟩ := (c.good.ok.2 y.1).1 (by rw [c.ids, h.ids]; exact (hs.net.live hL).2.1)
      rw [hp.1, hf]
      exact ⟨s2, rfl, fin _ (by simp [marked, hn]) s2 c⟩

theorem Checked.congr {s s' : File K} {D D' : Int × Nat → Prop} (h : Checked s s' D) (hD : ∀ x, D' x ↔ D x) : Checked s s' D' :=
  ⟨h.good, h.ids, h.verts, fun x hx => h.done x ((hD x).1 hx), fun x hx => h.rest x fun e => hx ((hD x).2 e)⟩

theorem checkEdges_spec {s : File K} (hs : Web s) : ∃ s', checkEdges s = some s' ∧ Checked s s' (Corner s) := by
  have key : ∀ n ≤ s.count, ∃ s', (List.range n).foldlM (fun s i => do
      let id ← s.idAt? i
      [0, 1, 2].foldlM (fun s j => checkEdge s (id, j)) s) s = some s' ∧ Checked s s' (fun x => (∃ i < n, s.ids[i]? = some x.1) ∧ x.2 < 3) := by
    intro n
    induction n with
    | zero => exact fun _ => ⟨s, rfl, hs.good, rfl, fun _ => rfl, (by rintro x ⟨⟨i, hi, -⟩, -⟩; omega), fun _ _ => rfl⟩
    | succ n ih =>
      intro hn
      obtain ⟨s1, h1, h2⟩ := ih (by omega)
      have hlt : n < s.ids.length := by unfold Cont.count at hn; omega
      have hat : s1.idAt? n = some (s.ids[n]) := by unfold Cont.idAt?; rw [h2.ids, List.getElem?_eq_getElem hlt]
      have hid : s.ids[n] ∈ s.ids := List.getElem_mem hlt
      generalize hI : s.ids[n] = id at hat hid
      have hI' : s.ids[n]? = some id := by rw [List.getElem?_eq_getElem hlt, hI]
      have hnew : ∀ i < n, s.ids[i]? ≠ some id := by
        intro i hi e
        obtain ⟨hi', e'⟩ := List.getElem?_eq_some_iff.1 e
        rw [← hI] at e'
        have := (List.Nodup.getElem_inj_iff hs.ok.1).1 e'
        omega
      obtain ⟨s2, a1, a2⟩ := checkEdge_spec hs h2 (x := (id, 0)) ⟨hid, by simp⟩ (by rintro ⟨⟨i, hi, e⟩, -⟩; exact hnew i hi e)
      obtain ⟨s3, b1, b2⟩ := checkEdge_spec hs a2 (x := (id, 1)) ⟨hid, by simp⟩ (by
        rintro (e | ⟨⟨i, hi, e⟩, -⟩)
        · simp at e
        · exact hnew i hi e)
      obtain ⟨s4, c1, c2⟩ := checkEdge_spec hs b2 (x := (id, 2)) ⟨hid, by simp⟩ (by
        rintro (e | e | ⟨⟨i, hi, e⟩, -⟩)
        · simp at e
        · simp at e
        · exact hnew i hi e)
      refine ⟨s4, ?_, c2.congr fun x => ?_⟩
      · rw [List.range_succ, List.foldlM_append, h1]
        simp [hat, a1, b1, c1]
      · constructor
        · rintro ⟨⟨i, hi, e⟩, h3⟩
          by_cases hin : i = n
          · rw [hin, hI', Option.some.injEq] at e
            have : x.2 = 0 ∨ x.2 = 1 ∨ x.2 = 2 := by omega
            rcases this with h | h | h
            · exact Or.inr (Or.inr (Or.inl (Prod.ext e.symm h)))
            · exact Or.inr (Or.inl (Prod.ext e.symm h))
            · exact Or.inl (Prod.ext e.symm h)
          · exact Or.inr (Or.inr (Or.inr ⟨⟨i, by omega, e⟩, h3⟩))
        · rintro (rfl | rfl | rfl | ⟨⟨i, hi, e⟩, h3⟩)
          · exact ⟨⟨n, by omega, hI'⟩, by simp⟩
          · exact ⟨⟨n, by omega, hI'⟩, by simp⟩
          · exact ⟨⟨n, by omega, hI'⟩, by simp⟩
          · exact ⟨⟨i, by omega, e⟩, h3⟩
  obtain ⟨s', h1, h2⟩ := key s.count le_rfl
  refine ⟨s', h1, h2.congr fun x => ?_⟩
  constructor
  · rintro ⟨h3, h4⟩
    obtain ⟨i, hi, e⟩ := List.getElem_of_mem h3
    exact ⟨⟨i, hi, by rw [List.getElem?_eq_getElem hi, e]⟩, h4⟩
  · rintro ⟨⟨i, _, e⟩, h4⟩
    exact ⟨List.mem_of_getElem? e, h4⟩

theorem isOutline_iff (k : Kept K) (angle : K) {s : File K} (hs : Web s) (x : Int × Nat) : isOutline k angle s x = true ↔ ∃ y, link s x = some y ∧ angle < k.bend x.1 y.1 := by
  unfold isOutline
  cases he : edge? s x.1 x.2 with
  | none => simp [link_none he]
  | some e =>
    rw [link_edge he]
    by_cases hn : e.neighbor = -1
    · simp [hn]
    · simp [hn]

end

end Stl

section
variable {K : Type} [Field K] [LinearOrder K] [IsStrictOrderedRing K]

/-- Marking never fails and changes nothing but the marks: an edge is naked exactly when it has no neighbour, and outline exactly when the normals at its two sides differ by more than the angle. If the angle between two normals does not depend on their order, both sides of an edge are marked alike. -/
theorem C114_check (k : Stl.Kept K) (angle : K) {s : Stl.File K} (hs : Stl.Web s) :
    ∃ s', Stl.checkEdges s = some s' ∧ Stl.Good s' ∧ s'.ids = s.ids ∧ (∀ x, Stl.vert s' x = Stl.vert s x) ∧ (∀ x, Stl.link s' x = Stl.link s x) ∧
      (∀ x e, Stl.edgeAt s' x = some e → (e.naked = true ↔ Stl.link s x = none)) ∧
      (∀ x, Stl.isOutline k angle s x = true ↔ ∃ y, Stl.link s x = some y ∧ angle < k.bend x.1 y.1) ∧
      ((∀ i j, k.bend i j = k.bend j i) → ∀ x y, Stl.link s x = some y → (Stl.isOutline k angle s x = true ↔ Stl.isOutline k angle s y = true)) := by
  obtain ⟨s', h1, h2⟩ := Stl.checkEdges_spec hs
  have hed : ∀ x, Stl.edgeAt s' x = (Stl.edgeAt s x).map Stl.marked := by
    intro x
    by_cases hx : Stl.Corner s x
    · exact h2.done x hx
    · rw [h2.rest x hx]
      cases he : Stl.edgeAt s x with
      | none => rfl
      | some e => exact absurd ((Stl.edgeAt_some hs.good x).1 ⟨e, he⟩) hx
  refine ⟨s', h1, h2.good, h2.ids, h2.verts, fun x => ?_, fun x e he => ?_, Stl.isOutline_iff k angle hs, fun hb x y hxy => ?_⟩
  · cases he : Stl.edgeAt s x with
    | none => rw [Stl.link_none he, Stl.link_none (by rw [hed, he]; rfl)]
    | some e => rw [Stl.link_edge he, Stl.link_edge (show Stl.edgeAt s' x = some (Stl.marked e) by rw [hed, he]; rfl)]; rfl
  · rw [hed] at he
    obtain ⟨e0, he0, rfl⟩ := Option.map_eq_some_iff.1 he
    rw [Stl.link_edge he0]
    simp [Stl.marked]
  · have hyx := hs.net.inv x y hxy
    rw [Stl.isOutline_iff k angle hs, Stl.isOutline_iff k angle hs]
    constructor
    · rintro ⟨z, hz, h⟩
      rw [hxy, Option.some.injEq] at hz
      subst hz
      exact ⟨x, hyx, by rw [hb]; exact h⟩
    · rintro ⟨z, hz, h⟩
      rw [hyx, Option.some.injEq] at hz
      subst hz
      exact ⟨y, hxy, by rw [hb]; exact h⟩

/-- Relaxing after marking keeps both ends of every edge of the rim, and of every edge where the normals differ by more than the angle, where they are (for all facets there). -/
theorem C114_features (k : Stl.Kept K) (hb : ∀ i j, k.bend i j = k.bend j i) (angle : K) (accept : List (Stl.Facet K × Nat) → Vec3 K → Bool) {s : Stl.File K} (hs : Stl.Sound s) (hone : Stl.OneCorner s) :
    ∃ s', Stl.relaxVertices (Stl.isOutline k angle s) accept s = some s' ∧
      ∀ x, Stl.Corner s x → (Stl.link s x = none ∨ ∃ y, Stl.link s x = some y ∧ angle < k.bend x.1 y.1) → ∀ z, Fan.Same (Stl.nx s) z x ∨ Fan.Same (Stl.nx s) z (Stl.after x) → Stl.vert s' z = Stl.vert s z := by
  obtain ⟨s', h1, -, -, -, h2, -⟩ := C111_relax (Stl.isOutline k angle s) accept hs hone
  refine ⟨s', h1, fun x hx hkeep z hz => ?_⟩
  have hback : (Stl.after x).1 = x.1 ∧ ((Stl.after x).2 + 2) % 3 = x.2 := by
    have := hx.2
    exact ⟨rfl, by show ((x.2 + 1) % 3 + 2) % 3 = x.2; omega⟩
  rcases hkeep with hn | ⟨y, hy, hlt⟩
  · rcases hz with hz | hz
    · exact h2 z x hz (Or.inl hn)
    · refine h2 z _ hz (Or.inr (Or.inl ?_))
      rw [hback.1, hback.2]
      exact hn
  · rcases hz with hz | hz
    · exact h2 z x hz (Or.inr (Or.inr ((Stl.isOutline_iff k angle hs.web x).2 ⟨y, hy, hlt⟩)))
    · have hstep : Stl.nx s false (Stl.after x) = some y := by
        unfold Stl.nx
        rw [if_pos (show (Stl.after x).2 < 3 from Nat.mod_lt _ (by omega)), if_neg (by simp), hback.1, hback.2]
        exact hy
      refine h2 z y (Relation.EqvGen.trans _ _ _ hz (Fan.same_of_step hs.inverse hstep)) (Or.inr (Or.inr ((Stl.isOutline_iff k angle hs.web y).2 ⟨x, hs.net.inv x y hy, ?_⟩)))
      rw [hb]
      exact hlt

/-- Flipping never fails. The result is the surface with some edges flipped: `l` lists them, each with the edge at its other side, and no facet takes part twice. Each of them gains by the flip, and afterwards one of the two facets is `a d c` and the other `b c d`, where `a b` is the edge, `c` and `d` are the other two corners.
All other facets stay; so do the records of all edges. An edge that would gain is left only if one of its facets has been changed. -/
theorem C113_flip (g : Stl.Gauge K) (hq : ∀ a b c, g.quality a b c = g.quality b c a) (k : Stl.Kept K) (swap tiny : K) {s : Stl.File K} (hs : Stl.Web s) :
    ∃ (s' : Stl.File K) (l : List ((Int × Nat) × (Int × Nat))), Stl.flipEdges g k swap tiny s = some s' ∧ s'.ids = s.ids ∧ (∀ x, Stl.edgeAt s' x = Stl.edgeAt s x) ∧ l.Pairwise Stl.Apart ∧
      (∀ p ∈ l, Stl.link s p.1 = some p.2 ∧ ∃ a b c d, Stl.Gains g k swap tiny s p.1 p.2 a b c d ∧
        ((Stl.Front s' p.1.1 a d c ∧ Stl.Front s' p.2.1 b c d) ∨ (Stl.Front s' p.1.1 b c d ∧ Stl.Front s' p.2.1 a d c))) ∧
      (∀ id, (∀ p ∈ l, id ≠ p.1.1 ∧ id ≠ p.2.1) → s'.get? id = s.get? id) ∧
      (∀ x y a b c d, Stl.link s x = some y → Stl.Gains g k swap tiny s x y a b c d → ∃ p ∈ l, x.1 = p.1.1 ∨ x.1 = p.2.1 ∨ y.1 = p.1.1 ∨ y.1 = p.2.1) := by
  obtain ⟨s', marks, l, h1, h2, h3⟩ := Stl.flipEdges_spec g hq k swap tiny hs
  refine ⟨s', l, h1, h2.ids, h2.edges, h2.apart, h2.each, fun id hid => h2.same id fun hm => ?_, fun x y a b c d hxy hG => ?_⟩
  · obtain ⟨p, hp, e | e⟩ := (h2.listed id).1 hm
    · exact (hid p hp).1 e
    · exact (hid p hp).2 e
  · have hl := hs.net.live hxy
    by_contra hc
    push Not at hc
    refine h3 x.1 hl.1.1 ?_ x.2 y hl.1.2 hxy ?_ a b c d hG
    · intro hm
      obtain ⟨p, hp, e | e⟩ := (h2.listed _).1 hm
      · exact (hc p hp).1 e
      · exact (hc p hp).2.1 e
    · intro hm
      obtain ⟨p, hp, e | e⟩ := (h2.listed _).1 hm
      · exact (hc p hp).2.2.1 e
      · exact (hc p hp).2.2.2 e

/-- What depends on the rim only stays the same, and no facet is worse than the worst one before. -/
theorem C113_keeps (g : Stl.Gauge K) (hq : ∀ a b c, g.quality a b c = g.quality b c a) (k : Stl.Kept K) (swap tiny : K) {s : Stl.File K} (hs : Stl.Web s) :
    ∃ s', Stl.flipEdges g k swap tiny s = some s' ∧
      (∀ (M : Type) [AddCommGroup M] (F : Vec3 K → Vec3 K → Vec3 K → M) (H : Vec3 K → Vec3 K → M), Stl.OfEdges F H → Stl.shape F s' = Stl.total F s) ∧
      (∀ least, (∀ id a b c, Stl.Front s id a b c → least ≤ g.quality a b c) → ∀ id a b c, Stl.Front s' id a b c → least ≤ g.quality a b c) := by
  obtain ⟨s', marks, l, h1, h2, -⟩ := Stl.flipEdges_spec g hq k swap tiny hs
  refine ⟨s', h1, fun M _ F H hF => by rw [h2.shape hF hs, Stl.shape_eq F hs.tri], fun least hleast id a b c hfr => ?_⟩
  have cyc : ∀ {u v w u' v' w' : Vec3 K}, Stl.Front s' id u v w → Stl.Front s' id u' v' w' → g.quality u v w = g.quality u' v' w' := by
    rintro u v w u' v' w' ⟨f, r, hf, hr⟩ ⟨f', r', hf', hr'⟩
    rw [hf, Option.some.injEq] at hf'
    subst hf'
    have q2 : ∀ a b c, g.quality a b c = g.quality c a b := fun a b c => by rw [hq, hq]
    rcases hr with hr | hr | hr <;> rcases hr' with hr' | hr' | hr' <;> rw [hr] at hr' <;> simp only [List.cons.injEq] at hr' <;> obtain ⟨rfl, rfl, rfl, -⟩ := hr'
    · rfl
    · exact q2 _ _ _
    · exact hq _ _ _
    · exact hq _ _ _
    · rfl
    · exact q2 _ _ _
    · exact q2 _ _ _
    · exact hq _ _ _
    · rfl
  by_cases hm : id ∈ marks
  · obtain ⟨p, hp, hid⟩ := (h2.listed id).1 hm
    obtain ⟨hL, a', b', c', d', hG, hfr'⟩ := h2.each p hp
    have hl := hs.net.live hL
    obtain ⟨o1, o2⟩ := hs.opp _ _ hL
    have m1 := hleast _ _ _ _ (Stl.front_old hs.good hl.1.2 hG.1 hG.2.1 hG.2.2.1)
    have m2 := hleast _ _ _ _ (Stl.front_old hs.good hl.2.2 (o1.trans hG.2.1) (o2.trans hG.1) hG.2.2.2.1)
    have m3 := lt_min_iff.1 (lt_of_le_of_lt (le_min m1 m2) hG.2.2.2.2.2.2)
    rcases hfr' with ⟨f1, f2⟩ | ⟨f1, f2⟩ <;> rcases hid with hid | hid
    · rw [← hid] at f1; rw [cyc hfr f1]; exact m3.1.le
    · rw [← hid] at f2; rw [cyc hfr f2]; exact m3.2.le
    · rw [← hid] at f1; rw [cyc hfr f1]; exact m3.2.le
    · rw [← hid] at f2; rw [cyc hfr f2]; exact m3.1.le
  · obtain ⟨f, r, hf, hr⟩ := hfr
    exact hleast id a b c ⟨f, r, by rw [← h2.same id hm]; exact hf, hr⟩

end

end ENigMA
