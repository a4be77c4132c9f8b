import Verif.Stl.SplitLemmas

/-!
# What splitting does to a surface
-/

set_option linter.unusedSectionVars false
set_option autoImplicit false

namespace ENigMA
namespace Stl
variable {K : Type}

/-- Three corners for each facet, mutual neighbours that run against each other along the same edges, edges without neighbour marked as such, no facet next to itself, ids that are positions. -/
structure Sound (s : File K) : Prop where
  ok : s.Ok
  tri : Triangular s
  plain : Plain s
  joined : Joined s
  both : Mutual s
  clean : Clean s
  noSelf : NoSelf s

/-- `v` is in every half space that contains the points: it is in their convex hull. -/
def InHull [Field K] [LinearOrder K] (T : List (Vec3 K)) (v : Vec3 K) : Prop :=
  ∀ (n : Vec3 K) (d : K), (∀ p ∈ T, n.x * p.x + n.y * p.y + n.z * p.z ≤ d) → n.x * v.x + n.y * v.y + n.z * v.z ≤ d

/-- A quantity of triangles that does not depend on the corner they start from, and adds up when a triangle is cut from a corner to a point of the opposite edge: area, the volume under the triangle, how often a point is covered, ... -/
structure Additive [Field K] [LinearOrder K] {M : Type} [AddCommMonoid M] (F : Vec3 K → Vec3 K → Vec3 K → M) : Prop where
  turn : ∀ a b c, F a b c = F b c a
  cut : ∀ a b c (t : K), 0 < t → t < 1 → F a b c = F a (a + t • (b - a)) c + F (a + t • (b - a)) b c

/-- Its value for a facet. -/
def Facet.value {M : Type} [AddCommMonoid M] (F : Vec3 K → Vec3 K → Vec3 K → M) (f : Facet K) : M :=
  match f.verts with
  | [a, b, c] => F a b c
  | _ => 0

/-- Its sum over the facets. -/
def total {M : Type} [AddCommMonoid M] (F : Vec3 K → Vec3 K → Vec3 K → M) (s : File K) : M :=
  (s.ids.map fun id => match s.get? id with | some f => f.value F | none => 0).sum

/-- From `a` to `b` runs an edge without neighbour. -/
def Rim (s : File K) (a b : Vec3 K) : Prop := ∃ x, link s x = none ∧ vert s x = some a ∧ vert s (after x) = some b

/-! ### One split -/

theorem joined_iff {s : File K} (hg : Good s) (hpos : ∀ id ∈ s.ids, 0 ≤ id) (hn : Net s (link s)) : Joined s ↔ ∀ x y, link s x = some y → Opposed s x y := by
  constructor
  · intro hj x y hxy
    obtain ⟨_, h1, h2, _⟩ := link_spec hg.ok hg.tri hj hxy
    exact ⟨h1, h2⟩
  · intro h id f j e hf he hne
    have hea : edgeAt s (id, j) = some e := by simp only [edgeAt, edge?, hf, Option.bind_eq_bind, Option.bind_some, he]
    have hc := (edgeAt_some hg _).1 ⟨e, hea⟩
    obtain ⟨e', he', hp⟩ := hn.pts _ hc
    rw [hea, Option.some.injEq] at he'
    subst he'
    cases hl : link s (id, j) with
    | none => rw [hl] at hp; exact absurd hp.1 hne
    | some y =>
      rw [hl] at hp
      have hy := (hn.live hl).2
      obtain ⟨g, hg'⟩ := (hg.ok.2 _).1 hy.1
      obtain ⟨o1, o2⟩ := h _ _ hl
      refine ⟨g, y.2, hy.2, by rw [hp.1]; exact hg', hp.2, ?_, ?_⟩
      · simpa [vert, after, hf, hg'] using o1
      · simpa [vert, after, hf, hg'] using o2

theorem Sound.good {s : File K} (h : Sound s) : Good s := ⟨h.ok, h.tri⟩
theorem Sound.net {s : File K} (h : Sound s) : Net s (link s) := (net_iff h.good h.plain.pos).2 ⟨h.both, h.clean, h.noSelf⟩
theorem Sound.opp {s : File K} (h : Sound s) : ∀ x y, link s x = some y → Opposed s x y := (joined_iff h.good h.plain.pos h.net).1 h.joined

theorem sound_of {s : File K} (hg : Good s) (hp : Plain s) {L : Int × Nat → Option (Int × Nat)} (hn : Net s L) (ho : ∀ x y, L x = some y → Opposed s x y) : Sound s := by
  have hL : link s = L := funext (hn.link hg hp.pos)
  rw [← hL] at hn ho
  obtain ⟨h1, h2, h3⟩ := (net_iff hg hp.pos).1 hn
  exact ⟨hg.ok, hg.tri, hp, (joined_iff hg hp.pos hn).2 ho, h1, h2, h3⟩

theorem value_of {M : Type} [AddCommMonoid M] {F : Vec3 K → Vec3 K → Vec3 K → M} (hF : ∀ a b c, F a b c = F b c a) {s : File K} (hg : Good s) {id : Int} {k : Nat} (hk : k < 3) {a b c : Vec3 K} (ha : vert s (id, k) = some a)
    (hb : vert s (id, (k + 1) % 3) = some b) (hc : vert s (id, (k + 2) % 3) = some c) : (match s.get? id with | some f => f.value F | none => 0) = F a b c := by
  unfold vert at ha hb hc
  cases hf : s.get? id with
  | none => rw [hf] at ha; cases ha
  | some f =>
    obtain ⟨p, q, r, hv, -⟩ := verts_of hg.tri hf
    simp only [hf, Option.bind_some, hv] at ha hb hc
    simp only [Facet.value, hv]
    rcases (by omega : k = 0 ∨ k = 1 ∨ k = 2) with rfl | rfl | rfl <;> simp at ha hb hc <;> subst ha hb hc
    · rfl
    · exact hF _ _ _
    · exact (hF _ _ _).trans (hF _ _ _)

theorem verts_mem {s : File K} (hg : Good s) {id : Int} {f : Facet K} (hf : s.get? id = some f) {v : Vec3 K} : v ∈ f.verts ↔ ∃ j < 3, vert s (id, j) = some v := by
  unfold vert
  simp only [hf, Option.bind_some]
  constructor
  · intro hv
    obtain ⟨j, hj, h⟩ := List.getElem_of_mem hv
    exact ⟨j, by rw [(hg.tri _ f hf).1] at hj; exact hj, by rw [List.getElem?_eq_getElem hj, h]⟩
  · rintro ⟨j, _, h⟩
    exact List.mem_of_getElem? h

section
variable [Field K] [LinearOrder K] [IsStrictOrderedRing K]

theorem InHull.of_mem {T : List (Vec3 K)} {v : Vec3 K} (h : v ∈ T) : InHull T v := fun _ _ hp => hp v h

theorem InHull.cut {T : List (Vec3 K)} {a b pn : Vec3 K} {t : K} (h0 : 0 < t) (h1 : t < 1) (ha : a ∈ T) (hb : b ∈ T) (hp : pn = a + t • (b - a)) : InHull T pn := by
  intro n d h
  have h2 := h a ha
  have h3 := h b hb
  subst hp
  simp only [Vec3.add_x, Vec3.add_y, Vec3.add_z, Vec3.smul_x, Vec3.smul_y, Vec3.smul_z, Vec3.sub_x, Vec3.sub_y, Vec3.sub_z]
  nlinarith

/-- What one round, or many, do to a surface. -/
structure Step (s s' : File K) : Prop where
  sound : Sound s'
  more : s.count ≤ s'.count
  sums : ∀ (M : Type) [AddCommMonoid M] (F : Vec3 K → Vec3 K → Vec3 K → M), Additive F → total F s' = total F s
  inside : ∀ id f, s'.get? id = some f → ∃ id0 f0, s.get? id0 = some f0 ∧ ∀ v ∈ f.verts, InHull f0.verts v
  kept : ∀ id f, s.get? id = some f → ∀ v ∈ f.verts, ∃ id' f', s'.get? id' = some f' ∧ v ∈ f'.verts
  rim : ∀ a b, Rim s' a b ↔ Rim s a b

theorem Step.refl {s : File K} (h : Sound s) : Step s s :=
  ⟨h, le_refl _, fun _ _ _ _ => rfl, fun id f hf => ⟨id, f, hf, fun _ hv => InHull.of_mem hv⟩, fun id f hf v hv => ⟨id, f, hf, hv⟩, fun _ _ => Iff.rfl⟩

theorem Step.trans {s s' s'' : File K} (h : Step s s') (h' : Step s' s'') : Step s s'' := by
  refine ⟨h'.sound, le_trans h.more h'.more, fun M _ F hF => (h'.sums M F hF).trans (h.sums M F hF), ?_, ?_, fun a b => (h'.rim a b).trans (h.rim a b)⟩
  · intro id f hf
    obtain ⟨id1, f1, hf1, h1⟩ := h'.inside id f hf
    obtain ⟨id0, f0, hf0, h0⟩ := h.inside id1 f1 hf1
    exact ⟨id0, f0, hf0, fun v hv n d hp => h1 v hv n d fun p hp1 => h0 p hp1 n d hp⟩
  · intro id f hf v hv
    obtain ⟨id1, f1, hf1, h1⟩ := h.kept id f hf v hv
    exact h'.kept id1 f1 hf1 v h1

/-- Two facets on both sides of an edge from `a` to `b` are replaced by four. -/
def Exchange (s s' : File K) (a b c pn : Vec3 K) : Prop :=
  s'.count = s.count + 2 ∧ ∃ p3, ∀ (M : Type) [AddCommMonoid M] (F : Vec3 K → Vec3 K → Vec3 K → M), (∀ a b c, F a b c = F b c a) →
    ∃ R, total F s = R + (F a b c + F b a p3) ∧ total F s' = R + (F a pn c + F pn b c + (F b pn p3 + F pn a p3))

theorem splitAt_step (g : Gauge K) {s : File K} (hs : Sound s) {i k : Nat} (hi : i < s.count) (hk : k < 3) {B : Int} {w : Nat} (hw : w < 3) (hAB : link s ((i : Int), k) = some (B, (w + 1) % 3)) {e : Edge}
    (he : edgeAt s ((i : Int), k) = some e) {a b c : Vec3 K} (ha : vert s ((i : Int), k) = some a) (hb : vert s ((i : Int), (k + 1) % 3) = some b) (hc : vert s ((i : Int), (k + 2) % 3) = some c) {t : K} (h0 : 0 < t) (h1 : t < 1)
    {pn : Vec3 K} (hpn : pn = a + t • (b - a)) : ∃ s', splitAt g s i (i : Int) k e pn b c = some s' ∧ Step s s' ∧ Exchange s s' a b c pn := by
  have hg := hs.good
  have hn := hs.net
  have hBne : B ≠ (i : Int) := hn.self _ _ hAB
  have hBm : B ∈ s.ids := (hn.live hAB).2.1
  have hBn : B < (s.count : Int) := (hs.plain.mem.1 hBm).2
  have hAm : (i : Int) ∈ s.ids := (hn.live hAB).1.1
  have hAn : (i : Int) < (s.count : Int) := by omega
  obtain ⟨p3, h3⟩ := (vert_some hg (B, w)).2 ⟨hBm, hw⟩
  obtain ⟨o1, o2⟩ := hs.opp _ _ hAB
  unfold after at o1 o2
  simp only at o1 o2
  rw [hb] at o1
  rw [ha, show ((w + 1) % 3 + 1) % 3 = (w + 2) % 3 by omega] at o2
  obtain ⟨s', e1, g', pl', cnt, hv, hnet⟩ := splitAt_spec g hg hs.plain hn hi hk hw hAB he (pn := pn) (b := b) (c := c) h3
  set n : Int := (s.count : Int) with hnn
  -- corners afterwards
  have vN : ∀ j, vert s' (n, j) = [pn, b, c][j]? := fun j => by rw [hv]; unfold splitV; rw [if_neg (by simp only; omega), if_pos rfl]
  have vM : ∀ j, vert s' (n + 1, j) = [pn, p3, b][j]? := fun j => by rw [hv]; unfold splitV; rw [if_pos rfl]
  have vB : vert s' (B, (w + 1) % 3) = some pn := by
    rw [hv]; unfold splitV; rw [if_neg (by simp only; omega), if_neg (by simp only; omega), if_pos rfl]
  have vA : vert s' ((i : Int), (k + 1) % 3) = some pn := by
    rw [hv]; unfold splitV; rw [if_neg (by simp only; omega), if_neg (by simp only; omega), if_neg (fun h => hBne (congrArg Prod.fst h).symm), if_pos rfl]
  have vO : ∀ x : Int × Nat, x.1 < n → x ≠ (B, (w + 1) % 3) → x ≠ ((i : Int), (k + 1) % 3) → vert s' x = vert s x := by
    intro x hx h1 h2
    rw [hv]; unfold splitV; rw [if_neg (by omega), if_neg (by omega), if_neg h1, if_neg h2]
  have neAB : ∀ j j' : Nat, ((i : Int), j) ≠ (B, j') := fun j j' h => hBne (congrArg Prod.fst h).symm
  have neBA : ∀ j j' : Nat, (B, j) ≠ ((i : Int), j') := fun j j' h => hBne (congrArg Prod.fst h)
  have vA0 : vert s' ((i : Int), k) = some a := by rw [vO _ hAn (neAB _ _) (by simp; omega), ha]
  have vA2 : vert s' ((i : Int), (k + 2) % 3) = some c := by rw [vO _ hAn (neAB _ _) (by simp; omega), hc]
  have vB0 : vert s' (B, w) = some p3 := by rw [vO _ hBn (by simp; omega) (neBA _ _), h3]
  have vB2 : vert s' (B, (w + 2) % 3) = some a := by rw [vO _ hBn (by simp; omega) (neBA _ _), o2]
  -- edges afterwards
  have eA : ends s' ((i : Int), k) = (some a, some pn) := by unfold ends after; simp only; rw [vA0, vA]
  have eB : ends s' (B, (w + 1) % 3) = (some pn, some a) := by
    unfold ends after; simp only; rw [vB, show ((w + 1) % 3 + 1) % 3 = (w + 2) % 3 by omega, vB2]
  have eO : ∀ x : Int × Nat, x.1 < n → x.2 < 3 → x ≠ ((i : Int), k) → x ≠ (B, (w + 1) % 3) → ends s' (splitR n i k B w x) = ends s x := by
    intro x hx hx3 h1 h2
    by_cases h3' : x = ((i : Int), (k + 1) % 3)
    · rw [h3', splitR_A]
      unfold ends after
      simp only
      rw [vN, vN, hb, show ((k + 1) % 3 + 1) % 3 = (k + 2) % 3 by omega, hc]
      rfl
    · by_cases h4 : x = (B, w)
      · rw [h4, splitR_B hBne]
        unfold ends after
        simp only
        rw [vM, vM, h3, o1]
        rfl
      · rw [splitR_other h3' h4]
        unfold ends after
        rw [vO x hx h2 h3', vO (x.1, (x.2 + 1) % 3) hx]
        · intro h
          obtain ⟨q1, q2⟩ := Prod.mk.inj h
          exact h4 (Prod.ext q1 (by simp only; omega))
        · intro h
          obtain ⟨q1, q2⟩ := Prod.mk.inj h
          exact h1 (Prod.ext q1 (by simp only; omega))
  have hrange : ∀ x y, link s x = some y → y.1 < n ∧ x.1 < n ∧ y.2 < 3 ∧ x.2 < 3 := by
    intro x y hxy
    exact ⟨(hs.plain.mem.1 (hn.live hxy).2.1).2, (hs.plain.mem.1 (hn.live hxy).1.1).2, (hn.live hxy).2.2, (hn.live hxy).1.2⟩
  have hBA := hn.inv _ _ hAB
  have hA_other : ((i : Int), k) ≠ ((i : Int), (k + 1) % 3) := by simp; omega
  have hB_other : (B, (w + 1) % 3) ≠ (B, w) := by simp; omega
  have hopp : ∀ x y, splitL (link s) n i k B w x = some y → Opposed s' x y := by
    intro x y hxy
    rw [opposed_iff]
    rcases split_cases (k := k) (w := w) hAn hBn hBne x with rfl | rfl | rfl | rfl | rfl | rfl | ⟨z, hz, rfl⟩ | ⟨h1, h2⟩
    · rw [splitL_n0, Option.some.injEq] at hxy; rw [← hxy]; simp [ends, after, vN, vM]
    · rw [splitL_m2, Option.some.injEq] at hxy; rw [← hxy]; simp [ends, after, vN, vM]
    · rw [splitL_n2, Option.some.injEq] at hxy
      rw [← hxy]
      simp only [ends, after, vN, vA, show ((k + 1) % 3 + 1) % 3 = (k + 2) % 3 by omega, vA2]
      rfl
    · rw [splitL_A hAn, Option.some.injEq] at hxy
      rw [← hxy]
      simp only [ends, after, vN, vA, show ((k + 1) % 3 + 1) % 3 = (k + 2) % 3 by omega, vA2]
      rfl
    · rw [splitL_m0 hAn, Option.some.injEq] at hxy
      rw [← hxy]
      simp only [ends, after, vM, vB0, vB]
      rfl
    · rw [splitL_B hBne hBn, Option.some.injEq] at hxy
      rw [← hxy]
      simp only [ends, after, vM, vB0, vB]
      rfl
    · rw [splitL_R hBne hAn hBn hz] at hxy
      obtain ⟨y0, hy0, rfl⟩ := Option.map_eq_some_iff.1 hxy
      obtain ⟨q1, q2, q3, q4⟩ := hrange _ _ hy0
      by_cases c1 : z = ((i : Int), k)
      · rw [c1, hAB, Option.some.injEq] at hy0
        rw [c1, ← hy0, splitR_other hA_other (neAB _ _), splitR_other (neBA _ _) hB_other, eA, eB]
        rfl
      · by_cases c2 : z = (B, (w + 1) % 3)
        · rw [c2, hBA, Option.some.injEq] at hy0
          rw [c2, ← hy0, splitR_other hA_other (neAB _ _), splitR_other (neBA _ _) hB_other, eA, eB]
          rfl
        · have c3 : y0 ≠ ((i : Int), k) := by
            intro h
            have := hn.inv _ _ hy0
            rw [h, hAB, Option.some.injEq] at this
            exact c2 this.symm
          have c4 : y0 ≠ (B, (w + 1) % 3) := by
            intro h
            have := hn.inv _ _ hy0
            rw [h, hBA, Option.some.injEq] at this
            exact c1 this.symm
          rw [eO z hz q4 c1 c2, eO y0 q1 q3 c3 c4]
          exact opposed_iff.1 (hs.opp _ _ hy0)
    · rw [splitL_out hAn hBn h1 h2] at hxy
      obtain ⟨y0, hy0, _⟩ := Option.map_eq_some_iff.1 hxy
      have := (hrange _ _ hy0).2.1
      omega
  have hsound := sound_of g' pl' hnet hopp
  have hlink : ∀ x, link s' x = splitL (link s) n i k B w x := hnet.link g' pl'.pos
  have hids : s'.ids = s.ids ++ [n, n + 1] := by
    rw [pl', show s'.ids.length = s.ids.length + 2 from cnt, List.range_succ, List.range_succ, List.map_append, List.map_append, ← hs.plain]
    simp only [List.map_cons, List.map_nil, List.append_assoc, List.cons_append, List.nil_append]
    congr 2
    all_goals first | rfl | (rw [hnn]; unfold Cont.count; push_cast; rfl)
  have hex : Exchange s s' a b c pn := by
    refine ⟨cnt, p3, fun M _ F hF => ?_⟩
    unfold total
    rw [hids, List.map_append, List.sum_append]
    set v := fun id => (match s.get? id with | some f => f.value F | none => 0) with hvdef
    set v' := fun id => (match s'.get? id with | some f => f.value F | none => 0) with hv'def
    have a1 : v i = F a b c := value_of hF hg hk ha hb hc
    have a2 : v' i = F a pn c := value_of hF g' hk vA0 vA vA2
    have a3 : v' n = F pn b c := value_of hF g' (k := 0) (by omega) (by rw [vN]; rfl) (by rw [vN]; rfl) (by rw [vN]; rfl)
    have b1 : v B = F b a p3 := (value_of hF hg hw h3 o1 o2).trans (hF _ _ _)
    have b2 : v' B = F pn a p3 := (value_of hF g' hw vB0 vB vB2).trans (hF _ _ _)
    have b3 : v' (n + 1) = F b pn p3 := (value_of hF g' (k := 0) (by omega) (by rw [vM]; rfl) (by rw [vM]; rfl) (by rw [vM]; rfl)).trans ((hF _ _ _).trans (hF _ _ _))
    have hO : ∀ id ∈ (s.ids.erase (i : Int)).erase B, v' id = v id := by
      intro id hid
      have hnd : (s.ids.erase (i : Int)).Nodup := hs.ok.1.erase _
      have h1 := (hnd.mem_erase_iff).1 hid
      have h2 := (hs.ok.1.mem_erase_iff).1 h1.2
      have hlt := (hs.plain.mem.1 h2.2).2
      have hvv : ∀ j, vert s' (id, j) = vert s (id, j) := fun j => vO (id, j) hlt (fun h => h1.1 (congrArg Prod.fst h)) (fun h => h2.1 (congrArg Prod.fst h))
      obtain ⟨x0, hx0⟩ := (vert_some hg (id, 0)).2 ⟨h2.2, by norm_num⟩
      obtain ⟨x1, hx1⟩ := (vert_some hg (id, 1)).2 ⟨h2.2, by norm_num⟩
      obtain ⟨x2, hx2⟩ := (vert_some hg (id, 2)).2 ⟨h2.2, by norm_num⟩
      rw [show v' id = F x0 x1 x2 from value_of hF g' (k := 0) (by omega) (by rw [hvv]; exact hx0) (by rw [hvv]; exact hx1) (by rw [hvv]; exact hx2)]
      exact (value_of hF hg (k := 0) (by omega) hx0 hx1 hx2).symm
    have hBer : B ∈ s.ids.erase (i : Int) := (hs.ok.1.mem_erase_iff).2 ⟨hBne, hBm⟩
    refine ⟨(((s.ids.erase (i : Int)).erase B).map v).sum, ?_, ?_⟩
    · rw [← List.sum_map_erase v hAm, ← List.sum_map_erase v hBer, a1, b1]
      abel
    · rw [← List.sum_map_erase v' hAm, ← List.sum_map_erase v' hBer, List.map_congr_left hO, a2, b2]
      simp only [List.map_cons, List.map_nil, List.sum_cons, List.sum_nil, add_zero]
      rw [a3, b3]
      abel
  refine ⟨s', e1, ⟨hsound, by omega, ?_, ?_, ?_, ?_⟩, hex⟩
  · intro M _ F hF
    obtain ⟨_, p3, hex⟩ := hex
    obtain ⟨R, r1, r2⟩ := hex M F hF.turn
    have hpn' : pn = b + (1 - t) • (a - b) := by
      rw [hpn]
      ext <;> simp <;> ring
    rw [r1, r2, hF.cut a b c t h0 h1, ← hpn, hF.cut b a p3 (1 - t) (by linarith) (by linarith), ← hpn']
  · obtain ⟨fA, hfA⟩ := (hs.ok.2 _).1 hAm
    obtain ⟨fB, hfB⟩ := (hs.ok.2 _).1 hBm
    have mA : ∀ j v, vert s ((i : Int), j) = some v → v ∈ fA.verts := by
      intro j v h
      simp only [vert, hfA, Option.bind_some] at h
      exact List.mem_of_getElem? h
    have mB : ∀ j v, vert s (B, j) = some v → v ∈ fB.verts := by
      intro j v h
      simp only [vert, hfB, Option.bind_some] at h
      exact List.mem_of_getElem? h
    have pA : InHull fA.verts pn := InHull.cut h0 h1 (mA _ _ ha) (mA _ _ hb) hpn
    have pB : InHull fB.verts pn := by
      have hpn' : pn = b + (1 - t) • (a - b) := by
        rw [hpn]
        ext <;> simp <;> ring
      exact InHull.cut (by linarith : 0 < 1 - t) (by linarith) (mB _ _ o1) (mB _ _ o2) hpn'
    intro id f hf
    have hmem : id ∈ s'.ids := (g'.ok.2 id).2 ⟨f, hf⟩
    rw [hids, List.mem_append] at hmem
    simp only [List.mem_cons, List.not_mem_nil, or_false] at hmem
    rcases hmem with hmem | rfl | rfl
    · have hlt := (hs.plain.mem.1 hmem).2
      by_cases hid : id = (i : Int)
      · refine ⟨(i : Int), fA, hfA, fun v hv' => ?_⟩
        obtain ⟨j, hj, hv'⟩ := (verts_mem g' hf).1 hv'
        by_cases hj1 : j = (k + 1) % 3
        · rw [hid, hj1, vA, Option.some.injEq] at hv'
          rw [← hv']; exact pA
        · rw [hid, vO _ hAn (neAB _ _) (by simpa using hj1)] at hv'
          exact InHull.of_mem (mA _ _ hv')
      · by_cases hidB : id = B
        · refine ⟨B, fB, hfB, fun v hv' => ?_⟩
          obtain ⟨j, hj, hv'⟩ := (verts_mem g' hf).1 hv'
          by_cases hj1 : j = (w + 1) % 3
          · rw [hidB, hj1, vB, Option.some.injEq] at hv'
            rw [← hv']; exact pB
          · rw [hidB, vO _ hBn (by simpa using hj1) (neBA _ _)] at hv'
            exact InHull.of_mem (mB _ _ hv')
        · obtain ⟨f0, hf0⟩ := (hs.ok.2 _).1 hmem
          refine ⟨id, f0, hf0, fun v hv' => ?_⟩
          obtain ⟨j, hj, hv'⟩ := (verts_mem g' hf).1 hv'
          rw [vO _ hlt (fun h => hidB (congrArg Prod.fst h)) (fun h => hid (congrArg Prod.fst h))] at hv'
          exact InHull.of_mem ((verts_mem hg hf0).2 ⟨j, hj, hv'⟩)
    · refine ⟨(i : Int), fA, hfA, fun v hv' => ?_⟩
      obtain ⟨j, hj, hv'⟩ := (verts_mem g' hf).1 hv'
      rw [vN] at hv'
      rcases (by omega : j = 0 ∨ j = 1 ∨ j = 2) with rfl | rfl | rfl <;> simp at hv' <;> subst hv'
      · exact pA
      · exact InHull.of_mem (mA _ _ hb)
      · exact InHull.of_mem (mA _ _ hc)
    · refine ⟨B, fB, hfB, fun v hv' => ?_⟩
      obtain ⟨j, hj, hv'⟩ := (verts_mem g' hf).1 hv'
      rw [vM] at hv'
      rcases (by omega : j = 0 ∨ j = 1 ∨ j = 2) with rfl | rfl | rfl <;> simp at hv' <;> subst hv'
      · exact pB
      · exact InHull.of_mem (mB _ _ h3)
      · exact InHull.of_mem (mB _ _ o1)
  · intro id f hf v hv'
    obtain ⟨j, hj, hvj⟩ := (verts_mem hg hf).1 hv'
    have hmem : id ∈ s.ids := (hg.ok.2 id).2 ⟨f, hf⟩
    have hlt := (hs.plain.mem.1 hmem).2
    have find : ∀ (x : Int × Nat), vert s' x = some v → ∃ id' f', s'.get? id' = some f' ∧ v ∈ f'.verts := by
      intro x hx
      have hcx := (vert_some g' x).1 ⟨v, hx⟩
      obtain ⟨f', hf'⟩ := (g'.ok.2 _).1 hcx.1
      exact ⟨x.1, f', hf', (verts_mem g' hf').2 ⟨x.2, hcx.2, hx⟩⟩
    by_cases h1 : (id, j) = (B, (w + 1) % 3)
    · rw [h1, o1, Option.some.injEq] at hvj
      exact find (n, 1) (by rw [vN, ← hvj]; rfl)
    · by_cases h2 : (id, j) = ((i : Int), (k + 1) % 3)
      · rw [h2, hb, Option.some.injEq] at hvj
        exact find (n, 1) (by rw [vN, ← hvj]; rfl)
      · exact find (id, j) (by rw [vO _ hlt h1 h2, hvj])
  · intro p q
    constructor
    · rintro ⟨x, hx, hp, hq⟩
      have hcx := (vert_some g' x).1 ⟨p, hp⟩
      rw [hlink] at hx
      rcases split_cases (k := k) (w := w) hAn hBn hBne x with rfl | rfl | rfl | rfl | rfl | rfl | ⟨z, hz, rfl⟩ | ⟨h1, h2⟩
      · rw [splitL_n0] at hx; cases hx
      · rw [splitL_m2] at hx; cases hx
      · rw [splitL_n2] at hx; cases hx
      · rw [splitL_A hAn] at hx; cases hx
      · rw [splitL_m0 hAn] at hx; cases hx
      · rw [splitL_B hBne hBn] at hx; cases hx
      · rw [splitL_R hBne hAn hBn hz, Option.map_eq_none_iff] at hx
        have z1 : z ≠ ((i : Int), k) := by rintro rfl; rw [hAB] at hx; cases hx
        have z2 : z ≠ (B, (w + 1) % 3) := by rintro rfl; rw [hBA] at hx; cases hx
        have z3 : z.2 < 3 := by
          have := hcx.2
          unfold splitR at this
          split_ifs at this with q1 q2
          · rw [q1]; exact Nat.mod_lt _ (by decide)
          · rw [q2]; exact hw
          · exact this
        have := eO z hz z3 z1 z2
        unfold ends at this
        rw [hp, hq] at this
        obtain ⟨t1, t2⟩ := Prod.mk.inj this
        exact ⟨z, hx, t1.symm, t2.symm⟩
      · exfalso
        have h3' := hcx.1
        rw [hids, List.mem_append, hs.plain.mem] at h3'
        simp only [List.mem_cons, List.not_mem_nil, or_false] at h3'
        have := h2 x.2 hcx.2
        rcases h3' with h3' | h3' | h3'
        · omega
        · exact this.1 (Prod.ext h3' rfl)
        · exact this.2 (Prod.ext h3' rfl)
    · rintro ⟨z, hz, hp, hq⟩
      have hcz := (vert_some hg z).1 ⟨p, hp⟩
      have hzn := (hs.plain.mem.1 hcz.1).2
      have z1 : z ≠ ((i : Int), k) := by rintro rfl; rw [hAB] at hz; cases hz
      have z2 : z ≠ (B, (w + 1) % 3) := by rintro rfl; rw [hBA] at hz; cases hz
      have := eO z hzn hcz.2 z1 z2
      unfold ends at this
      rw [hp, hq] at this
      obtain ⟨t1, t2⟩ := Prod.mk.inj this
      exact ⟨_, by rw [hlink, splitL_R hBne hAn hBn hzn, hz]; rfl, t1, t2⟩


theorem fraction_spec [FloorRing K] (size dmax : K) : 1 / 3 ≤ fraction size dmax ∧ fraction size dmax ≤ 2 / 3 := by
  have h2 : (1 / 3 : K) ≤ 1 / 2 ∧ (1 / 2 : K) ≤ 2 / 3 := ⟨by norm_num, by norm_num⟩
  unfold fraction
  simp only
  split_ifs with h1 h
  · have hai : (3 : K) ≤ ((⌊dmax / size⌋ : Int) : K) := by exact_mod_cast (by omega : (3 : Int) ≤ ⌊dmax / size⌋)
    set A : K := ((⌊dmax / size⌋ : Int) : K)
    have hpos : (0 : K) < A := by linarith
    have e1 : (1 : K) / 2 / A ≤ 1 / 6 := by
      rw [div_le_iff₀ hpos]; linarith
    have e2 : (0 : K) < 1 / 2 / A := by positivity
    constructor <;> linarith
  · exact h2
  · exact h2

theorem bigEdge_lt (g : Gauge K) (p0 p1 p2 : Vec3 K) : (bigEdge g p0 p1 p2).1 < 3 := by
  unfold bigEdge
  simp only
  split_ifs <;> simp

theorem pick_spec {s : File K} {id : Int} {p0 p1 p2 : Vec3 K} (h0 : vert s (id, 0) = some p0) (h1 : vert s (id, 1) = some p1) (h2 : vert s (id, 2) = some p2) (j : Nat) : vert s (id, j % 3) = some (pick p0 p1 p2 j) := by
  unfold pick
  rcases (by omega : j % 3 = 0 ∨ j % 3 = 1 ∨ j % 3 = 2) with h | h | h <;> rw [h] <;> simp [h0, h1, h2]

theorem splitFacet_step [FloorRing K] (g : Gauge K) (size fq : K) {s : File K} (hs : Sound s) {i : Nat} (hi : i < s.count) :
    ∃ s', splitFacet g size fq s i = some s' ∧ Step s s' ∧ (s' = s ∨ ∃ p0 p1 p2 k, ∃ t : K, fq ≤ g.quality p0 p1 p2 ∧ size < (bigEdge g p0 p1 p2).2 ∧ 1 / 3 ≤ t ∧ t ≤ 2 / 3 ∧
      Exchange s s' (pick p0 p1 p2 k) (pick p0 p1 p2 (k + 1)) (pick p0 p1 p2 (k + 2)) (pick p0 p1 p2 k + t • (pick p0 p1 p2 (k + 1) - pick p0 p1 p2 k))) := by
  have hg := hs.good
  have hn := hs.net
  have hid := hs.plain.idAt hi
  have hm : (i : Int) ∈ s.ids := hs.plain.mem.2 ⟨by omega, by omega⟩
  obtain ⟨p0, h0⟩ := (vert_some hg ((i : Int), 0)).2 ⟨hm, by norm_num⟩
  obtain ⟨p1, h1⟩ := (vert_some hg ((i : Int), 1)).2 ⟨hm, by norm_num⟩
  obtain ⟨p2, h2⟩ := (vert_some hg ((i : Int), 2)).2 ⟨hm, by norm_num⟩
  unfold splitFacet
  simp only [hid, Option.bind_eq_bind, Option.bind_some, vertexOf_eq hg (show 0 < 3 by norm_num), vertexOf_eq hg (show 1 < 3 by norm_num), vertexOf_eq hg (show 2 < 3 by norm_num), h0, h1, h2]
  obtain ⟨k, hk, hke⟩ : ∃ k, k < 3 ∧ (bigEdge g p0 p1 p2).1 = k := ⟨_, bigEdge_lt g p0 p1 p2, rfl⟩
  rw [hke]
  set dmax := (bigEdge g p0 p1 p2).2
  by_cases hc : fq ≤ g.quality p0 p1 p2 ∧ size < dmax
  swap
  · rw [if_neg hc]
    exact ⟨s, rfl, Step.refl hs, Or.inl rfl⟩
  rw [if_pos hc]
  obtain ⟨f0, f1⟩ := fraction_spec size dmax
  rw [if_neg (by linarith)]
  obtain ⟨e, he⟩ := (edgeAt_some hg ((i : Int), k)).2 ⟨hm, hk⟩
  have he' : edge? s (i : Int) k = some e := he
  rw [he']
  simp only [Option.bind_some]
  obtain ⟨e', hee, hp⟩ := hn.pts _ ((edgeAt_some hg _).1 ⟨e, he⟩)
  rw [he, Option.some.injEq] at hee
  subst hee
  cases hl : link s ((i : Int), k) with
  | none =>
    rw [hl] at hp
    rw [if_pos (Or.inr (by rw [hp.2]; norm_num))]
    exact ⟨s, rfl, Step.refl hs, Or.inl rfl⟩
  | some y =>
    rw [hl] at hp
    have hy := (hn.live hl).2.2
    rw [if_neg (by rw [hp.2]; push_cast; omega)]
    have hw : (y.2 + 2) % 3 < 3 := Nat.mod_lt _ (by decide)
    have hy' : y = (y.1, ((y.2 + 2) % 3 + 1) % 3) := Prod.ext rfl (by simp only; omega)
    have ha := pick_spec h0 h1 h2 k
    rw [Nat.mod_eq_of_lt hk] at ha
    obtain ⟨s', r1, r2, r3⟩ := splitAt_step g hs hi hk hw (hl.trans (congrArg some hy')) he ha (pick_spec h0 h1 h2 (k + 1)) (pick_spec h0 h1 h2 (k + 2)) (by linarith : 0 < fraction size dmax) (by linarith) rfl
    refine ⟨s', ?_, r2, Or.inr ⟨p0, p1, p2, k, fraction size dmax, hc.1, hc.2, f0, f1, r3⟩⟩
    rw [← r1]
    congr 1
    ext <;> simp <;> ring

theorem splitLoop_step [FloorRing K] (g : Gauge K) (size fq : K) (rounds : Nat) : ∀ {i : Nat} {s : File K}, Sound s → ∃ s' j, splitLoop g size fq rounds i s = some (s', j) ∧ Step s s' := by
  induction rounds with
  | zero => intro i s hs; exact ⟨s, i, rfl, Step.refl hs⟩
  | succ n ih =>
    intro i s hs
    unfold splitLoop
    by_cases hi : i < s.count
    · rw [if_pos hi]
      obtain ⟨s1, e1, h1, -⟩ := splitFacet_step g size fq hs hi
      simp only [e1, Option.bind_eq_bind, Option.bind_some]
      obtain ⟨s', j, e2, h2⟩ := ih (i := i + 1) h1.sound
      exact ⟨s', j, e2, h1.trans h2⟩
    · rw [if_neg hi]
      exact ⟨s, i, rfl, Step.refl hs⟩

/-! ### The loop ends -/

open Classical in
/-- How often a number is larger than `a0`, when it is cut to two thirds. -/
noncomputable def depth [FloorRing K] (a0 x : K) : Nat := if h : ∃ n : Nat, x < a0 * (3 / 2) ^ n then Nat.find h else 0

theorem depth_ex [FloorRing K] {a0 : K} (h0 : 0 < a0) (x : K) : ∃ n : Nat, x < a0 * (3 / 2) ^ n := by
  have : Archimedean K := FloorRing.archimedean K
  obtain ⟨n, hn⟩ := pow_unbounded_of_one_lt (x / a0) (by norm_num : (1 : K) < 3 / 2)
  exact ⟨n, by rw [div_lt_iff₀ h0] at hn; rw [mul_comm]; exact hn⟩

theorem depth_lt [FloorRing K] {a0 : K} (h0 : 0 < a0) (x : K) : x < a0 * (3 / 2) ^ depth a0 x := by
  classical
  unfold depth
  rw [dif_pos (depth_ex h0 x)]
  exact Nat.find_spec (depth_ex h0 x)

theorem depth_le [FloorRing K] {a0 : K} (h0 : 0 < a0) {x : K} {n : Nat} (h : x < a0 * (3 / 2) ^ n) : depth a0 x ≤ n := by
  classical
  unfold depth
  rw [dif_pos (depth_ex h0 x)]
  exact Nat.find_min' (depth_ex h0 x) h

theorem depth_cut [FloorRing K] {a0 : K} (h0 : 0 < a0) {x y : K} (hy : y ≤ 2 / 3 * x) : depth a0 y ≤ depth a0 x - 1 := by
  have h := depth_lt h0 x
  cases hd : depth a0 x with
  | zero =>
    rw [hd, pow_zero, mul_one] at h
    refine depth_le h0 ?_
    rw [pow_zero, mul_one]
    by_contra hc
    have : x < 0 ∨ 0 ≤ x := lt_or_ge x 0
    rcases this with h1 | h1 <;> linarith
  | succ m =>
    rw [hd, pow_succ] at h
    refine depth_le h0 ?_
    rw [Nat.add_sub_cancel]
    linarith

theorem depth_pos [FloorRing K] {a0 : K} (h0 : 0 < a0) {x : K} (hx : a0 ≤ x) : 1 ≤ depth a0 x := by
  have h := depth_lt h0 x
  rcases Nat.eq_zero_or_pos (depth a0 x) with hd | hd
  · rw [hd, pow_zero, mul_one] at h
    exact absurd hx (not_le.2 h)
  · exact hd

/-- An area: cutting a triangle cuts it in the same ratio. -/
structure AreaLike (ar : Vec3 K → Vec3 K → Vec3 K → K) : Prop where
  nonneg : ∀ a b c, 0 ≤ ar a b c
  turn : ∀ a b c, ar a b c = ar b c a
  cut : ∀ a b c (t : K), 0 < t → t < 1 → ar a (a + t • (b - a)) c = t * ar a b c ∧ ar (a + t • (b - a)) b c = (1 - t) * ar a b c

theorem three_pow {d d1 d2 : Nat} (h1 : d1 ≤ d - 1) (h2 : d2 ≤ d - 1) : (3 ^ d1 - 1) + (3 ^ d2 - 1) ≤ 3 ^ d - 1 ∧ (1 ≤ d → (3 ^ d1 - 1) + (3 ^ d2 - 1) + 2 ≤ 3 ^ d - 1) := by
  have p1 : 3 ^ d1 ≤ 3 ^ (d - 1) := Nat.pow_le_pow_right (by norm_num) h1
  have p2 : 3 ^ d2 ≤ 3 ^ (d - 1) := Nat.pow_le_pow_right (by norm_num) h2
  have q1 : 0 < 3 ^ d1 := by positivity
  have q2 : 0 < 3 ^ d2 := by positivity
  rcases Nat.eq_zero_or_pos d with rfl | hd
  · simp at p1 p2
    omega
  · obtain ⟨m, rfl⟩ : ∃ m, d = m + 1 := ⟨d - 1, by omega⟩
    rw [Nat.add_sub_cancel] at p1 p2
    rw [pow_succ]
    omega

theorem splitFacet_potential [FloorRing K] (g : Gauge K) {size fq a0 : K} {ar : Vec3 K → Vec3 K → Vec3 K → K} (har : AreaLike ar) (h0 : 0 < a0) (hbig : ∀ p0 p1 p2, fq ≤ g.quality p0 p1 p2 → size < (bigEdge g p0 p1 p2).2 → a0 ≤ ar p0 p1 p2)
    {s : File K} (hs : Sound s) {i : Nat} (hi : i < s.count) :
    ∃ s', splitFacet g size fq s i = some s' ∧ Sound s' ∧ s.count ≤ s'.count ∧ s'.count + total (fun a b c => 3 ^ depth a0 (ar a b c) - 1) s' ≤ s.count + total (fun a b c => 3 ^ depth a0 (ar a b c) - 1) s := by
  obtain ⟨s', e1, st, h⟩ := splitFacet_step g size fq hs hi
  refine ⟨s', e1, st.sound, st.more, ?_⟩
  rcases h with rfl | ⟨p0, p1, p2, k, t, hq, hd, t0, t1, hc, p3, hex⟩
  · exact le_refl _
  have ha0 := hbig _ _ _ hq hd
  have hk : ar (pick p0 p1 p2 k) (pick p0 p1 p2 (k + 1)) (pick p0 p1 p2 (k + 2)) = ar p0 p1 p2 := by
    unfold pick
    rcases (by omega : k % 3 = 0 ∨ k % 3 = 1 ∨ k % 3 = 2) with h | h | h
    · simp [h, show (k + 1) % 3 = 1 by omega, show (k + 2) % 3 = 2 by omega]
    · simp [h, show (k + 1) % 3 = 2 by omega, show (k + 2) % 3 = 0 by omega]
      exact (har.turn _ _ _).symm
    · simp [h, show (k + 1) % 3 = 0 by omega, show (k + 2) % 3 = 1 by omega]
      exact har.turn _ _ _
  set a := pick p0 p1 p2 k
  set b := pick p0 p1 p2 (k + 1)
  set c := pick p0 p1 p2 (k + 2)
  set pn := a + t • (b - a) with hpn
  obtain ⟨R, r1, r2⟩ := hex Nat (fun a b c => 3 ^ depth a0 (ar a b c) - 1) (fun a b c => by simp only [har.turn a b c])
  rw [r1, r2, hc]
  have hpn' : pn = b + (1 - t) • (a - b) := by
    rw [hpn]
    ext <;> simp <;> ring
  obtain ⟨c1, c2⟩ := har.cut a b c t (by linarith) (by linarith)
  obtain ⟨c3, c4⟩ := har.cut b a p3 (1 - t) (by linarith) (by linarith)
  rw [← hpn] at c1 c2
  rw [← hpn'] at c3 c4
  have n1 := har.nonneg a b c
  have n2 := har.nonneg b a p3
  have d1 := depth_cut h0 (x := ar a b c) (y := ar a pn c) (by rw [c1]; nlinarith)
  have d2 := depth_cut h0 (x := ar a b c) (y := ar pn b c) (by rw [c2]; nlinarith)
  have d3 := depth_cut h0 (x := ar b a p3) (y := ar b pn p3) (by rw [c3]; nlinarith)
  have d4 := depth_cut h0 (x := ar b a p3) (y := ar pn a p3) (by rw [c4]; nlinarith)
  have e1 := (three_pow d1 d2).2 (depth_pos h0 (by rw [hk]; exact ha0))
  have e2 := (three_pow d3 d4).1
  omega

theorem splitLoop_ends [FloorRing K] (g : Gauge K) {size fq a0 : K} {ar : Vec3 K → Vec3 K → Vec3 K → K} (har : AreaLike ar) (h0 : 0 < a0) (hbig : ∀ p0 p1 p2, fq ≤ g.quality p0 p1 p2 → size < (bigEdge g p0 p1 p2).2 → a0 ≤ ar p0 p1 p2)
    (m : Nat) : ∀ {i : Nat} {s : File K}, Sound s → i ≤ s.count → s.count + total (fun a b c => 3 ^ depth a0 (ar a b c) - 1) s - i ≤ m → ∃ s', ∀ rounds, m ≤ rounds → splitLoop g size fq rounds i s = some (s', s'.count) := by
  induction m with
  | zero =>
    intro i s hs hi hm
    refine ⟨s, fun rounds _ => ?_⟩
    have : i = s.count := by omega
    subst this
    cases rounds with
    | zero => rfl
    | succ r => unfold splitLoop; rw [if_neg (lt_irrefl _)]
  | succ m ih =>
    intro i s hs hi hm
    by_cases hlt : i < s.count
    · obtain ⟨s1, e1, h1, h2, h3⟩ := splitFacet_potential g har h0 hbig hs hlt
      obtain ⟨s', h'⟩ := ih (i := i + 1) h1 (by omega) (by omega)
      refine ⟨s', fun rounds hr => ?_⟩
      obtain ⟨r, rfl⟩ : ∃ r, rounds = r + 1 := ⟨rounds - 1, by omega⟩
      unfold splitLoop
      rw [if_pos hlt]
      simp only [e1, Option.bind_eq_bind, Option.bind_some]
      exact h' r (by omega)
    · have : i = s.count := by omega
      subst this
      refine ⟨s, fun rounds _ => ?_⟩
      cases rounds with
      | zero => rfl
      | succ r => unfold splitLoop; rw [if_neg (lt_irrefl _)]

end
end Stl
end ENigMA
