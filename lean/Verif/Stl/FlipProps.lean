import Verif.Stl.Flip
import Verif.Stl.RelaxProps

/-!
# What the flips of edges do
-/

set_option linter.unusedSectionVars false
set_option autoImplicit false

namespace ENigMA
namespace Stl
variable {K : Type} [Field K] [LinearOrder K] [IsStrictOrderedRing K]

/-- Triangles, glued along opposite edges: as `Sound`, with any ids. -/
structure Web (s : File K) : Prop where
  ok : s.Ok
  tri : Triangular s
  pos : ∀ id ∈ s.ids, 0 ≤ id
  joined : Joined s
  both : Mutual s
  clean : Clean s
  noSelf : NoSelf s

theorem Web.good {s : File K} (h : Web s) : Good s := ⟨h.ok, h.tri⟩

theorem Web.net {s : File K} (h : Web s) : Net s (link s) := (net_iff h.good h.pos).2 ⟨h.both, h.clean, h.noSelf⟩

theorem Web.opp {s : File K} (h : Web s) : ∀ x y, link s x = some y → Opposed s x y := (joined_iff h.good h.pos h.net).1 h.joined

theorem Sound.web {s : File K} (h : Sound s) : Web s := ⟨h.ok, h.tri, h.plain.pos, h.joined, h.both, h.clean, h.noSelf⟩

/-- The first three vertices of a facet are these, up to their turn. -/
def Front (s : File K) (id : Int) (a b c : Vec3 K) : Prop :=
  ∃ f r, s.get? id = some f ∧ (f.verts = a :: b :: c :: r ∨ f.verts = b :: c :: a :: r ∨ f.verts = c :: a :: b :: r)

/-- A quantity of a facet with the first three of its vertices. -/
def Facet.head {M : Type} [AddCommMonoid M] (F : Vec3 K → Vec3 K → Vec3 K → M) (f : Facet K) : M :=
  match f.verts with
  | a :: b :: c :: _ => F a b c
  | _ => 0

/-- Its sum over the facets. -/
def shape {M : Type} [AddCommMonoid M] (F : Vec3 K → Vec3 K → Vec3 K → M) (s : File K) : M :=
  (s.ids.map fun id => match s.get? id with | some f => f.head F | none => 0).sum

theorem shape_eq {M : Type} [AddCommMonoid M] (F : Vec3 K → Vec3 K → Vec3 K → M) {s : File K} (ht : Triangular s) : shape F s = total F s := by
  unfold shape total
  refine congrArg List.sum (List.map_congr_left fun id _ => ?_)
  cases hf : s.get? id with
  | none => rfl
  | some f =>
    obtain ⟨a, b, c, hv, -⟩ := verts_of ht hf
    simp only [Facet.head, Facet.value, hv]

/-- The edge `x`, with `y` at the other side, is one that a flip improves: both facets are nearly in a plane (or the first is tiny), not both of them are empty, and the worse one of the new facets is better than the worse one of the old ones. -/
def Gains (g : Gauge K) (k : Kept K) (swap tiny : K) (s : File K) (x y : Int × Nat) (a b c d : Vec3 K) : Prop :=
  vert s x = some a ∧ vert s (after x) = some b ∧ vert s (after (after x)) = some c ∧ vert s (after (after y)) = some d ∧
    (k.bend x.1 y.1 < swap ∨ k.area x.1 < tiny) ∧ 0 < k.area x.1 + k.area y.1 ∧ min (g.quality a b c) (g.quality b a d) < min (g.quality a d c) (g.quality b c d)

/-- Two pairs of facets have none in common. -/
def Apart (p q : (Int × Nat) × (Int × Nat)) : Prop := p.1.1 ≠ q.1.1 ∧ p.1.1 ≠ q.2.1 ∧ p.2.1 ≠ q.1.1 ∧ p.2.1 ≠ q.2.1

/-- The file `s'` is `s` with the edges in `l` flipped. -/
structure Flips (g : Gauge K) (k : Kept K) (swap tiny : K) (s s' : File K) (marks : List Int) (l : List ((Int × Nat) × (Int × Nat))) : Prop where
  ok : s'.Ok
  ids : s'.ids = s.ids
  edges : ∀ x, edgeAt s' x = edgeAt s x
  listed : ∀ id, id ∈ marks ↔ ∃ p ∈ l, id = p.1.1 ∨ id = p.2.1
  same : ∀ id, id ∉ marks → s'.get? id = s.get? id
  apart : l.Pairwise Apart
  each : ∀ p ∈ l, link s p.1 = some p.2 ∧ ∃ a b c d, Gains g k swap tiny s p.1 p.2 a b c d ∧
    ((Front s' p.1.1 a d c ∧ Front s' p.2.1 b c d) ∨ (Front s' p.1.1 b c d ∧ Front s' p.2.1 a d c))

theorem Flips.refl (g : Gauge K) (k : Kept K) (swap tiny : K) {s : File K} (h : s.Ok) : Flips g k swap tiny s s [] [] :=
  ⟨h, rfl, fun _ => rfl, by simp, fun _ _ => rfl, List.Pairwise.nil, by simp⟩

theorem sum_two {M : Type} [AddCommMonoid M] {l : List Int} (hl : l.Nodup) {a b : Int} (ha : a ∈ l) (hb : b ∈ l) (hab : a ≠ b) {f g : Int → M} (h : ∀ i, i ≠ a → i ≠ b → f i = g i) (hs : f a + f b = g a + g b) :
    (l.map f).sum = (l.map g).sum := by
  rw [← List.sum_toFinset _ hl, ← List.sum_toFinset _ hl]
  have h1 : a ∈ l.toFinset := List.mem_toFinset.2 ha
  have h2 : b ∈ l.toFinset.erase a := Finset.mem_erase.2 ⟨fun h => hab h.symm, List.mem_toFinset.2 hb⟩
  rw [← Finset.add_sum_erase _ _ h1, ← Finset.add_sum_erase _ _ h2, ← Finset.add_sum_erase _ g h1, ← Finset.add_sum_erase _ g h2, ← add_assoc, ← add_assoc, hs]
  refine congrArg _ (Finset.sum_congr rfl fun i hi => h i ?_ ?_)
  · exact (Finset.mem_erase.1 (Finset.mem_erase.1 hi).2).1
  · exact (Finset.mem_erase.1 hi).1

theorem vert_of {s : File K} {id : Int} {f : Facet K} (hf : s.get? id = some f) (j : Nat) : vert s (id, j) = f.verts[j]? := by
  unfold vert
  rw [hf, Option.bind_some]

theorem Flips.step {g : Gauge K} {k : Kept K} {swap tiny : K} {s s1 S : File K} {marks : List Int} {l : List ((Int × Nat) × (Int × Nat))} (h : Flips g k swap tiny s s1 marks l) {id n : Int} {j j' : Nat} (hm : id ∉ marks) (hmn : n ∉ marks)
    (hne : n ≠ id) (hL : link s (id, j) = some (n, j')) {a b c d : Vec3 K} (hG : Gains g k swap tiny s (id, j) (n, j') a b c d) {t1 t2 : Vec3 K × Vec3 K × Vec3 K}
    (hturn : ((t1 = (a, d, c) ∨ t1 = (d, c, a) ∨ t1 = (c, a, d)) ∧ (t2 = (b, c, d) ∨ t2 = (c, d, b) ∨ t2 = (d, b, c))) ∨
      ((t1 = (b, c, d) ∨ t1 = (c, d, b) ∨ t1 = (d, b, c)) ∧ (t2 = (a, d, c) ∨ t2 = (d, c, a) ∨ t2 = (c, a, d)))) {f fn : Facet K} (hf1 : s1.get? id = some f) (hfn' : s1.get? n = some fn)
    (hSok : S.Ok) (hSids : S.ids = s1.ids) (hgn : S.get? n = some { fn with verts := t2.1 :: t2.2.1 :: t2.2.2 :: fn.verts })
    (hgi : S.get? id = some { f with verts := t1.1 :: t1.2.1 :: t1.2.2 :: f.verts }) (hgo : ∀ i, i ≠ id → i ≠ n → S.get? i = s1.get? i) :
    Flips g k swap tiny s S (id :: n :: marks) (((id, j), (n, j')) :: l) := by
  have hr : ∀ t : Vec3 K × Vec3 K × Vec3 K, ∀ u v w : Vec3 K, ∀ i f0, S.get? i = some f0 → ∀ r, f0.verts = t.1 :: t.2.1 :: t.2.2 :: r → (t = (u, v, w) ∨ t = (v, w, u) ∨ t = (w, u, v)) → Front S i u v w := by
    rintro t u v w i f0 hf0 r hr (rfl | rfl | rfl)
    · exact ⟨f0, r, hf0, Or.inl hr⟩
    · exact ⟨f0, r, hf0, Or.inr (Or.inl hr)⟩
    · exact ⟨f0, r, hf0, Or.inr (Or.inr hr)⟩
  refine ⟨hSok, hSids.trans h.ids, ?_, ?_, ?_, ?_, ?_⟩
  · intro x
    rw [← h.edges x]
    unfold edgeAt edge?
    by_cases hxi : x.1 = id
    · rw [hxi, hgi, hf1]; rfl
    · by_cases hxn : x.1 = n
      · rw [hxn, hgn, hfn']; rfl
      · rw [hgo _ hxi hxn]
  · intro i
    rw [List.mem_cons, List.mem_cons, h.listed i]
    constructor
    · rintro (h1 | h1 | ⟨p, h1, h2⟩)
      · exact ⟨_, List.mem_cons_self, Or.inl h1⟩
      · exact ⟨_, List.mem_cons_self, Or.inr h1⟩
      · exact ⟨p, List.mem_cons_of_mem _ h1, h2⟩
    · rintro ⟨p, h1, h2⟩
      rcases List.mem_cons.1 h1 with rfl | h1
      · rcases h2 with h2 | h2
        · exact Or.inl h2
        · exact Or.inr (Or.inl h2)
      · exact Or.inr (Or.inr ⟨p, h1, h2⟩)
  · intro i hi
    simp only [List.mem_cons, not_or] at hi
    rw [hgo i hi.1 hi.2.1]
    exact h.same i hi.2.2
  · rw [List.pairwise_cons]
    refine ⟨fun q hq' => ?_, h.apart⟩
    have w1 := fun i (hi : i ∈ marks) (hi' : i = id) => hm (hi' ▸ hi)
    have w2 := fun i (hi : i ∈ marks) (hi' : i = n) => hmn (hi' ▸ hi)
    have u1 := (h.listed q.1.1).2 ⟨q, hq', Or.inl rfl⟩
    have u2 := (h.listed q.2.1).2 ⟨q, hq', Or.inr rfl⟩
    exact ⟨fun e => w1 _ u1 e.symm, fun e => w1 _ u2 e.symm, fun e => w2 _ u1 e.symm, fun e => w2 _ u2 e.symm⟩
  · intro q hq'
    rcases List.mem_cons.1 hq' with rfl | hq'
    · refine ⟨hL, a, b, c, d, hG, ?_⟩
      rcases hturn with ⟨q1, q2⟩ | ⟨q1, q2⟩
      · exact Or.inl ⟨hr t1 a d c id _ hgi f.verts rfl q1, hr t2 b c d n _ hgn fn.verts rfl q2⟩
      · exact Or.inr ⟨hr t1 b c d id _ hgi f.verts rfl q1, hr t2 a d c n _ hgn fn.verts rfl q2⟩
    · obtain ⟨w1, a', b', c', d', w2, w3⟩ := h.each q hq'
      have keep : ∀ i ∈ marks, ∀ u v w, Front s1 i u v w → Front S i u v w := by
        rintro i hi u v w ⟨f0, r, e1, e2⟩
        exact ⟨f0, r, by rw [hgo i (fun e => hm (e ▸ hi)) (fun e => hmn (e ▸ hi))]; exact e1, e2⟩
      have u1 := (h.listed q.1.1).2 ⟨q, hq', Or.inl rfl⟩
      have u2 := (h.listed q.2.1).2 ⟨q, hq', Or.inr rfl⟩
      refine ⟨w1, a', b', c', d', w2, ?_⟩
      rcases w3 with ⟨e1, e2⟩ | ⟨e1, e2⟩
      · exact Or.inl ⟨keep _ u1 _ _ _ e1, keep _ u2 _ _ _ e2⟩
      · exact Or.inr ⟨keep _ u1 _ _ _ e1, keep _ u2 _ _ _ e2⟩

theorem putFront_eq {s : File K} {id : Int} {f : Facet K} (hf : s.get? id = some f) (t : Vec3 K × Vec3 K × Vec3 K) :
    putFront s id t = some { s with map := s.map.insert id { f with verts := t.1 :: t.2.1 :: t.2.2 :: f.verts } } := Cont.modify_eq hf rfl

/-- One edge of a facet that is not yet marked. -/
theorem flipEdge_spec (g : Gauge K) (hq : ∀ a b c, g.quality a b c = g.quality b c a) (k : Kept K) (swap tiny : K) {s s1 : File K} (hs : Web s) {marks : List Int} {l : List ((Int × Nat) × (Int × Nat))}
    (h : Flips g k swap tiny s s1 marks l) {id : Int} {p0 p1 p2 : Vec3 K} {j : Nat} (hid : id ∈ s.ids) (hm : id ∉ marks) (hj : j < 3) (h0 : vert s (id, 0) = some p0) (h1 : vert s (id, 1) = some p1) (h2 : vert s (id, 2) = some p2) :
    ∃ r, flipEdge g k swap tiny s1 marks id p0 p1 p2 j = some r ∧
      (r = none → ∀ y, link s (id, j) = some y → y.1 ∉ marks → ∀ a b c d, ¬ Gains g k swap tiny s (id, j) y a b c d) ∧
      (∀ st, r = some st → ∃ y, Flips g k swap tiny s st.1 st.2 (((id, j), y) :: l) ∧ (∀ i ∈ marks, i ∈ st.2) ∧ id ∈ st.2) := by
  obtain ⟨e, he, hp⟩ := hs.net.pts (id, j) ⟨hid, hj⟩
  have he1 : edge? s1 id j = some e := (h.edges (id, j)).trans he
  unfold flipEdge
  simp only [he1, Option.bind_eq_bind, Option.bind_some]
  cases hL : link s (id, j) with
  | none =>
    rw [hL] at hp
    rw [if_pos hp.1]
    refine ⟨none, rfl, fun _ y hy => ?_, fun st hst => by cases hst⟩
    cases hy
  | some y =>
    rw [hL] at hp
    obtain ⟨n, j'⟩ := y
    have hlive := (hs.net.live hL).2
    have hnpos := hs.pos _ hlive.1
    have hj' : j' < 3 := hlive.2
    have hne : n ≠ id := hs.net.self _ _ hL
    have hen : e.neighbor = n := hp.1
    have hew : e.whichNot = (((j' + 2) % 3 : Nat) : Int) := hp.2
    simp only at hnpos
    rw [if_neg (by rw [hen]; omega), hen]
    obtain ⟨fn1, hfn1⟩ := (h.ok.2 n).1 (by rw [h.ids]; exact hlive.1)
    rw [hfn1, Option.bind_some]
    by_cases hmn : n ∈ marks
    · rw [if_pos (Or.inl hmn)]
      exact ⟨none, rfl, fun _ y hy hny => by rw [Option.some.injEq] at hy; subst hy; exact absurd hmn hny, fun st hst => by cases hst⟩
    · rw [if_neg (by rw [hew]; push Not; exact ⟨hmn, by omega, by omega⟩), hew, idx_nat, Option.bind_some]
      obtain ⟨f, hf⟩ := (hs.ok.2 id).1 hid
      obtain ⟨fn, hfn⟩ := (hs.ok.2 n).1 hlive.1
      have hf1 : s1.get? id = some f := (h.same id hm).trans hf
      have hfn' : s1.get? n = some fn := (h.same n hmn).trans hfn
      have hvn : ∀ i, i < 3 → vertexOf s1 n i = vert s (n, i) := by
        intro i hi
        rw [← vertexOf_eq hs.good hi]
        unfold vertexOf
        rw [hfn', hfn]
      obtain ⟨n0, n1, n2, hnv, -⟩ := verts_of hs.tri hfn
      have v0 : vert s (n, 0) = some n0 := by rw [vert_of hfn, hnv]; rfl
      have v1 : vert s (n, 1) = some n1 := by rw [vert_of hfn, hnv]; rfl
      have v2 : vert s (n, 2) = some n2 := by rw [vert_of hfn, hnv]; rfl
      obtain ⟨o1, o2⟩ := hs.opp _ _ hL
      obtain ⟨d, hd⟩ := (vert_some hs.good (n, (j' + 2) % 3)).2 ⟨hlive.1, Nat.mod_lt _ (by omega)⟩
      rw [hvn _ (Nat.mod_lt _ (by omega)), hd, Option.bind_some, hvn 0 (by omega), hvn 1 (by omega), hvn 2 (by omega), v0, v1, v2]
      simp only [Option.bind_some]
      -- the corners by name
      obtain ⟨a, ha⟩ := (vert_some hs.good (id, j)).2 ⟨hid, hj⟩
      obtain ⟨b, hb⟩ := (vert_some hs.good (after (id, j))).2 ⟨hid, Nat.mod_lt _ (by omega)⟩
      obtain ⟨c, hc⟩ := (vert_some hs.good (after (after (id, j)))).2 ⟨hid, Nat.mod_lt _ (by omega)⟩
      have hdy : vert s (after (after (n, j'))) = some d := by
        rw [← hd]
        unfold after
        simp only
        congr 2
        omega
      have gains : ∀ a' b' c' d', Gains g k swap tiny s (id, j) (n, j') a' b' c' d' → a' = a ∧ b' = b ∧ c' = c ∧ d' = d := by
        rintro a' b' c' d' ⟨w1, w2, w3, w4, -⟩
        rw [ha, Option.some.injEq] at w1
        rw [hb, Option.some.injEq] at w2
        rw [hc, Option.some.injEq] at w3
        rw [hdy, Option.some.injEq] at w4
        exact ⟨w1.symm, w2.symm, w3.symm, w4.symm⟩
      have qn : g.quality n0 n1 n2 = g.quality b a d := by
        rw [hb] at o1
        rw [ha] at o2
        unfold after at o2
        simp only at o1 o2
        have : j' = 0 ∨ j' = 1 ∨ j' = 2 := by omega
        rcases this with rfl | rfl | rfl
        · simp only [Nat.zero_add, Nat.reduceMod, Nat.reduceAdd] at o1 o2 hd
          rw [v0] at o1; rw [v1] at o2; rw [v2] at hd
          rw [Option.some.injEq] at o1 o2 hd
          rw [o1, o2, hd]
        · simp only [Nat.reduceMod, Nat.reduceAdd] at o1 o2 hd
          rw [v1] at o1; rw [v2] at o2; rw [v0] at hd
          rw [Option.some.injEq] at o1 o2 hd
          rw [o1, o2, hd, hq]
        · simp only [Nat.reduceMod, Nat.reduceAdd] at o1 o2 hd
          rw [v2] at o1; rw [v0] at o2; rw [v1] at hd
          rw [Option.some.injEq] at o1 o2 hd
          rw [o1, o2, hd, hq, hq]
      have qi : g.quality p0 p1 p2 = g.quality a b c := by
        unfold after at hb hc
        simp only at hb hc
        have : j = 0 ∨ j = 1 ∨ j = 2 := by omega
        rcases this with rfl | rfl | rfl
        · simp only [Nat.zero_add, Nat.reduceMod, Nat.reduceAdd] at ha hb hc
          rw [h0, Option.some.injEq] at ha; rw [h1, Option.some.injEq] at hb; rw [h2, Option.some.injEq] at hc
          rw [ha, hb, hc]
        · simp only [Nat.reduceMod, Nat.reduceAdd] at ha hb hc
          rw [h1, Option.some.injEq] at ha; rw [h2, Option.some.injEq] at hb; rw [h0, Option.some.injEq] at hc
          rw [ha, hb, hc, hq]
        · simp only [Nat.reduceMod, Nat.reduceAdd] at ha hb hc
          rw [h2, Option.some.injEq] at ha; rw [h0, Option.some.injEq] at hb; rw [h1, Option.some.injEq] at hc
          rw [ha, hb, hc, hq, hq]
      have turns : ∃ t1 t2 : Vec3 K × Vec3 K × Vec3 K, flipped p0 p1 p2 d j = (t1, t2) ∧
          (((t1 = (a, d, c) ∨ t1 = (d, c, a) ∨ t1 = (c, a, d)) ∧ (t2 = (b, c, d) ∨ t2 = (c, d, b) ∨ t2 = (d, b, c))) ∨
          ((t1 = (b, c, d) ∨ t1 = (c, d, b) ∨ t1 = (d, b, c)) ∧ (t2 = (a, d, c) ∨ t2 = (d, c, a) ∨ t2 = (c, a, d)))) := by
        unfold after at hb hc
        simp only at hb hc
        have : j = 0 ∨ j = 1 ∨ j = 2 := by omega
        rcases this with rfl | rfl | rfl
        · simp only [Nat.zero_add, Nat.reduceMod, Nat.reduceAdd] at ha hb hc
          rw [h0, Option.some.injEq] at ha; rw [h1, Option.some.injEq] at hb; rw [h2, Option.some.injEq] at hc
          subst ha hb hc
          exact ⟨_, _, rfl, Or.inl ⟨Or.inl rfl, Or.inl rfl⟩⟩
        · simp only [Nat.reduceMod, Nat.reduceAdd] at ha hb hc
          rw [h1, Option.some.injEq] at ha; rw [h2, Option.some.injEq] at hb; rw [h0, Option.some.injEq] at hc
          subst ha hb hc
          exact ⟨_, _, rfl, Or.inl ⟨Or.inr (Or.inr rfl), Or.inr (Or.inl rfl)⟩⟩
        · simp only [Nat.reduceMod, Nat.reduceAdd] at ha hb hc
          rw [h2, Option.some.injEq] at ha; rw [h0, Option.some.injEq] at hb; rw [h1, Option.some.injEq] at hc
          subst ha hb hc
          exact ⟨_, _, rfl, Or.inr ⟨Or.inl rfl, Or.inr (Or.inr rfl)⟩⟩
      obtain ⟨t1, t2, ht, hturn⟩ := turns
      rw [ht]
      have qf : min (g.quality t1.1 t1.2.1 t1.2.2) (g.quality t2.1 t2.2.1 t2.2.2) = min (g.quality a d c) (g.quality b c d) := by
        have r1 : ∀ t : Vec3 K × Vec3 K × Vec3 K, (t = (a, d, c) ∨ t = (d, c, a) ∨ t = (c, a, d)) → g.quality t.1 t.2.1 t.2.2 = g.quality a d c := by
          rintro t (rfl | rfl | rfl)
          · rfl
          · exact (hq _ _ _).symm
          · exact hq _ _ _
        have r2 : ∀ t : Vec3 K × Vec3 K × Vec3 K, (t = (b, c, d) ∨ t = (c, d, b) ∨ t = (d, b, c)) → g.quality t.1 t.2.1 t.2.2 = g.quality b c d := by
          rintro t (rfl | rfl | rfl)
          · rfl
          · exact (hq _ _ _).symm
          · exact hq _ _ _
        rcases hturn with ⟨q1, q2⟩ | ⟨q1, q2⟩
        · rw [r1 _ q1, r2 _ q2]
        · rw [r2 _ q1, r1 _ q2, min_comm]
      simp only at qf ⊢
      by_cases hnear : k.bend id n < swap ∨ k.area id < tiny
      · rw [if_pos hnear]
        by_cases hgain : min (g.quality p0 p1 p2) (g.quality n0 n1 n2) < min (g.quality t1.1 t1.2.1 t1.2.2) (g.quality t2.1 t2.2.1 t2.2.2) ∧ 0 < k.area id + k.area n
        · rw [if_pos hgain]
          rw [putFront_eq hf1, Option.bind_some, putFront_eq (f := fn) (by rw [Cont.get?_put, if_neg hne, hfn']), Option.bind_some]
          refine ⟨_, rfl, (fun hr => by cases hr), fun st hst => ?_⟩
          rw [Option.some.injEq] at hst
          subst hst
          have hget : ∀ i, (Cont.get? (Cont.mk ((s1.map.insert id { f with verts := t1.1 :: t1.2.1 :: t1.2.2 :: f.verts }).insert n { fn with verts := t2.1 :: t2.2.1 :: t2.2.2 :: fn.verts }) s1.ids s1.indices s1.counter) i) =
              if i = n then some { fn with verts := t2.1 :: t2.2.1 :: t2.2.2 :: fn.verts } else if i = id then some { f with verts := t1.1 :: t1.2.1 :: t1.2.2 :: f.verts } else s1.get? i := by
            intro i
            rw [show (Cont.mk ((s1.map.insert id { f with verts := t1.1 :: t1.2.1 :: t1.2.2 :: f.verts }).insert n { fn with verts := t2.1 :: t2.2.1 :: t2.2.2 :: fn.verts }) s1.ids s1.indices s1.counter) =
              (Cont.mk ((Cont.mk (s1.map.insert id { f with verts := t1.1 :: t1.2.1 :: t1.2.2 :: f.verts }) s1.ids s1.indices s1.counter).map.insert n { fn with verts := t2.1 :: t2.2.1 :: t2.2.2 :: fn.verts }) s1.ids s1.indices s1.counter) from rfl]
            rw [Cont.get?_put]
            by_cases hi : i = n
            · rw [if_pos hi, if_pos hi]
            · rw [if_neg hi, if_neg hi]
              exact Cont.get?_put _ _ _ _
          generalize hS : (Cont.mk ((s1.map.insert id { f with verts := t1.1 :: t1.2.1 :: t1.2.2 :: f.verts }).insert n { fn with verts := t2.1 :: t2.2.1 :: t2.2.2 :: fn.verts }) s1.ids s1.indices s1.counter) = S at hget
          have hSids : S.ids = s1.ids := by rw [← hS]
          have hgn : S.get? n = some { fn with verts := t2.1 :: t2.2.1 :: t2.2.2 :: fn.verts } := by rw [hget, if_pos rfl]
          have hgi : S.get? id = some { f with verts := t1.1 :: t1.2.1 :: t1.2.2 :: f.verts } := by rw [hget, if_neg (fun h => hne h.symm), if_pos rfl]
          have hgo : ∀ i, i ≠ id → i ≠ n → S.get? i = s1.get? i := fun i h1 h2 => by rw [hget, if_neg h2, if_neg h1]
          refine ⟨(n, j'), h.step hm hmn hne hL ⟨ha, hb, hc, hdy, hnear, hgain.2, by rw [← qi, ← qn, ← qf]; exact hgain.1⟩ hturn hf1 hfn' ?_ hSids hgn hgi hgo, fun i hi => by simp [hi], by simp⟩
          rw [← hS]
          exact Cont.put_ok (c := Cont.mk (s1.map.insert id { f with verts := t1.1 :: t1.2.1 :: t1.2.2 :: f.verts }) s1.ids s1.indices s1.counter) (Cont.put_ok h.ok hf1) (by rw [Cont.get?_put, if_neg hne]; exact hfn')
        · rw [if_neg hgain]
          refine ⟨none, rfl, fun _ y hy _ a' b' c' d' hG => hgain ?_, fun st hst => by cases hst⟩
          rw [Option.some.injEq] at hy
          subst hy
          obtain ⟨rfl, rfl, rfl, rfl⟩ := gains _ _ _ _ hG
          exact ⟨by rw [qi, qn, qf]; exact hG.2.2.2.2.2.2, hG.2.2.2.2.2.1⟩
      · rw [if_neg hnear]
        refine ⟨none, rfl, fun _ y hy _ a' b' c' d' hG => hnear ?_, fun st hst => by cases hst⟩
        rw [Option.some.injEq] at hy
        subst hy
        exact hG.2.2.2.2.1

/-- The edge `x` of a facet stays although a flip improves it only if one of the two facets has been changed. -/
def Spent (g : Gauge K) (k : Kept K) (swap tiny : K) (s : File K) (marks : List Int) (id : Int) : Prop :=
  id ∉ marks → ∀ j y, j < 3 → link s (id, j) = some y → y.1 ∉ marks → ∀ a b c d, ¬ Gains g k swap tiny s (id, j) y a b c d

theorem Spent.mono {g : Gauge K} {k : Kept K} {swap tiny : K} {s : File K} {m m' : List Int} {id : Int} (h : Spent g k swap tiny s m id) (hm : ∀ i ∈ m, i ∈ m') : Spent g k swap tiny s m' id :=
  fun h1 j y hj hy h2 => h (fun e => h1 (hm _ e)) j y hj hy (fun e => h2 (hm _ e))

theorem flipEdgesOf_spec (g : Gauge K) (hq : ∀ a b c, g.quality a b c = g.quality b c a) (k : Kept K) (swap tiny : K) {s : File K} (hs : Web s) {st : File K × List Int} {l : List ((Int × Nat) × (Int × Nat))}
    (h : Flips g k swap tiny s st.1 st.2 l) {id : Int} {p0 p1 p2 : Vec3 K} (hid : id ∈ s.ids) (hm : id ∉ st.2) (h0 : vert s (id, 0) = some p0) (h1 : vert s (id, 1) = some p1) (h2 : vert s (id, 2) = some p2) (js : List Nat) (hj : ∀ j ∈ js, j < 3) :
    ∃ st' l', flipEdgesOf g k swap tiny st id p0 p1 p2 js = some st' ∧ Flips g k swap tiny s st'.1 st'.2 l' ∧ (∀ i ∈ st.2, i ∈ st'.2) ∧
      (id ∉ st'.2 → ∀ j ∈ js, ∀ y, link s (id, j) = some y → y.1 ∉ st'.2 → ∀ a b c d, ¬ Gains g k swap tiny s (id, j) y a b c d) := by
  induction js with
  | nil => exact ⟨st, l, rfl, h, fun _ hi => hi, fun _ j hj => by cases hj⟩
  | cons j js ih =>
    obtain ⟨r, e1, e2, e3⟩ := flipEdge_spec g hq k swap tiny hs h hid hm (hj j (by simp)) h0 h1 h2
    unfold flipEdgesOf
    rw [e1]
    simp only [Option.bind_eq_bind, Option.bind_some]
    cases r with
    | some st' =>
      obtain ⟨y, f1, f2, f3⟩ := e3 st' rfl
      exact ⟨st', _, rfl, f1, f2, fun hn => absurd f3 hn⟩
    | none =>
      obtain ⟨st', l', f1, f2, f3, f4⟩ := ih fun j hj' => hj j (by simp [hj'])
      refine ⟨st', l', f1, f2, f3, fun hn i hi y hy hny => ?_⟩
      rcases List.mem_cons.1 hi with rfl | hi
      · exact e2 rfl y hy fun hh => hny (f3 _ hh)
      · exact f4 hn i hi y hy hny

theorem flipFacet_spec (g : Gauge K) (hq : ∀ a b c, g.quality a b c = g.quality b c a) (k : Kept K) (swap tiny : K) {s : File K} (hs : Web s) {st : File K × List Int} {l : List ((Int × Nat) × (Int × Nat))}
    (h : Flips g k swap tiny s st.1 st.2 l) {i : Nat} {id : Int} (hi : s.ids[i]? = some id) :
    ∃ st' l', flipFacet g k swap tiny st i = some st' ∧ Flips g k swap tiny s st'.1 st'.2 l' ∧ (∀ i ∈ st.2, i ∈ st'.2) ∧ Spent g k swap tiny s st'.2 id := by
  have hat : st.1.idAt? i = some id := by unfold Cont.idAt?; rw [h.ids]; exact hi
  have hid : id ∈ s.ids := List.mem_of_getElem? hi
  unfold flipFacet
  simp only [hat, Option.bind_eq_bind, Option.bind_some]
  by_cases hm : id ∈ st.2
  · rw [if_pos hm]
    exact ⟨st, l, rfl, h, fun _ hi => hi, fun hn => absurd hm hn⟩
  · rw [if_neg hm]
    have hv : ∀ j, j < 3 → vertexOf st.1 id j = vert s (id, j) := by
      intro j hj
      rw [← vertexOf_eq hs.good hj]
      unfold vertexOf
      rw [h.same id hm]
    obtain ⟨p0, h0⟩ := (vert_some hs.good (id, 0)).2 ⟨hid, by simp⟩
    obtain ⟨p1, h1⟩ := (vert_some hs.good (id, 1)).2 ⟨hid, by simp⟩
    obtain ⟨p2, h2⟩ := (vert_some hs.good (id, 2)).2 ⟨hid, by simp⟩
    rw [hv 0 (by omega), hv 1 (by omega), hv 2 (by omega), h0, h1, h2]
    simp only [Option.bind_some]
    obtain ⟨st', l', e1, e2, e3, e4⟩ := flipEdgesOf_spec g hq k swap tiny hs h hid hm h0 h1 h2 [0, 1, 2] (by simp)
    exact ⟨st', l', e1, e2, e3, fun hn j y hj hy hny => e4 hn j (by simp; omega) y hy hny⟩

theorem flipEdges_spec (g : Gauge K) (hq : ∀ a b c, g.quality a b c = g.quality b c a) (k : Kept K) (swap tiny : K) {s : File K} (hs : Web s) :
    ∃ s' marks l, flipEdges g k swap tiny s = some s' ∧ Flips g k swap tiny s s' marks l ∧ ∀ id ∈ s.ids, Spent g k swap tiny s marks id := by
  have key : ∀ n ≤ s.count, ∃ st l, (List.range n).foldlM (fun st i => flipFacet g k swap tiny st i) (s, []) = some st ∧ Flips g k swap tiny s st.1 st.2 l ∧ ∀ i < n, ∀ id, s.ids[i]? = some id → Spent g k swap tiny s st.2 id := by
    intro n
    induction n with
    | zero => exact fun _ => ⟨(s, []), [], rfl, Flips.refl g k swap tiny hs.ok, fun i hi => by omega⟩
    | succ n ih =>
      intro hn
      obtain ⟨st, l, h1, h2, h3⟩ := ih (by omega)
      have hlt : n < s.ids.length := by unfold Cont.count at hn; omega
      obtain ⟨st', l', e1, e2, e3, e4⟩ := flipFacet_spec g hq k swap tiny hs h2 (List.getElem?_eq_getElem hlt)
      refine ⟨st', l', ?_, e2, fun i hi id hid => ?_⟩
      · rw [List.range_succ, List.foldlM_append, h1]
        simp [e1]
      · by_cases hin : i = n
        · subst hin
          rw [List.getElem?_eq_getElem hlt, Option.some.injEq] at hid
          subst hid
          exact e4
        · exact (h3 i (by omega) id hid).mono e3
  obtain ⟨st, l, h1, h2, h3⟩ := key s.count le_rfl
  refine ⟨st.1, st.2, l, ?_, h2, fun id hid => ?_⟩
  · unfold flipEdges
    rw [h1]; rfl
  · obtain ⟨i, hi, e⟩ := List.getElem_of_mem hid
    exact h3 i hi id (by rw [List.getElem?_eq_getElem hi, e])

/-! ### What stays the same -/

theorem sum_pairs {M : Type} [AddCommMonoid M] {ids : List Int} (hl : ids.Nodup) (l : List ((Int × Nat) × (Int × Nat))) : ∀ {f g : Int → M}, l.Pairwise Apart → (∀ p ∈ l, p.1.1 ∈ ids ∧ p.2.1 ∈ ids ∧ p.1.1 ≠ p.2.1 ∧ f p.1.1 + f p.2.1 = g p.1.1 + g p.2.1) →
    (∀ i, (∀ p ∈ l, i ≠ p.1.1 ∧ i ≠ p.2.1) → f i = g i) → (ids.map f).sum = (ids.map g).sum := by
  induction l with
  | nil =>
    intro f g _ _ h
    exact congrArg List.sum (List.map_congr_left fun i _ => h i (by simp))
  | cons p l ih =>
    intro f g hp h1 h2
    rw [List.pairwise_cons] at hp
    obtain ⟨m1, m2, m3, m4⟩ := h1 p (by simp)
    let g' : Int → M := fun i => if i = p.1.1 ∨ i = p.2.1 then f i else g i
    have e1 : g' p.1.1 = f p.1.1 := if_pos (Or.inl rfl)
    have e2 : g' p.2.1 = f p.2.1 := if_pos (Or.inr rfl)
    have e3 : ∀ i, i ≠ p.1.1 → i ≠ p.2.1 → g' i = g i := fun i a b => if_neg (by tauto)
    rw [ih (f := f) (g := g') hp.2 ?_ ?_]
    · exact sum_two hl m1 m2 m3 e3 (by rw [e1, e2, m4])
    · intro q hq
      obtain ⟨n1, n2, n3, n4⟩ := h1 q (by simp [hq])
      obtain ⟨a1, a2, a3, a4⟩ := hp.1 q hq
      exact ⟨n1, n2, n3, by rw [e3 _ (fun h => a1 h.symm) (fun h => a3 h.symm), e3 _ (fun h => a2 h.symm) (fun h => a4 h.symm), n4]⟩
    · intro i hi
      by_cases ha : i = p.1.1
      · rw [ha, e1]
      · by_cases hb : i = p.2.1
        · rw [hb, e2]
        · rw [e3 i ha hb]
          refine h2 i fun q hq => ?_
          rcases List.mem_cons.1 hq with rfl | hq
          · exact ⟨ha, hb⟩
          · exact hi q hq

theorem Front.head {M : Type} [AddCommMonoid M] {F : Vec3 K → Vec3 K → Vec3 K → M} (hF : ∀ a b c, F a b c = F b c a) {s : File K} {id : Int} {a b c : Vec3 K} (h : Front s id a b c) : (match s.get? id with | some f => f.head F | none => 0) = F a b c := by
  obtain ⟨f, r, hf, h⟩ := h
  rw [hf]
  rcases h with h | h | h
  · simp only [Facet.head, h]
  · simp only [Facet.head, h]; exact (hF _ _ _).symm
  · simp only [Facet.head, h]; exact hF _ _ _

theorem front_old {s : File K} (hg : Good s) {x : Int × Nat} (hx : x.2 < 3) {a b c : Vec3 K} (ha : vert s x = some a) (hb : vert s (after x) = some b) (hc : vert s (after (after x)) = some c) : Front s x.1 a b c := by
  obtain ⟨id, j⟩ := x
  unfold after at hb hc
  simp only at hx hb hc
  obtain ⟨hid, -⟩ := (vert_some hg _).1 ⟨a, ha⟩
  obtain ⟨f, hf⟩ := (hg.ok.2 _).1 hid
  obtain ⟨p, q, r, hv, -⟩ := verts_of hg.tri hf
  rw [vert_of hf, hv] at ha hb hc
  refine ⟨f, [], hf, ?_⟩
  rw [hv]
  have : j = 0 ∨ j = 1 ∨ j = 2 := by omega
  rcases this with rfl | rfl | rfl <;> simp at ha hb hc <;> subst ha hb hc <;> simp

theorem Flips.shape {M : Type} [AddCommGroup M] {F : Vec3 K → Vec3 K → Vec3 K → M} {H : Vec3 K → Vec3 K → M} (hF : OfEdges F H) {g : Gauge K} {k : Kept K} {swap tiny : K} {s s' : File K} (hs : Web s) {marks : List Int}
    {l : List ((Int × Nat) × (Int × Nat))} (h : Flips g k swap tiny s s' marks l) : shape F s' = shape F s := by
  have cyc : ∀ a b c, F a b c = F b c a := fun a b c => by rw [hF.sum, hF.sum]; abel
  unfold Stl.shape
  rw [h.ids]
  refine sum_pairs hs.ok.1 l h.apart ?_ ?_
  · intro p hp
    obtain ⟨hL, a, b, c, d, ⟨ha, hb, hc, hd, -⟩, hfr⟩ := h.each p hp
    have hl := hs.net.live hL
    obtain ⟨o1, o2⟩ := hs.opp _ _ hL
    have f1 := (front_old hs.good hl.1.2 ha hb hc).head cyc
    have f2 := (front_old hs.good hl.2.2 (o1.trans hb) (o2.trans ha) hd).head cyc
    refine ⟨hl.1.1, hl.2.1, fun e => hs.net.self _ _ hL e.symm, ?_⟩
    rw [f1, f2]
    rcases hfr with ⟨g1, g2⟩ | ⟨g1, g2⟩
    · rw [g1.head cyc, g2.head cyc]
      simp only [hF.sum]
      rw [hF.turn b a, hF.turn d c]
      abel
    · rw [g1.head cyc, g2.head cyc]
      simp only [hF.sum]
      rw [hF.turn b a, hF.turn d c]
      abel
  · intro i hi
    rw [h.same i]
    rw [h.listed i]
    rintro ⟨p, hp, e⟩
    rcases e with e | e
    · exact (hi p hp).1 e
    · exact (hi p hp).2 e

end Stl
end ENigMA
