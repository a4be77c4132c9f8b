import Verif.Stl.Connect
import Verif.Stl.Fan
import Verif.Stl.FileProps

/-!
# What the neighbours and the mesh of a surface are
-/

set_option linter.unusedSectionVars false
set_option autoImplicit false

namespace ENigMA
namespace Stl
variable {K : Type}

theorem mem_corners {s : File K} {c : Int × Nat} : c ∈ corners s ↔ c.1 ∈ s.ids ∧ c.2 < 3 := by
  simp only [corners, List.mem_flatMap, List.mem_cons, List.not_mem_nil, or_false]
  constructor
  · rintro ⟨id, hid, rfl | rfl | rfl⟩ <;> exact ⟨hid, by simp⟩
  · rintro ⟨hid, h⟩
    refine ⟨c.1, hid, ?_⟩
    obtain ⟨a, b⟩ := c
    simp only at h ⊢
    simp only [Prod.mk.injEq, true_and]
    omega

theorem corners_nodup {s : File K} (hs : s.Ok) : (corners s).Nodup := by
  unfold corners
  rw [List.nodup_flatMap]
  refine ⟨fun id _ => by simp, ?_⟩
  refine hs.1.imp ?_
  intro a b hab
  rw [Function.onFun, List.disjoint_left]
  intro c hc hd
  simp only [List.mem_cons, List.not_mem_nil, or_false] at hc hd
  apply hab
  rcases hc with rfl | rfl | rfl <;> rcases hd with h | h | h <;> exact (Prod.mk.inj h).1

/-! ### The connectivity -/

section
variable [Field K] [LinearOrder K]

theorem forEdges_spec {s : File K} {step : Int → Nat → Facet K → Option (Facet K)} (U : Int → Nat → Edge → Edge) 
    (hstep : ∀ id j f0 f, s.get? id = some f0 → j < 3 → f.verts = f0.verts → f.edges.length = 3 →
      ∃ e, f.edges[j]? = some e ∧ step id j f = some { f with edges := f.edges.set j (U id j e) }) (l : List (Int × Nat)) :
    ∀ s0 : File K, s0.Ok → (∀ id f, s0.get? id = some f → ∃ f0, s.get? id = some f0 ∧ f.verts = f0.verts ∧ f.edges.length = 3) → l.Nodup → (∀ c ∈ l, c.1 ∈ s0.ids ∧ c.2 < 3) →
    ∃ s', forEdges step l s0 = some s' ∧ s'.Ok ∧ s'.ids = s0.ids ∧ ∀ id f, s0.get? id = some f → ∃ f', s'.get? id = some f' ∧ f'.verts = f.verts ∧ f'.normal = f.normal ∧ f'.extra = f.extra ∧
      f'.edges.length = 3 ∧ ∀ (j : Nat) e, f.edges[j]? = some e → f'.edges[j]? = some (if (id, j) ∈ l then U id j e else e) := by
  induction l with
  | nil =>
    intro s0 h hv _ _
    exact ⟨s0, rfl, h, rfl, fun id f hf => ⟨f, hf, rfl, rfl, rfl, (hv id f hf).choose_spec.2.2, by simp⟩⟩
  | cons c t ih =>
    intro s0 h hv hnd hl
    rw [List.nodup_cons] at hnd
    obtain ⟨id0, j0⟩ := c
    obtain ⟨hid, hj⟩ := hl (id0, j0) (by simp)
    simp only at hid hj
    obtain ⟨f, hf⟩ := (h.2 id0).1 hid
    obtain ⟨f0, hf0, hvf, hlen⟩ := hv id0 f hf
    obtain ⟨e0, he0, hst⟩ := hstep id0 j0 f0 f hf0 hj hvf hlen
    have hm := Cont.modify_eq hf hst
    have hok : (Cont.mk (s0.map.insert id0 { f with edges := f.edges.set j0 (U id0 j0 e0) }) s0.ids s0.indices s0.counter).Ok := Cont.put_ok h hf
    have hget : ∀ k, (Cont.mk (s0.map.insert id0 { f with edges := f.edges.set j0 (U id0 j0 e0) }) s0.ids s0.indices s0.counter).get? k = if k = id0 then some { f with edges := f.edges.set j0 (U id0 j0 e0) } else s0.get? k := fun k => Cont.get?_put _ _ _ _
    obtain ⟨s', r1, r2, r3, r4⟩ := ih _ hok (by
      intro id g hg
      rw [hget] at hg
      split_ifs at hg with hk
      · rw [Option.some.injEq] at hg
        subst hg; subst hk
        exact ⟨f0, hf0, hvf, by simpa using hlen⟩
      · exact hv id g hg) hnd.2 (fun c hc => hl c (List.mem_cons_of_mem _ hc))
    refine ⟨s', ?_, r2, r3, ?_⟩
    · simp only [forEdges, hm, Option.bind_eq_bind, Option.bind_some]
      exact r1
    · intro id g hg
      by_cases hk : id = id0
      · subst hk
        rw [hf, Option.some.injEq] at hg
        subst hg
        obtain ⟨f', q1, q2, q3, q4, q5, q6⟩ := r4 id _ ((hget id).trans (if_pos rfl))
        refine ⟨f', q1, q2, q3, q4, q5, ?_⟩
        intro j e he
        by_cases hjj : j = j0
        · subst hjj
          rw [he0, Option.some.injEq] at he
          subst he
          have := q6 j (U id j e0) (by
            simp only
            rw [List.getElem?_set_self (by rw [hlen]; exact hj)])
          rw [this, if_neg hnd.1, if_pos (by simp)]
        · have := q6 j e (by
            simp only
            rw [List.getElem?_set_ne (Ne.symm hjj)]; exact he)
          rw [this]
          simp [hjj]
      · obtain ⟨f', q1, q2, q3, q4, q5, q6⟩ := r4 id g ((hget id).trans (by rw [if_neg hk]; exact hg))
        refine ⟨f', q1, q2, q3, q4, q5, ?_⟩
        intro j e he
        rw [q6 j e he]
        simp [hk]

/-- The middle of an edge of the surface. -/
def MidOf (s : File K) (id : Int) (j : Nat) (c : Vec3 K) : Prop :=
  ∃ f p q, s.get? id = some f ∧ j < 3 ∧ f.verts[j]? = some p ∧ f.verts[(j + 1) % 3]? = some q ∧ c = (1 / 2 : K) • (p + q)

theorem mid_some {f : Facet K} (h : f.verts.length = 3) {j : Nat} (hj : j < 3) :
    ∃ p q, f.verts[j]? = some p ∧ f.verts[(j + 1) % 3]? = some q ∧ f.mid j = some ((1 / 2 : K) • (p + q)) := by
  obtain ⟨a, b, c, hv⟩ := List.length_eq_three.1 h
  rcases (by omega : j = 0 ∨ j = 1 ∨ j = 2) with rfl | rfl | rfl
  · exact ⟨a, b, by simp [hv], by simp [hv], by simp [Facet.mid, Facet.vertex?, hv]⟩
  · exact ⟨b, c, by simp [hv], by simp [hv], by simp [Facet.mid, Facet.vertex?, hv]⟩
  · exact ⟨c, a, by simp [hv], by simp [hv], by simp [Facet.mid, Facet.vertex?, hv]⟩

theorem midOf_iff {s : File K} (ht : Triangular s) {id : Int} {f : Facet K} (hf : s.get? id = some f) {j : Nat} (hj : j < 3) (c : Vec3 K) : MidOf s id j c ↔ f.mid j = some c := by
  obtain ⟨p, q, hp, hq, hm⟩ := mid_some (ht id f hf).1 hj
  rw [hm, Option.some.injEq]
  constructor
  · rintro ⟨f', p', q', hf', _, hp', hq', rfl⟩
    rw [hf, Option.some.injEq] at hf'
    subst hf'
    rw [hp, Option.some.injEq] at hp'
    rw [hq, Option.some.injEq] at hq'
    rw [hp', hq']
  · rintro rfl
    exact ⟨f, p, q, hf, hj, hp, hq, rfl⟩

variable [IsStrictOrderedRing K] [FloorRing K]

/-- The middles of the edges can be put in a hash grid (C13). -/
def MidsGridable (mc : HashGrid.Machine K) (s : File K) : Prop :=
  0 < mc.eps ∧ 0 < mc.big ∧ (∀ id j c, MidOf s id j c → c.Bounded mc.big) ∧
  (mc.bad ≠ none ∨ s.ids = [] ∨ ∃ i j k l c d, MidOf s i j c ∧ MidOf s k l d ∧ c ≠ d)

theorem grid_of_mids {mc : HashGrid.Machine K} {s : File K} (hs : s.Ok) (ht : Triangular s) (hg : MidsGridable mc s) (tol : K) :
    ∃ objs g, ((corners s).mapM fun c => do
        let f ← s.get? c.1
        let p ← f.mid c.2
        return (c.1 * 3 + (c.2 : Int), p)) = some objs ∧ HashGrid.ofList mc objs = some g ∧
      ∀ q, ∃ r, g.find mc q tol = some r ∧ ∀ x, x ∈ r ↔ ∃ id j c, MidOf s id j c ∧ Vec3.Within c q tol ∧ x = id * 3 + (j : Int) := by
  have hcent : ∀ c ∈ corners s, ∃ f p, s.get? c.1 = some f ∧ f.mid c.2 = some p := by
    intro c hc
    obtain ⟨hid, hj⟩ := mem_corners.1 hc
    obtain ⟨f, hf⟩ := (hs.2 c.1).1 hid
    obtain ⟨p, q, _, _, hm⟩ := mid_some (ht _ f hf).1 hj
    exact ⟨f, _, hf, hm⟩
  let pos : Int × Nat → Vec3 K := fun c => ((s.get? c.1).bind fun f => f.mid c.2).getD ⟨0, 0, 0⟩
  have hpos : ∀ c ∈ corners s, MidOf s c.1 c.2 (pos c) := by
    intro c hc
    obtain ⟨f, p, hf, hp⟩ := hcent c hc
    rw [midOf_iff ht hf (mem_corners.1 hc).2]
    simp [pos, hf, hp]
  have huniq : ∀ id j c, MidOf s id j c → (id, j) ∈ corners s ∧ c = pos (id, j) := by
    intro id j c h
    obtain ⟨f, p, q, hf, hj, h1⟩ := (show MidOf s id j c from h)
    have h : MidOf s id j c := ⟨f, p, q, hf, hj, h1⟩
    refine ⟨mem_corners.2 ⟨(hs.2 id).2 ⟨f, hf⟩, hj⟩, ?_⟩
    have := (midOf_iff ht hf hj c).1 h
    simp [pos, hf, this]
  have hobjs : ((corners s).mapM fun c => do
        let f ← s.get? c.1
        let p ← f.mid c.2
        return (c.1 * 3 + (c.2 : Int), p)) = some ((corners s).map fun c => (c.1 * 3 + (c.2 : Int), pos c)) := by
    apply mapM_option_eq
    intro c hc
    obtain ⟨f, p, hf, hp⟩ := hcent c hc
    simp [pos, hf, hp]
  have hgrid : Mesh.Gridable mc ((corners s).map fun c => (c.1 * 3 + (c.2 : Int), pos c)) := by
    refine ⟨hg.1, hg.2.1, ?_, ?_⟩
    · rintro o ho
      obtain ⟨c, hc, rfl⟩ := List.mem_map.1 ho
      exact hg.2.2.1 _ _ _ (hpos c hc)
    · rcases hg.2.2.2 with h | h | ⟨i, j, k, l, c, d, hc, hd, hne⟩
      · exact Or.inl h
      · exact Or.inr (Or.inl (by simp [corners, h]))
      · refine Or.inr (Or.inr ⟨_, List.mem_map.2 ⟨_, (huniq i j c hc).1, rfl⟩, _, List.mem_map.2 ⟨_, (huniq k l d hd).1, rfl⟩, ?_⟩)
        simp only
        rw [← (huniq i j c hc).2, ← (huniq k l d hd).2]
        exact hne
  obtain ⟨g, h1, h2⟩ := Mesh.grid_exact hgrid tol
  refine ⟨_, g, hobjs, h1, fun q => ?_⟩
  obtain ⟨r, hr, hmem, _⟩ := h2 q
  refine ⟨r, hr, fun k => ?_⟩
  rw [hmem]
  constructor
  · rintro ⟨p, hp, hw⟩
    obtain ⟨c, hc, he⟩ := List.mem_map.1 hp
    simp only [Prod.mk.injEq] at he
    obtain ⟨rfl, rfl⟩ := he
    exact ⟨_, _, _, hpos c hc, hw, rfl⟩
  · rintro ⟨id, j, c, hc, hw, rfl⟩
    obtain ⟨hid, rfl⟩ := huniq id j c hc
    exact ⟨_, List.mem_map.2 ⟨(id, j), hid, rfl⟩, hw⟩

end

/-- What the edge `j` of facet `id` says about its neighbour: no other edge has its middle within the tolerance, or edge `j'` of facet `id'` has. -/
def LinkedTo [Field K] [LinearOrder K] (s : File K) (tol : K) (id : Int) (j : Nat) (e : Edge) : Prop :=
  (e.neighbor = -1 ∧ e.whichNot = -1 ∧ ∀ id' j' c c', (id', j') ≠ (id, j) → MidOf s id j c → MidOf s id' j' c' → ¬ Vec3.Within c' c tol) ∨
  ∃ (id' : Int) (j' : Nat) (c c' : Vec3 K), (id', j') ≠ (id, j) ∧ MidOf s id j c ∧ MidOf s id' j' c' ∧ Vec3.Within c' c tol ∧ e.neighbor = id' ∧ e.whichNot = (((j' + 2) % 3 : Nat) : Int)

end Stl

open Stl

section
variable {K : Type} [Field K] [LinearOrder K] [IsStrictOrderedRing K] [FloorRing K]

/-- C100: `generateConnectivity` keeps facets, vertices and normals. It gives each edge as neighbour a facet that has another edge with its middle within the tolerance, and the vertex of that facet that is not on that edge;
an edge has no neighbour exactly when there is none. -/
theorem C100_connectivity {mc : HashGrid.Machine K} {s : File K} (hs : s.Ok) (ht : Stl.Triangular s) (hpos : ∀ id ∈ s.ids, 0 ≤ id) (hg : Stl.MidsGridable mc s) (tol : K) :
    ∃ s', Stl.generateConnectivity mc s tol = some s' ∧ s'.Ok ∧ s'.ids = s.ids ∧ ∀ id f, s.get? id = some f → ∃ f', s'.get? id = some f' ∧ f'.verts = f.verts ∧ f'.normal = f.normal ∧
      f'.edges.length = 3 ∧ ∀ (j : Nat) e', f'.edges[j]? = some e' → Stl.LinkedTo s tol id j e' := by
  obtain ⟨objs, g, h1, h2, h3⟩ := grid_of_mids hs ht hg tol
  obtain ⟨s1, a1, a2, a3, a4⟩ := forEdges_spec (s := s) (step := clearStep) (fun _ _ e => { e with neighbor := -1, whichNot := -1 }) (by
    intro id j f0 f _ hj _ hlen
    have := List.getElem?_eq_getElem (l := f.edges) (i := j) (by omega)
    exact ⟨_, this, by simp only [clearStep, this, Option.bind_eq_bind, Option.bind_some, Option.pure_def]⟩) (corners s) s hs
    (fun id f hf => ⟨f, hf, rfl, (ht id f hf).2⟩) (corners_nodup hs) (fun c hc => mem_corners.1 hc)
  have hcor : corners s1 = corners s := by unfold corners; rw [a3]
  let look : Int → Nat → Option Int := fun id j => (((s.get? id).bind fun f => f.mid j).bind fun c => g.find mc c tol).bind fun l => l.find? (· ≠ id * 3 + (j : Int))
  obtain ⟨s2, b1, b2, b3, b4⟩ := forEdges_spec (s := s) (step := linkStep fun q => g.find mc q tol)
    (fun id j e => match look id j with | none => e | some x => { e with neighbor := x.tdiv 3, whichNot := (x.tmod 3 + 2).tmod 3 }) (by
    intro id j f0 f hf0 hj hv hlen
    have he := List.getElem?_eq_getElem (l := f.edges) (i := j) (by omega)
    obtain ⟨p, q, _, _, hm⟩ := mid_some (ht id f0 hf0).1 hj
    have hm' : f.mid j = some ((1 / 2 : K) • (p + q)) := by rw [← hm]; simp [Facet.mid, Facet.vertex?, hv]
    obtain ⟨r, hr, _⟩ := h3 ((1 / 2 : K) • (p + q))
    refine ⟨_, he, ?_⟩
    have hlook : look id j = r.find? (· ≠ id * 3 + (j : Int)) := by simp only [look, hf0, Option.bind_some, hm, hr]
    simp only [linkStep, hm', hr, Option.bind_eq_bind, Option.bind_some, hlook]
    cases hfind : r.find? (· ≠ id * 3 + (j : Int)) with
    | none => simp only [Option.pure_def, Option.some.injEq]; rw [List.set_getElem_self]
    | some x => simp only [he, Option.bind_some, Option.pure_def]) (corners s) s1 a2 (by
      intro id f hf
      obtain ⟨f0, hf0⟩ := (hs.2 id).1 (a3 ▸ (a2.2 id).2 ⟨f, hf⟩)
      obtain ⟨f', q1, q2, _, _, q5, _⟩ := a4 id f0 hf0
      rw [hf, Option.some.injEq] at q1
      subst q1
      exact ⟨f0, hf0, q2, q5⟩) (corners_nodup hs) (fun c hc => a3 ▸ mem_corners.1 hc)
  refine ⟨s2, ?_, b2, b3.trans a3, ?_⟩
  · unfold Stl.generateConnectivity
    rw [h1]
    simp only [Option.bind_eq_bind, Option.bind_some, h2, a1, hcor]
    exact b1
  · intro id f hf
    obtain ⟨f1, q1, q2, q3, _, q5, q6⟩ := a4 id f hf
    obtain ⟨f2, r1, r2, r3, _, r5, r6⟩ := b4 id f1 q1
    refine ⟨f2, r1, r2.trans q2, r3.trans q3, r5, ?_⟩
    intro j e' he'
    have hj : j < 3 := by
      have := (List.getElem?_eq_some_iff.1 he').1
      omega
    have hid : id ∈ s.ids := (hs.2 id).2 ⟨f, hf⟩
    have hin : (id, j) ∈ corners s := mem_corners.2 ⟨hid, hj⟩
    have hj0 : j < f.edges.length := by rw [(ht id f hf).2]; exact hj
    have e1 := q6 j _ (List.getElem?_eq_getElem hj0)
    rw [if_pos hin] at e1
    have e2 := r6 j _ e1
    rw [if_pos hin, he', Option.some.injEq] at e2
    obtain ⟨p, q, hp, hq, hm⟩ := mid_some (ht id f hf).1 hj
    obtain ⟨r, hr, hmem⟩ := h3 ((1 / 2 : K) • (p + q))
    have hlook : look id j = r.find? (· ≠ id * 3 + (j : Int)) := by simp only [look, hf, Option.bind_some, hm, hr]
    have hmid : MidOf s id j ((1 / 2 : K) • (p + q)) := ⟨f, p, q, hf, hj, hp, hq, rfl⟩
    cases hfind : r.find? (· ≠ id * 3 + (j : Int)) with
    | none =>
      rw [hlook, hfind] at e2
      left
      refine ⟨by rw [e2], by rw [e2], ?_⟩
      intro id' j' c c' hne hc hc' hw
      have hcc := (midOf_iff ht hf hj c).1 hc
      rw [hm, Option.some.injEq] at hcc
      rw [← hcc] at hw
      have hx := (hmem (id' * 3 + (j' : Int))).2 ⟨id', j', c', hc', hw, rfl⟩
      have hno := List.find?_eq_none.1 hfind _ hx
      simp only [ne_eq, decide_not, Bool.not_eq_true, Bool.not_eq_false', decide_eq_true_eq] at hno
      obtain ⟨f', _, _, hf', hj', _⟩ := hc'
      apply hne
      rw [Prod.mk.injEq]
      omega
    | some x =>
      rw [hlook, hfind] at e2
      right
      have hx := List.mem_of_find?_eq_some hfind
      have hxne := List.find?_some hfind
      simp only [ne_eq, decide_not, Bool.not_eq_true', decide_eq_false_iff_not] at hxne
      obtain ⟨id', j', c', hc', hw, rfl⟩ := (hmem x).1 hx
      have hcc := hc'
      obtain ⟨f', p', q', hf', hj', hrest⟩ := hcc
      have hid' : 0 ≤ id' := hpos id' ((hs.2 id').2 ⟨f', hf'⟩)
      refine ⟨id', j', _, c', ?_, hmid, hc', hw, ?_, ?_⟩
      · rintro h
        rw [Prod.mk.injEq] at h
        apply hxne
        rw [h.1, h.2]
      · rw [e2]
        simp only
        rw [Int.tdiv_eq_ediv_of_nonneg (by omega)]
        omega
      · rw [e2]
        simp only
        have h0 : (id' * 3 + (j' : Int)).tmod 3 = (id' * 3 + (j' : Int)) % 3 := Int.tmod_eq_emod_of_nonneg (by omega)
        rw [h0, Int.tmod_eq_emod_of_nonneg (by omega)]
        omega

end

end ENigMA
