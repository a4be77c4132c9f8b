import Verif.Stl.Surgery

/-!
# Inverting one facet
-/

set_option linter.unusedSectionVars false
set_option autoImplicit false

namespace ENigMA
namespace Stl
variable {K : Type}

/-- The edge data points to `t`. -/
def Points (e : Edge) : Option (Int × Nat) → Prop
  | none => e.neighbor = -1 ∧ e.whichNot = -1
  | some y => e.neighbor = y.1 ∧ e.whichNot = (((y.2 + 2) % 3 : Nat) : Int)

/-- The edge data of the facets says that the edges are glued as `L` tells. -/
structure Net (s : File K) (L : Int × Nat → Option (Int × Nat)) : Prop where
  pts : ∀ x, Corner s x → ∃ e, edgeAt s x = some e ∧ Points e (L x)
  out : ∀ x, ¬ Corner s x → L x = none
  inv : ∀ x y, L x = some y → L y = some x
  self : ∀ x y, L x = some y → y.1 ≠ x.1

theorem Net.live {s : File K} {L : Int × Nat → Option (Int × Nat)} (h : Net s L) {x y : Int × Nat} (hxy : L x = some y) : Corner s x ∧ Corner s y := by
  refine ⟨?_, ?_⟩
  · by_contra hx
    rw [h.out x hx] at hxy
    cases hxy
  · by_contra hy
    have := h.inv x y hxy
    rw [h.out y hy] at this
    cases this

theorem Net.link {s : File K} {L : Int × Nat → Option (Int × Nat)} (h : Net s L) (hg : Good s) (hpos : ∀ id ∈ s.ids, 0 ≤ id) (x : Int × Nat) : link s x = L x := by
  by_cases hx : Corner s x
  · obtain ⟨e, he, hp⟩ := h.pts x hx
    rw [link_edge he]
    cases hL : L x with
    | none => rw [hL] at hp; rw [if_pos hp.1]
    | some y =>
      rw [hL] at hp
      have hy := (h.live hL).2
      have := hpos _ hy.1
      have h2 := hy.2
      rw [if_neg (by rw [hp.1]; omega), hp.1, hp.2]
      refine congrArg some (Prod.ext rfl ?_)
      simp only
      omega
  · rw [h.out x hx]
    cases he : edgeAt s x with
    | none => exact link_none he
    | some e => exact absurd ((edgeAt_some hg x).1 ⟨e, he⟩) hx

theorem net_iff {s : File K} (hg : Good s) (hpos : ∀ id ∈ s.ids, 0 ≤ id) : Net s (link s) ↔ Mutual s ∧ Clean s ∧ NoSelf s := by
  constructor
  · intro h
    refine ⟨(mutual_iff hg hpos).2 ?_, ?_, ?_⟩
    · intro x e he hn
      have hx := (edgeAt_some hg x).1 ⟨e, he⟩
      obtain ⟨e', he', hp⟩ := h.pts x hx
      rw [he, Option.some.injEq] at he'
      subst he'
      cases hL : link s x with
      | none => rw [hL] at hp; exact absurd hp.1 hn
      | some y => rw [hL] at hp; exact ⟨y, (h.live hL).2, hp.1, hp.2, rfl, h.inv x y hL⟩
    · intro x e he hn
      have hx := (edgeAt_some hg x).1 ⟨e, he⟩
      obtain ⟨e', he', hp⟩ := h.pts x hx
      rw [he, Option.some.injEq] at he'
      subst he'
      cases hL : link s x with
      | none => rw [hL] at hp; exact hp.2
      | some y =>
        rw [hL] at hp
        have := hpos _ (h.live hL).2.1
        rw [hp.1] at hn
        omega
    · intro x e he hn
      have hx := (edgeAt_some hg x).1 ⟨e, he⟩
      obtain ⟨e', he', hp⟩ := h.pts x hx
      rw [he, Option.some.injEq] at he'
      subst he'
      have hx0 := hpos _ hx.1
      cases hL : link s x with
      | none =>
        rw [hL] at hp
        rw [hp.1] at hn
        omega
      | some y =>
        rw [hL] at hp
        exact h.self x y hL (hp.1.symm.trans hn)
  · rintro ⟨hm, hc, hself⟩
    rw [mutual_iff hg hpos] at hm
    have hsome : ∀ x y, link s x = some y → ∃ e, edgeAt s x = some e ∧ e.neighbor ≠ -1 := by
      intro x y h
      cases he : edgeAt s x with
      | none => rw [link_none he] at h; cases h
      | some e =>
        rw [link_edge he] at h
        split_ifs at h with hn
        exact ⟨e, rfl, hn⟩
    refine ⟨?_, ?_, ?_, ?_⟩
    · intro x hx
      obtain ⟨e, he⟩ := (edgeAt_some hg x).2 hx
      refine ⟨e, he, ?_⟩
      by_cases hn : e.neighbor = -1
      · rw [link_edge he, if_pos hn]
        exact ⟨hn, hc x e he hn⟩
      · obtain ⟨y, _, h1, h2, h3, _⟩ := hm x e he hn
        rw [h3]
        exact ⟨h1, h2⟩
    · intro x hx
      cases he : edgeAt s x with
      | none => exact link_none he
      | some e => exact absurd ((edgeAt_some hg x).1 ⟨e, he⟩) hx
    · intro x y h
      obtain ⟨e, he, hn⟩ := hsome x y h
      obtain ⟨z, _, _, _, h3, h4⟩ := hm x e he hn
      rw [h, Option.some.injEq] at h3
      subst h3
      exact h4
    · intro x y h hxy
      obtain ⟨e, he, hn⟩ := hsome x y h
      obtain ⟨z, _, h1, _, h3, h4⟩ := hm x e he hn
      rw [h, Option.some.injEq] at h3
      subst h3
      exact hself x e he (h1.trans hxy)

theorem fixNot_spec {s : File K} (hg : Good s) (hpos : ∀ id ∈ s.ids, 0 ≤ id) {e : Edge} {t : Option (Int × Nat)} (hp : Points e t) (ht : ∀ y, t = some y → Corner s y) (k : Int) :
    ∃ s', fixNot s e k = some s' ∧ Change s s' (vert s) (fun x => if t = some x then (edgeAt s x).map (fun e' => { e' with whichNot := (e'.whichNot + k).tmod 3 }) else edgeAt s x) := by
  cases t with
  | none =>
    refine ⟨s, ?_, ⟨hg, rfl, fun _ => rfl, fun x => ?_⟩⟩
    · unfold fixNot
      rw [if_neg (by rw [hp.2]; simp)]
    · rw [if_neg (by simp)]
  | some y =>
    obtain ⟨s', h1, h2⟩ := setEdge_spec hg (ht y rfl) (fun e' => { e' with whichNot := (e'.whichNot + k).tmod 3 })
    have hy := ht y rfl
    have := hpos _ hy.1
    have hy2 := hy.2
    refine ⟨s', ?_, ⟨h2.good, h2.ids, h2.verts, fun x => ?_⟩⟩
    · unfold fixNot
      rw [if_pos (by rw [hp.2]; omega), show (1 : Int) = ((1 : Nat) : Int) from rfl, idx_mod hp.2 1]
      simp only [Option.bind_eq_bind, Option.bind_some]
      rw [if_pos (by rw [hp.1]; omega), hp.1, show ((y.2 + 2) % 3 + 1) % 3 = y.2 by omega]
      exact h1
    · rw [h2.edges]
      by_cases hx : x = y
      · rw [if_pos hx, if_pos (by rw [hx])]
      · rw [if_neg hx, if_neg (fun h => hx (Option.some.inj h).symm)]

/-- Where the corners of facet `id` come from when it is inverted at its corner `p`. -/
def flipC (id : Int) (p : Nat) (x : Int × Nat) : Int × Nat :=
  if x = (id, (p + 1) % 3) then (id, (p + 2) % 3) else if x = (id, (p + 2) % 3) then (id, (p + 1) % 3) else x

/-- Where its edges go. -/
def flipD (id : Int) (p : Nat) (x : Int × Nat) : Int × Nat :=
  if x = (id, (p + 2) % 3) then (id, p) else if x = (id, p) then (id, (p + 2) % 3) else x

theorem flipD_fst (id : Int) (p : Nat) (x : Int × Nat) : (flipD id p x).1 = x.1 := by
  unfold flipD
  split_ifs with h1 h2
  · rw [h1]
  · rw [h2]
  · rfl

theorem flipD_flipD (id : Int) {p : Nat} (hp : p < 3) (x : Int × Nat) : flipD id p (flipD id p x) = x := by
  have hne : p ≠ (p + 2) % 3 := by omega
  unfold flipD
  by_cases h1 : x = (id, (p + 2) % 3)
  · rw [if_pos h1, if_neg (by simpa using hne), if_pos rfl, h1]
  · by_cases h2 : x = (id, p)
    · rw [if_neg h1, if_pos h2, if_pos rfl, h2]
    · rw [if_neg h1, if_neg h2, if_neg h1, if_neg h2]

theorem flipD_other {id : Int} {p : Nat} {x : Int × Nat} (h : x.1 ≠ id) : flipD id p x = x := by
  unfold flipD
  rw [if_neg (fun h' => h (by rw [h'])), if_neg (fun h' => h (by rw [h']))]

theorem flipD_lt {id : Int} {p : Nat} (hp : p < 3) {x : Int × Nat} : (flipD id p x).2 < 3 ↔ x.2 < 3 := by
  unfold flipD
  split_ifs with h1 h2
  · rw [h1]; simp only; omega
  · rw [h2]; simp only; omega
  · rfl

theorem invertFacet_spec {s : File K} (hg : Good s) (hpos : ∀ id ∈ s.ids, 0 ≤ id) {L : Int × Nat → Option (Int × Nat)} (hn : Net s L) {id : Int} (hid : id ∈ s.ids) {v : Int} {p : Nat} (hp : p < 3)
    (hv : v = (p : Int)) :
    ∃ s', invertFacet s id v = some s' ∧ Good s' ∧ s'.ids = s.ids ∧ (∀ x, vert s' x = vert s (flipC id p x)) ∧ Net s' (fun x => (L (flipD id p x)).map (flipD id p)) := by
  have c : ∀ k, Corner s (id, (p + k) % 3) := fun k => ⟨hid, Nat.mod_lt _ (by decide)⟩
  have h12 : (p + 1) % 3 ≠ (p + 2) % 3 := by omega
  have h23 : (p + 2) % 3 ≠ (p + 3) % 3 := by omega
  have h3p : (p + 3) % 3 = p := by omega
  obtain ⟨a, ha⟩ := (vert_some hg _).2 (c 2)
  obtain ⟨b, hb⟩ := (vert_some hg _).2 (c 1)
  obtain ⟨s1, e1, k1⟩ := setVert_spec hg (c 2) b
  obtain ⟨s2, e2, k2⟩ := setVert_spec k1.good ((k1.corner _).2 (c 1)) a
  obtain ⟨x2, hx2, p2⟩ := hn.pts _ (c 2)
  obtain ⟨x3, hx3, p3⟩ := hn.pts _ (c 3)
  have ids2 : s2.ids = s.ids := k2.ids.trans k1.ids
  have cor2 : ∀ x, Corner s2 x ↔ Corner s x := fun x => by unfold Corner; rw [ids2]
  obtain ⟨s3, e3, k3⟩ := fixNot_spec k2.good (ids2 ▸ hpos) p2 (fun y hy => (cor2 y).2 (hn.live hy).2) 4
  have ids3 : s3.ids = s.ids := k3.ids.trans ids2
  have cor3 : ∀ x, Corner s3 x ↔ Corner s x := fun x => by unfold Corner; rw [ids3]
  obtain ⟨s4, e4, k4⟩ := fixNot_spec k3.good (ids3 ▸ hpos) p3 (fun y hy => (cor3 y).2 (hn.live hy).2) 2
  have ids4 : s4.ids = s.ids := k4.ids.trans ids3
  have cor4 : ∀ x, Corner s4 x ↔ Corner s x := fun x => by unfold Corner; rw [ids4]
  obtain ⟨s5, e5, k5⟩ := setEdge_spec k4.good ((cor4 _).2 (c 2)) fun e => { e with neighbor := x3.neighbor }
  obtain ⟨s6, e6, k6⟩ := setEdge_spec k5.good ((k5.corner _).2 ((cor4 _).2 (c 3))) fun e => { e with neighbor := x2.neighbor }
  obtain ⟨s7, e7, k7⟩ := setEdge_spec k6.good ((k6.corner _).2 ((k5.corner _).2 ((cor4 _).2 (c 2)))) fun e => { e with whichNot := x3.whichNot }
  obtain ⟨s8, e8, k8⟩ := setEdge_spec k7.good ((k7.corner _).2 ((k6.corner _).2 ((k5.corner _).2 ((cor4 _).2 (c 3))))) fun e => { e with whichNot := x2.whichNot }
  have ids8 : s8.ids = s.ids := by rw [k8.ids, k7.ids, k6.ids, k5.ids, ids4]
  have cor8 : ∀ x, Corner s8 x ↔ Corner s x := fun x => by unfold Corner; rw [ids8]
  refine ⟨s8, ?_, k8.good, ids8, ?_, ?_⟩
  · unfold invertFacet
    rw [show (2 : Int) = ((2 : Nat) : Int) from rfl, show (1 : Int) = ((1 : Nat) : Int) from rfl, show (3 : Int) = ((3 : Nat) : Int) from rfl]
    have i1 : idx ((v + ((1 : Nat) : Int)).tmod ((3 : Nat) : Int)) = _ := idx_mod hv 1
    have i2 : idx ((v + ((2 : Nat) : Int)).tmod ((3 : Nat) : Int)) = _ := idx_mod hv 2
    have i3 : idx ((v + ((3 : Nat) : Int)).tmod ((3 : Nat) : Int)) = _ := idx_mod hv 3
    rw [i1, i2, i3]
    simp only [Option.bind_eq_bind, Option.bind_some]
    rw [vertexOf_eq hg (c 2).2, ha, Option.bind_some, vertexOf_eq hg (c 1).2, hb, Option.bind_some]
    simp only at e1 e2
    rw [e1, Option.bind_some, e2, Option.bind_some]
    have q2 : edge? s2 id ((p + 2) % 3) = some x2 := by
      have := k2.edges (id, (p + 2) % 3)
      rw [k1.edges, hx2] at this
      exact this
    have q3 : edge? s2 id ((p + 3) % 3) = some x3 := by
      have := k2.edges (id, (p + 3) % 3)
      rw [k1.edges, hx3] at this
      exact this
    rw [q2, Option.bind_some, q3, Option.bind_some]
    have e3' : fixNot s2 x2 ((4 : Nat) : Int) = some s3 := e3
    have e4' : fixNot s3 x3 ((2 : Nat) : Int) = some s4 := e4
    first
      | rw [e3']
      | rw [e3]
    rw [Option.bind_some]
    first
      | rw [e4']
      | rw [e4]
    rw [Option.bind_some]
    simp only at e5 e6 e7 e8
    rw [e5, Option.bind_some, e6, Option.bind_some, e7, Option.bind_some, e8]
  · intro x
    rw [k8.verts, k7.verts, k6.verts, k5.verts, k4.verts, k3.verts, k2.verts, k1.verts]
    unfold flipC
    by_cases h1 : x = (id, (p + 1) % 3)
    · rw [if_pos h1, if_pos h1, ha]
    · rw [if_neg h1, if_neg h1]
      by_cases h2 : x = (id, (p + 2) % 3)
      · rw [if_pos h2, if_pos h2, hb]
      · rw [if_neg h2, if_neg h2]
  · have hE : ∀ x, edgeAt s8 x = if x = (id, (p + 3) % 3) then some { x3 with neighbor := x2.neighbor, whichNot := x2.whichNot }
        else if x = (id, (p + 2) % 3) then some { x2 with neighbor := x3.neighbor, whichNot := x3.whichNot }
        else if L (id, (p + 3) % 3) = some x then (edgeAt s x).map (fun e' => { e' with whichNot := (e'.whichNot + 2).tmod 3 })
        else if L (id, (p + 2) % 3) = some x then (edgeAt s x).map (fun e' => { e' with whichNot := (e'.whichNot + 4).tmod 3 })
        else edgeAt s x := by
      intro x
      have hfix : ∀ x : Int × Nat, x.1 = id → edgeAt s4 x = edgeAt s x := by
        intro x hx
        rw [k4.edges, if_neg (fun h => hn.self _ _ h hx), k3.edges, if_neg (fun h => hn.self _ _ h hx), k2.edges, k1.edges]
      by_cases h3 : x = (id, (p + 3) % 3)
      · rw [k8.edges, if_pos h3, k7.edges, k6.edges, k5.edges, h3, if_neg (by simpa using h23.symm), if_pos rfl, if_neg (by simpa using h23.symm), hfix _ rfl, hx3, if_pos rfl]
        rfl
      · rw [k8.edges, if_neg h3, k7.edges, k6.edges, if_neg h3, k5.edges, if_neg h3]
        by_cases h2 : x = (id, (p + 2) % 3)
        · rw [if_pos h2, if_pos h2, h2, hfix _ rfl, hx2, if_pos rfl]
          rfl
        · rw [if_neg h2, if_neg h2, if_neg h2, k4.edges, k3.edges, k2.edges, k1.edges]
          by_cases hl3 : L (id, (p + 3) % 3) = some x
          · rw [if_pos hl3, if_pos hl3]
            rw [if_neg]
            intro hl2
            have := (hn.inv _ _ hl2).symm.trans (hn.inv _ _ hl3)
            rw [Option.some.injEq] at this
            exact h23 (congrArg Prod.snd this)
          · rw [if_neg hl3, if_neg hl3]
    have hfp : flipD id p (id, p) = (id, (p + 2) % 3) := by
      unfold flipD
      rw [if_neg (by simpa using (by omega : p ≠ (p + 2) % 3)), if_pos rfl]
    have hf2 : flipD id p (id, (p + 2) % 3) = (id, p) := by unfold flipD; rw [if_pos rfl]
    refine ⟨?_, ?_, ?_, ?_⟩
    · intro x hx
      have hx' := (cor8 x).1 hx
      rw [hE]
      have keep : ∀ z y, L (id, z) = some y → flipD id p y = y := fun z y h => flipD_other (hn.self _ _ h)
      by_cases h3 : x = (id, (p + 3) % 3)
      · rw [if_pos h3]
        refine ⟨_, rfl, ?_⟩
        rw [h3, h3p, hfp]
        cases hL : L (id, (p + 2) % 3) with
        | none => rw [hL] at p2; exact p2
        | some y => rw [hL] at p2; rw [Option.map_some, keep _ y hL]; exact p2
      · rw [if_neg h3]
        by_cases h2 : x = (id, (p + 2) % 3)
        · rw [if_pos h2]
          refine ⟨_, rfl, ?_⟩
          rw [h2, hf2]
          rw [h3p] at p3
          cases hL : L (id, p) with
          | none => rw [hL] at p3; exact p3
          | some y => rw [hL] at p3; rw [Option.map_some, keep _ y hL]; exact p3
        · rw [if_neg h2]
          have hxf : flipD id p x = x := by
            unfold flipD
            rw [if_neg h2, if_neg (by rw [← h3p]; exact h3)]
          obtain ⟨e, he, hpt⟩ := hn.pts x hx'
          rw [he, hxf]
          by_cases hl3 : L (id, (p + 3) % 3) = some x
          · have hb := hn.inv _ _ hl3
            rw [if_pos hl3]
            refine ⟨_, rfl, ?_⟩
            rw [hb] at hpt
            rw [hb, Option.map_some, h3p, hfp]
            refine ⟨hpt.1, ?_⟩
            have h2 := hpt.2
            simp only at h2 ⊢
            rw [h2, Int.tmod_eq_emod_of_nonneg (by omega)]
            omega
          · rw [if_neg hl3]
            by_cases hl2 : L (id, (p + 2) % 3) = some x
            · have hb := hn.inv _ _ hl2
              rw [if_pos hl2]
              refine ⟨_, rfl, ?_⟩
              rw [hb] at hpt
              rw [hb, Option.map_some, hf2]
              refine ⟨hpt.1, ?_⟩
              have h2 := hpt.2
              simp only at h2 ⊢
              rw [h2, Int.tmod_eq_emod_of_nonneg (by omega)]
              omega
            · rw [if_neg hl2]
              refine ⟨e, rfl, ?_⟩
              cases hL : L x with
              | none => rw [hL] at hpt; exact hpt
              | some y =>
                rw [hL] at hpt
                have hb := hn.inv _ _ hL
                rw [Option.map_some]
                have : flipD id p y = y := by
                  unfold flipD
                  rw [if_neg (fun h => hl2 (by rw [← h]; exact hb)), if_neg (fun h => hl3 (by rw [h3p, ← h]; exact hb))]
                rw [this]
                exact hpt
    · intro x hx
      have hx' : ¬ Corner s (flipD id p x) := by
        intro h
        apply hx
        rw [cor8]
        exact ⟨by have := h.1; rwa [flipD_fst] at this, (flipD_lt hp).1 h.2⟩
      simp only [hn.out _ hx', Option.map_none]
    · intro x y h
      simp only [Option.map_eq_some_iff] at h ⊢
      obtain ⟨z, hz, rfl⟩ := h
      exact ⟨flipD id p x, by rw [flipD_flipD id hp]; exact hn.inv _ _ hz, flipD_flipD id hp x⟩
    · intro x y h
      simp only [Option.map_eq_some_iff] at h
      obtain ⟨z, hz, rfl⟩ := h
      have := hn.self _ _ hz
      rwa [flipD_fst] at this ⊢

end Stl
end ENigMA
