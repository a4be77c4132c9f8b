import Verif.Stl.Relax
import Verif.Stl.SplitProps
import Mathlib.Algebra.BigOperators.Group.Finset.Basic
import Mathlib.Algebra.BigOperators.Group.Finset.Sigma

/-!
# Moving the corners around a vertex
-/

set_option linter.unusedSectionVars false
set_option autoImplicit false

namespace ENigMA
namespace Stl
variable {K : Type}

/-- No facet has two of its corners at the same vertex. -/
def OneCorner (s : File K) : Prop := ∀ x y, Fan.Same (nx s) x y → x.1 = y.1 → x = y

/-- All corners of the facets. -/
def points (s : File K) : List (Vec3 K) := s.ids.flatMap fun id => match s.get? id with | some f => f.verts | none => []

theorem mem_points {s : File K} (hg : Good s) {v : Vec3 K} : v ∈ points s ↔ ∃ x, vert s x = some v := by
  unfold points
  rw [List.mem_flatMap]
  constructor
  · rintro ⟨id, hid, h⟩
    obtain ⟨f, hf⟩ := (hg.ok.2 id).1 hid
    rw [hf] at h
    obtain ⟨j, _, hj⟩ := (verts_mem hg hf).1 h
    exact ⟨(id, j), hj⟩
  · rintro ⟨x, hx⟩
    have hc := (vert_some hg x).1 ⟨v, hx⟩
    obtain ⟨f, hf⟩ := (hg.ok.2 x.1).1 hc.1
    refine ⟨x.1, hc.1, ?_⟩
    rw [hf]
    exact (verts_mem hg hf).2 ⟨x.2, hc.2, hx⟩

theorem nx_true {s : File K} {x : Int × Nat} (hx : x.2 < 3) : nx s true x = (link s x).map after := by
  unfold nx after
  rw [if_pos hx, if_pos rfl]

theorem Sound.inverse {s : File K} (h : Sound s) : Fan.Inverse (nx s) := nx_inverse h.plain.pos h.ok h.both h.tri

theorem nx_inj {s : File K} (h : Sound s) {x y z : Int × Nat} (hx : nx s true x = some z) (hy : nx s true y = some z) : x = y := by
  have h1 := (h.inverse z x).2 hx
  have h2 := (h.inverse z y).2 hy
  rw [h1, Option.some.injEq] at h2
  exact h2

/-! ### The walk -/

/-- Closed under the steps around a vertex, in both directions. -/
structure Round (s : File K) (S : List (Int × Nat)) : Prop where
  next : ∀ x ∈ S, ∃ y ∈ S, nx s true x = some y
  prev : ∀ y ∈ S, ∃ x ∈ S, nx s true x = some y

/-- The corner of the ring that a record of the walk stands for. -/
def ringCorner (x : Int × Nat) : Int × Nat := (x.1, (x.2 + 2) % 3)

theorem ringWalk_spec {s : File K} (hs : Sound s) (outline : Int × Nat → Bool) (i : Nat) (fuel : Nat) : ∀ (id : Int) (j : Nat) (acc : List (Int × Nat)), Corner s (id, j) →
    ∃ r, ringWalk outline s i fuel id j acc = some r ∧ ∀ l, r = some l → ∃ tail, l = acc ++ tail ∧ tail ≠ [] ∧ (∀ x ∈ tail, x.2 < 3) ∧ List.IsChain (fun a b => nx s true a = some b) ((id, j) :: tail.map ringCorner) ∧
      (∀ y ∈ ((id, j) :: tail.map ringCorner).dropLast, outline y = false) ∧ (((id, j) :: tail.map ringCorner).getLast (by simp)).1 = (i : Int) ∧ (∀ y ∈ tail.dropLast, y.1 ≠ (i : Int)) := by
  induction fuel with
  | zero => intro id j acc _; exact ⟨none, rfl, by simp⟩
  | succ fuel ih =>
    intro id j acc hc
    have hn := hs.net
    have hid : id ≠ -1 := by have := hs.plain.pos id hc.1; omega
    unfold ringWalk
    by_cases ho : outline (id, j) = true
    · rw [if_pos (Or.inr ho)]; exact ⟨none, rfl, by simp⟩
    rw [if_neg (by simp [hid, ho])]
    obtain ⟨e, he, hp⟩ := hn.pts _ hc
    have he' : edge? s id j = some e := he
    simp only [he', Option.bind_eq_bind, Option.bind_some]
    cases hl : link s (id, j) with
    | none =>
      rw [hl] at hp
      rw [if_pos hp.1]; exact ⟨none, rfl, by simp⟩
    | some y =>
      rw [hl] at hp
      have hy := (hn.live hl).2
      have hyn : e.neighbor ≠ -1 := by have := hs.plain.pos _ hy.1; rw [hp.1]; omega
      rw [if_neg hyn, hp.2]
      simp only [idx, Int.natCast_nonneg, if_true, Int.toNat_natCast, Option.bind_some]
      set w := (y.2 + 2) % 3 with hw
      have hw3 : w < 3 := Nat.mod_lt _ (by decide)
      have hrc : ringCorner (e.neighbor, w) = after y := by
        have h3 := hy.2
        unfold ringCorner after
        rw [hp.1]
        exact Prod.ext rfl (by simp only; omega)
      have hstep : nx s true (id, j) = some (ringCorner (e.neighbor, w)) := by rw [nx_true hc.2, hl, hrc]; rfl
      have ho' : outline (id, j) = false := by simpa using ho
      by_cases hf : fuel = 0
      · rw [if_pos hf]; exact ⟨none, rfl, by simp⟩
      rw [if_neg hf]
      by_cases hi : e.neighbor ≠ (i : Int)
      · rw [if_pos hi]
        have hcn : Corner s (e.neighbor, (w + 2) % 3) := ⟨by rw [hp.1]; exact hy.1, Nat.mod_lt _ (by decide)⟩
        obtain ⟨r, h1, h2⟩ := ih e.neighbor ((w + 2) % 3) (acc ++ [(e.neighbor, w)]) hcn
        refine ⟨r, h1, fun l hl' => ?_⟩
        obtain ⟨tail, t1, t2, t3, t4, t5, t6, t7⟩ := h2 l hl'
        refine ⟨(e.neighbor, w) :: tail, by rw [t1]; simp, by simp, ?_, ?_, ?_, ?_, ?_⟩
        · intro x hx
          rcases List.mem_cons.1 hx with rfl | hx
          · exact hw3
          · exact t3 x hx
        · rw [List.map_cons, List.isChain_cons_cons]
          exact ⟨hstep, t4⟩
        · rw [List.map_cons, List.dropLast_cons_of_ne_nil (by simp)]
          intro z hz
          rcases List.mem_cons.1 hz with rfl | hz
          · exact ho'
          · exact t5 z hz
        · simp only [List.map_cons]
          rw [List.getLast_cons (by simp)]
          exact t6
        · rw [List.dropLast_cons_of_ne_nil t2]
          intro y hy
          rcases List.mem_cons.1 hy with rfl | hy
          · exact hi
          · exact t7 y hy
      · rw [if_neg hi]
        refine ⟨_, rfl, fun l hl' => ?_⟩
        rw [Option.some.injEq] at hl'
        refine ⟨[(e.neighbor, w)], hl'.symm, by simp, ?_, ?_, ?_, ?_, by simp⟩
        · intro x hx
          rw [List.mem_singleton] at hx
          subst hx
          exact hw3
        · simp only [List.map_cons, List.map_nil, List.isChain_cons_cons, List.isChain_singleton, and_true]
          exact hstep
        · intro z hz
          simp at hz
          rw [hz]
          exact ho'
        · simpa [ringCorner] using hi

/-- A walk that ends where it starts, and was not there in between, meets nothing twice. -/
theorem cycle_nodup {α : Type} {R : α → α → Prop} (hR : ∀ a b c, R a b → R a c → b = c) {x : α} {l : List α} (hc : List.IsChain R (x :: l)) (hne : l ≠ []) (hlast : l.getLast hne = x) (hx : x ∉ l.dropLast) : l.Nodup := by
  rw [List.isChain_iff_getElem] at hc
  have step : ∀ k (h : k + 1 < l.length), R l[k] l[k + 1] := fun k h => hc (k + 1) (by simp; omega)
  rw [List.nodup_iff_injective_getElem]
  have key : ∀ a b (hab : a < b) (hb : b < l.length), l[a]'(by omega) ≠ l[b] := by
    intro a b hab hb he
    have shift : ∀ t (h : b + t < l.length), l[a + t]'(by omega) = l[b + t] := by
      intro t
      induction t with
      | zero => intro _; exact he
      | succ t ih =>
        intro h
        have h1 := step (a + t) (by omega)
        have h2 := step (b + t) (by omega)
        rw [ih (by omega)] at h1
        exact hR _ _ _ h1 h2
    have h1 := shift (l.length - 1 - b) (by omega)
    have h2 : l[b + (l.length - 1 - b)]'(by omega) = x := by
      rw [← hlast, List.getLast_eq_getElem]
      congr 1
      omega
    rw [h2] at h1
    apply hx
    rw [← h1]
    have h3 : a + (l.length - 1 - b) < l.dropLast.length := by rw [List.length_dropLast]; omega
    rw [← List.getElem_dropLast h3]
    exact List.getElem_mem h3
  intro a b he
  rcases lt_trichotomy a.1 b.1 with h | h | h
  · exact absurd he (key _ _ h b.2)
  · exact Fin.ext h
  · exact absurd he.symm (key _ _ h a.2)

/-- A complete walk has gone around the vertex. -/
theorem ring_closed {s : File K} (hs : Sound s) (hone : OneCorner s) {outline : Int × Nat → Bool} {i : Nat} {j : Nat} {l : List (Int × Nat)} (hc : Corner s ((i : Int), j)) (h : ringWalk outline s i 100 (i : Int) j [] = some (some l)) :
    l ≠ [] ∧ (∀ x ∈ l, x.2 < 3 ∧ Corner s x) ∧ Round s (l.map ringCorner) ∧ ((i : Int), j) ∈ l.map ringCorner ∧ (∀ y ∈ l.map ringCorner, outline y = false ∧ Fan.Same (nx s) ((i : Int), j) y) ∧ (l.map ringCorner).Nodup := by
  obtain ⟨r, h1, h2⟩ := ringWalk_spec hs outline i 100 (i : Int) j [] hc
  rw [h, Option.some.injEq] at h1
  obtain ⟨tail, t1, t2, t3, t4, t5, t6, t7⟩ := h2 l h1.symm
  rw [List.nil_append] at t1
  subst t1
  set x0 : Int × Nat := ((i : Int), j) with hx0
  set S := l.map ringCorner with hS
  have hsame := Fan.same_of_chain hs.inverse S x0 t4
  have hne : S ≠ [] := by rw [hS]; simpa using t2
  have hlast : (x0 :: S).getLast (by simp) = x0 := (hone _ _ (hsame _ (List.getLast_mem _)) t6.symm).symm
  have hmem : x0 ∈ S := by
    rw [List.getLast_cons hne] at hlast
    rw [← hlast]
    exact List.getLast_mem _
  have hout : ∀ y ∈ x0 :: S, outline y = false := by
    intro y hy
    have hd : (x0 :: S).dropLast ++ [x0] = x0 :: S := by
      conv_rhs => rw [← List.dropLast_append_getLast (l := x0 :: S) (by simp)]
      rw [hlast]
    rw [← hd, List.mem_append, List.mem_singleton] at hy
    have hx0' : x0 ∈ (x0 :: S).dropLast := by
      rw [List.dropLast_cons_of_ne_nil hne]
      exact List.mem_cons_self
    rcases hy with hy | rfl
    · exact t5 y hy
    · exact t5 _ hx0'
  have hcl : Round s S := by
    constructor
    · intro y hy
      rcases Fan.succ_of_chain S x0 y t4 (List.mem_cons_of_mem _ hy) with h' | h'
      · rw [h', hlast]
        cases hS' : S with
        | nil => exact absurd hS' hne
        | cons d S' =>
          rw [hS', List.isChain_cons_cons] at t4
          exact ⟨d, by simp, t4.1⟩
      · exact h'
    · intro y hy
      obtain ⟨x, hx, h'⟩ := Fan.pred_of_chain S x0 y t4 hy
      rcases List.mem_cons.1 hx with rfl | hx
      · exact ⟨_, hmem, h'⟩
      · exact ⟨x, hx, h'⟩
  refine ⟨t2, ?_, hcl, hmem, fun y hy => ⟨hout y (List.mem_cons_of_mem _ hy), hsame y (List.mem_cons_of_mem _ hy)⟩, ?_⟩
  · intro x hx
    have : ringCorner x ∈ S := List.mem_map_of_mem hx
    obtain ⟨z, _, hz⟩ := hcl.prev _ this
    have h3 := (nx_spec hs.ok hs.tri hs.joined hz).1
    exact ⟨t3 x hx, h3.1, t3 x hx⟩
  · refine cycle_nodup (fun a b c h h' => Option.some.inj (h.symm.trans h')) t4 hne (by rw [← List.getLast_cons hne (a := x0)]; exact hlast) ?_
    intro hx
    rw [hS, ← List.map_dropLast] at hx
    obtain ⟨y, hy, he⟩ := List.mem_map.1 hx
    exact t7 y hy (congrArg Prod.fst he)

/-! ### The move -/

theorem moveRing_spec {s : File K} (p : Vec3 K) (ring : List (Int × Nat)) : ∀ {s : File K}, Good s → (∀ x ∈ ring, Corner s x) →
    ∃ s', moveRing s ring p = some s' ∧ Change s s' (fun y => if y ∈ ring.map ringCorner then some p else vert s y) (edgeAt s) := by
  induction ring with
  | nil => intro s hg _; exact ⟨s, rfl, hg, rfl, fun x => by simp, fun _ => rfl⟩
  | cons a l ih =>
    intro s hg hc
    have ha := hc a (by simp)
    have hca : Corner s (ringCorner a) := ⟨ha.1, Nat.mod_lt _ (by decide)⟩
    obtain ⟨s1, h1, c1⟩ := setVert_spec hg hca p
    obtain ⟨s', h2, c2⟩ := ih c1.good fun x hx => (c1.corner x).2 (hc x (List.mem_cons_of_mem _ hx))
    refine ⟨s', ?_, c2.good, c2.ids.trans c1.ids, ?_, fun x => (c2.edges x).trans (c1.edges x)⟩
    · unfold moveRing at h2 ⊢
      rw [List.foldlM_cons, show ((a.2 + 1) % 3 + 1) % 3 = (ringCorner a).2 by unfold ringCorner; simp only; omega, show a.1 = (ringCorner a).1 from rfl, h1]
      exact h2
    · intro x
      rw [c2.verts]
      simp only [List.map_cons, List.mem_cons]
      by_cases hx : x ∈ l.map ringCorner
      · rw [if_pos hx, if_pos (Or.inr hx)]
      · rw [if_neg hx, c1.verts]
        by_cases hx2 : x = ringCorner a
        · rw [if_pos hx2, if_pos (Or.inl hx2)]
        · rw [if_neg hx2, if_neg (by simp [hx, hx2])]

theorem link_of_edges {s s' : File K} (h : ∀ x, edgeAt s' x = edgeAt s x) : link s' = link s := by
  funext x
  cases he : edgeAt s x with
  | none => rw [link_none he, link_none ((h x).trans he)]
  | some e => rw [link_edge he, link_edge ((h x).trans he)]

theorem nx_of_edges {s s' : File K} (h : ∀ x, edgeAt s' x = edgeAt s x) : nx s' = nx s := by
  funext dir x
  unfold nx
  rw [link_of_edges h]

/-- What moving vertices does to a surface: corners at which an edge without neighbour starts or ends, or an edge of `outline` starts, stay, and so do the corners at the same vertex. -/
structure Shift (outline : Int × Nat → Bool) (s s' : File K) : Prop where
  sound : Sound s'
  ids : s'.ids = s.ids
  edges : ∀ x, edgeAt s' x = edgeAt s x
  fixed : ∀ x y, Fan.Same (nx s) x y → link s y = none ∨ link s (y.1, (y.2 + 2) % 3) = none ∨ outline y = true → vert s' x = vert s x

theorem Shift.refl (outline : Int × Nat → Bool) {s : File K} (h : Sound s) : Shift outline s s := ⟨h, rfl, fun _ => rfl, fun _ _ _ _ => rfl⟩

theorem Shift.trans {outline : Int × Nat → Bool} {s s' s'' : File K} (h : Shift outline s s') (h' : Shift outline s' s'') : Shift outline s s'' := by
  refine ⟨h'.sound, h'.ids.trans h.ids, fun x => (h'.edges x).trans (h.edges x), fun x y hxy hy => ?_⟩
  rw [← h.fixed x y hxy hy]
  refine h'.fixed x y ?_ ?_
  · rw [nx_of_edges h.edges]; exact hxy
  · rw [link_of_edges h.edges]; exact hy

theorem closed_same {s : File K} (hs : Sound s) {S : List (Int × Nat)} (hS : Round s S) {x y : Int × Nat} (h : Fan.Same (nx s) x y) : x ∈ S ↔ y ∈ S := by
  induction h with
  | rel x y hxy =>
    have hxy' := (hs.inverse x y).1 hxy
    constructor
    · intro hx
      obtain ⟨z, hz, h'⟩ := hS.prev x hx
      rwa [nx_inj hs hxy' h']
    · intro hy
      obtain ⟨z, hz, h'⟩ := hS.next y hy
      rw [hxy', Option.some.injEq] at h'
      rwa [h']
  | refl x => exact Iff.rfl
  | symm x y _ ih => exact ih.symm
  | trans x y z _ _ ih1 ih2 => exact ih1.trans ih2

theorem same_link {s : File K} (hs : Sound s) {x y : Int × Nat} (h : link s x = some y) : nx s true x = some (after y) ∧ nx s true y = some (after x) := by
  have hx := (hs.net.live h).1.2
  have hy := (hs.net.live h).2.2
  rw [nx_true hx, nx_true hy, h, hs.net.inv _ _ h]
  exact ⟨rfl, rfl⟩

theorem move_shift {s s' : File K} (hs : Sound s) {S : List (Int × Nat)} (hS : Round s S) {outline : Int × Nat → Bool} (ho : ∀ x ∈ S, outline x = false) {p : Vec3 K}
    (hc : Change s s' (fun y => if y ∈ S then some p else vert s y) (edgeAt s)) : Shift outline s s' := by
  have hl := link_of_edges hc.edges
  have hnet : Net s' (link s) := by
    have hn := hs.net
    refine ⟨fun x hx => ?_, fun x hx => hn.out x (fun h => hx ((hc.corner x).2 h)), hn.inv, hn.self⟩
    obtain ⟨e, he, hp⟩ := hn.pts x ((hc.corner x).1 hx)
    exact ⟨e, (hc.edges x).trans he, hp⟩
  refine ⟨sound_of hc.good (by unfold Plain; rw [hc.ids]; exact hs.plain) hnet ?_, hc.ids, hc.edges, ?_⟩
  · intro x y hxy
    obtain ⟨o1, o2⟩ := hs.opp x y hxy
    obtain ⟨n1, n2⟩ := same_link hs hxy
    have s1 : x ∈ S ↔ after y ∈ S := closed_same hs hS (Fan.same_of_step hs.inverse n1)
    have s2 : y ∈ S ↔ after x ∈ S := closed_same hs hS (Fan.same_of_step hs.inverse n2)
    unfold Opposed
    rw [hc.verts, hc.verts, hc.verts, hc.verts]
    simp only [s1, s2]
    constructor
    · split_ifs with h
      · rfl
      · exact o1
    · split_ifs with h
      · rfl
      · exact o2
  · intro x y hxy hy
    rw [hc.verts]
    beta_reduce
    rw [if_neg]
    intro hx
    have hyS := (closed_same hs hS hxy).1 hx
    obtain ⟨z, _, hz⟩ := hS.next y hyS
    obtain ⟨z', _, hz'⟩ := hS.prev y hyS
    have hy3 := (nx_spec hs.ok hs.tri hs.joined hz').1.2
    rcases hy with hy | hy | hy
    · rw [nx_true hy3, hy] at hz
      cases hz
    · have h1 := (hs.inverse y z').2 hz'
      unfold nx at h1
      rw [if_pos hy3, if_neg (by simp), hy] at h1
      cases h1
    · rw [ho y hyS] at hy
      cases hy

end Stl
end ENigMA
