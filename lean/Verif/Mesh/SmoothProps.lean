import Verif.Mesh.SmoothLemmas
import Verif.Mesh.GeneralPosition
import Verif.Mesh.MeshCheck
import Mathlib.Data.Finset.Card

/-!
# C90: `flipEdges`; C91: `relaxNodes`

Both keep a triangulation of the same region and make it better.
-/

set_option linter.unusedSectionVars false
set_option autoImplicit false

namespace ENigMA
namespace Smooth
variable {K : Type} [Field K] [LinearOrder K] [IsStrictOrderedRing K]
variable {P : Par K}

/-! ### Triangulations -/

theorem two_le_countP {q : Int → Bool} {l : List Int} {i j : Int} (hi : i ∈ l) (hj : j ∈ l) (hij : i ≠ j) (h1 : q i = true) (h2 : q j = true) :
    2 ≤ l.countP q := by
  rw [List.countP_eq_length_filter]
  have hsub : ({i, j} : Finset Int) ⊆ (l.filter q).toFinset := by
    intro x hx
    simp only [Finset.mem_insert, Finset.mem_singleton] at hx
    rw [List.mem_toFinset, List.mem_filter]
    rcases hx with rfl | rfl
    · exact ⟨hi, h1⟩
    · exact ⟨hj, h2⟩
  calc 2 = ({i, j} : Finset Int).card := (Finset.card_pair hij).symm
    _ ≤ (l.filter q).toFinset.card := Finset.card_le_card hsub
    _ ≤ (l.filter q).length := List.toFinset_card_le _

theorem tri_of {m : Mesh K} (hm : m.Triangulation) {id : Int} {e : Elem} (he : m.elements.get? id = some e) :
    ∃ a b c fs p q r, e = ⟨.triangle, [a, b, c], fs⟩ ∧ m.nodes.get? a = some p ∧ m.nodes.get? b = some q ∧ m.nodes.get? c = some r ∧
      m.triAt id = some ⟨p, q, r⟩ ∧ 0 < orient p q r := by
  obtain ⟨h1, h2⟩ := hm.all id e he
  have hn := fun n hn => (hm.wf.nodes.2 n).1 (hm.wf.elemNodes id e he n hn)
  obtain ⟨ty, ns, fs⟩ := e
  simp only at h1 h2
  subst h1
  match ns, h2 with
  | [a, b, c], _ =>
    obtain ⟨p, hp⟩ := hn a (by simp)
    obtain ⟨q, hq⟩ := hn b (by simp)
    obtain ⟨r, hr⟩ := hn c (by simp)
    have ht := triAt_mk he hp hq hr
    exact ⟨a, b, c, fs, p, q, r, rfl, hp, hq, hr, ht, hm.up _ (List.mem_filterMap.2 ⟨id, (hm.wf.elements.2 id).2 ⟨_, he⟩, ht⟩)⟩

theorem corners_ne {p q r : Vec3 K} (h : 0 < orient p q r) : p ≠ q ∧ q ≠ r ∧ r ≠ p := by
  refine ⟨?_, ?_, ?_⟩
  · rintro rfl; simp [orient] at h
  · rintro rfl; simp only [orient] at h; nlinarith
  · rintro rfl; simp [orient] at h

theorem distinct_of {m : Mesh K} (hm : m.Triangulation) : Distinct m := by
  intro id e he
  obtain ⟨a, b, c, fs, p, q, r, rfl, hp, hq, hr, -, h⟩ := tri_of hm he
  obtain ⟨h1, h2, h3⟩ := corners_ne h
  have hab : a ≠ b := by rintro rfl; rw [hp] at hq; exact h1 (Option.some.inj hq)
  have hbc : b ≠ c := by rintro rfl; rw [hq] at hr; exact h2 (Option.some.inj hr)
  have hca : c ≠ a := by rintro rfl; rw [hr] at hp; exact h3 (Option.some.inj hp)
  simp [hab, hbc, Ne.symm hca]

theorem apart_ids {m : Mesh K} (hm : m.Triangulation) {i j : Int} {t u : Tri K} (hij : i ≠ j) (hi : m.triAt i = some t) (hj : m.triAt j = some u)
    (hi' : i ∈ m.elements.ids) (hj' : j ∈ m.elements.ids) {s : Vec3 K × Vec3 K} (hs : s ∈ t.sides) (hs' : s ∈ u.sides) : False := by
  have ht := hm.up t (List.mem_filterMap.2 ⟨i, hi', hi⟩)
  have hu := hm.up u (List.mem_filterMap.2 ⟨j, hj', hj⟩)
  obtain ⟨p, h1, h2⟩ := General.overlap ht hu hs hs'
  have h3 := hm.apart p
  unfold Mesh.triangles at h3
  rw [List.countP_filterMap] at h3
  have := two_le_countP (q := fun a => (Option.map (fun t : Tri K => decide (t.Inside p)) (m.triAt a)).getD false) hi' hj' hij (by simp [hi, h1]) (by simp [hj, h2])
  have h4 : (List.countP (fun a => (m.triAt a).any fun t => decide (t.Inside p)) m.elements.ids) = List.countP (fun a => (Option.map (fun t : Tri K => decide (t.Inside p)) (m.triAt a)).getD false) m.elements.ids := by
    apply List.countP_congr
    intro x _
    cases m.triAt x <;> simp
  omega

theorem sideIds_nodup {m : Mesh K} (hm : m.Triangulation) : m.sideIds.Nodup := by
  unfold Mesh.sideIds
  rw [List.nodup_flatMap]
  constructor
  · intro id hid
    obtain ⟨e, he⟩ := (hm.wf.elements.2 id).1 hid
    obtain ⟨a, b, c, fs, p, q, r, rfl, -, -, -, -, -⟩ := tri_of hm he
    have := distinct_of hm id _ he
    simp only [List.nodup_cons, List.mem_cons, List.not_mem_nil, or_false, not_or] at this
    rw [he]
    simp only [Option.map_some, Option.getD_some, Elem.triSides, List.nodup_cons, List.mem_cons, List.not_mem_nil, or_false, not_or, Prod.mk.injEq, not_and]
    refine ⟨⟨fun h => absurd h this.1.1, fun h => absurd h this.1.2⟩, fun h => absurd h this.2.1, not_false, List.nodup_nil⟩
  · refine hm.wf.elements.1.pairwise_of_forall_ne ?_
    intro i hi j hj hij
    rw [Function.onFun, List.disjoint_left]
    intro s h1 h2
    obtain ⟨e, he⟩ := (hm.wf.elements.2 i).1 hi
    obtain ⟨d, hd⟩ := (hm.wf.elements.2 j).1 hj
    obtain ⟨a, b, c, fs, p, q, r, rfl, hp, hq, hr, ht, -⟩ := tri_of hm he
    obtain ⟨a', b', c', fs', p', q', r', rfl, hp', hq', hr', ht', -⟩ := tri_of hm hd
    rw [he] at h1
    rw [hd] at h2
    have key : ∀ (a b c : Int) (p q r : Vec3 K) (s : Int × Int), m.nodes.get? a = some p → m.nodes.get? b = some q → m.nodes.get? c = some r →
        s ∈ [(a, b), (b, c), (c, a)] → (pos m.nodes s.1, pos m.nodes s.2) ∈ Tri.sides ⟨p, q, r⟩ := by
      intro a b c p q r s hp hq hr hs
      simp only [List.mem_cons, List.not_mem_nil, or_false] at hs
      rcases hs with rfl | rfl | rfl <;> simp [pos, hp, hq, hr, Tri.sides]
    exact apart_ids hm hij ht ht' hi hj (key _ _ _ _ _ _ s hp hq hr h1) (key _ _ _ _ _ _ s hp' hq' hr' h2)

theorem sides_nodup {m : Mesh K} (hm : m.Triangulation) : m.sides.Nodup := by
  unfold Mesh.sides Mesh.triangles
  have heq : (m.elements.ids.filterMap m.triAt).flatMap Tri.sides = m.elements.ids.flatMap fun id => (m.triAt id).elim [] Tri.sides := by
    generalize m.elements.ids = l
    induction l with
    | nil => rfl
    | cons a t ih =>
      rw [List.flatMap_cons, ← ih]
      cases h : m.triAt a with
      | none => rw [List.filterMap_cons_none h]; rfl
      | some x => rw [List.filterMap_cons_some h, List.flatMap_cons]; rfl
  rw [heq, List.nodup_flatMap]
  constructor
  · intro id hid
    obtain ⟨e, he⟩ := (hm.wf.elements.2 id).1 hid
    obtain ⟨a, b, c, fs, p, q, r, rfl, -, -, -, ht, hu⟩ := tri_of hm he
    obtain ⟨h1, h2, h3⟩ := corners_ne hu
    rw [ht]
    simp only [Option.elim_some, Tri.sides, List.nodup_cons, List.mem_cons, List.not_mem_nil, or_false, not_or, Prod.mk.injEq, not_and]
    exact ⟨⟨fun h => absurd h h1, fun h => absurd h.symm h3⟩, fun h => absurd h h2, not_false, List.nodup_nil⟩
  · refine hm.wf.elements.1.pairwise_of_forall_ne ?_
    intro i hi j hj hij
    rw [Function.onFun, List.disjoint_left]
    intro s h1 h2
    cases ht : m.triAt i with
    | none => rw [ht] at h1; simp at h1
    | some t =>
      cases hu : m.triAt j with
      | none => rw [hu] at h2; simp at h2
      | some u =>
        rw [ht] at h1
        rw [hu] at h2
        exact apart_ids hm hij ht hu hi hj h1 h2

/-- Equal sums around the triangles give equal numbers of triangles around a point in general position, hence no overlap. -/
theorem apart_of {l l' : List (Tri K)} (hup : ∀ t ∈ l, 0 < orient t.v0 t.v1 t.v2) (hup' : ∀ t ∈ l', 0 < orient t.v0 t.v1 t.v2)
    (hsum : ∀ f : Vec3 K → Vec3 K → ℤ, (∀ a b, f b a = - f a b) → (l'.map (around f)).sum = (l.map (around f)).sum)
    (hl : ∀ p, (l.countP fun t => decide (t.Inside p)) ≤ 1) : ∀ p, (l'.countP fun t => decide (t.Inside p)) ≤ 1 := by
  intro p
  obtain ⟨p', h1, h2⟩ := General.general ((l'.filter fun t => decide (t.Inside p)).flatMap Tri.sides) (l.flatMap Tri.sides ++ l'.flatMap Tri.sides) p
    (by
      intro c hc
      obtain ⟨t, ht, hc⟩ := List.mem_flatMap.1 hc
      have hin : t.Inside p := by simpa using (List.mem_filter.1 ht).2
      simp only [Tri.sides, List.mem_cons, List.not_mem_nil, or_false] at hc
      rcases hc with rfl | rfl | rfl
      · exact hin.1
      · exact hin.2.1
      · exact hin.2.2)
    (by
      intro s hs
      rcases List.mem_append.1 hs with hs | hs
      · obtain ⟨t, ht, hs⟩ := List.mem_flatMap.1 hs
        exact General.sides_length (hup t ht) s hs
      · obtain ⟨t, ht, hs⟩ := List.mem_flatMap.1 hs
        exact General.sides_length (hup' t ht) s hs)
  have hle : (l'.countP fun t => decide (t.Inside p)) ≤ l'.countP fun t => decide (t.Inside p') := by
    apply List.countP_mono_left
    intro t ht hin
    have hc : ∀ c ∈ t.sides, 0 < orient c.1 c.2 p' := fun c hc => h1 c (List.mem_flatMap.2 ⟨t, List.mem_filter.2 ⟨ht, hin⟩, hc⟩)
    simp only [decide_eq_true_eq]
    exact ⟨hc (t.v0, t.v1) (by simp [Tri.sides]), hc (t.v1, t.v2) (by simp [Tri.sides]), hc (t.v2, t.v0) (by simp [Tri.sides])⟩
  have e1 := count_inside hup p' (fun s hs => h2 s (List.mem_append_left _ hs))
  have e2 := count_inside hup' p' (fun s hs => h2 s (List.mem_append_right _ hs))
  have e3 := hsum (TriMesher.wind p') (fun a b => TriMesher.wind_swap p' a b)
  have := hl p'
  omega

theorem in_iff {l l' : List (Tri K)} (hup : ∀ t ∈ l, 0 < orient t.v0 t.v1 t.v2) (hup' : ∀ t ∈ l', 0 < orient t.v0 t.v1 t.v2)
    (hsum : ∀ f : Vec3 K → Vec3 K → ℤ, (∀ a b, f b a = - f a b) → (l'.map (around f)).sum = (l.map (around f)).sum) {p : Vec3 K}
    (h1 : ∀ s ∈ l.flatMap Tri.sides, ¬ Covers s p) (h2 : ∀ s ∈ l'.flatMap Tri.sides, ¬ Covers s p) :
    (∃ t ∈ l', t.Inside p) ↔ ∃ t ∈ l, t.Inside p := by
  have e1 := count_inside hup p h1
  have e2 := count_inside hup' p h2
  have e3 := hsum (TriMesher.wind p) (fun a b => TriMesher.wind_swap p a b)
  have e : (l'.countP fun t => decide (t.Inside p)) = l.countP fun t => decide (t.Inside p) := by omega
  have hpos : ∀ l : List (Tri K), (∃ t ∈ l, t.Inside p) ↔ 0 < l.countP fun t => decide (t.Inside p) := fun l => by
    rw [List.countP_pos_iff]; simp
  rw [hpos, hpos, e]

/-- A directed side without its reverse. -/
theorem open_iff {l l' : List (Tri K)} (hn : (l.flatMap Tri.sides).Nodup) (hn' : (l'.flatMap Tri.sides).Nodup)
    (hsum : ∀ f : Vec3 K → Vec3 K → ℤ, (∀ a b, f b a = - f a b) → (l'.map (around f)).sum = (l.map (around f)).sum) (p q : Vec3 K) :
    ((p, q) ∈ l'.flatMap Tri.sides ∧ (q, p) ∉ l'.flatMap Tri.sides) ↔ ((p, q) ∈ l.flatMap Tri.sides ∧ (q, p) ∉ l.flatMap Tri.sides) := by
  have key : ∀ {S : List (Vec3 K × Vec3 K)}, S.Nodup → ∀ s, (S.countP fun x => decide (x = s)) = if s ∈ S then 1 else 0 := by
    intro S hS s
    have : (S.countP fun x => decide (x = s)) = S.count s := by
      rw [List.count]
      apply List.countP_congr
      intro x _
      simp
    rw [this]
    split_ifs with h
    · exact List.count_eq_one_of_mem hS h
    · exact List.count_eq_zero_of_not_mem h
  have e1 := passing_sum p q l
  have e2 := passing_sum p q l'
  have e3 := hsum (passing p q) (fun a b => passing_swap p q a b)
  rw [key hn, key hn] at e1
  rw [key hn', key hn'] at e2
  by_cases a1 : (p, q) ∈ l.flatMap Tri.sides <;> by_cases a2 : (q, p) ∈ l.flatMap Tri.sides <;>
    by_cases a3 : (p, q) ∈ l'.flatMap Tri.sides <;> by_cases a4 : (q, p) ∈ l'.flatMap Tri.sides <;>
    simp only [a1, a2, a3, a4, if_true, if_false, not_true_eq_false, not_false_eq_true, and_true, and_false, true_and] at e1 e2 ⊢ <;> omega

/-! ### The machine -/

/-- What the hash grid needs: positive machine constants and finite coordinates. -/
structure Machine (mc : HashGrid.Machine K) (m : Mesh K) : Prop where
  eps : 0 < mc.eps
  big : 0 < mc.big
  bounded : ∀ n v, m.nodes.get? n = some v → v.Bounded mc.big

theorem good_of {mc : HashGrid.Machine K} {m : Mesh K} (hm : m.Triangulation) (hc : Machine mc m) : Mesh.GoodFaces mc m := by
  refine ⟨hc.eps, hc.big, hc.bounded, ?_⟩
  right
  have hfull : m.FullElements := fun id e he => by
    obtain ⟨h1, h2⟩ := hm.all id e he
    rw [h1, h2]; exact le_refl 3
  cases hl : m.elements.ids with
  | nil => left; unfold Mesh.expectedFaces; rw [hl]; rfl
  | cons id t =>
    right
    have hid : id ∈ m.elements.ids := by rw [hl]; simp
    obtain ⟨e, he⟩ := (hm.wf.elements.2 id).1 hid
    obtain ⟨a, b, c, fs, p, q, r, rfl, hp, hq, hr, -, hu⟩ := tri_of hm he
    obtain ⟨h1, h2, h3⟩ := corners_ne hu
    have hmem : ∀ s ∈ [(a, b), (b, c), (c, a)], ∃ f ∈ m.expectedFaces, f.nodeIds = [s.1, s.2] := by
      intro s hs
      rw [Mesh.expectedFaces_eq hm.wf.elements hfull]
      refine ⟨{ faceType := .line, nodeIds := [s.1, s.2], elementId := id }, List.mem_flatMap.2 ⟨id, hid, ?_⟩, rfl⟩
      rw [he]
      simp only [Option.map_some, Option.getD_some]
      rw [triSides_faces id _ rfl rfl]
      exact List.mem_map.2 ⟨s, hs, rfl⟩
    obtain ⟨f, hf, hf2⟩ := hmem (a, b) (by simp)
    obtain ⟨g, hg, hg2⟩ := hmem (b, c) (by simp)
    refine ⟨f, hf, g, hg, ?_⟩
    rw [hf2, hg2]
    intro h
    apply h3
    simp only [Mesh.meanOf, Mesh.posOf, hp, hq, hr, List.map_cons, List.map_nil, List.sum_cons, List.sum_nil, Option.getD_some, List.length_cons, List.length_nil] at h
    have h2ne : (2 : K)⁻¹ ≠ 0 := inv_ne_zero two_ne_zero
    have hx := congrArg Vec3.x h
    have hy := congrArg Vec3.y h
    have hz := congrArg Vec3.z h
    norm_num [Vec3.smul_x, Vec3.smul_y, Vec3.smul_z, Vec3.add_x, Vec3.add_y, Vec3.add_z] at hx hy hz
    ext
    · linear_combination -2 * hx
    · linear_combination -2 * hy
    · linear_combination -2 * hz

theorem area_around (l : List (Tri K)) : (l.map fun t => orient t.v0 t.v1 t.v2).sum = (l.map (around fun a b : Vec3 K => a.x * b.y - a.y * b.x)).sum := by
  congr 1
  apply List.map_congr_left
  intro t _
  simp only [orient, around]; ring

theorem relax_core {m : Mesh K} (ht : 0 ≤ P.tol) (hm : m.Triangulation) (hfit : m.FacesFit) {N : Cont (Vec3 K)} (hi : RInv P m N) :
    Mesh.Triangulation { m with nodes := N } := by
  have hup : ∀ t ∈ Mesh.triangles { m with nodes := N }, 0 < orient t.v0 t.v1 t.v2 := by
    intro t h
    obtain ⟨id, hid, h⟩ := List.mem_filterMap.1 h
    rcases hi.up id t h with h | h
    · exact hm.up t (List.mem_filterMap.2 ⟨id, hid, h⟩)
    · exact up_orient ht h
  refine ⟨⟨hi.ok, hm.wf.faces, hm.wf.elements, ?_, ?_⟩, hm.all, hup, apart_of hm.up hup (fun f hf => hi.sum (fun x hx => by omega) f hf) hm.apart⟩
  · intro id f hf n hn; show n ∈ N.ids; rw [hi.ids]; exact hm.wf.faceNodes id f hf n hn
  · intro id e he n hn; show n ∈ N.ids; rw [hi.ids]; exact hm.wf.elemNodes id e he n hn

variable [FloorRing K]

theorem flip_inv0 {m : Mesh K} (hm : m.WF) (hfit : m.FacesFit) : Inv P m (m.elements, Mesh.setAll false m.elements.ids SMap.empty) := by
  refine ⟨hm.elements, rfl, fun _ _ => rfl, fun _ _ h _ => h, ?_, Relation.ReflTransGen.refl⟩
  intro id e he ht
  obtain ⟨a, b, c, habc, -⟩ := hfit.three id e he ht
  obtain ⟨ty, ns, fs⟩ := e
  simp only at ht habc
  subst ht habc
  have hn := fun n hn => (hm.nodes.2 n).1 (hm.elemNodes id _ he n hn)
  exact ⟨a, b, c, fs, he, hn a (by simp), hn b (by simp), hn c (by simp)⟩

theorem flip_core {mc : HashGrid.Machine K} {m : Mesh K} (ht : 0 ≤ P.tol) (hm : m.Triangulation) (hfit : m.FacesFit) (hc : Machine mc m) :
    ∃ m', flipEdges P mc m = some m' ∧ m'.Triangulation ∧ m'.FacesFit ∧ m'.nodes = m.nodes ∧ m'.elements.ids = m.elements.ids ∧
      Relation.ReflTransGen (Flip P m.elements.ids) m.triAt m'.triAt := by
  have h0 := flip_inv0 (P := P) hm.wf hfit
  obtain ⟨s, hs⟩ := flipLoop_def hm.wf hfit m.faces.ids (fun _ h => h) h0 (fun id hid => by
    simp only; rw [Mesh.setAll_find, if_pos hid]; exact ⟨_, rfl⟩)
  have hi := flipLoop_spec hm.wf hfit _ h0 hs
  have hall : Mesh.AllTriangles { m with elements := s.1 } := by
    intro id e he
    have hid : id ∈ m.elements.ids := by rw [← hi.ids]; exact (hi.ok.2 id).2 ⟨e, he⟩
    obtain ⟨e0, he0⟩ := (hm.wf.elements.2 id).1 hid
    obtain ⟨a, b, c, fs, h1, -⟩ := hi.tri id e0 he0 (hm.all id e0 he0).1
    have h2 : s.1.get? id = some e := he
    rw [h1] at h2
    obtain rfl := Option.some.inj h2
    exact ⟨rfl, rfl⟩
  have hwf : Mesh.WF { m with elements := s.1 } := by
    refine ⟨hm.wf.nodes, hm.wf.faces, hi.ok, hm.wf.faceNodes, ?_⟩
    intro id e he n hn
    have hid : id ∈ m.elements.ids := by rw [← hi.ids]; exact (hi.ok.2 id).2 ⟨e, he⟩
    obtain ⟨e0, he0⟩ := (hm.wf.elements.2 id).1 hid
    obtain ⟨a, b, c, fs, h1, h3, h4, h5⟩ := hi.tri id e0 he0 (hm.all id e0 he0).1
    have h2 : s.1.get? id = some e := he
    rw [h1] at h2
    obtain rfl := Option.some.inj h2
    simp only [List.mem_cons, List.not_mem_nil, or_false] at hn
    rcases hn with rfl | rfl | rfl
    · exact (hm.wf.nodes.2 _).2 h3
    · exact (hm.wf.nodes.2 _).2 h4
    · exact (hm.wf.nodes.2 _).2 h5
  have htri : ∀ t, t ∈ Mesh.triangles { m with elements := s.1 } ↔ ∃ id ∈ m.elements.ids, Mesh.triAt { m with elements := s.1 } id = some t := fun t => by
    unfold Mesh.triangles
    rw [List.mem_filterMap]
    show (∃ a ∈ s.1.ids, _) ↔ _
    rw [hi.ids]
  have hup : ∀ t ∈ Mesh.triangles { m with elements := s.1 }, 0 < orient t.v0 t.v1 t.v2 := by
    intro t h
    obtain ⟨id, hid, h⟩ := (htri t).1 h
    rcases flips_up ht hi.flips id t h with h | h
    · exact hm.up t (List.mem_filterMap.2 ⟨id, hid, h⟩)
    · exact h
  have hsum : ∀ f : Vec3 K → Vec3 K → ℤ, (∀ a b, f b a = - f a b) →
      ((Mesh.triangles { m with elements := s.1 }).map (around f)).sum = (m.triangles.map (around f)).sum := by
    intro f hf
    have := flips_sum hm.wf.elements.1 hi.flips f hf
    unfold Mesh.triangles
    show ((s.1.ids.filterMap _).map _).sum = _
    rw [hi.ids]
    exact this
  have hm1 : Mesh.Triangulation { m with elements := s.1 } := ⟨hwf, hall, hup, apart_of hm.up hup hsum hm.apart⟩
  have hc1 : Machine mc { m with elements := s.1 } := ⟨hc.eps, hc.big, hc.bounded⟩
  obtain ⟨m', g1, g2, g3, g4, g5, g6, -, g8, g9, -⟩ := faces_fit hwf (good_of hm1 hc1) hall (distinct_of hm1) (sideIds_nodup hm1) ht
  refine ⟨m', ?_, ⟨g2, g3, by rw [g6]; exact hup, by rw [g6]; exact hm1.apart⟩, g4, g5, g8.trans hi.ids, ?_⟩
  · simp only [flipEdges, hs, Option.bind_eq_bind, Option.bind_some]
    exact g1
  · have : m'.triAt = Mesh.triAt { m with elements := s.1 } := funext fun id => triAt_congr g5 (g9 id)
    rw [this]; exact hi.flips

theorem flip_core' {mc : HashGrid.Machine K} {m m' : Mesh K} (ht : 0 ≤ P.tol) (hm : m.Triangulation) (hfit : m.FacesFit) (hc : Machine mc m)
    (h : flipEdges P mc m = some m') : m'.Triangulation ∧ m'.FacesFit ∧ m'.nodes = m.nodes ∧ m'.elements.ids = m.elements.ids ∧
      Relation.ReflTransGen (Flip P m.elements.ids) m.triAt m'.triAt := by
  obtain ⟨m1, h1, h2⟩ := flip_core ht hm hfit hc
  rw [h] at h1
  obtain rfl := Option.some.inj h1
  exact h2

theorem flip_sum {mc : HashGrid.Machine K} {m m' : Mesh K} (ht : 0 ≤ P.tol) (hm : m.Triangulation) (hfit : m.FacesFit) (hc : Machine mc m)
    (h : flipEdges P mc m = some m') {A : Type} [AddCommGroup A] (f : Vec3 K → Vec3 K → A) (hf : ∀ a b, f b a = - f a b) :
    (m'.triangles.map (around f)).sum = (m.triangles.map (around f)).sum := by
  obtain ⟨-, -, -, h4, h5⟩ := flip_core' ht hm hfit hc h
  unfold Mesh.triangles
  rw [h4]
  exact flips_sum hm.wf.elements.1 h5 f hf

end Smooth

open Smooth
variable {K : Type} [Field K] [LinearOrder K] [IsStrictOrderedRing K]

/-! ## C90 -/

section
variable [FloorRing K]

/-- **C90 (preparation).** On every triangulation `generateFaces` gives a mesh that meets the hypothesis `FacesFit` of the theorems below and has the same
triangles. A node is on the boundary, in the sense of `OnBoundary`, iff it is an end of a side that no other triangle traverses in the other direction. -/
theorem C90_faces (mc : HashGrid.Machine K) (m : Mesh K) (hm : m.Triangulation) (hc : Smooth.Machine mc m) (tol : K) (ht : 0 ≤ tol) :
    ∃ m', m.generateFaces mc tol = some m' ∧ m'.Triangulation ∧ m'.FacesFit ∧ m'.nodes = m.nodes ∧ m'.triangles = m.triangles ∧
      ∀ n, m'.OnBoundary n ↔ ∃ s ∈ m.sideIds, s.swap ∉ m.sideIds ∧ (n = s.1 ∨ n = s.2) := by
  obtain ⟨m', g1, g2, g3, g4, g5, g6, -, -, -, g10⟩ := faces_fit hm.wf (good_of hm hc) hm.all (distinct_of hm) (sideIds_nodup hm) ht
  exact ⟨m', g1, ⟨g2, g3, by rw [g6]; exact hm.up, by rw [g6]; exact hm.apart⟩, g4, g5, g6, g10⟩

variable (P : Par K) (mc : HashGrid.Machine K) (m : Mesh K)

/-- **C90 (a triangulation stays one).** On every triangulation with up-to-date faces and every tolerance `≥ 0`, `flipEdges` is defined. It moves no node, keeps
the ids of the elements, and its result is a triangulation with up-to-date faces: the triangles are still traversed counter-clockwise, and no point is inside two
of them. So it can be called again. -/
theorem C90_flip (ht : 0 ≤ P.tol) (hm : m.Triangulation) (hfit : m.FacesFit) (hc : Smooth.Machine mc m) :
    ∃ m', flipEdges P mc m = some m' ∧ m'.Triangulation ∧ m'.FacesFit ∧ m'.nodes = m.nodes ∧ m'.elements.ids = m.elements.ids := by
  obtain ⟨m', h1, h2, h3, h4, h5, -⟩ := flip_core ht hm hfit hc
  exact ⟨m', h1, h2, h3, h4, h5⟩

variable {P mc m}

/-- **C90 (the region).** A point on no side of a triangle, before or after, is inside a triangle after `flipEdges` iff it was inside a triangle before; the sum
of the areas does not change. -/
theorem C90_region (ht : 0 ≤ P.tol) (hm : m.Triangulation) (hfit : m.FacesFit) (hc : Smooth.Machine mc m) {m' : Mesh K} (h : flipEdges P mc m = some m') :
    (∀ p, (∀ s ∈ m.sides, ¬ Covers s p) → (∀ s ∈ m'.sides, ¬ Covers s p) → ((∃ t ∈ m'.triangles, t.Inside p) ↔ ∃ t ∈ m.triangles, t.Inside p)) ∧
    (m'.triangles.map fun t => orient t.v0 t.v1 t.v2).sum = (m.triangles.map fun t => orient t.v0 t.v1 t.v2).sum := by
  refine ⟨fun p h1 h2 => in_iff hm.up (flip_core' ht hm hfit hc h).1.up (fun f hf => flip_sum ht hm hfit hc h f hf) h1 h2, ?_⟩
  rw [area_around, area_around]
  exact flip_sum ht hm hfit hc h _ (fun a b => by ring)

/-- **C90 (the boundary).** The sides that only one triangle has are the same before and after. -/
theorem C90_boundary (ht : 0 ≤ P.tol) (hm : m.Triangulation) (hfit : m.FacesFit) (hc : Smooth.Machine mc m) {m' : Mesh K} (h : flipEdges P mc m = some m')
    (p q : Vec3 K) : ((p, q) ∈ m'.sides ∧ (q, p) ∉ m'.sides) ↔ ((p, q) ∈ m.sides ∧ (q, p) ∉ m.sides) :=
  open_iff (sides_nodup hm) (sides_nodup (flip_core' ht hm hfit hc h).1) (fun f hf => flip_sum ht hm hfit hc h f hf) p q

/-- **C90 (the quality).** For every measure of quality that does not depend on the corner from which a triangle is read, no triangle after `flipEdges` is worse
than the worst before. -/
theorem C90_quality (ht : 0 ≤ P.tol) (hm : m.Triangulation) (hfit : m.FacesFit) (hc : Smooth.Machine mc m) {m' : Mesh K} (h : flipEdges P mc m = some m')
    (hq : ∀ a b c, P.quality ⟨b, c, a⟩ = P.quality ⟨a, b, c⟩) : ∀ t ∈ m'.triangles, ∃ u ∈ m.triangles, P.quality u ≤ P.quality t := by
  obtain ⟨-, -, -, h4, h5⟩ := flip_core' ht hm hfit hc h
  intro t htt
  by_contra hcon
  push Not at hcon
  obtain ⟨id, hid, hid2⟩ := List.mem_filterMap.1 htt
  rw [h4] at hid
  obtain ⟨u, hu, hmin⟩ : ∃ u ∈ m.triangles, ∀ v ∈ m.triangles, P.quality u ≤ P.quality v := by
    have hne : m.triangles ≠ [] := by
      obtain ⟨e, he⟩ := (hm.wf.elements.2 id).1 hid
      obtain ⟨a, b, c, fs, p, q, r, -, -, -, -, w, -⟩ := tri_of hm he
      exact List.ne_nil_of_mem (List.mem_filterMap.2 ⟨id, hid, w⟩)
    have : ∀ l : List (Tri K), l ≠ [] → ∃ u ∈ l, ∀ v ∈ l, P.quality u ≤ P.quality v := by
      intro l
      induction l with
      | nil => intro h; exact absurd rfl h
      | cons a l ih =>
        intro _
        by_cases hl : l = []
        · exact ⟨a, by simp, by simp [hl]⟩
        · obtain ⟨u, hu, hu2⟩ := ih hl
          rcases le_total (P.quality a) (P.quality u) with h | h
          · refine ⟨a, by simp, fun v hv => ?_⟩
            rcases List.mem_cons.1 hv with rfl | hv
            · exact le_rfl
            · exact h.trans (hu2 v hv)
          · refine ⟨u, List.mem_cons_of_mem _ hu, fun v hv => ?_⟩
            rcases List.mem_cons.1 hv with rfl | hv
            · exact h
            · exact hu2 v hv
    exact this _ hne
  have := flips_quality hq h5 (P.quality u) (fun id t hid ht => hmin t (List.mem_filterMap.2 ⟨id, hid, ht⟩)) id t hid hid2
  exact absurd this (not_le.2 (hcon u hu))

end

/-- The measure of quality of the code meets the hypothesis of `C90_quality`. -/
example (eps tol : ℝ) : let P : Par ℝ := ⟨realNorm, Quality.triangle eps, tol⟩
    ∀ a b c, P.quality ⟨b, c, a⟩ = P.quality ⟨a, b, c⟩ := fun a b c => (C82_triangle_order eps a b c).1

/-! ## C91 -/

variable {P : Par K} {m : Mesh K}

/-- **C91 (a triangulation stays one).** On every triangulation with up-to-date faces and every tolerance `≥ 0`, `relaxNodes` is defined. It changes positions of
nodes only; the nodes of the boundary do not move; the triangles are still traversed counter-clockwise and no point is inside two of them. -/
theorem C91_relax (ht : 0 ≤ P.tol) (hm : m.Triangulation) (hfit : m.FacesFit) :
    ∃ m', relaxNodes P m = some m' ∧ m'.Triangulation ∧ m'.FacesFit ∧ m'.elements = m.elements ∧ m'.faces = m.faces ∧ m'.nodes.ids = m.nodes.ids ∧
      ∀ n, m.OnBoundary n → m'.nodes.get? n = m.nodes.get? n := by
  obtain ⟨m', h⟩ := relaxNodes_def (P := P) hm.wf hm.all
  obtain ⟨N, rfl, hi⟩ := relaxNodes_spec hm.wf hm.all hfit h
  exact ⟨_, h, relax_core ht hm hfit hi, ⟨hfit.three, hfit.once, hfit.owner, hfit.face, hfit.pair⟩, rfl, rfl, hi.ids, hi.fixed⟩

/-- **C91 (the region).** A point on no side of a triangle, before or after, is inside a triangle after `relaxNodes` iff it was inside a triangle before; the sum
of the areas does not change. -/
theorem C91_region (ht : 0 ≤ P.tol) (hm : m.Triangulation) (hfit : m.FacesFit) {m' : Mesh K} (h : relaxNodes P m = some m') :
    (∀ p, (∀ s ∈ m.sides, ¬ Covers s p) → (∀ s ∈ m'.sides, ¬ Covers s p) → ((∃ t ∈ m'.triangles, t.Inside p) ↔ ∃ t ∈ m.triangles, t.Inside p)) ∧
    (m'.triangles.map fun t => orient t.v0 t.v1 t.v2).sum = (m.triangles.map fun t => orient t.v0 t.v1 t.v2).sum := by
  obtain ⟨N, rfl, hi⟩ := relaxNodes_spec hm.wf hm.all hfit h
  refine ⟨fun p h1 h2 => in_iff hm.up (relax_core ht hm hfit hi).up (fun f hf => hi.sum (fun x hx => by omega) f hf) h1 h2, ?_⟩
  rw [area_around, area_around]
  exact hi.sum (fun x hx => by linarith) _ (fun a b => by ring)

/-- **C91 (the quality).** Either no node moves, or the sum of the qualities of the triangles increases, whatever the measure of quality. -/
theorem C91_quality (hm : m.Triangulation) (hfit : m.FacesFit) {m' : Mesh K} (h : relaxNodes P m = some m') :
    m'.nodes = m.nodes ∨ (m.triangles.map P.quality).sum < (m'.triangles.map P.quality).sum := by
  obtain ⟨N, rfl, hi⟩ := relaxNodes_spec hm.wf hm.all hfit h
  exact hi.quality

/-- **C91 (no node escapes).** A half-space, with any direction `v`, that contains all the nodes contains them after `relaxNodes`. -/
theorem C91_hull (hm : m.Triangulation) (hfit : m.FacesFit) {m' : Mesh K} (h : relaxNodes P m = some m') (v : Vec3 K) (d : K)
    (hv : ∀ n p, m.nodes.get? n = some p → v.dot p ≤ d) : ∀ n p, m'.nodes.get? n = some p → v.dot p ≤ d := by
  obtain ⟨N, rfl, hi⟩ := relaxNodes_spec hm.wf hm.all hfit h
  exact hi.half v d hv

/-! ## A concrete case -/

namespace Smooth

/-- Each pair of triangles is separated by a side of one of them. -/
def Separated (t u : Tri K) : Prop := ∃ s ∈ t.sides, orient s.1 s.2 u.v0 ≤ 0 ∧ orient s.1 s.2 u.v1 ≤ 0 ∧ orient s.1 s.2 u.v2 ≤ 0

instance (t u : Tri K) : Decidable (Separated t u) := by unfold Separated; infer_instance

theorem separated_disjoint {t u : Tri K} (hu : 0 < orient u.v0 u.v1 u.v2) (h : Separated t u) {p : Vec3 K} (ht : t.Inside p) : ¬ u.Inside p := by
  rintro ⟨h0, h1, h2⟩
  obtain ⟨s, hs, k0, k1, k2⟩ := h
  have hp : 0 < orient s.1 s.2 p := by
    simp only [Tri.sides, List.mem_cons, List.not_mem_nil, or_false] at hs
    rcases hs with rfl | rfl | rfl
    · exact ht.1
    · exact ht.2.1
    · exact ht.2.2
  have key : orient s.1 s.2 p * orient u.v0 u.v1 u.v2 =
      orient u.v1 u.v2 p * orient s.1 s.2 u.v0 + orient u.v2 u.v0 p * orient s.1 s.2 u.v1 + orient u.v0 u.v1 p * orient s.1 s.2 u.v2 := by
    simp only [orient]; ring
  have := mul_pos hp hu
  nlinarith [mul_nonneg h1.le (neg_nonneg.2 k0), mul_nonneg h2.le (neg_nonneg.2 k1), mul_nonneg h0.le (neg_nonneg.2 k2)]

theorem apart_of_separated {l : List (Tri K)} (hup : ∀ t ∈ l, 0 < orient t.v0 t.v1 t.v2) (h : l.Pairwise fun t u => Separated t u ∨ Separated u t) (p : Vec3 K) :
    (l.countP fun t => decide (t.Inside p)) ≤ 1 := by
  induction l with
  | nil => simp
  | cons a l ih =>
    rw [List.pairwise_cons] at h
    have ih := ih (fun t ht => hup t (List.mem_cons_of_mem _ ht)) h.2
    rw [List.countP_cons]
    by_cases ha : a.Inside p
    · have h0 : (l.countP fun t => decide (t.Inside p)) = 0 := by
        rw [List.countP_eq_zero]
        intro u hu
        simp only [decide_eq_true_eq]
        rcases h.1 u hu with h1 | h1
        · exact separated_disjoint (hup u (List.mem_cons_of_mem _ hu)) h1 ha
        · exact fun hc => separated_disjoint (hup a (by simp)) h1 hc ha
      simp [h0, ha]
    · simpa [ha] using ih

/-- A test that shows concrete meshes to be triangulations. -/
def checkTriangulation (m : Mesh ℚ) : Bool :=
  m.check && m.elements.map.entries.all (fun p => decide (p.2.elementType = .triangle ∧ p.2.nodeIds.length = 3)) &&
  m.triangles.all (fun t => decide (0 < orient t.v0 t.v1 t.v2)) && decide (m.triangles.Pairwise fun t u => Separated t u ∨ Separated u t)

theorem triangulation_of_check {m : Mesh ℚ} (h : checkTriangulation m = true) : m.Triangulation := by
  simp only [checkTriangulation, Bool.and_eq_true, List.all_eq_true, decide_eq_true_iff] at h
  obtain ⟨⟨⟨h1, h2⟩, h3⟩, h4⟩ := h
  refine ⟨Mesh.wf_of_check h1, ?_, h3, apart_of_separated h3 h4⟩
  intro id e he
  exact h2 _ ((SMap.find?_eq_some_iff _ _ _).1 he)

/-- A rational measure of quality: the ratio of the area to the sum of the squares of the sides. -/
def ratQuality (t : Tri ℚ) : ℚ := orient t.v0 t.v1 t.v2 / ((t.v1 - t.v0).normSq + (t.v2 - t.v1).normSq + (t.v0 - t.v2).normSq)

/-- Over `ℚ`, the largest coordinate stands for the length. -/
def exPar : Par ℚ := ⟨fun v => max |v.x| (max |v.y| |v.z|), ratQuality, 0⟩

/-- A rhombus cut along its long diagonal, and two triangles beside it. -/
def kite : Mesh ℚ :=
  { nodes := (((((Cont.empty.add 0 ⟨-4, 0, 0⟩).add 1 ⟨0, -1, 0⟩).add 2 ⟨4, 0, 0⟩).add 3 ⟨0, 1, 0⟩).add 4 ⟨4, 4, 0⟩).add 5 ⟨4, -4, 0⟩
    faces := Cont.empty
    elements := (((Cont.empty.add 0 ⟨.triangle, [0, 1, 2], []⟩).add 1 ⟨.triangle, [2, 3, 0], []⟩).add 7 ⟨.triangle, [3, 2, 4], []⟩).add 8 ⟨.triangle, [5, 2, 1], []⟩
    nbBoundary := 0 }

/-- A square with a node off its centre. -/
def square4 : Mesh ℚ :=
  { nodes := ((((Cont.empty.add 0 ⟨0, 0, 0⟩).add 1 ⟨8, 0, 0⟩).add 2 ⟨8, 8, 0⟩).add 3 ⟨0, 8, 0⟩).add 9 ⟨1, 2, 0⟩
    faces := Cont.empty
    elements := (((Cont.empty.add 0 ⟨.triangle, [0, 1, 9], []⟩).add 1 ⟨.triangle, [1, 2, 9], []⟩).add 2 ⟨.triangle, [9, 2, 3], []⟩).add 3 ⟨.triangle, [3, 0, 9], []⟩
    nbBoundary := 0 }

end Smooth

/-- Both meshes meet the hypotheses of `C90_faces`, whose result meets those of the other theorems. -/
theorem kite_ok : kite.Triangulation ∧ Smooth.Machine smallMachine kite ∧ square4.Triangulation ∧ Smooth.Machine smallMachine square4 ∧ 0 ≤ exPar.tol := by
  refine ⟨triangulation_of_check (by decide +kernel), ⟨by norm_num [smallMachine], by norm_num [smallMachine], ?_⟩, triangulation_of_check (by decide +kernel),
    ⟨by norm_num [smallMachine], by norm_num [smallMachine], ?_⟩, by decide +kernel⟩
  · intro n v h
    simp only [kite, Cont.get?_add] at h
    split_ifs at h <;> first
      | (simp only [Option.some.injEq] at h; subst h; norm_num [Vec3.Bounded, smallMachine])
      | (simp [Cont.empty, Cont.get?] at h)
  · intro n v h
    simp only [square4, Cont.get?_add] at h
    split_ifs at h <;> first
      | (simp only [Option.some.injEq] at h; subst h; norm_num [Vec3.Bounded, smallMachine])
      | (simp [Cont.empty, Cont.get?] at h)

example : ∃ m', kite.generateFaces smallMachine 0 = some m' ∧ m'.Triangulation ∧ m'.FacesFit := by
  obtain ⟨m', h1, h2, h3, -⟩ := C90_faces smallMachine kite kite_ok.1 kite_ok.2.1 0 le_rfl
  exact ⟨m', h1, h2, h3⟩

/-- The long diagonal is flipped; the triangles beside it stay. -/
example : ((kite.generateFaces smallMachine 0).bind (flipEdges exPar smallMachine)).map (fun m => m.elements.ids.filterMap fun i => (m.elements.get? i).map Elem.nodeIds) =
    some [[1, 3, 0], [3, 1, 2], [3, 2, 4], [5, 2, 1]] := by decide +kernel

/-- The node moves to the mean of the corners and itself. -/
example : ((square4.generateFaces smallMachine 0).bind (relaxNodes exPar)).map (fun m => m.nodes.ids.filterMap m.nodes.get?) =
    some [⟨0, 0, 0⟩, ⟨8, 0, 0⟩, ⟨8, 8, 0⟩, ⟨0, 8, 0⟩, ⟨17 / 5, 18 / 5, 0⟩] := by decide +kernel

end ENigMA
