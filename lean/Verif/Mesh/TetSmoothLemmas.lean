import Verif.Mesh.TetSmooth
import Verif.Mesh.TetSpace
import Verif.Mesh.SmoothProps

/-!
# Properties of `flipEdges23` and `relaxNodes`
-/

set_option linter.unusedSectionVars false
set_option autoImplicit false

namespace ENigMA
namespace TetSmooth
open Space
variable {K : Type} [Field K] [LinearOrder K] [IsStrictOrderedRing K]
variable {P : Par K}

/-! ### Tetrahedra of a mesh -/

theorem tetAt_mk {m : Mesh K} {id a b c d : Int} {fs : List Int} {p q r s : Vec3 K} (he : m.elements.get? id = some ⟨.tetrahedron, [a, b, c, d], fs⟩)
    (ha : m.nodes.get? a = some p) (hb : m.nodes.get? b = some q) (hc : m.nodes.get? c = some r) (hd : m.nodes.get? d = some s) : m.tetAt id = some ⟨p, q, r, s⟩ := by
  unfold Mesh.tetAt
  simp [he, ha, hb, hc, hd]

theorem tetAt_congr {m m' : Mesh K} (hn : m'.nodes = m.nodes) {id : Int}
    (h : (m'.elements.get? id).map (fun e => (e.elementType, e.nodeIds)) = (m.elements.get? id).map fun e => (e.elementType, e.nodeIds)) :
    m'.tetAt id = m.tetAt id := by
  unfold Mesh.tetAt
  rw [hn]
  cases h1 : m'.elements.get? id with
  | none =>
    rw [h1] at h
    cases h2 : m.elements.get? id with
    | none => rfl
    | some e => rw [h2] at h; simp at h
  | some e' =>
    rw [h1] at h
    cases h2 : m.elements.get? id with
    | none => rw [h2] at h; simp at h
    | some e =>
      rw [h2] at h
      simp only [Option.map_some, Option.some.injEq, Prod.mk.injEq] at h
      obtain ⟨ty', n', f'⟩ := e'
      obtain ⟨ty, n, f⟩ := e
      simp only at h
      obtain ⟨rfl, rfl⟩ := h
      cases ty' <;> try rfl
      match n' with
      | [] => rfl
      | [_] => rfl
      | [_, _] => rfl
      | [_, _, _] => rfl
      | [_, _, _, _] => rfl
      | _ :: _ :: _ :: _ :: _ :: _ => rfl

theorem tet_of {m : Mesh K} (hm : m.WF) (hall : m.AllTets) {id : Int} {e : Elem} (he : m.elements.get? id = some e) :
    ∃ a b c d fs p q r s, e = ⟨.tetrahedron, [a, b, c, d], fs⟩ ∧ m.nodes.get? a = some p ∧ m.nodes.get? b = some q ∧ m.nodes.get? c = some r ∧
      m.nodes.get? d = some s ∧ m.tetAt id = some ⟨p, q, r, s⟩ ∧ ⟨p, q, r, s⟩ ∈ m.tets := by
  obtain ⟨h1, h2⟩ := hall id e he
  have hn := fun n hn => (hm.nodes.2 n).1 (hm.elemNodes id e he n hn)
  obtain ⟨ty, ns, fs⟩ := e
  simp only at h1 h2
  subst h1
  match ns, h2 with
  | [a, b, c, d], _ =>
    obtain ⟨p, hp⟩ := hn a (by simp)
    obtain ⟨q, hq⟩ := hn b (by simp)
    obtain ⟨r, hr⟩ := hn c (by simp)
    obtain ⟨s, hs⟩ := hn d (by simp)
    have ht := tetAt_mk he hp hq hr hs
    exact ⟨a, b, c, d, fs, p, q, r, s, rfl, hp, hq, hr, hs, ht, List.mem_filterMap.2 ⟨id, (hm.elements.2 id).2 ⟨_, he⟩, ht⟩⟩

theorem ids_ne {m : Mesh K} {a b : Int} {p q : Vec3 K} (ha : m.nodes.get? a = some p) (hb : m.nodes.get? b = some q) (h : p ≠ q) : a ≠ b := by
  rintro rfl
  rw [ha] at hb
  exact h (Option.some.inj hb)

theorem four_of {m : Mesh K} (hm : m.Filling) {id : Int} {e : Elem} (he : m.elements.get? id = some e) : ∃ a b c d fs, e = ⟨.tetrahedron, [a, b, c, d], fs⟩ ∧
    a ≠ b ∧ a ≠ c ∧ a ≠ d ∧ b ≠ c ∧ b ≠ d ∧ c ≠ d := by
  obtain ⟨a, b, c, d, fs, p, q, r, s, rfl, ha, hb, hc, hd, -, ht⟩ := tet_of hm.wf hm.all he
  obtain ⟨h1, h2, h3, h4, h5, h6⟩ := Space.corners_ne (hm.positive _ ht)
  exact ⟨a, b, c, d, fs, rfl, ids_ne ha hb h1, ids_ne ha hc h2, ids_ne ha hd h3, ids_ne hb hc h4, ids_ne hb hd h5, ids_ne hc hd h6⟩

/-! ### Flips -/

/-- A flip: two tetrahedra on the two sides of `1 2 3` become three around the line from `4` to `5`. -/
def Flip (P : Par K) (l l' : List (Tet K)) : Prop :=
  ∃ (p1 p2 p3 p4 p5 : Vec3 K) (t1 t2 : Tet K) (r : List (Tet K)), l.Perm (t1 :: t2 :: r) ∧
    l'.Perm (⟨p1, p2, p5, p4⟩ :: ⟨p2, p3, p5, p4⟩ :: ⟨p1, p3, p4, p5⟩ :: r) ∧
    Alike t1 ⟨p1, p2, p3, p4⟩ ∧ Alike t2 ⟨p3, p2, p1, p5⟩ ∧ better P p1 p2 p3 p4 p5

theorem Odd.neg {A : Type} [AddCommGroup A] {f : Tri K → A} (hf : Odd f) (a b c : Vec3 K) : f ⟨a, c, b⟩ = - f ⟨a, b, c⟩ := by
  rw [← hf.turn a b c, ← hf.swap b c a, hf.turn a c b]

theorem flip_hull {A : Type} [AddCommGroup A] {f : Tri K → A} (hf : Odd f) (p1 p2 p3 p4 p5 : Vec3 K) :
    hull f ⟨p1, p2, p5, p4⟩ + (hull f ⟨p2, p3, p5, p4⟩ + hull f ⟨p1, p3, p4, p5⟩) = hull f ⟨p1, p2, p3, p4⟩ + hull f ⟨p3, p2, p1, p5⟩ := by
  simp only [hull]
  have e1 : f ⟨p3, p2, p1⟩ = - f ⟨p1, p2, p3⟩ := by rw [← hf.turn p1 p2 p3, ← hf.swap p2 p3 p1]
  have e2 : f ⟨p2, p5, p1⟩ = f ⟨p1, p2, p5⟩ := hf.turn _ _ _
  have e3 : f ⟨p3, p5, p2⟩ = f ⟨p2, p3, p5⟩ := hf.turn _ _ _
  have e4 : f ⟨p3, p1, p5⟩ = f ⟨p1, p5, p3⟩ := (hf.turn _ _ _).symm
  have e5 : f ⟨p2, p5, p4⟩ = - f ⟨p2, p4, p5⟩ := Odd.neg hf _ _ _
  have e6 : f ⟨p1, p5, p4⟩ = - f ⟨p1, p4, p5⟩ := Odd.neg hf _ _ _
  have e7 : f ⟨p3, p5, p4⟩ = - f ⟨p3, p4, p5⟩ := Odd.neg hf _ _ _
  rw [e1, e2, e3, e4, e5, e6, e7]
  abel

theorem Flip.hull {l l' : List (Tet K)} (h : Flip P l l') : SameHull l l' := by
  obtain ⟨p1, p2, p3, p4, p5, t1, t2, r, h1, h2, h3, h4, -⟩ := h
  intro A _ f hf
  rw [(h1.map _).sum_eq, (h2.map _).sum_eq]
  simp only [List.map_cons, List.sum_cons, ← hull_alike hf h3, ← hull_alike hf h4]
  rw [← add_assoc, ← flip_hull hf]
  abel

theorem large_positive (ht : 0 ≤ P.tol) {t : Tet K} (h : large P t) : t.Positive := by
  unfold large at h
  have h0 : 0 ≤ P.tol * P.tol * P.tol := by positivity
  have e : t.volume = behind ⟨t.v0, t.v1, t.v2⟩ t.v3 / 6 := by
    simp only [Tet.volume, det4one, det4, behind, det3, Vec3.cross, Vec3.dot, Vec3.sub_x, Vec3.sub_y, Vec3.sub_z]; ring
  rw [e] at h
  unfold Tet.Positive
  linarith

theorem Flip.positive (ht : 0 ≤ P.tol) {l l' : List (Tet K)} (h : Flip P l l') (hl : ∀ t ∈ l, t.Positive) : ∀ t ∈ l', t.Positive := by
  obtain ⟨p1, p2, p3, p4, p5, t1, t2, r, h1, h2, -, -, -, g1, g2, g3⟩ := h
  intro t htt
  have h4 := h2.subset htt
  simp only [List.mem_cons] at h4
  rcases h4 with rfl | rfl | rfl | h4
  · exact large_positive ht g1
  · exact large_positive ht g2
  · exact large_positive ht g3
  · exact hl t (h1.symm.subset (by simp [h4]))

theorem flips_hull {l l' : List (Tet K)} (h : Relation.ReflTransGen (Flip P) l l') : SameHull l l' := by
  induction h with
  | refl => exact fun _ _ _ _ => rfl
  | tail _ h2 ih => exact fun A _ f hf => (ih A f hf).trans (h2.hull A f hf)

theorem flips_positive (ht : 0 ≤ P.tol) {l l' : List (Tet K)} (h : Relation.ReflTransGen (Flip P) l l') (hl : ∀ t ∈ l, t.Positive) : ∀ t ∈ l', t.Positive := by
  induction h with
  | refl => exact hl
  | tail _ h2 ih => exact h2.positive ht ih

theorem flips_quality (hq : ∀ t u, Alike t u → P.quality u = P.quality t) {l l' : List (Tet K)} (h : Relation.ReflTransGen (Flip P) l l') (q : K)
    (h0 : ∀ t ∈ l, q ≤ P.quality t) : ∀ t ∈ l', q ≤ P.quality t := by
  induction h with
  | refl => exact h0
  | tail _ h2 ih =>
    obtain ⟨p1, p2, p3, p4, p5, t1, t2, r, h1, h2, h3, h4, h5, -⟩ := h2
    have k1 := ih t1 (h1.symm.subset (by simp))
    have k2 := ih t2 (h1.symm.subset (by simp))
    rw [← hq _ _ h3] at k1
    rw [← hq _ _ h4] at k2
    have hmin := lt_of_le_of_lt (le_min k1 k2) h5
    rw [lt_min_iff, lt_min_iff] at hmin
    intro t ht
    have := h2.subset ht
    simp only [List.mem_cons] at this
    rcases this with rfl | rfl | rfl | h6
    · exact hmin.1.le
    · exact hmin.2.1.le
    · exact hmin.2.2.le
    · exact ih t (h1.symm.subset (by simp [h6]))

/-- What holds in the loop over the faces. -/
structure Inv (P : Par K) (m : Mesh K) (s : St) : Prop where
  ok : s.1.Ok
  sub : ∀ id ∈ m.elements.ids, id ∈ s.1.ids
  same : ∀ id ∈ m.elements.ids, flag s.2 id = false → s.1.get? id = m.elements.get? id
  tets : ∀ id e, s.1.get? id = some e → ∃ a b c d fs, e = ⟨.tetrahedron, [a, b, c, d], fs⟩ ∧ ∀ n ∈ [a, b, c, d], n ∈ m.nodes.ids
  flips : Relation.ReflTransGen (Flip P) m.tets (Mesh.tets { m with elements := s.1 })

/-- A face read first. -/
theorem fourth_of {a b c d : Int} {fs : List Int} (hab : a ≠ b) (hac : a ≠ c) (had : a ≠ d) (hbc : b ≠ c) (hbd : b ≠ d) (hcd : c ≠ d) {s : Int × Int × Int}
    (hs : s ∈ Elem.tetFaces ⟨.tetrahedron, [a, b, c, d], fs⟩) : ∃ z, fourth ⟨.tetrahedron, [a, b, c, d], fs⟩ s.1 s.2.1 s.2.2 = some z ∧
      z ∈ [a, b, c, d] ∧ s.1 ∈ [a, b, c, d] ∧ s.2.1 ∈ [a, b, c, d] ∧ s.2.2 ∈ [a, b, c, d] ∧
      ∀ f : Int → Vec3 K, Alike ⟨f a, f b, f c, f d⟩ ⟨f s.1, f s.2.1, f s.2.2, f z⟩ := by
  simp only [Elem.tetFaces, List.mem_cons, List.not_mem_nil, or_false] at hs
  rcases hs with rfl | rfl | rfl | rfl
  · refine ⟨d, ?_, by simp, by simp, by simp, by simp, fun f => Alike.refl _⟩
    simp [fourth, hab, hac, had, hbc, hbd, hcd, Ne.symm had, Ne.symm hbd, Ne.symm hcd]
  · refine ⟨a, ?_, by simp, by simp, by simp, by simp, fun f => Alike.turn (Alike.swap (Alike.turn (Alike.refl _)))⟩
    simp [fourth, hab, hac, had]
  · refine ⟨c, ?_, by simp, by simp, by simp, by simp, fun f => Alike.turn (Alike.swap (Alike.refl _))⟩
    simp [fourth, hab, hac, had, Ne.symm hbc, Ne.symm hac, hcd]
  · refine ⟨b, ?_, by simp, by simp, by simp, by simp, fun f => Alike.swap (Alike.turn (Alike.turn (Alike.refl _)))⟩
    simp [fourth, hbc, hbd, Ne.symm hab]

theorem fourth_turned (e : Elem) (a b c x y z : Int) (h : SameTri (turned (a, b, c)) (x, y, z)) : fourth e a b c = fourth e x y z := by
  unfold fourth
  congr 1
  funext n
  simp only [SameTri, turned, Prod.mk.injEq] at h
  rcases h with ⟨rfl, rfl, rfl⟩ | ⟨rfl, rfl, rfl⟩ | ⟨rfl, rfl, rfl⟩ <;>
  cases decide (n ≠ x) <;> cases decide (n ≠ y) <;> cases decide (n ≠ z) <;> rfl

theorem perm_two {l : List Int} {i j : Int} (hi : i ∈ l) (hj : j ∈ l) (hij : i ≠ j) : ∃ r, l.Perm (i :: j :: r) := by
  have h1 := List.perm_cons_erase hi
  have hj' : j ∈ l.erase i := (List.mem_cons.1 (h1.subset hj)).resolve_left (Ne.symm hij)
  exact ⟨(l.erase i).erase j, h1.trans (List.Perm.cons _ (List.perm_cons_erase hj'))⟩

theorem filterMap_two {l r : List Int} {i j : Int} (h : l.Perm (i :: j :: r)) {F : Int → Option (Tet K)} {t u : Tet K} (hi : F i = some t) (hj : F j = some u) :
    (l.filterMap F).Perm (t :: u :: r.filterMap F) := by
  refine (h.filterMap F).trans ?_
  rw [List.filterMap_cons_some hi, List.filterMap_cons_some hj]

theorem flipFace_spec {m : Mesh K} (hm : m.Filling) (hfit : m.TetFit) {s : St} (hi : Inv P m s) {fid : Int} (hfid : fid ∈ m.faces.ids) :
    ∃ s', flipFace P m s fid = some s' ∧ Inv P m s' := by
  obtain ⟨f, hf⟩ := (hm.wf.faces.2 fid).1 hfid
  unfold flipFace
  simp only [hf, Option.bind_eq_bind, Option.bind_some]
  by_cases hty : f.faceType = .triangle
  swap
  · rw [if_pos hty]; exact ⟨s, rfl, hi⟩
  rw [if_neg (not_not.2 hty)]
  by_cases hdone : flag s.2 f.elementId = true
  · rw [if_pos hdone]; exact ⟨s, rfl, hi⟩
  rw [if_neg hdone]
  have hdone' : flag s.2 f.elementId = false := by simpa using hdone
  obtain ⟨e, he0, hside⟩ := hfit.owner fid f hf hty
  have hid1 : f.elementId ∈ m.elements.ids := (hm.wf.elements.2 _).2 ⟨e, he0⟩
  have he : s.1.get? f.elementId = some e := by rw [hi.same _ hid1 hdone']; exact he0
  obtain ⟨a, b, c, d, fs, rfl, hab, hac, had, hbc, hbd, hcd⟩ := four_of hm he0
  obtain ⟨⟨n1, n2, n3⟩, hs1, hfn⟩ := hside rfl
  obtain ⟨n4, h4, hn4, hn1, hn2, hn3, hal1⟩ := fourth_of (K := K) hab hac had hbc hbd hcd hs1
  simp only at hfn h4 hn1 hn2 hn3 hal1
  simp only [he, Option.bind_some, ne_eq, not_true_eq_false, if_false, hfn, List.getElem?_cons_zero, List.getElem?_cons_succ, h4]
  by_cases hp : f.hasPair = true
  swap
  · rw [if_neg hp]; exact ⟨s, rfl, hi⟩
  rw [if_pos hp]
  obtain ⟨g, s1, s2, hg, hgty, hfs, hgn, hturn⟩ := hfit.pair fid f hf hty hp
  obtain rfl : s1 = (n1, n2, n3) := by
    rw [hfn] at hfs
    simp only [List.cons.injEq, and_true] at hfs
    exact Prod.ext hfs.1.symm (Prod.ext hfs.2.1.symm hfs.2.2.symm)
  unfold flipAcross
  simp only [hg, Option.bind_eq_bind, Option.bind_some]
  by_cases hdone2 : flag s.2 g.elementId = true
  · rw [if_pos hdone2]; exact ⟨s, rfl, hi⟩
  rw [if_neg hdone2]
  have hdone2' : flag s.2 g.elementId = false := by simpa using hdone2
  obtain ⟨e2, he20, hside2⟩ := hfit.owner _ g hg hgty
  have hid2 : g.elementId ∈ m.elements.ids := (hm.wf.elements.2 _).2 ⟨e2, he20⟩
  have he2 : s.1.get? g.elementId = some e2 := by rw [hi.same _ hid2 hdone2']; exact he20
  obtain ⟨a', b', c', d', fs', rfl, hab', hac', had', hbc', hbd', hcd'⟩ := four_of hm he20
  obtain ⟨⟨u1, u2, u3⟩, hs2, hgn2⟩ := hside2 rfl
  obtain ⟨n5, h5, hn5, hu1, hu2, hu3, hal2⟩ := fourth_of (K := K) hab' hac' had' hbc' hbd' hcd' hs2
  simp only at hgn2 h5 hu1 hu2 hu3 hal2
  obtain rfl : s2 = (u1, u2, u3) := by
    rw [hgn2] at hgn
    simp only [List.cons.injEq, and_true] at hgn
    exact Prod.ext hgn.1.symm (Prod.ext hgn.2.1.symm hgn.2.2.symm)
  rw [← fourth_turned _ n1 n2 n3 _ _ _ hturn] at h5
  simp only [he2, Option.bind_some, ne_eq, not_true_eq_false, if_false, h5]
  have hnode1 : ∀ n ∈ [a, b, c, d], n ∈ m.nodes.ids := hm.wf.elemNodes _ _ he0
  have hnode2 : ∀ n ∈ [a', b', c', d'], n ∈ m.nodes.ids := hm.wf.elemNodes _ _ he20
  have hpos : ∀ n ∈ m.nodes.ids, m.nodes.get? n = some (Smooth.pos m.nodes n) := fun n hn => by
    obtain ⟨v, hv⟩ := (hm.wf.nodes.2 n).1 hn
    simp [Smooth.pos, hv]
  unfold flipPair
  simp only [hpos _ (hnode1 _ hn1), hpos _ (hnode1 _ hn2), hpos _ (hnode1 _ hn3), hpos _ (hnode1 _ hn4), hpos _ (hnode2 _ hn5), Option.bind_eq_bind, Option.bind_some]
  set pos := Smooth.pos m.nodes with hposdef
  by_cases hbet : better P (pos n1) (pos n2) (pos n3) (pos n4) (pos n5)
  swap
  · rw [if_neg hbet]; exact ⟨s, rfl, hi⟩
  rw [if_pos hbet]
  -- the other tetrahedron is another element
  have hal2' : Alike ⟨pos a', pos b', pos c', pos d'⟩ ⟨pos n3, pos n2, pos n1, pos n5⟩ := by
    have := hal2 pos
    simp only [SameTri, turned, Prod.mk.injEq] at hturn
    rcases hturn with ⟨rfl, rfl, rfl⟩ | ⟨rfl, rfl, rfl⟩ | ⟨rfl, rfl, rfl⟩
    · exact Alike.turn (Alike.turn this)
    · exact Alike.turn this
    · exact this
  have hne : f.elementId ≠ g.elementId := by
    intro heq
    rw [← heq, he0] at he20
    simp only [Option.some.injEq, Elem.mk.injEq, List.cons.injEq, and_true, true_and] at he20
    obtain ⟨⟨rfl, rfl, rfl, rfl⟩, -⟩ := he20
    have ht := tetAt_mk (m := m) he0 (hpos _ (hnode1 a (by simp))) (hpos _ (hnode1 b (by simp))) (hpos _ (hnode1 c (by simp))) (hpos _ (hnode1 d (by simp)))
    have hpo := hm.positive _ (List.mem_filterMap.2 ⟨_, hid1, ht⟩)
    obtain ⟨q, hq1, hq2⟩ : ∃ q, 0 < behind ⟨pos n1, pos n2, pos n3⟩ q ∧ 0 < behind ⟨pos n3, pos n2, pos n1⟩ q := by
      obtain ⟨q, hq⟩ := exists_inside hpo
      exact ⟨q, (inside_alike (hal1 pos) q).2 hq _ (by simp [Tet.faces]), (inside_alike hal2' q).2 hq _ (by simp [Tet.faces])⟩
    have : behind ⟨pos n3, pos n2, pos n1⟩ q = - behind ⟨pos n1, pos n2, pos n3⟩ q := by
      simp only [behind, det3, Vec3.cross, Vec3.dot, Vec3.sub_x, Vec3.sub_y, Vec3.sub_z]; ring
    linarith
  have hmod1 := Cont.modify_eq (f := setFour n1 n2 n5 n4) (a' := ⟨.tetrahedron, [n1, n2, n5, n4], fs⟩) he (by simp [setFour])
  rw [hmod1]
  simp only [Option.bind_some]
  have hget1 : (Cont.mk (s.1.map.insert f.elementId ⟨.tetrahedron, [n1, n2, n5, n4], fs⟩) s.1.ids s.1.indices s.1.counter).get? g.elementId = some ⟨.tetrahedron, [a', b', c', d'], fs'⟩ := by
    rw [Cont.get?_put, if_neg (Ne.symm hne), he2]
  have hmod2 := Cont.modify_eq (f := setFour n2 n3 n5 n4) (a' := ⟨.tetrahedron, [n2, n3, n5, n4], fs'⟩) hget1 (by simp [setFour])
  rw [hmod2]
  simp only [Option.bind_some]
  refine ⟨_, rfl, ?_⟩
  generalize hE : Cont.mk ((s.1.map.insert f.elementId ⟨.tetrahedron, [n1, n2, n5, n4], fs⟩).insert g.elementId ⟨.tetrahedron, [n2, n3, n5, n4], fs'⟩) s.1.ids s.1.indices s.1.counter = E
  have hgetE : ∀ id, E.get? id = if id = g.elementId then some ⟨.tetrahedron, [n2, n3, n5, n4], fs'⟩ else if id = f.elementId then some ⟨.tetrahedron, [n1, n2, n5, n4], fs⟩ else s.1.get? id := by
    intro id
    rw [← hE]
    show (SMap.insert _ _ _).find? id = _
    rw [SMap.find?_insert, SMap.find?_insert]
    rfl
  have hEids : E.ids = s.1.ids := by rw [← hE]
  have hEok : E.Ok := by
    refine ⟨by rw [hEids]; exact hi.ok.1, fun id => ?_⟩
    rw [hgetE, hEids, hi.ok.2]
    split_ifs with z1 z2
    · subst z1; simp [he2]
    · subst z2; simp [he]
    · rfl
  have hnew : E.nextId ∉ s.1.ids := by rw [← hEids]; exact Cont.nextId_not_mem hEok
  have hnf : f.elementId ≠ E.nextId := by intro h; rw [← h] at hnew; exact hnew (hi.sub _ hid1)
  have hng : g.elementId ≠ E.nextId := by intro h; rw [← h] at hnew; exact hnew (hi.sub _ hid2)
  generalize E.nextId = new at hnew hnf hng
  have hget : ∀ id, (E.add new ⟨.tetrahedron, [n1, n3, n4, n5], []⟩).get? id = if id = new then some ⟨.tetrahedron, [n1, n3, n4, n5], []⟩ else
      if id = g.elementId then some ⟨.tetrahedron, [n2, n3, n5, n4], fs'⟩ else if id = f.elementId then some ⟨.tetrahedron, [n1, n2, n5, n4], fs⟩ else s.1.get? id := by
    intro id
    rw [Cont.get?_add, hgetE]
  have haddids : (E.add new ⟨.tetrahedron, [n1, n3, n4, n5], []⟩).ids = s.1.ids ++ [new] := by simp [Cont.add, hEids]
  have haddok := Cont.add_ok hEok (id := new) ⟨.tetrahedron, [n1, n3, n4, n5], []⟩ (by rw [hEids]; exact hnew)
  generalize E.add new ⟨.tetrahedron, [n1, n3, n4, n5], []⟩ = C at hget haddids haddok
  refine ⟨haddok, ?_, ?_, ?_, hi.flips.tail ?_⟩
  · intro id hid
    simp only
    rw [haddids]
    exact List.mem_append_left _ (hi.sub id hid)
  · intro id hid hfl
    simp only [flag, SMap.find?_insert] at hfl
    by_cases z0 : id = new
    · rw [if_pos z0] at hfl; simp at hfl
    by_cases z1 : id = g.elementId
    · rw [if_neg z0, if_pos z1] at hfl; simp at hfl
    by_cases z2 : id = f.elementId
    · rw [if_neg z0, if_neg z1, if_pos z2] at hfl; simp at hfl
    rw [if_neg z0, if_neg z1, if_neg z2] at hfl
    simp only
    rw [hget, if_neg z0, if_neg z1, if_neg z2]
    exact hi.same id hid hfl
  · intro id e' he'
    simp only at he'
    rw [hget] at he'
    split_ifs at he' with z0 z1 z2
    · refine ⟨_, _, _, _, _, (Option.some.inj he').symm, ?_⟩
      simp only [List.forall_mem_cons, List.not_mem_nil, false_imp_iff, implies_true, and_true]
      exact ⟨hnode1 _ hn1, hnode1 _ hn3, hnode1 _ hn4, hnode2 _ hn5⟩
    · refine ⟨_, _, _, _, _, (Option.some.inj he').symm, ?_⟩
      simp only [List.forall_mem_cons, List.not_mem_nil, false_imp_iff, implies_true, and_true]
      exact ⟨hnode1 _ hn2, hnode1 _ hn3, hnode2 _ hn5, hnode1 _ hn4⟩
    · refine ⟨_, _, _, _, _, (Option.some.inj he').symm, ?_⟩
      simp only [List.forall_mem_cons, List.not_mem_nil, false_imp_iff, implies_true, and_true]
      exact ⟨hnode1 _ hn1, hnode1 _ hn2, hnode2 _ hn5, hnode1 _ hn4⟩
    · exact hi.tets id e' he'
  · obtain ⟨r, hr⟩ := perm_two (hi.sub _ hid1) (hi.sub _ hid2) hne
    have hrnd := hr.nodup_iff.1 hi.ok.1
    simp only [List.nodup_cons, List.mem_cons, not_or] at hrnd
    have hrnew : new ∉ r := fun h => hnew (hr.symm.subset (by simp [h]))
    refine ⟨pos n1, pos n2, pos n3, pos n4, pos n5, ⟨pos a, pos b, pos c, pos d⟩, ⟨pos a', pos b', pos c', pos d'⟩, r.filterMap (Mesh.tetAt { m with elements := s.1 }), ?_, ?_, hal1 pos, hal2', hbet⟩
    · exact filterMap_two hr (tetAt_mk (m := { m with elements := s.1 }) he (hpos _ (hnode1 a (by simp))) (hpos _ (hnode1 b (by simp))) (hpos _ (hnode1 c (by simp))) (hpos _ (hnode1 d (by simp))))
        (tetAt_mk (m := { m with elements := s.1 }) he2 (hpos _ (hnode2 a' (by simp))) (hpos _ (hnode2 b' (by simp))) (hpos _ (hnode2 c' (by simp))) (hpos _ (hnode2 d' (by simp))))
    · show (C.ids.filterMap (Mesh.tetAt { m with elements := C })).Perm _
      rw [haddids, List.filterMap_append]
      have g1 := tetAt_mk (m := { m with elements := C }) (fs := fs) (by show C.get? f.elementId = _; rw [hget, if_neg hnf, if_neg hne, if_pos rfl])
        (hpos _ (hnode1 _ hn1)) (hpos _ (hnode1 _ hn2)) (hpos _ (hnode2 _ hn5)) (hpos _ (hnode1 _ hn4))
      have g2 := tetAt_mk (m := { m with elements := C }) (fs := fs') (by show C.get? g.elementId = _; rw [hget, if_neg hng, if_pos rfl])
        (hpos _ (hnode1 _ hn2)) (hpos _ (hnode1 _ hn3)) (hpos _ (hnode2 _ hn5)) (hpos _ (hnode1 _ hn4))
      have g3 := tetAt_mk (m := { m with elements := C }) (fs := []) (by show C.get? new = _; rw [hget, if_pos rfl])
        (hpos _ (hnode1 _ hn1)) (hpos _ (hnode1 _ hn3)) (hpos _ (hnode1 _ hn4)) (hpos _ (hnode2 _ hn5))
      have g4 : r.filterMap (Mesh.tetAt { m with elements := C }) = r.filterMap (Mesh.tetAt { m with elements := s.1 }) := by
        apply List.filterMap_congr
        intro id hid
        refine tetAt_congr (m' := { m with elements := C }) (m := { m with elements := s.1 }) rfl ?_
        show Option.map _ (C.get? id) = Option.map _ (s.1.get? id)
        have z0 : id ≠ new := fun h => hrnew (h ▸ hid)
        have z1 : id ≠ g.elementId := fun h => hrnd.2.1 (h ▸ hid)
        have z2 : id ≠ f.elementId := fun h => hrnd.1.2 (h ▸ hid)
        rw [hget, if_neg z0, if_neg z1, if_neg z2]
      have g5 := filterMap_two hr g1 g2
      rw [g4] at g5
      rw [List.filterMap_cons_some g3, List.filterMap_nil]
      refine (g5.append_right _).trans ?_
      rw [List.cons_append, List.cons_append]
      exact List.Perm.cons _ (List.Perm.cons _ (List.perm_append_singleton _ _))

theorem flipLoop_spec {m : Mesh K} (hm : m.Filling) (hfit : m.TetFit) (l : List Int) (hl : ∀ i ∈ l, i ∈ m.faces.ids) :
    ∀ {s : St}, Inv P m s → ∃ s', flipLoop P m l s = some s' ∧ Inv P m s' := by
  induction l with
  | nil => intro s hi; exact ⟨s, rfl, hi⟩
  | cons a t ih =>
    intro s hi
    obtain ⟨s1, h1, h2⟩ := flipFace_spec hm hfit hi (hl a (by simp))
    obtain ⟨s2, h3, h4⟩ := ih (fun i hi => hl i (List.mem_cons_of_mem _ hi)) h2
    exact ⟨s2, by simp only [flipLoop, h1, Option.bind_eq_bind, Option.bind_some, h3], h4⟩

/-! ### Faces of a mesh of tetrahedra -/

theorem tetFaces_faces (id : Int) (e : Elem) (ht : e.elementType = .tetrahedron) (hl : e.nodeIds.length = 4) :
    Mesh.facesWithOwner id e = e.tetFaces.map fun s => { faceType := .triangle, nodeIds := [s.1, s.2.1, s.2.2], elementId := id } := by
  obtain ⟨ty, ns, fs⟩ := e
  simp only at ht hl
  subst ht
  match ns, hl with
  | [a, b, c, d], _ => rfl

theorem full_of {m : Mesh K} (hall : m.AllTets) : m.FullElements := fun id e he => by
  obtain ⟨h1, h2⟩ := hall id e he
  rw [h1, h2]; exact le_refl 4

theorem expected_faces {m : Mesh K} (hm : m.elements.Ok) (hall : m.AllTets) :
    m.expectedFaces.map (fun f => f.nodeIds) = m.tetFaceIds.map (fun s => [s.1, s.2.1, s.2.2]) ∧
    ∀ f ∈ m.expectedFaces, f.faceType = .triangle ∧ ∃ e, m.elements.get? f.elementId = some e ∧ ∃ s ∈ e.tetFaces, f.nodeIds = [s.1, s.2.1, s.2.2] := by
  rw [Mesh.expectedFaces_eq hm (full_of hall)]
  constructor
  · unfold Mesh.tetFaceIds
    rw [List.map_flatMap, List.map_flatMap]
    apply List.flatMap_congr
    intro id hid
    obtain ⟨e, he⟩ := (hm.2 id).1 hid
    obtain ⟨h1, h2⟩ := hall id e he
    rw [he]
    simp only [Option.map_some, Option.getD_some, tetFaces_faces id e h1 h2, List.map_map]
    rfl
  · intro f hf
    obtain ⟨id, hid, hf⟩ := List.mem_flatMap.1 hf
    obtain ⟨e, he⟩ := (hm.2 id).1 hid
    obtain ⟨h1, h2⟩ := hall id e he
    rw [he] at hf
    simp only [Option.map_some, Option.getD_some, tetFaces_faces id e h1 h2, List.mem_map] at hf
    obtain ⟨s, hs, rfl⟩ := hf
    exact ⟨rfl, e, he, s, hs, rfl⟩

/-- The positions of the corners of a face. -/
def at3 (nodes : Cont (Vec3 K)) (s : Int × Int × Int) : Tri K := ⟨Smooth.pos nodes s.1, Smooth.pos nodes s.2.1, Smooth.pos nodes s.2.2⟩

theorem faces_at {m : Mesh K} (hm : m.WF) (hall : m.AllTets) : m.tets.flatMap Tet.faces = m.tetFaceIds.map (at3 m.nodes) := by
  unfold Mesh.tets Mesh.tetFaceIds
  have hsub : ∀ l : List Int, (∀ x ∈ l, x ∈ m.elements.ids) → (l.filterMap m.tetAt).flatMap Tet.faces =
      (l.flatMap fun id => ((m.elements.get? id).map Elem.tetFaces).getD []).map (at3 m.nodes) := by
    intro l
    induction l with
    | nil => intro _; rfl
    | cons a t ih =>
      intro hl
      obtain ⟨e, he⟩ := (hm.elements.2 a).1 (hl a (by simp))
      obtain ⟨i, j, k, l, fs, p, q, r, s, rfl, hi, hj, hk, hl', ht, -⟩ := tet_of hm hall he
      rw [List.filterMap_cons_some ht, List.flatMap_cons, List.flatMap_cons, List.map_append, ih (fun x hx => hl x (List.mem_cons_of_mem _ hx)), he]
      simp [Elem.tetFaces, Tet.faces, at3, Smooth.pos, hi, hj, hk, hl']
  exact hsub _ (fun _ h => h)

theorem ids_once {m : Mesh K} (hm : m.Filling) : m.tetFaceIds.Pairwise fun s t => ¬ SameTri s t := by
  have h := once hm.positive hm.apart
  rw [faces_at hm.wf hm.all, List.pairwise_map] at h
  exact h.imp fun hn hs => hn (hs.map (Smooth.pos m.nodes))

theorem ids_distinct {m : Mesh K} (hm : m.Filling) : ∀ s ∈ m.tetFaceIds, Distinct3 s := by
  intro s hs
  obtain ⟨id, hid, hs⟩ := List.mem_flatMap.1 hs
  obtain ⟨e, he⟩ := (hm.wf.elements.2 id).1 hid
  obtain ⟨a, b, c, d, fs, rfl, hab, hac, had, hbc, hbd, hcd⟩ := four_of hm he
  rw [he] at hs
  simp only [Option.map_some, Option.getD_some, Elem.tetFaces, List.mem_cons, List.not_mem_nil, or_false] at hs
  rcases hs with rfl | rfl | rfl | rfl
  · exact ⟨hab, hbc, Ne.symm hac⟩
  · exact ⟨hbd, Ne.symm hcd, Ne.symm hbc⟩
  · exact ⟨had, Ne.symm hbd, Ne.symm hab⟩
  · exact ⟨hac, hcd, Ne.symm had⟩

section
variable [FloorRing K]

theorem good_of {mc : HashGrid.Machine K} {m : Mesh K} (hm : m.Filling) (hc : Smooth.Machine mc m) : Mesh.GoodFaces mc m := by
  refine ⟨hc.eps, hc.big, hc.bounded, ?_⟩
  right
  cases hl : m.elements.ids with
  | nil => left; unfold Mesh.expectedFaces; rw [hl]; rfl
  | cons id t =>
    right
    have hid : id ∈ m.elements.ids := by rw [hl]; simp
    obtain ⟨e, he⟩ := (hm.wf.elements.2 id).1 hid
    obtain ⟨a, b, c, d, fs, p, q, r, s, rfl, hp, hq, hr, hs, -, hu⟩ := tet_of hm.wf hm.all he
    obtain ⟨-, -, h3, -, -, -⟩ := Space.corners_ne (hm.positive _ hu)
    have hmem : ∀ s ∈ [(a, b, c), (b, d, c), (a, d, b), (a, c, d)], ∃ f ∈ m.expectedFaces, f.nodeIds = [s.1, s.2.1, s.2.2] := by
      intro s hs
      rw [Mesh.expectedFaces_eq hm.wf.elements (full_of hm.all)]
      refine ⟨{ faceType := .triangle, nodeIds := [s.1, s.2.1, s.2.2], elementId := id }, List.mem_flatMap.2 ⟨id, hid, ?_⟩, rfl⟩
      rw [he]
      simp only [Option.map_some, Option.getD_some]
      rw [tetFaces_faces id _ rfl rfl]
      exact List.mem_map.2 ⟨s, hs, rfl⟩
    obtain ⟨f, hf, hf2⟩ := hmem (a, b, c) (by simp)
    obtain ⟨g, hg, hg2⟩ := hmem (b, d, c) (by simp)
    refine ⟨f, hf, g, hg, ?_⟩
    rw [hf2, hg2]
    intro h
    apply h3
    simp only [Mesh.meanOf, Mesh.posOf, hp, hq, hr, hs, List.map_cons, List.map_nil, List.sum_cons, List.sum_nil, Option.getD_some, List.length_cons, List.length_nil] at h
    have hx := congrArg Vec3.x h
    have hy := congrArg Vec3.y h
    have hz := congrArg Vec3.z h
    norm_num [Vec3.smul_x, Vec3.smul_y, Vec3.smul_z, Vec3.add_x, Vec3.add_y, Vec3.add_z] at hx hy hz
    show p = s
    ext
    · linear_combination 3 * hx
    · linear_combination 3 * hy
    · linear_combination 3 * hz

theorem faces_fit {mc : HashGrid.Machine K} {m : Mesh K} (hf : m.Filling) (hc : Smooth.Machine mc m) {tol : K} (ht : 0 ≤ tol) :
    ∃ m', m.generateFaces mc tol = some m' ∧ m'.Filling ∧ m'.TetFit ∧ m'.nodes = m.nodes ∧ m'.tets = m.tets ∧ m'.tetFaceIds = m.tetFaceIds ∧ m'.elements.ids = m.elements.ids ∧
      (∀ n, m'.OnBoundary n ↔ ∃ s ∈ m.tetFaceIds, (∀ t ∈ m.tetFaceIds, ¬ SameTri (turned s) t) ∧ (n = s.1 ∨ n = s.2.1 ∨ n = s.2.2)) := by
  have hm := hf.wf
  have hall := hf.all
  have hfull := full_of hall
  obtain ⟨m', h1, h2, h3, h4, h5, h6, h7, h8, -⟩ := C07_generateFaces_faces mc m hm hfull (good_of hf hc) tol ht
  obtain ⟨m'', k1, k2, k3, -, -⟩ := C07_generateFaces_pairs mc m hm hfull (good_of hf hc) tol ht
  rw [h1] at k1
  obtain rfl := Option.some.inj k1
  obtain ⟨g1, g2, g3⟩ := Smooth.generateFaces_keeps hm.elements hfull h1
  obtain ⟨e1, e2⟩ := expected_faces hm.elements hall
  have hall' : m'.AllTets := fun id e he => by
    obtain ⟨e0, q1, q2, q3⟩ := h7 id e he
    rw [q2, q3]; exact hall id e0 q1
  have hside : m'.tetFaceIds = m.tetFaceIds := by
    unfold Mesh.tetFaceIds
    rw [g2]
    apply List.flatMap_congr
    intro id _
    have := g3 id
    cases q : m.elements.get? id with
    | none => rw [q] at this; simp only [Option.map_none, Option.map_eq_none_iff] at this; rw [this]
    | some e =>
      rw [q] at this
      obtain ⟨e', q1, q2⟩ := Option.map_eq_some_iff.1 this
      simp only [Prod.mk.injEq] at q2
      rw [q1]
      simp only [Option.map_some, Option.getD_some, Elem.tetFaces, q2.1, q2.2]
  have htet : m'.tets = m.tets := by
    unfold Mesh.tets
    rw [g2]
    congr 1
    funext id
    exact tetAt_congr h2 (g3 id)
  -- a face and the triple it is
  have hface : ∀ i f, m'.faces.get? i = some f → ∃ k : Nat, i = k ∧ f.faceType = .triangle ∧ ∃ s, m.tetFaceIds[k]? = some s ∧ f.nodeIds = [s.1, s.2.1, s.2.2] ∧
      ∃ e, m'.elements.get? f.elementId = some e ∧ s ∈ e.tetFaces := by
    intro i f hf
    have hi := (h5.faces.2 i).2 ⟨f, hf⟩
    rw [h3] at hi
    obtain ⟨k, hk, rfl⟩ := List.mem_map.1 hi
    have q := h4 k
    rw [show ((k : Nat) : Int) = Int.ofNat k from rfl, hf] at q
    obtain ⟨f0, hf0, q⟩ := Option.map_eq_some_iff.1 q.symm
    simp only [Prod.mk.injEq] at q
    obtain ⟨r1, e, r2, s, r3, r4⟩ := e2 f0 (List.mem_of_getElem? hf0)
    have hk1 : (m.expectedFaces.map fun f => f.nodeIds)[k]? = some f0.nodeIds := by rw [List.getElem?_map, hf0]; rfl
    rw [e1, List.getElem?_map] at hk1
    obtain ⟨u, hu, hu2⟩ := Option.map_eq_some_iff.1 hk1
    have hus : u = s := by
      rw [r4] at hu2
      simp only [List.cons.injEq, and_true] at hu2
      exact Prod.ext hu2.1 (Prod.ext hu2.2.1 hu2.2.2)
    subst hus
    refine ⟨k, rfl, by rw [← q.1]; exact r1, u, hu, by rw [← q.2.1]; exact r4, ?_⟩
    have := g3 f0.elementId
    rw [r2] at this
    obtain ⟨e', w1, w2⟩ := Option.map_eq_some_iff.1 this
    simp only [Prod.mk.injEq] at w2
    refine ⟨e', by rw [← q.2.2]; exact w1, ?_⟩
    rw [Elem.tetFaces, w2.1, w2.2]
    exact r3
  have hface2 : ∀ (k : Nat) s, m.tetFaceIds[k]? = some s → ∃ f, m'.faces.get? k = some f ∧ f.faceType = .triangle ∧ f.nodeIds = [s.1, s.2.1, s.2.2] := by
    intro k s hk
    have hk1 : (m.tetFaceIds.map fun s => [s.1, s.2.1, s.2.2])[k]? = some [s.1, s.2.1, s.2.2] := by rw [List.getElem?_map, hk]; rfl
    rw [← e1, List.getElem?_map] at hk1
    obtain ⟨f0, hf0, q⟩ := Option.map_eq_some_iff.1 hk1
    have w := h4 k
    rw [hf0] at w
    obtain ⟨f, hf, w2⟩ := Option.map_eq_some_iff.1 w
    simp only [Prod.mk.injEq] at w2
    exact ⟨f, hf, by rw [w2.1]; exact (e2 f0 (List.mem_of_getElem? hf0)).1, by rw [w2.2.1]; exact q⟩
  have hone : ∀ (i j : Nat) s t, m.tetFaceIds[i]? = some s → m.tetFaceIds[j]? = some t → SameTri s t → i = j := by
    intro i j s t hi hj hst
    by_contra hij
    obtain ⟨hi1, hi2⟩ := List.getElem?_eq_some_iff.1 hi
    obtain ⟨hj1, hj2⟩ := List.getElem?_eq_some_iff.1 hj
    have hp := List.pairwise_iff_getElem.1 (ids_once hf)
    rcases lt_or_gt_of_ne hij with h | h
    · exact hp i j hi1 hj1 h (by rw [hi2, hj2]; exact hst)
    · exact hp j i hj1 hi1 h (by rw [hi2, hj2]; exact hst.symm)
  have hpair : ∀ i f, m'.faces.get? i = some f → f.hasPair = true → ∃ g s t, m'.faces.get? f.pairFaceId = some g ∧ g.faceType = .triangle ∧
      f.nodeIds = [s.1, s.2.1, s.2.2] ∧ g.nodeIds = [t.1, t.2.1, t.2.2] ∧ SameTri (turned s) t := by
    intro i f hf' hp
    obtain ⟨q1, g, q2, q3, q4⟩ := k3 i f hf' hp
    obtain ⟨a, ha, -, s, hsa, hsn, -⟩ := hface i f hf'
    obtain ⟨b, hb, hgl, t, htb, htn, -⟩ := hface _ g q2
    refine ⟨g, s, t, q2, hgl, hsn, htn, ?_⟩
    rw [hsn, htn] at q4
    rcases perm3 (ids_distinct hf s (List.mem_of_getElem? hsa)) q4 with h | h
    · have := hone a b _ _ hsa htb h
      subst this
      exact absurd (hb.trans ha.symm) q1
    · exact h
  refine ⟨m', h1, ⟨h5, hall', by rw [htet]; exact hf.positive, by rw [htet]; exact hf.apart⟩, ⟨?_, ?_, fun i f hf _ hp => hpair i f hf hp⟩, h2, htet, hside, h8, ?_⟩
  · intro i f hf _
    obtain ⟨k, -, -, s, -, q, e, q2, q3⟩ := hface i f hf
    exact ⟨e, q2, fun _ => ⟨s, q3, q⟩⟩
  · intro s hs'
    rw [hside] at hs'
    obtain ⟨k, hk⟩ := List.mem_iff_getElem?.1 hs'
    obtain ⟨f, q⟩ := hface2 k s hk
    exact ⟨k, f, q⟩
  · intro n
    constructor
    · rintro ⟨i, f, q1, q2, q3⟩
      obtain ⟨k, hk, q4, s, q5, q6, -⟩ := hface i f q1
      refine ⟨s, List.mem_of_getElem? q5, ?_, ?_⟩
      · intro t htm hst
        obtain ⟨j, hj⟩ := List.mem_iff_getElem?.1 htm
        obtain ⟨g, r1, r2, r3⟩ := hface2 j _ hj
        have hjk : (j : Int) ≠ i := by
          intro h
          rw [hk] at h
          have : j = k := by omega
          subst this
          rw [hj] at q5
          obtain rfl := Option.some.inj q5
          exact not_turned (ids_distinct hf _ (List.mem_of_getElem? hj)) hst
        have := (k2 i f q1).2 ⟨j, g, hjk, r1, by rw [q4, r2], by
          rw [q6, r3]
          obtain ⟨a, b, c⟩ := s
          simp only [SameTri, turned] at hst
          rcases hst with rfl | rfl | rfl
          · exact List.Perm.swap _ _ _
          · exact List.Perm.cons _ (List.Perm.swap _ _ _)
          · exact (List.Perm.swap b a [c]).trans ((List.Perm.cons b (List.Perm.swap c a [])).trans (List.Perm.swap c b [a]))⟩
        rw [this] at q2
        simp at q2
      · rw [q6] at q3
        simpa using q3
    · rintro ⟨s, q1, q2, q3⟩
      obtain ⟨k, hk⟩ := List.mem_iff_getElem?.1 q1
      obtain ⟨f, r1, r2, r3⟩ := hface2 k s hk
      refine ⟨k, f, r1, ?_, by rw [r3]; simpa using q3⟩
      by_contra hp
      obtain ⟨g, s', t', w1, w2, w3, w5, w6⟩ := hpair k f r1 (by simpa using hp)
      obtain ⟨j, -, -, t, w4, w7, -⟩ := hface _ g w1
      have e3 : s' = s := by
        rw [r3] at w3
        simp only [List.cons.injEq, and_true] at w3
        exact Prod.ext w3.1.symm (Prod.ext w3.2.1.symm w3.2.2.symm)
      have e4 : t' = t := by
        rw [w7] at w5
        simp only [List.cons.injEq, and_true] at w5
        exact Prod.ext w5.1.symm (Prod.ext w5.2.1.symm w5.2.2.symm)
      subst e3 e4
      exact q2 t' (List.mem_of_getElem? w4) w6

theorem flip_core {mc : HashGrid.Machine K} {m : Mesh K} (ht : 0 ≤ P.tol) (hm : m.Filling) (hfit : m.TetFit) (hc : Smooth.Machine mc m) :
    ∃ m', flipEdges23 P mc m = some m' ∧ m'.Filling ∧ m'.TetFit ∧ m'.nodes = m.nodes ∧ (∀ id ∈ m.elements.ids, id ∈ m'.elements.ids) ∧
      Relation.ReflTransGen (Flip P) m.tets m'.tets := by
  have h0 : Inv P m (m.elements, Mesh.setAll false m.elements.ids SMap.empty) := by
    refine ⟨hm.wf.elements, fun _ h => h, fun _ _ _ => rfl, ?_, Relation.ReflTransGen.refl⟩
    intro id e he
    obtain ⟨a, b, c, d, fs, rfl, -⟩ := four_of hm he
    exact ⟨a, b, c, d, fs, rfl, hm.wf.elemNodes id _ he⟩
  obtain ⟨s, hs, hi⟩ := flipLoop_spec hm hfit m.faces.ids (fun _ h => h) h0
  have hall : Mesh.AllTets { m with elements := s.1 } := by
    intro id e he
    obtain ⟨a, b, c, d, fs, rfl, -⟩ := hi.tets id e he
    exact ⟨rfl, rfl⟩
  have hwf : Mesh.WF { m with elements := s.1 } := by
    refine ⟨hm.wf.nodes, hm.wf.faces, hi.ok, hm.wf.faceNodes, ?_⟩
    intro id e he n hn
    obtain ⟨a, b, c, d, fs, rfl, h⟩ := hi.tets id e he
    exact h n hn
  have hpos := flips_positive ht hi.flips hm.positive
  have hm1 : Mesh.Filling { m with elements := s.1 } := ⟨hwf, hall, hpos, apart_same hm.positive hpos (flips_hull hi.flips) hm.apart⟩
  have hc1 : Smooth.Machine mc { m with elements := s.1 } := ⟨hc.eps, hc.big, hc.bounded⟩
  obtain ⟨m', g1, g2, g3, g4, g5, -, g7, -⟩ := faces_fit hm1 hc1 ht
  refine ⟨m', ?_, g2, g3, g4, fun id hid => ?_, by rw [g5]; exact hi.flips⟩
  · simp only [flipEdges23, hs, Option.bind_eq_bind, Option.bind_some]
    exact g1
  · rw [g7]; exact hi.sub id hid

theorem flip_core' {mc : HashGrid.Machine K} {m m' : Mesh K} (ht : 0 ≤ P.tol) (hm : m.Filling) (hfit : m.TetFit) (hc : Smooth.Machine mc m)
    (h : flipEdges23 P mc m = some m') : m'.Filling ∧ m'.TetFit ∧ m'.nodes = m.nodes ∧ (∀ id ∈ m.elements.ids, id ∈ m'.elements.ids) ∧
      Relation.ReflTransGen (Flip P) m.tets m'.tets := by
  obtain ⟨m1, h1, h2⟩ := flip_core ht hm hfit hc
  rw [h] at h1
  obtain rfl := Option.some.inj h1
  exact h2

end

/-! ### Moving nodes -/

theorem gather_def {m : Mesh K} (hm : m.WF) (hall : m.AllTets) {N : Cont (Vec3 K)} (hN : N.Ok) (hids : N.ids = m.nodes.ids)
    (l : List Int) (hl : ∀ i ∈ l, i ∈ m.elements.ids) : ∀ q, ∃ r, gather N m.elements l q = some r := by
  induction l with
  | nil => intro q; exact ⟨_, rfl⟩
  | cons a t ih =>
    intro q
    obtain ⟨e, he⟩ := (hm.elements.2 a).1 (hl a (by simp))
    have hn := fun n hn => (hN.2 n).1 (by rw [hids]; exact hm.elemNodes a e he n hn)
    obtain ⟨x, y, z, w, fs, -, -, -, -, rfl, -⟩ := tet_of hm hall he
    obtain ⟨p1, q1⟩ := hn x (by simp)
    obtain ⟨p2, q2⟩ := hn y (by simp)
    obtain ⟨p3, q3⟩ := hn z (by simp)
    obtain ⟨p4, q4⟩ := hn w (by simp)
    simp only [gather, he, Option.bind_eq_bind, Option.bind_some, ne_eq, not_true_eq_false, if_false, List.getElem?_cons_zero, List.getElem?_cons_succ, q1, q2, q3, q4]
    exact ih (fun i hi => hl i (List.mem_cons_of_mem _ hi)) _

/-- The nodes with one of them moved. -/
abbrev put (N : Cont (Vec3 K)) (n : Int) (new : Vec3 K) : Cont (Vec3 K) := Cont.mk (N.map.insert n new) N.ids N.indices N.counter

/-- The tetrahedra at a node before and after. -/
theorem judge_spec {m : Mesh K} (hm : m.WF) (hall : m.AllTets) {N : Cont (Vec3 K)} (hN : N.Ok) (hids : N.ids = m.nodes.ids) (n : Int) (new : Vec3 K)
    (l : List Int) (hl : ∀ i ∈ l, i ∈ m.elements.ids) : ∀ q, ∃ r, judge P N m.elements n new l q = some r ∧ ∀ r', r = some r' →
      (∀ id ∈ l, ∃ t', Mesh.tetAt { m with nodes := put N n new } id = some t' ∧ P.tol * P.tol * P.tol ≤ t'.volume ∧ r'.2 ≤ P.quality t') ∧
      (∀ k, k ≤ q.1 → (∀ id ∈ l, ∀ t, Mesh.tetAt { m with nodes := N } id = some t → k ≤ P.quality t) → k ≤ r'.1) ∧ r'.2 ≤ q.2 := by
  induction l with
  | nil =>
    intro q
    refine ⟨some q, rfl, fun r' hr => ?_⟩
    obtain rfl := Option.some.inj hr
    exact ⟨by simp, fun k hk _ => hk, le_rfl⟩
  | cons a t ih =>
    intro q
    obtain ⟨e, he⟩ := (hm.elements.2 a).1 (hl a (by simp))
    have hn := fun n hn => (hN.2 n).1 (by rw [hids]; exact hm.elemNodes a e he n hn)
    obtain ⟨x, y, z, w, fs, -, -, -, -, rfl, -⟩ := tet_of hm hall he
    obtain ⟨p1, q1⟩ := hn x (by simp)
    obtain ⟨p2, q2⟩ := hn y (by simp)
    obtain ⟨p3, q3⟩ := hn z (by simp)
    obtain ⟨p4, q4⟩ := hn w (by simp)
    simp only [judge, he, Option.bind_eq_bind, Option.bind_some, ne_eq, not_true_eq_false, if_false, List.getElem?_cons_zero, List.getElem?_cons_succ, q1, q2, q3, q4]
    have hcor : ∀ w p, N.get? w = some p → (put N n new).get? w = some (Smooth.corner n new w p) := by
      intro w p hw
      rw [Cont.get?_put]
      unfold Smooth.corner
      split_ifs
      · rfl
      · exact hw
    have hb2 := tetAt_mk (m := { m with nodes := put N n new }) he (hcor _ _ q1) (hcor _ _ q2) (hcor _ _ q3) (hcor _ _ q4)
    have hb1 := tetAt_mk (m := { m with nodes := N }) he q1 q2 q3 q4
    split_ifs with hvol
    · exact ⟨none, rfl, fun r' h => by simp at h⟩
    · obtain ⟨r, h1, h2⟩ := ih (fun i hi => hl i (List.mem_cons_of_mem _ hi)) (min q.1 (P.quality ⟨p1, p2, p3, p4⟩), min q.2 (P.quality ⟨Smooth.corner n new x p1, Smooth.corner n new y p2, Smooth.corner n new z p3, Smooth.corner n new w p4⟩))
      refine ⟨r, h1, fun r' hr => ?_⟩
      obtain ⟨g1, g2, g3⟩ := h2 r' hr
      refine ⟨?_, ?_, g3.trans (min_le_left _ _)⟩
      · intro id hid
        rcases List.mem_cons.1 hid with rfl | hid
        · exact ⟨_, hb2, not_lt.1 hvol, g3.trans (min_le_right _ _)⟩
        · exact g1 id hid
      · intro k hk hkl
        exact g2 k (le_min hk (hkl a (by simp) _ hb1)) (fun id hid => hkl id (List.mem_cons_of_mem _ hid))

theorem attempt_spec {m : Mesh K} (hm : m.WF) (hall : m.AllTets) {N : Cont (Vec3 K)} (hN : N.Ok) (hids : N.ids = m.nodes.ids) {n : Int} {p : Vec3 K}
    (hp : N.get? n = some p) (l : List Int) (hl : ∀ i ∈ l, i ∈ m.elements.ids) (places : List (Vec3 K)) :
    ∃ N', attempt P m.elements l N n places = some N' ∧ (N' = N ∨ ∃ new ∈ places, N' = put N n new ∧
      (∀ id ∈ l, ∃ t', Mesh.tetAt { m with nodes := N' } id = some t' ∧ P.tol * P.tol * P.tol ≤ t'.volume) ∧
      ∀ k, k ≤ 1 → (∀ id ∈ l, ∀ t, Mesh.tetAt { m with nodes := N } id = some t → k ≤ P.quality t) →
        ∀ id ∈ l, ∀ t, Mesh.tetAt { m with nodes := N' } id = some t → k ≤ P.quality t) := by
  induction places with
  | nil => exact ⟨N, rfl, Or.inl rfl⟩
  | cons new places ih =>
    obtain ⟨N', h1, h2⟩ := ih
    have h2' : N' = N ∨ ∃ new' ∈ new :: places, N' = put N n new' ∧
      (∀ id ∈ l, ∃ t', Mesh.tetAt { m with nodes := N' } id = some t' ∧ P.tol * P.tol * P.tol ≤ t'.volume) ∧
      ∀ k, k ≤ 1 → (∀ id ∈ l, ∀ t, Mesh.tetAt { m with nodes := N } id = some t → k ≤ P.quality t) →
        ∀ id ∈ l, ∀ t, Mesh.tetAt { m with nodes := N' } id = some t → k ≤ P.quality t :=
      h2.imp id fun ⟨new', a, b⟩ => ⟨new', List.mem_cons_of_mem _ a, b⟩
    obtain ⟨r, g1, g2⟩ := judge_spec (P := P) hm hall hN hids n new l hl (1, 1)
    simp only [attempt, g1, Option.bind_eq_bind, Option.bind_some]
    cases r with
    | none => exact ⟨N', h1, h2'⟩
    | some r =>
      obtain ⟨r1, r2⟩ := r
      simp only
      by_cases hr : r1 ≤ r2
      swap
      · rw [if_neg hr]; exact ⟨N', h1, h2'⟩
      rw [if_pos hr]
      obtain ⟨k1, k2, -⟩ := g2 _ rfl
      refine ⟨put N n new, Cont.modify_eq hp rfl, Or.inr ⟨new, by simp, rfl, ?_, ?_⟩⟩
      · intro id hid
        obtain ⟨t', w1, w2, -⟩ := k1 id hid
        exact ⟨t', w1, w2⟩
      · intro k hk hkl id hid t ht
        obtain ⟨t', w1, -, w3⟩ := k1 id hid
        rw [ht] at w1
        obtain rfl := Option.some.inj w1
        exact ((k2 k hk hkl).trans hr).trans w3

/-- What holds in the loop over the nodes. -/
structure RInv (P : Par K) (m : Mesh K) (N : Cont (Vec3 K)) : Prop where
  ok : N.Ok
  ids : N.ids = m.nodes.ids
  fixed : ∀ n, m.OnBoundary n → N.get? n = m.nodes.get? n
  large : ∀ id t, Mesh.tetAt { m with nodes := N } id = some t → m.tetAt id = some t ∨ P.tol * P.tol * P.tol ≤ t.volume
  quality : ∀ k, k ≤ 1 → (∀ t ∈ m.tets, k ≤ P.quality t) → ∀ t ∈ Mesh.tets { m with nodes := N }, k ≤ P.quality t
  hull : SameHull m.tets (Mesh.tets { m with nodes := N })

theorem hull_ids {A : Type} [AddCommGroup A] {m : Mesh K} (hm : m.WF) (hall : m.AllTets) (f : Tri K → A) :
    (m.tets.map (hull f)).sum = (m.tetFaceIds.map fun s => f (at3 m.nodes s)).sum := by
  have h : ∀ l : List (Tet K), (l.map (hull f)).sum = ((l.flatMap Tet.faces).map f).sum := by
    intro l
    induction l with
    | nil => rfl
    | cons t l ih =>
      rw [List.map_cons, List.sum_cons, ih, List.flatMap_cons, List.map_append, List.sum_append]
      simp [Tet.faces, hull, add_assoc]
  rw [h, faces_at hm hall, List.map_map]
  rfl

theorem odd_turned {A : Type} [AddCommGroup A] {f : Tri K → A} (hf : Odd f) (N : Cont (Vec3 K)) (s t : Int × Int × Int) (h : SameTri (turned s) t) :
    f (at3 N t) = - f (at3 N s) := by
  obtain ⟨a, b, c⟩ := s
  simp only [SameTri, turned] at h
  simp only [at3]
  rcases h with rfl | rfl | rfl
  · exact hf.swap _ _ _
  · rw [← hf.swap]; exact hf.turn _ _ _
  · rw [← hf.swap, ← hf.turn]

theorem relaxStep {m : Mesh K} (hm : m.Filling) (hfit : m.TetFit) {factor : K} {query : Int → List Int} {b : SMap Int Bool}
    (hquery : ∀ n, query n = m.elements.ids.filter fun x => decide (HasNode m n x))
    (hb : ∀ n, b.find? n = some false → ¬ m.OnBoundary n) (hbd : ∀ k ∈ m.nodes.ids, ∃ x, b.find? k = some x) {N : Cont (Vec3 K)} (hi : RInv P m N) {n : Int}
    (hn : n ∈ m.nodes.ids) : ∃ N', relaxNode P factor query b m.elements N n = some N' ∧ RInv P m N' := by
  have hwf : ∀ M : Cont (Vec3 K), M.Ok → M.ids = m.nodes.ids → Mesh.WF { m with nodes := M } := fun M h1 h2 =>
    ⟨h1, hm.wf.faces, hm.wf.elements, fun id f hf k hk => by rw [h2]; exact hm.wf.faceNodes id f hf k hk, fun id e he k hk => by rw [h2]; exact hm.wf.elemNodes id e he k hk⟩
  obtain ⟨p, hp⟩ := (hi.ok.2 n).1 (by rw [hi.ids]; exact hn)
  obtain ⟨x, hx⟩ := hbd n hn
  have hq : ∀ i ∈ query n, i ∈ m.elements.ids := fun i hi => by rw [hquery] at hi; exact (List.mem_filter.1 hi).1
  unfold relaxNode
  simp only [hp, hx, Option.bind_eq_bind, Option.bind_some]
  cases x with
  | true => exact ⟨N, rfl, hi⟩
  | false =>
  rw [if_neg (by simp)]
  obtain ⟨⟨g1, g2⟩, hg⟩ := gather_def hm.wf hm.all hi.ok hi.ids (query n) hq (0, 0)
  simp only [hg, Option.bind_some]
  obtain ⟨N', h1, h2⟩ := attempt_spec (P := P) hm.wf hm.all hi.ok hi.ids hp (query n) hq
    [p + factor • ((if 0 < g2 then (1 / g2) • g1 else g1) - p), p - factor • ((if 0 < g2 then (1 / g2) • g1 else g1) - p)]
  refine ⟨N', h1, ?_⟩
  rcases h2 with rfl | ⟨new, -, hN', hlarge, hqual⟩
  · exact hi
  have hget : ∀ k, N'.get? k = if k = n then some new else N.get? k := fun k => by rw [hN', Cont.get?_put]
  have hids : N'.ids = N.ids := by rw [hN']
  have hok : N'.Ok := by rw [hN']; exact Cont.put_ok hi.ok hp
  have hother : ∀ id ∈ m.elements.ids, ¬ HasNode m n id → Mesh.tetAt { m with nodes := N' } id = Mesh.tetAt { m with nodes := N } id := by
    intro id hid hno
    obtain ⟨e, he⟩ := (hm.wf.elements.2 id).1 hid
    obtain ⟨x, y, z, w, fs, -, -, -, -, rfl, -⟩ := tet_of hm.wf hm.all he
    have hne : ∀ w' ∈ [x, y, z, w], w' ≠ n := fun w' hw hwn => hno ⟨_, he, by rw [← hwn]; exact hw⟩
    unfold Mesh.tetAt
    simp only [he, hget, hne x (by simp), hne y (by simp), hne z (by simp), hne w (by simp), if_false]
  have hmemq : ∀ id ∈ m.elements.ids, HasNode m n id → id ∈ query n := fun id hid h => by rw [hquery]; exact List.mem_filter.2 ⟨hid, by simpa using h⟩
  refine ⟨hok, hids.trans hi.ids, ?_, ?_, ?_, ?_⟩
  · intro k hk
    rw [hget]
    by_cases hkn : k = n
    · subst hkn; exact absurd hk (hb k hx)
    · rw [if_neg hkn]; exact hi.fixed k hk
  · intro id t ht
    by_cases hid : id ∈ m.elements.ids
    · by_cases hhas : HasNode m n id
      · obtain ⟨t', w1, w2⟩ := hlarge id (hmemq id hid hhas)
        rw [ht] at w1
        obtain rfl := Option.some.inj w1
        exact Or.inr w2
      · rw [hother id hid hhas] at ht
        exact hi.large id t ht
    · have hnone : m.elements.get? id = none := by
        cases hx : m.elements.get? id with
        | none => rfl
        | some e => exact absurd ((hm.wf.elements.2 id).2 ⟨e, hx⟩) hid
      unfold Mesh.tetAt at ht
      simp [hnone] at ht
  · intro k hk hkl t ht
    have hold := hi.quality k hk hkl
    obtain ⟨id, hid, ht⟩ := List.mem_filterMap.1 ht
    have hid' : id ∈ m.elements.ids := hid
    by_cases hhas : HasNode m n id
    · exact hqual k hk (fun j hj u hu => hold u (List.mem_filterMap.2 ⟨j, hq j hj, hu⟩)) id (hmemq id hid' hhas) t ht
    · rw [hother id hid' hhas] at ht
      exact hold t (List.mem_filterMap.2 ⟨id, hid, ht⟩)
  · intro A _ f hf
    rw [hi.hull A f hf, hull_ids (m := { m with nodes := N' }) (hwf N' hok (hids.trans hi.ids)) hm.all f,
      hull_ids (m := { m with nodes := N }) (hwf N hi.ok hi.ids) hm.all f]
    show (m.tetFaceIds.map fun s => f (at3 N s)).sum = (m.tetFaceIds.map fun s => f (at3 N' s)).sum
    have hpos : ∀ k, k ≠ n → Smooth.pos N' k = Smooth.pos N k := fun k hk => by unfold Smooth.pos; rw [hget, if_neg hk]
    let g : Int × Int × Int → A := fun s => f (at3 N s) - f (at3 N' s)
    have hzero : (m.tetFaceIds.map g).sum = 0 := by
      have hfil : (m.tetFaceIds.map g).sum = ((m.tetFaceIds.filter fun s => decide (n = s.1 ∨ n = s.2.1 ∨ n = s.2.2)).map g).sum := by
        generalize m.tetFaceIds = l
        induction l with
        | nil => rfl
        | cons s t ih =>
          by_cases hs : n = s.1 ∨ n = s.2.1 ∨ n = s.2.2
          · rw [List.filter_cons_of_pos (by simpa using hs)]
            simp only [List.map_cons, List.sum_cons, ih]
          · rw [List.filter_cons_of_neg (by simpa using hs), List.map_cons, List.sum_cons, ih]
            push Not at hs
            simp only [g, at3, hpos _ hs.1.symm, hpos _ hs.2.1.symm, hpos _ hs.2.2.symm, sub_self, zero_add]
      rw [hfil]
      refine cancel3 g (fun s t h => ?_) _ _ rfl ((ids_once hm).filter _) (fun s hs => ids_distinct hm s (List.mem_filter.1 hs).1) ?_
      · simp only [g, odd_turned hf N s t h, odd_turned hf N' s t h]; abel
      intro s hs
      obtain ⟨hs1, hs2⟩ := List.mem_filter.1 hs
      have hs2' : n = s.1 ∨ n = s.2.1 ∨ n = s.2.2 := by simpa using hs2
      obtain ⟨i, fc, g1, g2, g3⟩ := hfit.face s hs1
      have hpr : fc.hasPair = true := by
        by_contra hpr
        refine hb n hx ⟨i, fc, g1, by simpa using hpr, ?_⟩
        rw [g3]
        simpa using hs2'
      obtain ⟨gg, s', t, k1, k2, k3, k4, k5⟩ := hfit.pair i fc g1 g2 hpr
      obtain rfl : s' = s := by
        rw [g3] at k3
        simp only [List.cons.injEq, and_true] at k3
        exact Prod.ext k3.1.symm (Prod.ext k3.2.1.symm k3.2.2.symm)
      obtain ⟨e, he, hside⟩ := hfit.owner _ gg k1 k2
      obtain ⟨u, hu, hun⟩ := hside (hm.all _ e he).1
      obtain rfl : u = t := by
        rw [k4] at hun
        simp only [List.cons.injEq, and_true] at hun
        exact Prod.ext hun.1.symm (Prod.ext hun.2.1.symm hun.2.2.symm)
      refine ⟨u, List.mem_filter.2 ⟨List.mem_flatMap.2 ⟨gg.elementId, (hm.wf.elements.2 _).2 ⟨e, he⟩, by rw [he]; exact hu⟩, ?_⟩, k5⟩
      have := (k5.mem n).1 (by simp only [turned]; tauto)
      simpa using this
    have hsub : (m.tetFaceIds.map g).sum = (m.tetFaceIds.map fun s => f (at3 N s)).sum - (m.tetFaceIds.map fun s => f (at3 N' s)).sum := by
      generalize m.tetFaceIds = l
      induction l with
      | nil => simp
      | cons s t ih => simp only [List.map_cons, List.sum_cons, ih, g]; abel
    rw [hsub] at hzero
    exact sub_eq_zero.1 hzero

theorem relaxNodes_spec {m : Mesh K} (factor : K) (hm : m.Filling) (hfit : m.TetFit) :
    ∃ N, relaxNodes P factor m = some { m with nodes := N } ∧ RInv P m N := by
  obtain ⟨b, h1, h2⟩ := Smooth.markBoundary_def hm.wf m.faces.ids (fun _ h => h) (Mesh.setAll false m.nodes.ids SMap.empty) (fun k hk => by
    rw [Mesh.setAll_find, if_pos hk]; exact ⟨_, rfl⟩)
  obtain ⟨q, hq, hat⟩ := query_at m hm.wf.elements
  have hquery : ∀ n, (q.sharingNode n).2 = m.elements.ids.filter fun x => decide (HasNode m n x) := fun n => by
    rw [← hat n]; exact (MeshQuery.touch_at q n).1
  have hbd : ∀ n, b.find? n = some false → ¬ m.OnBoundary n := by
    rintro n hn ⟨i, f, g1, g2, g3⟩
    exact (Smooth.markBoundary_spec _ _ _ _ h1 n hn).2 i ((hm.wf.faces.2 i).2 ⟨f, g1⟩) f g1 g2 g3
  have hloop : ∀ (l : List Int) (M : Cont (Vec3 K)), (∀ n ∈ l, n ∈ m.nodes.ids) → RInv P m M →
      ∃ M', relaxLoop P factor (fun n => (q.sharingNode n).2) b m.elements l M = some M' ∧ RInv P m M' := by
    intro l
    induction l with
    | nil => intro M _ hi; exact ⟨M, rfl, hi⟩
    | cons a t ih =>
      intro M hl hi
      obtain ⟨M1, g1, g2⟩ := relaxStep (P := P) (factor := factor) hm hfit hquery hbd h2 hi (hl a (by simp))
      obtain ⟨M2, g3, g4⟩ := ih M1 (fun n hn => hl n (List.mem_cons_of_mem _ hn)) g2
      exact ⟨M2, by simp only [relaxLoop, g1, Option.bind_eq_bind, Option.bind_some]; exact g3, g4⟩
  obtain ⟨N, g1, g2⟩ := hloop m.nodes.ids m.nodes (fun _ h => h) ⟨hm.wf.nodes, rfl, fun _ _ => rfl, fun _ _ h => Or.inl h, fun _ _ h => h, fun _ _ _ _ => rfl⟩
  exact ⟨N, by simp only [relaxNodes, h1, hq, Option.bind_eq_bind, Option.bind_some, g1], g2⟩

theorem relax_core {m : Mesh K} (ht : 0 < P.tol) (hm : m.Filling) {N : Cont (Vec3 K)} (hi : RInv P m N) : Mesh.Filling { m with nodes := N } := by
  have hpos : ∀ t ∈ Mesh.tets { m with nodes := N }, t.Positive := by
    intro t h
    obtain ⟨id, hid, h⟩ := List.mem_filterMap.1 h
    rcases hi.large id t h with h | h
    · exact hm.positive t (List.mem_filterMap.2 ⟨id, hid, h⟩)
    · have h0 : 0 < P.tol * P.tol * P.tol := by positivity
      have e : t.volume = behind ⟨t.v0, t.v1, t.v2⟩ t.v3 / 6 := by
        simp only [Tet.volume, det4one, det4, behind, det3, Vec3.cross, Vec3.dot, Vec3.sub_x, Vec3.sub_y, Vec3.sub_z]; ring
      rw [e] at h
      unfold Tet.Positive
      linarith
  refine ⟨⟨hi.ok, hm.wf.faces, hm.wf.elements, ?_, ?_⟩, hm.all, hpos, apart_same hm.positive hpos hi.hull hm.apart⟩
  · intro id f hf n hn; show n ∈ N.ids; rw [hi.ids]; exact hm.wf.faceNodes id f hf n hn
  · intro id e he n hn; show n ∈ N.ids; rw [hi.ids]; exact hm.wf.elemNodes id e he n hn

end TetSmooth
end ENigMA
