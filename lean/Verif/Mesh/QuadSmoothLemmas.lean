import Verif.Mesh.QuadSmooth
import Verif.Mesh.QuadSmoothGeometry

/-!
# Lemmas on flips between triangles and quadrilaterals
-/

set_option linter.unusedSectionVars false
set_option autoImplicit false

namespace ENigMA
namespace QuadSmooth
open Smooth (St third)
variable {K : Type} [Field K] [LinearOrder K] [IsStrictOrderedRing K]
variable {P : Par K}

/-- The quality of an element. -/
def oq (P : Par K) : List (Vec3 K) → K
  | [a, b, c] => P.triQ ⟨a, b, c⟩
  | [a, b, c, d] => P.quadQ ⟨a, b, c, d⟩
  | _ => 0

theorem filterMap_sum {α : Type} {A : Type} [AddCommGroup A] (G : α → A) (l : List Int) (F : Int → Option α) :
    ((l.filterMap F).map G).sum = (l.map fun id => (F id).elim 0 G).sum := by
  induction l with
  | nil => rfl
  | cons a t ih =>
    rw [List.map_cons, List.sum_cons, ← ih]
    cases h : F a with
    | none => rw [List.filterMap_cons_none h]; simp
    | some x => rw [List.filterMap_cons_some h]; simp

/-- The measures of quality do not depend on the corner from which an element is read. -/
def Turning (P : Par K) : Prop :=
  (∀ a b c, P.triQ ⟨b, c, a⟩ = P.triQ ⟨a, b, c⟩) ∧ ∀ a b c d, P.quadQ ⟨b, c, d, a⟩ = P.quadQ ⟨a, b, c, d⟩

/-- The mesh with other elements. -/
abbrev withEls (m : Mesh K) (els : Cont Elem) : Mesh K := { m with elements := els }

/-- What does not change in the loop. -/
structure Inv (P : Par K) (m : Mesh K) (s : St) : Prop where
  ok : s.1.Ok
  ids : s.1.ids = m.elements.ids
  flag : ∀ id ∈ m.elements.ids, ∃ b, s.2.find? id = some b
  same : ∀ id, s.2.find? id = some false → s.1.get? id = m.elements.get? id
  kind : ∀ id e, m.elements.get? id = some e → ∃ e', s.1.get? id = some e' ∧ e'.elementType = e.elementType ∧ e'.nodeIds.length = e.nodeIds.length ∧
    ∀ n ∈ e'.nodeIds, n ∈ m.nodes.ids
  convex : ∀ o ∈ (withEls m s.1).outlines, ConvexOutline o
  sum : ∀ (A : Type) [AddCommGroup A] (f : Vec3 K → Vec3 K → A), (∀ a b, f b a = - f a b) →
    ((withEls m s.1).outlines.map (around f)).sum = (m.outlines.map (around f)).sum
  quality : Turning P → ∀ B, (∀ o ∈ m.outlines, B ≤ oq P o) → ∀ o ∈ (withEls m s.1).outlines, B ≤ oq P o

theorem mem_outlines {m : Mesh K} {o : List (Vec3 K)} : o ∈ m.outlines ↔ ∃ id ∈ m.elements.ids, m.outlineAt id = some o := by
  unfold Mesh.outlines; rw [List.mem_filterMap]

theorem outlineAt_of {m : Mesh K} {id : Int} {e : Elem} {o : List (Vec3 K)} (he : m.elements.get? id = some e) (ho : e.nodeIds.mapM m.nodes.get? = some o) :
    m.outlineAt id = some o := by
  unfold Mesh.outlineAt; rw [he]; exact ho

theorem store_inv {m : Mesh K} {s : St} (hi : Inv P m s) {i j : Int} {e1 e2 : Elem} {t q : List Int} {o1 o2 o1' o2' : List (Vec3 K)} (hij : i ≠ j)
    (h1 : s.1.get? i = some e1) (h2 : s.1.get? j = some e2) (ht : t.length = e1.nodeIds.length) (hq : q.length = e2.nodeIds.length)
    (ho1 : e1.nodeIds.mapM m.nodes.get? = some o1) (ho2 : e2.nodeIds.mapM m.nodes.get? = some o2)
    (ho1' : t.mapM m.nodes.get? = some o1') (ho2' : q.mapM m.nodes.get? = some o2')
    (hn1 : ∀ n ∈ t, n ∈ m.nodes.ids) (hn2 : ∀ n ∈ q, n ∈ m.nodes.ids) (c1 : ConvexOutline o1') (c2 : ConvexOutline o2')
    (hsum : ∀ (A : Type) [AddCommGroup A] (f : Vec3 K → Vec3 K → A), (∀ a b, f b a = - f a b) → around f o1' + around f o2' = around f o1 + around f o2)
    (hql : Turning P → min (oq P o1) (oq P o2) ≤ oq P o1' ∧ min (oq P o1) (oq P o2) ≤ oq P o2') :
    ∃ s', store s i j t q = some s' ∧ Inv P m s' := by
  have hset1 : setNodes t e1 = some { e1 with nodeIds := t } := by
    unfold setNodes
    rw [if_pos (by omega), List.drop_eq_nil_of_le (by omega), List.append_nil]
  have hset2 : setNodes q e2 = some { e2 with nodeIds := q } := by
    unfold setNodes
    rw [if_pos (by omega), List.drop_eq_nil_of_le (by omega), List.append_nil]
  have hm1 := Cont.modify_eq h1 hset1
  have h2' : (Cont.mk (s.1.map.insert i { e1 with nodeIds := t }) s.1.ids s.1.indices s.1.counter).get? j = some e2 := by
    rw [Cont.get?_put, if_neg hij.symm, h2]
  have hm2 := Cont.modify_eq h2' hset2
  have hget : ∀ k, (Cont.mk ((s.1.map.insert i { e1 with nodeIds := t }).insert j { e2 with nodeIds := q }) s.1.ids s.1.indices s.1.counter).get? k =
      if k = j then some { e2 with nodeIds := q } else if k = i then some { e1 with nodeIds := t } else s.1.get? k := by
    intro k
    show (SMap.insert _ _ _).find? k = _
    rw [SMap.find?_insert, SMap.find?_insert]
    rfl
  refine ⟨(_, (s.2.insert i true).insert j true), by unfold store; rw [hm1, Option.bind_eq_bind, Option.bind_some, hm2]; rfl, ?_⟩
  simp only
  generalize hE : Cont.mk ((s.1.map.insert i { e1 with nodeIds := t }).insert j { e2 with nodeIds := q }) s.1.ids s.1.indices s.1.counter = E at hget
  have hEids : E.ids = s.1.ids := by rw [← hE]
  have hi1 : i ∈ s.1.ids := (hi.ok.2 i).2 ⟨_, h1⟩
  have hj1 : j ∈ s.1.ids := (hi.ok.2 j).2 ⟨_, h2⟩
  have x1 : (withEls m s.1).outlineAt i = some o1 := outlineAt_of h1 ho1
  have x2 : (withEls m s.1).outlineAt j = some o2 := outlineAt_of h2 ho2
  have y1 : (withEls m E).outlineAt i = some o1' := outlineAt_of (m := withEls m E) (e := { e1 with nodeIds := t }) (by show E.get? i = _; rw [hget, if_neg hij, if_pos rfl]) ho1'
  have y2 : (withEls m E).outlineAt j = some o2' := outlineAt_of (m := withEls m E) (e := { e2 with nodeIds := q }) (by show E.get? j = _; rw [hget, if_pos rfl]) ho2'
  have y3 : ∀ k, k ≠ i → k ≠ j → (withEls m E).outlineAt k = (withEls m s.1).outlineAt k := by
    intro k hk1 hk2
    unfold Mesh.outlineAt
    show (E.get? k).bind _ = (s.1.get? k).bind _
    rw [hget, if_neg hk2, if_neg hk1]
  -- an outline after the step
  have hout : ∀ o ∈ (withEls m E).outlines, o = o1' ∨ o = o2' ∨ o ∈ (withEls m s.1).outlines := by
    intro o ho
    obtain ⟨k, hk, hk2⟩ := mem_outlines.1 ho
    by_cases z1 : k = i
    · subst z1; rw [y1] at hk2; exact Or.inl (Option.some.inj hk2).symm
    · by_cases z2 : k = j
      · subst z2; rw [y2] at hk2; exact Or.inr (Or.inl (Option.some.inj hk2).symm)
      · rw [y3 k z1 z2] at hk2
        exact Or.inr (Or.inr (mem_outlines.2 ⟨k, by show k ∈ s.1.ids; rw [← hEids]; exact hk, hk2⟩))
  have hmem1 : o1 ∈ (withEls m s.1).outlines := mem_outlines.2 ⟨i, hi1, x1⟩
  have hmem2 : o2 ∈ (withEls m s.1).outlines := mem_outlines.2 ⟨j, hj1, x2⟩
  refine ⟨?_, by rw [hEids]; exact hi.ids, ?_, ?_, ?_, ?_, ?_, ?_⟩
  · refine ⟨by rw [hEids]; exact hi.ok.1, fun id => ?_⟩
    rw [hget, hEids, hi.ok.2]
    split_ifs with z1 z2
    · subst z1; simp [h2]
    · subst z2; simp [h1]
    · rfl
  · intro id hid
    simp only
    rw [SMap.find?_insert, SMap.find?_insert]
    split_ifs
    · exact ⟨_, rfl⟩
    · exact ⟨_, rfl⟩
    · exact hi.flag id hid
  · intro id hid
    simp only at hid
    rw [SMap.find?_insert, SMap.find?_insert] at hid
    by_cases z1 : id = j
    · rw [if_pos z1] at hid; simp at hid
    · by_cases z2 : id = i
      · rw [if_neg z1, if_pos z2] at hid; simp at hid
      · rw [if_neg z1, if_neg z2] at hid
        rw [hget, if_neg z1, if_neg z2]
        exact hi.same id hid
  · intro id e0 h0
    obtain ⟨e', k1, k2, k3, k4⟩ := hi.kind id e0 h0
    simp only
    rw [hget]
    split_ifs with z1 z2
    · subst z1
      rw [h2] at k1
      obtain rfl := Option.some.inj k1
      exact ⟨_, rfl, k2, by simp only; omega, hn2⟩
    · subst z2
      rw [h1] at k1
      obtain rfl := Option.some.inj k1
      exact ⟨_, rfl, k2, by simp only; omega, hn1⟩
    · exact ⟨e', k1, k2, k3, k4⟩
  · intro o ho
    rcases hout o ho with rfl | rfl | h
    · exact c1
    · exact c2
    · exact hi.convex o h
  · intro A _ f hf
    rw [← hi.sum A f hf]
    unfold Mesh.outlines
    rw [filterMap_sum, filterMap_sum]
    show (E.ids.map _).sum = (s.1.ids.map _).sum
    rw [hEids]
    refine Smooth.sum_change hi.ok.1 hi1 hj1 hij _ _ (fun k hk1 hk2 => by simp only [y3 k hk1 hk2]) ?_
    simp only [x1, x2, y1, y2, Option.elim_some]
    exact hsum A f hf
  · intro hT B hB o ho
    have g1 := hi.quality hT B hB o1 hmem1
    have g2 := hi.quality hT B hB o2 hmem2
    rcases hout o ho with rfl | rfl | h
    · exact (le_min g1 g2).trans (hql hT).1
    · exact (le_min g1 g2).trans (hql hT).2
    · exact hi.quality hT B hB o h

theorem turn_orient (a b c : Vec3 K) : QuadMesher.turn a b c = orient a b c := by
  simp only [QuadMesher.turn, orient, Vec3.cross_z, Vec3.sub_x, Vec3.sub_y]; ring

theorem convex_of {a b c d : Vec3 K} (h : QuadMesher.notConvex a b c d = none) : ConvexQuad a b c d := by
  unfold QuadMesher.notConvex at h
  simp only [turn_orient] at h
  split_ifs at h with h1 h2 h3 h4
  exact ⟨not_le.1 h1, not_le.1 h2, not_le.1 h3, not_le.1 h4⟩

theorem up_orient (ht : 0 ≤ P.tol) {t : Tri K} (h : up P t) : 0 < orient t.v0 t.v1 t.v2 :=
  Smooth.up_orient (P := ⟨P.nrm, P.triQ, P.tol⟩) ht h

theorem oq_tri (a b c : Vec3 K) : oq P [a, b, c] = P.triQ ⟨a, b, c⟩ := rfl
theorem oq_quad (a b c d : Vec3 K) : oq P [a, b, c, d] = P.quadQ ⟨a, b, c, d⟩ := rfl

/-- `o` is read from another corner. -/
def Rot (o o' : List (Vec3 K)) : Prop := (∀ (A : Type) [AddCommGroup A] (f : Vec3 K → Vec3 K → A), around f o = around f o') ∧ (Turning P → oq P o = oq P o')

theorem rot3 {a b c : Vec3 K} : Rot (P := P) [b, c, a] [a, b, c] := by
  refine ⟨fun A _ f => ?_, fun h => h.1 a b c⟩
  rw [around3, around3]; abel

theorem rot4 {a b c d : Vec3 K} : Rot (P := P) [b, c, d, a] [a, b, c, d] := by
  refine ⟨fun A _ f => ?_, fun h => h.2 a b c d⟩
  rw [around4, around4]; abel

theorem Rot.trans {o o' o'' : List (Vec3 K)} (h : Rot (P := P) o o') (h' : Rot (P := P) o' o'') : Rot (P := P) o o'' :=
  ⟨fun A _ f => (h.1 A f).trans (h'.1 A f), fun t => (h.2 t).trans (h'.2 t)⟩

theorem Rot.refl (o : List (Vec3 K)) : Rot (P := P) o o := ⟨fun _ _ _ => rfl, fun _ => rfl⟩

theorem mapM3 {N : Cont (Vec3 K)} {a b c : Int} {p q r : Vec3 K} (ha : N.get? a = some p) (hb : N.get? b = some q) (hc : N.get? c = some r) :
    [a, b, c].mapM N.get? = some [p, q, r] := by simp [ha, hb, hc]

theorem mapM4 {N : Cont (Vec3 K)} {a b c d : Int} {p q r s : Vec3 K} (ha : N.get? a = some p) (hb : N.get? b = some q) (hc : N.get? c = some r) (hd : N.get? d = some s) :
    [a, b, c, d].mapM N.get? = some [p, q, r, s] := by simp [ha, hb, hc, hd]

/-- A side of a triangle and the third node. -/
theorem third_rot {ty : ElementType} {fs : List Int} {x y z n1 n2 : Int} (h : [x, y, z].Nodup) (hs : (n1, n2) ∈ Elem.sidePairs ⟨ty, [x, y, z], fs⟩) :
    ∃ n3, third ⟨ty, [x, y, z], fs⟩ n1 n2 = some n3 ∧ ((n1 = x ∧ n2 = y ∧ n3 = z) ∨ (n1 = y ∧ n2 = z ∧ n3 = x) ∨ (n1 = z ∧ n2 = x ∧ n3 = y)) := by
  simp only [List.nodup_cons, List.mem_cons, List.not_mem_nil, or_false, not_or] at h
  obtain ⟨⟨h1, h2⟩, h3, -⟩ := h
  have hs' : (n1, n2) ∈ [(x, y), (y, z), (z, x)] := hs
  simp only [List.mem_cons, Prod.mk.injEq, List.not_mem_nil, or_false] at hs'
  rcases hs' with ⟨rfl, rfl⟩ | ⟨rfl, rfl⟩ | ⟨rfl, rfl⟩
  · refine ⟨z, ?_, Or.inl ⟨rfl, rfl, rfl⟩⟩
    simp [third, Ne.symm h2, Ne.symm h3]
  · refine ⟨x, ?_, Or.inr (Or.inl ⟨rfl, rfl, rfl⟩)⟩
    simp [third, h1, h2]
  · refine ⟨y, ?_, Or.inr (Or.inr ⟨rfl, rfl, rfl⟩)⟩
    simp [third, h3, Ne.symm h1]

theorem opposite_rot {a b c d n1 n2 n4 n5 : Int} (h : opposite a b c d n1 n2 = some (n4, n5)) :
    (a = n2 ∧ b = n1 ∧ c = n5 ∧ d = n4) ∨ (b = n2 ∧ c = n1 ∧ d = n5 ∧ a = n4) ∨ (c = n2 ∧ d = n1 ∧ a = n5 ∧ b = n4) ∨ (d = n2 ∧ a = n1 ∧ b = n5 ∧ c = n4) := by
  unfold opposite at h
  split_ifs at h with h1 h2 h3 h4 <;> simp only [Option.some.injEq, Prod.mk.injEq] at h
  · exact Or.inl ⟨h1.2, h1.1, h.2, h.1⟩
  · exact Or.inr (Or.inl ⟨h2.2, h2.1, h.2, h.1⟩)
  · exact Or.inr (Or.inr (Or.inl ⟨h3.2, h3.1, h.2, h.1⟩))
  · exact Or.inr (Or.inr (Or.inr ⟨h4.2, h4.1, h.2, h.1⟩))

theorem flipPair_inv (ht : 0 ≤ P.tol) {m : Mesh K} {s : St} (hi : Inv P m s) {i j n1 n2 n3 n4 n5 : Int} {e1 e2 : Elem} {o1 o2 : List (Vec3 K)} (hij : i ≠ j)
    (h1 : s.1.get? i = some e1) (h2 : s.1.get? j = some e2) (l1 : e1.nodeIds.length = 3) (l2 : e2.nodeIds.length = 4)
    (ho1 : e1.nodeIds.mapM m.nodes.get? = some o1) (ho2 : e2.nodeIds.mapM m.nodes.get? = some o2) {p1 p2 p3 p4 p5 : Vec3 K}
    (q1 : m.nodes.get? n1 = some p1) (q2 : m.nodes.get? n2 = some p2) (q3 : m.nodes.get? n3 = some p3) (q4 : m.nodes.get? n4 = some p4) (q5 : m.nodes.get? n5 = some p5)
    (hn : ∀ n ∈ [n1, n2, n3, n4, n5], n ∈ m.nodes.ids) (r1 : Rot (P := P) o1 [p1, p2, p3]) (r2 : Rot (P := P) o2 [p2, p1, p5, p4]) :
    ∃ s', flipPair P m.nodes s i j n1 n2 n3 n4 n5 = some s' ∧ Inv P m s' := by
  unfold flipPair
  simp only [q1, q2, q3, q4, q5, Option.bind_eq_bind, Option.bind_some]
  simp only [List.mem_cons, List.not_mem_nil, or_false, forall_eq_or_imp, forall_eq] at hn
  obtain ⟨w1, w2, w3, w4, w5⟩ := hn
  split_ifs with g1 g2
  · obtain ⟨a1, a2, -, a4⟩ := g1
    refine store_inv hi hij h1 h2 (by simp [l1]) (by simp [l2]) ho1 ho2 (mapM3 q2 q3 q4) (mapM4 q1 q5 q4 q3) (by simp [w2, w3, w4]) (by simp [w1, w5, w4, w3])
      (up_orient ht a2) (convex_of a4) ?_ ?_
    · intro A _ f hf
      rw [r1.1, r2.1, around3, around4, around3, around4, hf p1 p2, hf p3 p4]
      abel
    · intro hT
      rw [r1.2 hT, r2.2 hT, oq_tri, oq_quad, oq_tri, oq_quad]
      exact ⟨a1.le.trans (min_le_left _ _), a1.le.trans (min_le_right _ _)⟩
  · obtain ⟨a1, a2, -, a4⟩ := g2
    refine store_inv hi hij h1 h2 (by simp [l1]) (by simp [l2]) ho1 ho2 (mapM3 q1 q5 q3) (mapM4 q3 q5 q4 q2) (by simp [w1, w3, w5]) (by simp [w3, w5, w4, w2])
      (up_orient ht a2) (convex_of a4) ?_ ?_
    · intro A _ f hf
      rw [r1.1, r2.1, around3, around4, around3, around4, hf p1 p2, hf p3 p5]
      abel
    · intro hT
      rw [r1.2 hT, r2.2 hT, oq_tri, oq_quad, oq_tri, oq_quad]
      exact ⟨a1.le.trans (min_le_left _ _), a1.le.trans (min_le_right _ _)⟩
  · exact ⟨s, rfl, hi⟩

/-- The corners of an element of a plane mesh. -/
theorem outline_of {m : Mesh K} (hm : m.PlaneMesh) {id : Int} {e : Elem} (he : m.elements.get? id = some e) :
    ∃ o, e.nodeIds.mapM m.nodes.get? = some o ∧ ConvexOutline o ∧ e.nodeIds.Nodup := by
  have hn := fun n hn => (hm.wf.nodes.2 n).1 (hm.wf.elemNodes id e he n hn)
  obtain ⟨o, ho⟩ := Smooth.mapM_def e.nodeIds hn
  have hc := hm.convex o (mem_outlines.2 ⟨id, (hm.wf.elements.2 id).2 ⟨e, he⟩, outlineAt_of he ho⟩)
  refine ⟨o, ho, hc, ?_⟩
  rcases hm.kinds id e he with ⟨-, hl⟩ | ⟨-, hl⟩
  · match hns : e.nodeIds, hl with
    | [a, b, c], _ =>
      rw [hns] at ho hn
      obtain ⟨p, hp⟩ := hn a (by simp)
      obtain ⟨q, hq⟩ := hn b (by simp)
      obtain ⟨r, hr⟩ := hn c (by simp)
      rw [mapM3 hp hq hr] at ho
      obtain rfl := Option.some.inj ho
      obtain ⟨h1, h2, h3⟩ := Smooth.corners_ne (show 0 < orient p q r from hc)
      have hab : a ≠ b := by rintro rfl; rw [hp] at hq; exact h1 (Option.some.inj hq)
      have hbc : b ≠ c := by rintro rfl; rw [hq] at hr; exact h2 (Option.some.inj hr)
      have hca : c ≠ a := by rintro rfl; rw [hr] at hp; exact h3 (Option.some.inj hp)
      simp [hab, hbc, Ne.symm hca]
  · match hns : e.nodeIds, hl with
    | [a, b, c, d], _ =>
      rw [hns] at ho hn
      obtain ⟨p, hp⟩ := hn a (by simp)
      obtain ⟨q, hq⟩ := hn b (by simp)
      obtain ⟨r, hr⟩ := hn c (by simp)
      obtain ⟨u, hu⟩ := hn d (by simp)
      rw [mapM4 hp hq hr hu] at ho
      obtain rfl := Option.some.inj ho
      obtain ⟨h1, h2, h3, h4, h5, h6⟩ := quad_ne (show ConvexQuad p q r u from hc)
      have hab : a ≠ b := by rintro rfl; rw [hp] at hq; exact h1 (Option.some.inj hq)
      have hbc : b ≠ c := by rintro rfl; rw [hq] at hr; exact h2 (Option.some.inj hr)
      have hcd : c ≠ d := by rintro rfl; rw [hr] at hu; exact h3 (Option.some.inj hu)
      have hda : d ≠ a := by rintro rfl; rw [hu] at hp; exact h4 (Option.some.inj hp)
      have hac : a ≠ c := by rintro rfl; rw [hp] at hr; exact h5 (Option.some.inj hr)
      have hbd : b ≠ d := by rintro rfl; rw [hq] at hu; exact h6 (Option.some.inj hu)
      simp [hab, hbc, hcd, Ne.symm hda, hac, hbd]

theorem flipAcross_inv (ht : 0 ≤ P.tol) {m : Mesh K} (hm : m.PlaneMesh) (hf : m.TrueFaces) {s : St} (hi : Inv P m s) {fid : Int} {f : Face} (hfid : m.faces.get? fid = some f)
    (hline : f.faceType = .line) (hpair : f.hasPair = true) {e : Elem} (he : m.elements.get? f.elementId = some e) (hse : s.1.get? f.elementId = some e)
    (hte : e.elementType = .triangle) {x y z : Int} (hxyz : e.nodeIds = [x, y, z]) {n1 n2 n3 : Int}
    (hrot : (n1 = x ∧ n2 = y ∧ n3 = z) ∨ (n1 = y ∧ n2 = z ∧ n3 = x) ∨ (n1 = z ∧ n2 = x ∧ n3 = y)) :
    ∃ s', flipAcross P m s f n1 n2 n3 = some s' ∧ Inv P m s' := by
  obtain ⟨g, hg, hgl⟩ := hf.pair fid f hfid hline hpair
  obtain ⟨d, hd, -⟩ := hf.owner _ g hg hgl
  obtain ⟨b, hb⟩ := hi.flag g.elementId ((hm.wf.elements.2 _).2 ⟨d, hd⟩)
  unfold flipAcross
  rw [hg]
  simp only [Option.bind_eq_bind, Option.bind_some, hb]
  cases b with
  | true => exact ⟨s, by simp, hi⟩
  | false =>
    simp only [Bool.false_eq_true, if_false]
    have hsd := hi.same _ hb
    rw [hd] at hsd
    rw [hsd, Option.bind_some]
    rcases hm.kinds _ d hd with ⟨htd, -⟩ | ⟨htd, hl⟩
    · exact ⟨s, by simp [htd], hi⟩
    · rw [if_neg (by simp [htd])]
      have hij : f.elementId ≠ g.elementId := by
        intro h
        rw [h, hd] at he
        obtain rfl := Option.some.inj he
        rw [htd] at hte
        simp at hte
      obtain ⟨o1, ho1, -, -⟩ := outline_of hm he
      obtain ⟨o2, ho2, -, -⟩ := outline_of hm hd
      have hne := fun n hn => (hm.wf.nodes.2 n).1 (hm.wf.elemNodes _ e he n hn)
      have hnd := fun n hn => (hm.wf.nodes.2 n).1 (hm.wf.elemNodes _ d hd n hn)
      match hns : d.nodeIds, hl with
      | [a, b, c, k], _ =>
        simp only
        cases hop : opposite a b c k n1 n2 with
        | none => exact ⟨s, rfl, hi⟩
        | some w =>
          obtain ⟨n4, n5⟩ := w
          simp only
          rw [hxyz] at hne
          rw [hns] at hnd
          have m1 : n1 ∈ [x, y, z] ∧ n2 ∈ [x, y, z] ∧ n3 ∈ [x, y, z] := by
            rcases hrot with ⟨rfl, rfl, rfl⟩ | ⟨rfl, rfl, rfl⟩ | ⟨rfl, rfl, rfl⟩ <;> simp
          have m2 : n4 ∈ [a, b, c, k] ∧ n5 ∈ [a, b, c, k] := by
            rcases opposite_rot hop with ⟨-, -, rfl, rfl⟩ | ⟨-, -, rfl, rfl⟩ | ⟨-, -, rfl, rfl⟩ | ⟨-, -, rfl, rfl⟩ <;> simp
          obtain ⟨p1, q1⟩ := hne n1 m1.1
          obtain ⟨p2, q2⟩ := hne n2 m1.2.1
          obtain ⟨p3, q3⟩ := hne n3 m1.2.2
          obtain ⟨p4, q4⟩ := hnd n4 m2.1
          obtain ⟨p5, q5⟩ := hnd n5 m2.2
          refine flipPair_inv ht hi hij hse hsd (by rw [hxyz]; rfl) (by rw [hns]; rfl) ho1 ho2 q1 q2 q3 q4 q5 ?_ ?_ ?_
          · intro n hn
            simp only [List.mem_cons, List.not_mem_nil, or_false] at hn
            rw [hm.wf.nodes.2]
            rcases hn with rfl | rfl | rfl | rfl | rfl
            exacts [⟨_, q1⟩, ⟨_, q2⟩, ⟨_, q3⟩, ⟨_, q4⟩, ⟨_, q5⟩]
          · rw [hxyz] at ho1
            rcases hrot with ⟨rfl, rfl, rfl⟩ | ⟨rfl, rfl, rfl⟩ | ⟨rfl, rfl, rfl⟩
            · rw [mapM3 q1 q2 q3] at ho1
              obtain rfl := Option.some.inj ho1
              exact Rot.refl _
            · rw [mapM3 q3 q1 q2] at ho1
              obtain rfl := Option.some.inj ho1
              exact rot3.trans rot3
            · rw [mapM3 q2 q3 q1] at ho1
              obtain rfl := Option.some.inj ho1
              exact rot3
          · rw [hns] at ho2
            rcases opposite_rot hop with ⟨rfl, rfl, rfl, rfl⟩ | ⟨rfl, rfl, rfl, rfl⟩ | ⟨rfl, rfl, rfl, rfl⟩ | ⟨rfl, rfl, rfl, rfl⟩
            · rw [mapM4 q2 q1 q5 q4] at ho2
              obtain rfl := Option.some.inj ho2
              exact Rot.refl _
            · rw [mapM4 q4 q2 q1 q5] at ho2
              obtain rfl := Option.some.inj ho2
              exact (rot4.trans rot4).trans rot4
            · rw [mapM4 q5 q4 q2 q1] at ho2
              obtain rfl := Option.some.inj ho2
              exact rot4.trans rot4
            · rw [mapM4 q1 q5 q4 q2] at ho2
              obtain rfl := Option.some.inj ho2
              exact rot4

theorem flipFace_inv (ht : 0 ≤ P.tol) {m : Mesh K} (hm : m.PlaneMesh) (hf : m.TrueFaces) {s : St} (hi : Inv P m s) {fid : Int} (hfid : fid ∈ m.faces.ids) :
    ∃ s', flipFace P m s fid = some s' ∧ Inv P m s' := by
  obtain ⟨f, hff⟩ := (hm.wf.faces.2 fid).1 hfid
  unfold flipFace
  rw [hff]
  simp only [Option.bind_eq_bind, Option.bind_some]
  by_cases hline : f.faceType = .line
  swap
  · exact ⟨s, by rw [if_pos hline], hi⟩
  rw [if_neg (by simp [hline])]
  obtain ⟨e, he, w, hw, hwn⟩ := hf.owner fid f hff hline
  obtain ⟨b, hb⟩ := hi.flag f.elementId ((hm.wf.elements.2 _).2 ⟨e, he⟩)
  rw [hb]
  simp only [Option.bind_some]
  cases b with
  | true => exact ⟨s, by simp, hi⟩
  | false =>
    simp only [Bool.false_eq_true, if_false]
    have hse := hi.same _ hb
    rw [he] at hse
    rw [hse, Option.bind_some]
    rcases hm.kinds _ e he with ⟨hte, hl⟩ | ⟨hte, -⟩
    swap
    · exact ⟨s, by simp [hte], hi⟩
    rw [if_neg (by simp [hte])]
    obtain ⟨-, -, -, hnd⟩ := outline_of hm he
    obtain ⟨ty, ns, fs⟩ := e
    simp only at hte hl hnd
    match ns, hl with
    | [x, y, z], _ =>
      rw [hwn]
      simp only [List.getElem?_cons_zero, List.getElem?_cons_succ, Option.bind_some]
      obtain ⟨n3, h3, hrot⟩ := third_rot hnd (n1 := w.1) (n2 := w.2) hw
      rw [h3]
      simp only
      cases hp : f.hasPair with
      | false => exact ⟨s, by simp, hi⟩
      | true =>
        simp only [if_true]
        exact flipAcross_inv ht hm hf hi hff hline hp he hse hte rfl hrot

theorem flipLoop_inv (ht : 0 ≤ P.tol) {m : Mesh K} (hm : m.PlaneMesh) (hf : m.TrueFaces) (l : List Int) (hl : ∀ i ∈ l, i ∈ m.faces.ids) :
    ∀ {s : St}, Inv P m s → ∃ s', flipLoop P m l s = some s' ∧ Inv P m s' := by
  induction l with
  | nil => intro s hi; exact ⟨s, rfl, hi⟩
  | cons a t ih =>
    intro s hi
    obtain ⟨s1, h1, hi1⟩ := flipFace_inv ht hm hf hi (hl a (by simp))
    obtain ⟨s2, h2, hi2⟩ := ih (fun i hi => hl i (List.mem_cons_of_mem _ hi)) hi1
    exact ⟨s2, by simp only [flipLoop, Option.bind_eq_bind, h1, Option.bind_some, h2], hi2⟩

theorem inv_start {m : Mesh K} (hm : m.PlaneMesh) : Inv P m (m.elements, Mesh.setAll false m.elements.ids SMap.empty) := by
  refine ⟨hm.wf.elements, rfl, ?_, fun _ _ => rfl, fun id e he => ⟨e, he, rfl, rfl, hm.wf.elemNodes id e he⟩, hm.convex, fun _ _ _ _ => rfl, fun _ _ h => h⟩
  intro id hid
  simp only
  rw [Mesh.setAll_find, if_pos hid]
  exact ⟨_, rfl⟩

/-! ### Faces -/

section
variable [FloorRing K]

theorem full_of {m : Mesh K} (h : m.TrisAndQuads) : m.FullElements := by
  intro id e he
  rcases h id e he with ⟨h1, h2⟩ | ⟨h1, h2⟩ <;> rw [h1, h2]
  · exact le_refl 3
  · exact le_refl 4

theorem faces_of {m : Mesh K} (hall : m.TrisAndQuads) {id : Int} {e : Elem} (he : m.elements.get? id = some e) :
    Mesh.facesWithOwner id e = e.sidePairs.map fun s => { faceType := .line, nodeIds := [s.1, s.2], elementId := id } := by
  obtain ⟨ty, ns, fs⟩ := e
  rcases hall id _ he with ⟨h1, h2⟩ | ⟨h1, h2⟩
  · simp only at h1 h2
    subst h1
    match ns, h2 with
    | [a, b, c], _ => rfl
  · simp only at h1 h2
    subst h1
    match ns, h2 with
    | [a, b, c, d], _ => rfl

theorem expected_mem {m : Mesh K} (hm : m.elements.Ok) (hall : m.TrisAndQuads) :
    ∀ f ∈ m.expectedFaces, f.faceType = .line ∧ ∃ e, m.elements.get? f.elementId = some e ∧ ∃ s ∈ e.sidePairs, f.nodeIds = [s.1, s.2] := by
  rw [Mesh.expectedFaces_eq hm (full_of hall)]
  intro f hf
  obtain ⟨id, hid, hf⟩ := List.mem_flatMap.1 hf
  obtain ⟨e, he⟩ := (hm.2 id).1 hid
  rw [he] at hf
  simp only [Option.map_some, Option.getD_some, faces_of hall he, List.mem_map] at hf
  obtain ⟨s, hs, rfl⟩ := hf
  exact ⟨rfl, e, he, s, hs, rfl⟩

theorem good_of {mc : HashGrid.Machine K} {m : Mesh K} (hm : m.PlaneMesh) (hc : Smooth.Machine mc m) : Mesh.GoodFaces mc m := by
  refine ⟨hc.eps, hc.big, hc.bounded, ?_⟩
  right
  cases hl : m.elements.ids with
  | nil => left; unfold Mesh.expectedFaces; rw [hl]; rfl
  | cons id t =>
    right
    have hid : id ∈ m.elements.ids := by rw [hl]; simp
    obtain ⟨e, he⟩ := (hm.wf.elements.2 id).1 hid
    obtain ⟨o, ho, hc, -⟩ := outline_of hm he
    have hn := fun n hn => (hm.wf.nodes.2 n).1 (hm.wf.elemNodes id e he n hn)
    have hmem : ∀ s ∈ e.sidePairs, ∃ f ∈ m.expectedFaces, f.nodeIds = [s.1, s.2] := by
      intro s hs
      rw [Mesh.expectedFaces_eq hm.wf.elements (full_of hm.kinds)]
      refine ⟨{ faceType := .line, nodeIds := [s.1, s.2], elementId := id }, List.mem_flatMap.2 ⟨id, hid, ?_⟩, rfl⟩
      rw [he]
      simp only [Option.map_some, Option.getD_some]
      rw [faces_of hm.kinds he]
      exact List.mem_map.2 ⟨s, hs, rfl⟩
    -- the first two sides have different middles
    have key : ∃ a b c p q r, (a, b) ∈ e.sidePairs ∧ (b, c) ∈ e.sidePairs ∧ m.nodes.get? a = some p ∧ m.nodes.get? b = some q ∧ m.nodes.get? c = some r ∧ p ≠ r := by
      obtain ⟨ty, ns, fs⟩ := e
      rcases hm.kinds id _ he with ⟨-, h2⟩ | ⟨-, h2⟩
      · simp only at h2 ho hn
        match ns, h2 with
        | [a, b, c], _ =>
          obtain ⟨p, hp⟩ := hn a (by simp)
          obtain ⟨q, hq⟩ := hn b (by simp)
          obtain ⟨r, hr⟩ := hn c (by simp)
          rw [mapM3 hp hq hr] at ho
          obtain rfl := Option.some.inj ho
          exact ⟨a, b, c, p, q, r, by show _ ∈ [(a, b), (b, c), (c, a)]; simp, by show _ ∈ [(a, b), (b, c), (c, a)]; simp, hp, hq, hr,
            (Smooth.corners_ne (show 0 < orient p q r from hc)).2.2.symm⟩
      · simp only at h2 ho hn
        match ns, h2 with
        | [a, b, c, d], _ =>
          obtain ⟨p, hp⟩ := hn a (by simp)
          obtain ⟨q, hq⟩ := hn b (by simp)
          obtain ⟨r, hr⟩ := hn c (by simp)
          obtain ⟨u, hu⟩ := hn d (by simp)
          rw [mapM4 hp hq hr hu] at ho
          obtain rfl := Option.some.inj ho
          exact ⟨a, b, c, p, q, r, by show _ ∈ [(a, b), (b, c), (c, d), (d, a)]; simp, by show _ ∈ [(a, b), (b, c), (c, d), (d, a)]; simp, hp, hq, hr,
            (quad_ne (show ConvexQuad p q r u from hc)).2.2.2.2.1⟩
    obtain ⟨a, b, c, p, q, r, s1, s2, hp, hq, hr, h3⟩ := key
    obtain ⟨f, hf, hf2⟩ := hmem (a, b) s1
    obtain ⟨g, hg, hg2⟩ := hmem (b, c) s2
    refine ⟨f, hf, g, hg, ?_⟩
    rw [hf2, hg2]
    intro h
    apply h3
    simp only [Mesh.meanOf, Mesh.posOf, hp, hq, hr, List.map_cons, List.map_nil, List.sum_cons, List.sum_nil, Option.getD_some, List.length_cons, List.length_nil] at h
    have hx := congrArg Vec3.x h
    have hy := congrArg Vec3.y h
    have hz := congrArg Vec3.z h
    norm_num [Vec3.smul_x, Vec3.smul_y, Vec3.smul_z, Vec3.add_x, Vec3.add_y, Vec3.add_z] at hx hy hz
    ext
    · linear_combination 2 * hx
    · linear_combination 2 * hy
    · linear_combination 2 * hz

theorem true_faces {mc : HashGrid.Machine K} {m : Mesh K} (hm : m.PlaneMesh) (hc : Smooth.Machine mc m) {tol : K} (ht : 0 ≤ tol) :
    ∃ m', m.generateFaces mc tol = some m' ∧ m'.PlaneMesh ∧ m'.TrueFaces ∧ m'.nodes = m.nodes ∧ m'.elements.ids = m.elements.ids ∧ m'.outlines = m.outlines ∧
      ∀ id e, m.elements.get? id = some e → ∃ e', m'.elements.get? id = some e' ∧ e'.elementType = e.elementType ∧ e'.nodeIds = e.nodeIds := by
  have hfull := full_of hm.kinds
  have hg := good_of hm hc
  obtain ⟨m', h1, h2, h3, h4, h5, h6, h7, h8, -⟩ := C07_generateFaces_faces mc m hm.wf hfull hg tol ht
  obtain ⟨m'', k1, k2, k3, -, -⟩ := C07_generateFaces_pairs mc m hm.wf hfull hg tol ht
  rw [h1] at k1
  obtain rfl := Option.some.inj k1
  obtain ⟨g1, g2, g3⟩ := Smooth.generateFaces_keeps hm.wf.elements hfull h1
  have hout : m'.outlines = m.outlines := by
    unfold Mesh.outlines
    rw [g2]
    congr 1
    funext id
    unfold Mesh.outlineAt
    rw [g1]
    have := g3 id
    cases q : m.elements.get? id with
    | none => rw [q] at this; simp only [Option.map_none, Option.map_eq_none_iff] at this; rw [this]
    | some e =>
      rw [q] at this
      obtain ⟨e', q1, q2⟩ := Option.map_eq_some_iff.1 this
      simp only [Prod.mk.injEq] at q2
      rw [q1]
      simp only [Option.bind_some, q2.2]
  have hkeep : ∀ id e, m.elements.get? id = some e → ∃ e', m'.elements.get? id = some e' ∧ e'.elementType = e.elementType ∧ e'.nodeIds = e.nodeIds := by
    intro id e he
    have := g3 id
    rw [he] at this
    obtain ⟨e', q1, q2⟩ := Option.map_eq_some_iff.1 this
    simp only [Prod.mk.injEq] at q2
    exact ⟨e', q1, q2.1, q2.2⟩
  have hown : ∀ i f, m'.faces.get? i = some f → f.faceType = .line ∧ ∃ e, m'.elements.get? f.elementId = some e ∧ ∃ s ∈ e.sidePairs, f.nodeIds = [s.1, s.2] := by
    intro i f hf
    have hi := (h5.faces.2 i).2 ⟨f, hf⟩
    rw [h3] at hi
    obtain ⟨k, hk, rfl⟩ := List.mem_map.1 hi
    have q := h4 k
    rw [show ((k : Nat) : Int) = Int.ofNat k from rfl, hf] at q
    obtain ⟨f0, hf0, q⟩ := Option.map_eq_some_iff.1 q.symm
    simp only [Prod.mk.injEq] at q
    obtain ⟨r1, e, r2, s, r3, r4⟩ := expected_mem hm.wf.elements hm.kinds f0 (List.mem_of_getElem? hf0)
    obtain ⟨e', w1, -, w3⟩ := hkeep _ e r2
    refine ⟨by rw [← q.1]; exact r1, e', by rw [← q.2.2]; exact w1, s, ?_, by rw [← q.2.1]; exact r4⟩
    unfold Elem.sidePairs
    rw [w3]; exact r3
  refine ⟨m', h1, ⟨h5, ?_, by rw [hout]; exact hm.convex, by rw [hout]; exact hm.apart⟩, ⟨fun i f hf _ => (hown i f hf).2, ?_⟩, h2, h8, hout, hkeep⟩
  · intro id e he
    obtain ⟨e0, q1, q2, q3⟩ := h7 id e he
    rw [q2, q3]; exact hm.kinds id e0 q1
  · intro i f hf _ hp
    obtain ⟨-, g, q2, -⟩ := k3 i f hf hp
    exact ⟨g, q2, (hown _ g q2).1⟩

theorem listed_faces {mc : HashGrid.Machine K} {m m' : Mesh K} (hm : m.PlaneMesh) (hc : Smooth.Machine mc m) {tol : K} (ht : 0 ≤ tol) (h : m.generateFaces mc tol = some m') :
    m'.ListedFaces := by
  have hfull := full_of hm.kinds
  have hg := good_of hm hc
  obtain ⟨m1, h1, -, -, -, w1, -, w2, w3, w4⟩ := C07_generateFaces_faces mc m hm.wf hfull hg tol ht
  obtain ⟨m2, k1, k2, k3, -, -⟩ := C07_generateFaces_pairs mc m hm.wf hfull hg tol ht
  obtain ⟨m3, -, g1, -, -, -, -, -, -, -, -, g10⟩ := Mesh.generateFaces_spec mc m hm.wf hfull hg tol ht
  obtain ⟨m4, t1, -, t3, -⟩ := true_faces hm hc ht
  rw [h] at h1 k1 g1 t1
  obtain rfl := Option.some.inj h1
  obtain rfl := Option.some.inj k1
  obtain rfl := Option.some.inj g1
  obtain rfl := Option.some.inj t1
  refine ⟨?_, ?_, ?_⟩
  · intro id e' he'
    obtain ⟨e, he, -, q3⟩ := w2 id e' he'
    obtain ⟨a, b, hab⟩ := List.append_of_mem ((hm.wf.elements.2 id).2 ⟨e, he⟩)
    have q := g10 a b id hab e he
    rw [he'] at q
    obtain rfl := Option.some.inj q
    simp only [List.length_map, List.length_range']
    have hl : (Mesh.facesWithOwner id e).length = e.facesOf.length := by simp [Mesh.facesWithOwner]
    rw [← hl, faces_of hm.kinds he]
    simp [Elem.sidePairs]
  · intro id e he i hi
    obtain ⟨f, hf, -⟩ := (w4 id e he i).1 hi
    exact (w1.faces.2 i).2 ⟨f, hf⟩
  · intro i f hf hp
    obtain ⟨-, g, hg, -⟩ := k3 i f hf hp
    refine ⟨g, hg, ?_⟩
    by_cases hline : g.faceType = .line
    · obtain ⟨e, he, -⟩ := t3.owner _ g hg hline
      exact (w1.elements.2 _).2 ⟨e, he⟩
    · exfalso
      apply hline
      have hgi := (w1.faces.2 _).2 ⟨g, hg⟩
      obtain ⟨m5, r1, -, r3, r4, -⟩ := C07_generateFaces_faces mc m hm.wf hfull (good_of hm hc) tol ht
      rw [h] at r1
      obtain rfl := Option.some.inj r1
      rw [r3] at hgi
      obtain ⟨k, hk, hk2⟩ := List.mem_map.1 hgi
      have q := r4 k
      rw [show ((k : Nat) : Int) = f.pairFaceId from hk2, hg] at q
      obtain ⟨f0, hf0, q⟩ := Option.map_eq_some_iff.1 q.symm
      simp only [Prod.mk.injEq] at q
      rw [← q.1]
      exact (expected_mem hm.wf.elements hm.kinds f0 (List.mem_of_getElem? hf0)).1

theorem flip_core {mc : HashGrid.Machine K} {m : Mesh K} (ht : 0 ≤ P.tol) (hm : m.PlaneMesh) (hf : m.TrueFaces) (hc : Smooth.Machine mc m) :
    ∃ m', flipEdges P mc m = some m' ∧ m'.PlaneMesh ∧ m'.TrueFaces ∧ m'.nodes = m.nodes ∧ m'.elements.ids = m.elements.ids ∧
      (∀ id e, m.elements.get? id = some e → ∃ e', m'.elements.get? id = some e' ∧ e'.elementType = e.elementType) ∧
      (∀ (A : Type) [AddCommGroup A] (f : Vec3 K → Vec3 K → A), (∀ a b, f b a = - f a b) → (m'.outlines.map (around f)).sum = (m.outlines.map (around f)).sum) ∧
      (Turning P → ∀ B, (∀ o ∈ m.outlines, B ≤ oq P o) → ∀ o ∈ m'.outlines, B ≤ oq P o) := by
  obtain ⟨s, hs, hi⟩ := flipLoop_inv ht hm hf m.faces.ids (fun _ h => h) (inv_start (P := P) hm)
  have hback : ∀ id e, s.1.get? id = some e → ∃ e0, m.elements.get? id = some e0 ∧ e.elementType = e0.elementType ∧ e.nodeIds.length = e0.nodeIds.length ∧ ∀ n ∈ e.nodeIds, n ∈ m.nodes.ids := by
    intro id e he
    have hid : id ∈ m.elements.ids := by rw [← hi.ids]; exact (hi.ok.2 id).2 ⟨e, he⟩
    obtain ⟨e0, he0⟩ := (hm.wf.elements.2 id).1 hid
    obtain ⟨e', k1, k2, k3, k4⟩ := hi.kind id e0 he0
    rw [he] at k1
    obtain rfl := Option.some.inj k1
    exact ⟨e0, he0, k2, k3, k4⟩
  have hm1 : (withEls m s.1).PlaneMesh := by
    refine ⟨⟨hm.wf.nodes, hm.wf.faces, hi.ok, hm.wf.faceNodes, ?_⟩, ?_, hi.convex, apart_of hm.convex hi.convex (fun f hf => hi.sum ℤ f hf) hm.apart⟩
    · intro id e he
      obtain ⟨-, -, -, -, h⟩ := hback id e he
      exact h
    · intro id e he
      obtain ⟨e0, q1, q2, q3, -⟩ := hback id e he
      rw [q2, q3]; exact hm.kinds id e0 q1
  obtain ⟨m', g1, g2, g3, g4, g5, g6, g7⟩ := true_faces hm1 (mc := mc) ⟨hc.eps, hc.big, hc.bounded⟩ ht
  refine ⟨m', ?_, g2, g3, g4, g5.trans hi.ids, ?_, ?_, ?_⟩
  · simp only [flipEdges, hs, Option.bind_eq_bind, Option.bind_some]
    exact g1
  · intro id e he
    obtain ⟨e1, k1, k2, -⟩ := hi.kind id e he
    obtain ⟨e2, k3, k4, -⟩ := g7 id e1 k1
    exact ⟨e2, k3, k4.trans k2⟩
  · intro A _ f hf
    rw [g6]; exact hi.sum A f hf
  · rw [g6]; exact hi.quality

end

/-! ### Moving nodes -/

open Smooth (pushNew mean)

theorem pushNew_mem {l ns : List Int} {S : List Int} (hl : ∀ n ∈ l, n ∈ S) (hn : ∀ n ∈ ns, n ∈ S) : (∀ n ∈ l.foldl pushNew ns, n ∈ S) ∧ ns.length ≤ (l.foldl pushNew ns).length := by
  induction l generalizing ns with
  | nil => exact ⟨hn, le_rfl⟩
  | cons a t ih =>
    have h : (∀ n ∈ pushNew ns a, n ∈ S) ∧ ns.length ≤ (pushNew ns a).length := by
      unfold pushNew
      split_ifs
      · exact ⟨hn, le_rfl⟩
      · refine ⟨fun n hn' => ?_, by simp⟩
        rcases List.mem_append.1 hn' with h | h
        · exact hn n h
        · simp only [List.mem_singleton] at h; subst h; exact hl _ (by simp)
    obtain ⟨h1, h2⟩ := ih (fun n hn => hl n (List.mem_cons_of_mem _ hn)) h.1
    exact ⟨h1, h.2.trans h2⟩

theorem walk_def {m : Mesh K} (hw : m.WF) (hk : m.TrisAndQuads) (hl : m.ListedFaces) {first : Int} (hfirst : first ∈ m.faces.ids) (fuel : Nat) :
    ∀ cur ns es, cur ∈ m.faces.ids → (∀ n ∈ ns, n ∈ m.nodes.ids) → (∀ x ∈ es, x ∈ m.elements.ids) →
      ∃ r, walk m first fuel cur ns es = some r ∧ r ≠ .never ∧ ∀ ns' es', r = .ring ns' es' → (∀ n ∈ ns', n ∈ m.nodes.ids) ∧ ∀ x ∈ es', x ∈ m.elements.ids := by
  induction fuel with
  | zero => intro cur ns es _ _ _; exact ⟨.tooLong, rfl, by simp, by simp⟩
  | succ k ih =>
    intro cur ns es hc hns hes
    obtain ⟨f, hf⟩ := (hw.faces.2 cur).1 hc
    simp only [walk, hf, Option.bind_eq_bind, Option.bind_some]
    cases hp : f.hasPair with
    | false => exact ⟨.rim, by simp, by simp, by simp⟩
    | true =>
      obtain ⟨g, hg, hge⟩ := hl.pair cur f hf hp
      obtain ⟨e, he⟩ := (hw.elements.2 _).1 hge
      have hty : ¬ (e.elementType ≠ .triangle ∧ e.elementType ≠ .quadrilateral) := by
        rcases hk _ e he with h | h <;> simp [h.1]
      have hlen : 3 ≤ e.faceIds.length := by
        rw [hl.all _ e he]
        rcases hk _ e he with h | h <;> omega
      have hnext : ∃ nx, nextFace e.faceIds f.pairFaceId first = some nx ∧ nx ∈ m.faces.ids := by
        unfold nextFace
        split
        · rename_i j _
          have : (j + 1) % 3 < e.faceIds.length := lt_of_lt_of_le (Nat.mod_lt _ (by omega)) hlen
          exact ⟨_, List.getElem?_eq_getElem this, hl.stored _ e he _ (List.getElem_mem this)⟩
        · exact ⟨first, rfl, hfirst⟩
      obtain ⟨nx, hnx, hnx2⟩ := hnext
      have hns' := (pushNew_mem (hw.faceNodes _ g hg) hns).1
      have hes' : ∀ x ∈ es ++ [g.elementId], x ∈ m.elements.ids := by
        intro x hx
        rcases List.mem_append.1 hx with h | h
        · exact hes x h
        · simp only [List.mem_singleton] at h; subst h; exact hge
      simp only [if_true, hg, he, Option.bind_some, if_neg hty, hnx]
      split_ifs
      · exact ⟨_, rfl, by simp, by simp⟩
      · refine ⟨_, rfl, by simp, ?_⟩
        intro a b hab
        simp only [Walk.ring.injEq] at hab
        obtain ⟨rfl, rfl⟩ := hab
        exact ⟨hns', hes'⟩
      · exact ih nx _ _ hnx2 hns' hes'

/-- What moving nodes keeps. -/
structure Kept (m : Mesh K) (N : Cont (Vec3 K)) : Prop where
  ok : N.Ok
  ids : N.ids = m.nodes.ids
  half : ∀ v d, (∀ n p, m.nodes.get? n = some p → Vec3.dot v p ≤ d) → ∀ n p, N.get? n = some p → Vec3.dot v p ≤ d

theorem judge_def {m : Mesh K} (hw : m.WF) (hk : m.TrisAndQuads) {N : Cont (Vec3 K)} (hN : Kept m N) (n : Int) (new : Vec3 K)
    (l : List Int) (hl : ∀ i ∈ l, i ∈ m.elements.ids) : ∀ q, ∃ r, judge P N m.elements n new l q = some r := by
  induction l with
  | nil => intro q; exact ⟨_, rfl⟩
  | cons a t ih =>
    intro q
    obtain ⟨e, he⟩ := (hw.elements.2 a).1 (hl a (by simp))
    have hn := fun n hn => (hN.ok.2 n).1 (by rw [hN.ids]; exact hw.elemNodes a e he n hn)
    have hlen : 3 ≤ e.nodeIds.length := by rcases hk _ e he with h | h <;> omega
    obtain ⟨p1, q1⟩ := hn _ (List.getElem_mem (show 0 < e.nodeIds.length by omega))
    obtain ⟨p2, q2⟩ := hn _ (List.getElem_mem (show 1 < e.nodeIds.length by omega))
    obtain ⟨p3, q3⟩ := hn _ (List.getElem_mem (show 2 < e.nodeIds.length by omega))
    simp only [judge, he, Option.bind_eq_bind, Option.bind_some, List.getElem?_eq_getElem (show 0 < e.nodeIds.length by omega),
      List.getElem?_eq_getElem (show 1 < e.nodeIds.length by omega), List.getElem?_eq_getElem (show 2 < e.nodeIds.length by omega), q1, q2, q3]
    split_ifs
    · exact ⟨_, rfl⟩
    · exact ih (fun i hi => hl i (List.mem_cons_of_mem _ hi)) _

theorem moveNode_kept {m : Mesh K} (hw : m.WF) (hk : m.TrisAndQuads) {N : Cont (Vec3 K)} (hN : Kept m N) {n : Int} (hn : n ∈ m.nodes.ids) {ns es : List Int}
    (hns : ∀ x ∈ ns, x ∈ m.nodes.ids) (hes : ∀ x ∈ es, x ∈ m.elements.ids) : ∃ N', moveNode P m N n ns es = some N' ∧ Kept m N' := by
  unfold moveNode
  split_ifs with hlen
  swap
  · exact ⟨N, rfl, hN⟩
  obtain ⟨r, hr⟩ := Smooth.mapM_def ns (fun x hx => (hN.ok.2 x).1 (by rw [hN.ids]; exact hns x hx))
  have hmean : ∃ new, mean N ns = some new := by
    simp only [mean, hr, Option.bind_eq_bind, Option.bind_some]
    exact ⟨_, rfl⟩
  obtain ⟨new, hnew⟩ := hmean
  obtain ⟨j, hj⟩ := judge_def (P := P) hw hk hN n new es hes (0, 0)
  simp only [hnew, hj, Option.bind_eq_bind, Option.bind_some]
  match j with
  | none => exact ⟨N, rfl, hN⟩
  | some (q1, q2) =>
    simp only
    split_ifs
    swap
    · exact ⟨N, rfl, hN⟩
    obtain ⟨p, hp⟩ := (hN.ok.2 n).1 (by rw [hN.ids]; exact hn)
    refine ⟨_, Cont.modify_eq hp rfl, Cont.put_ok hN.ok hp, hN.ids, ?_⟩
    intro v d h k x hx
    rw [Cont.get?_put] at hx
    split_ifs at hx with hkn
    · obtain rfl := Option.some.inj hx
      exact Smooth.mean_le hnew (by omega) v d (hN.half v d h)
    · exact hN.half v d h k x hx

/-- The loops go on or stop, with nodes that are kept. -/
def Fine (m : Mesh K) (r : Res K) : Prop := ∃ N, (r = .go N ∨ r = .stop N) ∧ Kept m N

theorem relaxCorners_fine {m : Mesh K} (hw : m.WF) (hk : m.TrisAndQuads) (hl : m.ListedFaces) (l : List (Int × Int)) (h : ∀ x ∈ l, x.1 ∈ m.nodes.ids ∧ x.2 ∈ m.faces.ids) :
    ∀ {N : Cont (Vec3 K)}, Kept m N → ∃ r, relaxCorners P m l N = some r ∧ Fine m r := by
  induction l with
  | nil => intro N hN; exact ⟨_, rfl, N, Or.inl rfl, hN⟩
  | cons a t ih =>
    intro N hN
    obtain ⟨n, fid⟩ := a
    obtain ⟨h1, h2⟩ := h (n, fid) (by simp)
    obtain ⟨p, hp⟩ := (hN.ok.2 n).1 (by rw [hN.ids]; exact h1)
    obtain ⟨r, hr, hr1, hr2⟩ := walk_def hw hk hl h2 1001 fid [n] [] h2 (by simpa using h1) (by simp)
    have ih := fun {N} => ih (fun x hx => h x (List.mem_cons_of_mem _ hx)) (N := N)
    simp only [relaxCorners, hp, hr, Option.bind_eq_bind, Option.bind_some]
    match r with
    | .rim => exact ih hN
    | .ring ns es =>
      obtain ⟨g1, g2⟩ := hr2 ns es rfl
      obtain ⟨N', hN', hk'⟩ := moveNode_kept (P := P) hw hk hN h1 g1 g2
      simp only [hN', Option.bind_some]
      exact ih hk'
    | .tooLong => exact ⟨_, rfl, N, Or.inr rfl, hN⟩
    | .never => exact absurd rfl hr1

theorem relaxElements_fine {m : Mesh K} (hw : m.WF) (hk : m.TrisAndQuads) (hl : m.ListedFaces) (l : List Int) (h : ∀ x ∈ l, x ∈ m.elements.ids) :
    ∀ {N : Cont (Vec3 K)}, Kept m N → ∃ r, relaxElements P m l N = some r ∧ Fine m r := by
  induction l with
  | nil => intro N hN; exact ⟨_, rfl, N, Or.inl rfl, hN⟩
  | cons a t ih =>
    intro N hN
    obtain ⟨e, he⟩ := (hw.elements.2 a).1 (h a (by simp))
    have hty : ¬ (e.elementType ≠ .triangle ∧ e.elementType ≠ .quadrilateral) := by
      rcases hk _ e he with h | h <;> simp [h.1]
    obtain ⟨r, hr, N', hr1, hN'⟩ := relaxCorners_fine (P := P) hw hk hl (e.nodeIds.zip e.faceIds)
      (fun x hx => ⟨hw.elemNodes a e he _ (List.of_mem_zip hx).1, hl.stored a e he _ (List.of_mem_zip hx).2⟩) hN
    simp only [relaxElements, he, Option.bind_eq_bind, Option.bind_some, if_neg hty, if_pos (le_of_eq (hl.all a e he).symm), hr]
    rcases hr1 with rfl | rfl
    · exact ih (fun x hx => h x (List.mem_cons_of_mem _ hx)) hN'
    · exact ⟨_, rfl, N', Or.inr rfl, hN'⟩

theorem relax_core {m : Mesh K} (hw : m.WF) (hk : m.TrisAndQuads) (hl : m.ListedFaces) : ∃ N, relaxNodes P m = some (some { m with nodes := N }) ∧ Kept m N := by
  obtain ⟨r, hr, N, h, hN⟩ := relaxElements_fine (P := P) hw hk hl m.elements.ids (fun _ h => h) (N := m.nodes) ⟨hw.nodes, rfl, fun _ _ h => h⟩
  refine ⟨N, ?_, hN⟩
  simp only [relaxNodes, hr, Option.bind_eq_bind, Option.bind_some]
  rcases h with rfl | rfl <;> rfl

end QuadSmooth
end ENigMA
