import Verif.Mesh.Remesh
import Verif.Mesh.RemeshSpec
import Verif.Mesh.SmoothProps

/-!
# Lemmas on `remesh`
-/

set_option linter.unusedSectionVars false
set_option autoImplicit false

namespace ENigMA

namespace Remesh
open Smooth
variable {K : Type} [Field K] [LinearOrder K] [IsStrictOrderedRing K]

/-! ### Triangles -/

theorem flag_set {done : List Bool} {i j : Int} (hi : 0 ≤ i) (v : Bool) (h : i.toNat < done.length) :
    flag (done.set i.toNat v) j = if j = i then some v else flag done j := by
  unfold flag
  by_cases hj : 0 ≤ j
  · rw [if_pos hj, if_pos hj, List.getElem?_set]
    by_cases hij : j = i
    · subst hij; simp [h]
    · have : i.toNat ≠ j.toNat := by omega
      simp [hij, this]
  · rw [if_neg hj, if_neg hj]
    have : j ≠ i := by omega
    simp [this]

theorem count_set {done : List Bool} {k : Nat} (h : done[k]? = some false) : (done.set k true).count true = done.count true + 1 := by
  induction done generalizing k with
  | nil => simp at h
  | cons a t ih =>
    cases k with
    | zero => simp only [List.getElem?_cons_zero, Option.some.injEq] at h; subst h; simp
    | succ k =>
      simp only [List.getElem?_cons_succ] at h
      simp only [List.set_cons_succ, List.count_cons, ih h]
      omega

/-- What does not change in the loop over a mesh of triangles. -/
structure TInv (nrm : Vec3 K → K) (size : K) (m : Mesh K) (s : St K) : Prop where
  nodes : s.nodes.Ok
  old : ∀ n p, m.nodes.get? n = some p → s.nodes.get? n = some p
  half : ∀ v d, (∀ n p, m.nodes.get? n = some p → Vec3.dot v p ≤ d) → ∀ n p, s.nodes.get? n = some p → Vec3.dot v p ≤ d
  els : s.els.Ok
  ids : ∃ extra, s.els.ids = m.elements.ids ++ extra ∧ extra.length = s.done.count true
  len : s.done.length = m.elements.ids.length
  same : ∀ id ∈ m.elements.ids, flag s.done id = some false → s.els.get? id = m.elements.get? id
  tri : ∀ id e, s.els.get? id = some e → ∃ a b c fs, e = ⟨.triangle, [a, b, c], fs⟩ ∧ (∃ p, s.nodes.get? a = some p) ∧ (∃ p, s.nodes.get? b = some p) ∧
    (∃ p, s.nodes.get? c = some p) ∧ ((id ∉ m.elements.ids ∧ fs = []) ∨ ∃ e0, m.elements.get? id = some e0 ∧ fs = e0.faceIds)
  up : ∀ id t, Mesh.triAt { m with nodes := s.nodes, elements := s.els } id = some t → 0 < orient t.v0 t.v1 t.v2
  sum : ∀ {A : Type} [AddCommGroup A] (f : Vec3 K → Vec3 K → A), (∀ a b, f b a = - f a b) →
    ((Mesh.triangles { m with nodes := s.nodes, elements := s.els }).map (around f)).sum = (m.triangles.map (around f)).sum
  num : ∀ id ∈ s.els.ids, 0 ≤ id ∧ id < s.els.ids.length
  nonneg : ∀ n ∈ s.nodes.ids, 0 ≤ n
  mid : ∀ n p, s.nodes.get? n = some p → m.nodes.get? n = some p ∨ ∃ x a b, m.LongSide nrm size x ∧ m.nodes.get? x.1 = some a ∧ m.nodes.get? x.2 = some b ∧ p = (2 : K)⁻¹ • (a + b)
  cut : ∀ id ∈ m.elements.ids, flag s.done id = some true → ∃ t t', m.triAt id = some t ∧ Mesh.triAt { m with nodes := s.nodes, elements := s.els } id = some t' ∧
    t' ≠ t ∧ (∃ x ∈ t.sides, x ∈ t'.sides) ∧ ∃ e x, m.elements.get? id = some e ∧ x ∈ e.triSides ∧ m.LongSide nrm size x

theorem mem_of_maxKey {α : Type} {m : SMap Int α} {k : Int} (h : m.maxKey? = some k) : ∃ a, m.find? k = some a := by
  unfold SMap.maxKey? at h
  simp only [Option.map_eq_some_iff] at h
  obtain ⟨p, hp, rfl⟩ := h
  exact ⟨p.2, (SMap.find?_eq_some_iff _ _ _).2 (List.mem_of_getLast? hp)⟩

theorem nextId_le {α : Type} {c : Cont α} (hc : c.Ok) (h : ∀ id ∈ c.ids, 0 ≤ id ∧ id < c.ids.length) : 0 ≤ c.nextId ∧ c.nextId ≤ c.ids.length := by
  unfold Cont.nextId
  cases hm : c.map.maxKey? with
  | none => simp
  | some k =>
    have hk : k ∈ c.ids := (hc.2 k).2 (mem_of_maxKey hm)
    have := h k hk
    simp only
    omega

theorem nextId_nonneg {α : Type} {c : Cont α} (hc : c.Ok) (h : ∀ id ∈ c.ids, 0 ≤ id) : 0 ≤ c.nextId := by
  unfold Cont.nextId
  cases hm : c.map.maxKey? with
  | none => simp
  | some k =>
    have hk : k ∈ c.ids := (hc.2 k).2 (mem_of_maxKey hm)
    have := h k hk
    simp only
    omega

theorem sum_change' {A : Type} [AddCommGroup A] {l : List Int} (hl : l.Nodup) {i j : Int} (hi : i ∈ l) (hj : j ∈ l) (hij : i ≠ j) (F F' : Int → A) (d : A)
    (h : ∀ k ∈ l, k ≠ i → k ≠ j → F' k = F k) (hs : F' i + F' j + d = F i + F j) : (l.map F').sum + d = (l.map F).sum := by
  have key : (l.map F').sum - (l.map F).sum = (F' i - F i) + (F' j - F j) := by
    rw [← List.sum_toFinset _ hl, ← List.sum_toFinset _ hl, ← Finset.sum_sub_distrib, ← Finset.sum_subset (s₁ := {i, j}), Finset.sum_pair hij]
    · intro k hk
      simp only [Finset.mem_insert, Finset.mem_singleton] at hk
      rcases hk with rfl | rfl <;> simpa
    · intro k hk hk2
      simp only [Finset.mem_insert, Finset.mem_singleton, not_or] at hk2
      rw [h k (List.mem_toFinset.1 hk) hk2.1 hk2.2, sub_self]
  have e1 : (l.map F').sum = (l.map F).sum + ((F' i - F i) + (F' j - F j)) := by rw [← key]; abel
  have e2 : d = F i + F j - F' i - F' j := by rw [← hs]; abel
  rw [e1, e2]
  abel

theorem mid_up {p1 p2 p3 : Vec3 K} (h : 0 < orient p1 p2 p3) :
    0 < orient p3 p1 ((2 : K)⁻¹ • (p1 + p2)) ∧ 0 < orient p2 p3 ((2 : K)⁻¹ • (p1 + p2)) := by
  have e1 : orient p3 p1 ((2 : K)⁻¹ • (p1 + p2)) = 2⁻¹ * orient p1 p2 p3 := by
    simp only [orient, Vec3.smul_x, Vec3.smul_y, Vec3.add_x, Vec3.add_y]; ring
  have e2 : orient p2 p3 ((2 : K)⁻¹ • (p1 + p2)) = 2⁻¹ * orient p1 p2 p3 := by
    simp only [orient, Vec3.smul_x, Vec3.smul_y, Vec3.add_x, Vec3.add_y]
    have : (2 : K)⁻¹ * 2 = 1 := inv_mul_cancel₀ two_ne_zero
    linear_combination ((p3.x - p2.x) * p2.y - (p3.y - p2.y) * p2.x) * this
  rw [e1, e2]
  have : (0 : K) < 2⁻¹ := inv_pos.2 two_pos
  exact ⟨mul_pos this h, mul_pos this h⟩

theorem orient_rot {t : Tri K} {a b c : Vec3 K} (h : Rot t ⟨a, b, c⟩) : orient t.v0 t.v1 t.v2 = orient a b c := by
  rcases h with rfl | rfl | rfl <;> simp only [orient] <;> ring

theorem around_rot {A : Type} [AddCommGroup A] (f : Vec3 K → Vec3 K → A) {t : Tri K} {a b c : Vec3 K} (h : Rot t ⟨a, b, c⟩) : around f t = around f ⟨a, b, c⟩ := by
  rcases h with rfl | rfl | rfl <;> simp only [around] <;> abel

theorem rot_side' {t : Tri K} {a b c : Vec3 K} (h : Rot t ⟨a, b, c⟩) : (b, c) ∈ t.sides := by
  rcases h with rfl | rfl | rfl <;> simp [Tri.sides]

theorem rot_side'' {t : Tri K} {a b c : Vec3 K} (h : Rot t ⟨a, b, c⟩) : (c, a) ∈ t.sides := by
  rcases h with rfl | rfl | rfl <;> simp [Tri.sides]

theorem triAt_old {m : Mesh K} (hm : m.WF) {nrm : Vec3 K → K} {size : K} {s : St K} (hi : TInv nrm size m s) {id : Int}
    (h : s.els.get? id = m.elements.get? id) : Mesh.triAt { m with nodes := s.nodes, elements := s.els } id = m.triAt id := by
  cases hx : m.elements.get? id with
  | none =>
    unfold Mesh.triAt
    simp only [h, hx]
  | some x =>
    rw [hx] at h
    obtain ⟨a, b, c, fs, rfl, -⟩ := hi.tri id x h
    have hn : ∀ n ∈ [a, b, c], ∃ p, m.nodes.get? n = some p := fun n hn => (hm.nodes.2 n).1 (hm.elemNodes id _ hx n hn)
    obtain ⟨p, hp⟩ := hn a (by simp)
    obtain ⟨q, hq⟩ := hn b (by simp)
    obtain ⟨r, hr⟩ := hn c (by simp)
    rw [triAt_mk hx hp hq hr]
    exact triAt_mk (m := { m with nodes := s.nodes, elements := s.els }) h (hi.old _ _ hp) (hi.old _ _ hq) (hi.old _ _ hr)

/-- Two triangles become four. -/
theorem cutPair_spec {m : Mesh K} (hm : m.WF) (hnum : m.Numbered) {nrm : Vec3 K → K} (hsym : ∀ v, nrm (-v) = nrm v) {size : K} {s : St K} (hi : TInv nrm size m s) {id1 id2 a b c a' b' c' n1 n2 n3 n4 : Int} {fs fs' : List Int}
    (he : m.elements.get? id1 = some ⟨.triangle, [a, b, c], fs⟩) (hd : m.elements.get? id2 = some ⟨.triangle, [a', b', c'], fs'⟩)
    (hne : id1 ≠ id2) (hf1 : flag s.done id1 = some false) (hf2 : flag s.done id2 = some false)
    (hrot1 : (n1 = a ∧ n2 = b ∧ n3 = c) ∨ (n1 = b ∧ n2 = c ∧ n3 = a) ∨ (n1 = c ∧ n2 = a ∧ n3 = b))
    (hrot2 : (n2 = a' ∧ n1 = b' ∧ n4 = c') ∨ (n2 = b' ∧ n1 = c' ∧ n4 = a') ∨ (n2 = c' ∧ n1 = a' ∧ n4 = b'))
    {p1 p2 : Vec3 K} (q1 : s.nodes.get? n1 = some p1) (q2 : s.nodes.get? n2 = some p2)
    (hlong : size * (3 / 2) < nrm (p2 - p1)) :
    ∃ s', cutPair s id1 id2 n1 n2 n3 n4 ((2 : K)⁻¹ • (p1 + p2)) = some s' ∧ TInv nrm size m s' ∧ flag s'.done id1 = some true ∧
      ∀ id, flag s.done id = some true → flag s'.done id = some true := by
  have hm1 : id1 ∈ m.elements.ids := (hm.elements.2 _).2 ⟨_, he⟩
  have hm2 : id2 ∈ m.elements.ids := (hm.elements.2 _).2 ⟨_, hd⟩
  have he' := hi.same id1 hm1 hf1
  have hd' := hi.same id2 hm2 hf2
  rw [he] at he'
  rw [hd] at hd'
  have hn1 : ∀ n ∈ [a, b, c], ∃ p, s.nodes.get? n = some p := fun n hn => by
    obtain ⟨p, hp⟩ := (hm.nodes.2 n).1 (hm.elemNodes id1 _ he n hn)
    exact ⟨p, hi.old n p hp⟩
  have hn2 : ∀ n ∈ [a', b', c'], ∃ p, s.nodes.get? n = some p := fun n hn => by
    obtain ⟨p, hp⟩ := (hm.nodes.2 n).1 (hm.elemNodes id2 _ hd n hn)
    exact ⟨p, hi.old n p hp⟩
  obtain ⟨p3, q3⟩ := hn1 n3 (by rcases hrot1 with h | h | h <;> simp [h.2.2])
  obtain ⟨p4, q4⟩ := hn2 n4 (by rcases hrot2 with h | h | h <;> simp [h.2.2])
  set N : Vec3 K := (2 : K)⁻¹ • (p1 + p2) with hN
  set new := s.nodes.nextId with hnew
  have hfresh : s.nodes.get? new = none := Cont.get?_nextId _
  set nodes' := s.nodes.add new N with hnodes
  have hget : ∀ n, nodes'.get? n = if n = new then some N else s.nodes.get? n := fun n => Cont.get?_add _ _ _ _
  have hkeep : ∀ n p, s.nodes.get? n = some p → nodes'.get? n = some p := by
    intro n p h
    rw [hget, if_neg]
    · exact h
    · rintro rfl; rw [hfresh] at h; simp at h
  -- the containers of elements
  set c1 : Cont Elem := { s.els with map := s.els.map.insert id1 ⟨.triangle, [n3, n1, new], fs⟩ } with hc1
  set c2 : Cont Elem := { c1 with map := c1.map.insert id2 ⟨.triangle, [n1, n4, new], fs'⟩ } with hc2
  set c3 := c2.add c2.nextId ⟨.triangle, [n2, n3, new], []⟩ with hc3
  set c4 := c3.add c3.nextId ⟨.triangle, [n4, n2, new], []⟩ with hc4
  have g1 : ∀ k, c1.get? k = if k = id1 then some ⟨.triangle, [n3, n1, new], fs⟩ else s.els.get? k := fun k => Cont.get?_put _ _ _ _
  have g2 : ∀ k, c2.get? k = if k = id2 then some ⟨.triangle, [n1, n4, new], fs'⟩ else c1.get? k := fun k => Cont.get?_put _ _ _ _
  have g3 : ∀ k, c3.get? k = if k = c2.nextId then some ⟨.triangle, [n2, n3, new], []⟩ else c2.get? k := fun k => Cont.get?_add _ _ _ _
  have g4 : ∀ k, c4.get? k = if k = c3.nextId then some ⟨.triangle, [n4, n2, new], []⟩ else c3.get? k := fun k => Cont.get?_add _ _ _ _
  have ok1 : c1.Ok := Cont.put_ok hi.els he'
  have hd1 : c1.get? id2 = some ⟨.triangle, [a', b', c'], fs'⟩ := by rw [g1, if_neg (Ne.symm hne)]; exact hd'
  have ok2 : c2.Ok := Cont.put_ok ok1 hd1
  have ok3 : c3.Ok := Cont.add_ok ok2 _ (Cont.nextId_not_mem ok2)
  have ok4 : c4.Ok := Cont.add_ok ok3 _ (Cont.nextId_not_mem ok3)
  have ids2 : c2.ids = s.els.ids := rfl
  have ids4 : c4.ids = s.els.ids ++ [c2.nextId, c3.nextId] := by
    rw [hc4, hc3]; simp [Cont.add, ids2]
  have hrun : cutPair s id1 id2 n1 n2 n3 n4 N = some ⟨nodes', c4, (s.done.set id1.toNat true).set id2.toNat true⟩ := by
    unfold cutPair
    have m1 : s.els.modify id1 (setThree n3 n1 new) = some c1 := Cont.modify_eq he' (by simp [setThree])
    have m2 : c1.modify id2 (setThree n1 n4 new) = some c2 := Cont.modify_eq hd1 (by simp [setThree])
    rw [← hnew]
    simp only [m1, m2, Option.bind_eq_bind, Option.bind_some]
    rfl
  suffices hboth : TInv nrm size m ⟨nodes', c4, (s.done.set id1.toNat true).set id2.toNat true⟩ ∧
      ∀ id, flag ((s.done.set id1.toNat true).set id2.toNat true) id = if id = id2 then some true else if id = id1 then some true else flag s.done id by
    refine ⟨_, hrun, hboth.1, ?_, ?_⟩
    · show flag ((s.done.set id1.toNat true).set id2.toNat true) id1 = _
      rw [hboth.2, if_neg hne, if_pos rfl]
    · intro id hid
      simp only [hboth.2, hid]
      split_ifs <;> rfl
  obtain ⟨extra, hext, hextl⟩ := hi.ids
  obtain ⟨b1, b2⟩ := hnum.1 id1 hm1
  obtain ⟨b3, b4⟩ := hnum.1 id2 hm2
  have hlt1 : id1.toNat < s.done.length := by rw [hi.len]; omega
  have hlt2 : id2.toNat < (s.done.set id1.toNat true).length := by rw [List.length_set, hi.len]; omega
  have e1new : c2.nextId ∉ s.els.ids := ids2 ▸ Cont.nextId_not_mem ok2
  have e2new : c3.nextId ∉ s.els.ids ++ [c2.nextId] := by
    have := Cont.nextId_not_mem ok3
    rw [show c3.ids = s.els.ids ++ [c2.nextId] from rfl] at this
    exact this
  have h12 : c3.nextId ≠ c2.nextId := fun h => e2new (by rw [h]; simp)
  have e2new' : c3.nextId ∉ s.els.ids := fun h => e2new (List.mem_append_left _ h)
  have hmem : ∀ id ∈ m.elements.ids, id ∈ s.els.ids := fun id h => by rw [hext]; exact List.mem_append_left _ h
  have n1e : id1 ≠ c2.nextId := fun h => e1new (h ▸ hmem id1 hm1)
  have n2e : id2 ≠ c2.nextId := fun h => e1new (h ▸ hmem id2 hm2)
  have n1f : id1 ≠ c3.nextId := fun h => e2new' (h ▸ hmem id1 hm1)
  have n2f : id2 ≠ c3.nextId := fun h => e2new' (h ▸ hmem id2 hm2)
  have hfinal : ∀ k, c4.get? k = if k = c3.nextId then some ⟨.triangle, [n4, n2, new], []⟩ else if k = c2.nextId then some ⟨.triangle, [n2, n3, new], []⟩ else
      if k = id2 then some ⟨.triangle, [n1, n4, new], fs'⟩ else if k = id1 then some ⟨.triangle, [n3, n1, new], fs⟩ else s.els.get? k := by
    intro k; rw [g4, g3, g2, g1]
  have hk1 := hkeep _ _ q1
  have hk2 := hkeep _ _ q2
  have hk3 := hkeep _ _ q3
  have hk4 := hkeep _ _ q4
  have hkN : nodes'.get? new = some N := by rw [hget, if_pos rfl]
  -- positions
  have hpos1 : ∃ t1, Mesh.triAt { m with nodes := s.nodes, elements := s.els } id1 = some t1 ∧ Rot t1 ⟨p1, p2, p3⟩ := by
    rcases hrot1 with ⟨rfl, rfl, rfl⟩ | ⟨rfl, rfl, rfl⟩ | ⟨rfl, rfl, rfl⟩
    · exact ⟨_, triAt_mk (m := { m with nodes := s.nodes, elements := s.els }) he' q1 q2 q3, Or.inl rfl⟩
    · exact ⟨_, triAt_mk (m := { m with nodes := s.nodes, elements := s.els }) he' q3 q1 q2, Or.inr (Or.inr rfl)⟩
    · exact ⟨_, triAt_mk (m := { m with nodes := s.nodes, elements := s.els }) he' q2 q3 q1, Or.inr (Or.inl rfl)⟩
  have hpos2 : ∃ t2, Mesh.triAt { m with nodes := s.nodes, elements := s.els } id2 = some t2 ∧ Rot t2 ⟨p2, p1, p4⟩ := by
    rcases hrot2 with ⟨rfl, rfl, rfl⟩ | ⟨rfl, rfl, rfl⟩ | ⟨rfl, rfl, rfl⟩
    · exact ⟨_, triAt_mk (m := { m with nodes := s.nodes, elements := s.els }) hd' q2 q1 q4, Or.inl rfl⟩
    · exact ⟨_, triAt_mk (m := { m with nodes := s.nodes, elements := s.els }) hd' q4 q2 q1, Or.inr (Or.inr rfl)⟩
    · exact ⟨_, triAt_mk (m := { m with nodes := s.nodes, elements := s.els }) hd' q1 q4 q2, Or.inr (Or.inl rfl)⟩
  obtain ⟨t1, w1, r1⟩ := hpos1
  obtain ⟨t2, w2, r2⟩ := hpos2
  have up1 : 0 < orient p1 p2 p3 := by rw [← orient_rot r1]; exact hi.up _ _ w1
  have up2 : 0 < orient p2 p1 p4 := by rw [← orient_rot r2]; exact hi.up _ _ w2
  obtain ⟨u1, u2⟩ := mid_up up1
  obtain ⟨u3, u4⟩ := mid_up up2
  rw [← hN] at u1 u2
  rw [add_comm p2 p1, ← hN] at u3 u4
  let M : Mesh K := { m with nodes := nodes', elements := c4 }
  have f1 : M.triAt id1 = some ⟨p3, p1, N⟩ := triAt_mk (m := M) (fs := fs) (by show c4.get? _ = _; rw [hfinal, if_neg n1f, if_neg n1e, if_neg hne, if_pos rfl]) hk3 hk1 hkN
  have f2 : M.triAt id2 = some ⟨p1, p4, N⟩ := triAt_mk (m := M) (fs := fs') (by show c4.get? _ = _; rw [hfinal, if_neg n2f, if_neg n2e, if_pos rfl]) hk1 hk4 hkN
  have f3 : M.triAt c2.nextId = some ⟨p2, p3, N⟩ := triAt_mk (m := M) (fs := []) (by show c4.get? _ = _; rw [hfinal, if_neg (Ne.symm h12), if_pos rfl]) hk2 hk3 hkN
  have f4 : M.triAt c3.nextId = some ⟨p4, p2, N⟩ := triAt_mk (m := M) (fs := []) (by show c4.get? _ = _; rw [hfinal, if_pos rfl]) hk4 hk2 hkN
  have f5 : ∀ k, k ≠ id1 → k ≠ id2 → k ≠ c2.nextId → k ≠ c3.nextId → M.triAt k = Mesh.triAt { m with nodes := s.nodes, elements := s.els } k := by
    intro k z1 z2 z3 z4
    have hk : c4.get? k = s.els.get? k := by rw [hfinal, if_neg z4, if_neg z3, if_neg z2, if_neg z1]
    cases hx : s.els.get? k with
    | none => unfold Mesh.triAt; simp only [M, hk, hx]
    | some x =>
      obtain ⟨i, j, l, gs, rfl, ⟨pi, hpi⟩, ⟨pj, hpj⟩, ⟨pl, hpl⟩, -⟩ := hi.tri k x hx
      rw [triAt_mk (m := { m with nodes := s.nodes, elements := s.els }) hx hpi hpj hpl]
      exact triAt_mk (m := M) (by show c4.get? k = _; rw [hk, hx]) (hkeep _ _ hpi) (hkeep _ _ hpj) (hkeep _ _ hpl)
  have hflag : ∀ id, flag ((s.done.set id1.toNat true).set id2.toNat true) id = if id = id2 then some true else if id = id1 then some true else flag s.done id := by
    intro id
    rw [flag_set b3 true hlt2, flag_set b1 true hlt1]
  have v1 : m.triAt id1 = some t1 := by
    rw [← w1]
    exact (triAt_old hm hi (by rw [he, he'])).symm
  have v2 : m.triAt id2 = some t2 := by
    rw [← w2]
    exact (triAt_old hm hi (by rw [hd, hd'])).symm
  have sd1 : (n1, n2) ∈ (⟨.triangle, [a, b, c], fs⟩ : Elem).triSides := by
    rcases hrot1 with ⟨rfl, rfl, rfl⟩ | ⟨rfl, rfl, rfl⟩ | ⟨rfl, rfl, rfl⟩ <;> simp [Elem.triSides]
  have sd2 : (n2, n1) ∈ (⟨.triangle, [a', b', c'], fs'⟩ : Elem).triSides := by
    rcases hrot2 with ⟨rfl, rfl, rfl⟩ | ⟨rfl, rfl, rfl⟩ | ⟨rfl, rfl, rfl⟩ <;> simp [Elem.triSides]
  have ms1 : (n1, n2) ∈ m.sideIds := List.mem_flatMap.2 ⟨id1, hm1, by rw [he]; exact sd1⟩
  have ms2 : (n2, n1) ∈ m.sideIds := List.mem_flatMap.2 ⟨id2, hm2, by rw [hd]; exact sd2⟩
  have o1 : m.nodes.get? n1 = some p1 := by
    obtain ⟨p, hp⟩ := (hm.nodes.2 n1).1 (hm.elemNodes id1 _ he n1 (by rcases hrot1 with h | h | h <;> simp [h.1]))
    have := hi.old _ _ hp
    rw [q1] at this
    rw [hp, ← Option.some.inj this]
  have o2 : m.nodes.get? n2 = some p2 := by
    obtain ⟨p, hp⟩ := (hm.nodes.2 n2).1 (hm.elemNodes id1 _ he n2 (by rcases hrot1 with h | h | h <;> simp [h.2.1]))
    have := hi.old _ _ hp
    rw [q2] at this
    rw [hp, ← Option.some.inj this]
  have hl1 : m.LongSide nrm size (n1, n2) := ⟨ms1, ms2, p1, p2, o1, o2, hlong⟩
  have hl2 : m.LongSide nrm size (n2, n1) := ⟨ms2, ms1, p2, p1, o2, o1, by
    show size * (3 / 2) < nrm (p1 - p2)
    rw [← neg_sub, hsym]; exact hlong⟩
  refine ⟨?_, hflag⟩
  refine ⟨Cont.add_ok hi.nodes _ (Cont.nextId_not_mem hi.nodes), fun n p h => hkeep n p (hi.old n p h), ?_, ok4, ?_, ?_, ?_, ?_, ?_, ?_, ?_, ?_, ?_, ?_⟩
  · intro v d hv n p h
    have h' : nodes'.get? n = some p := h
    rw [hget] at h'
    by_cases hn : n = new
    · rw [if_pos hn] at h'
      obtain rfl := Option.some.inj h'
      have k1 := hi.half v d hv _ _ q1
      have k2 := hi.half v d hv _ _ q2
      have : v.dot N = 2⁻¹ * (v.dot p1 + v.dot p2) := by
        simp only [hN, Vec3.dot, Vec3.smul_x, Vec3.smul_y, Vec3.smul_z, Vec3.add_x, Vec3.add_y, Vec3.add_z]; ring
      rw [this, inv_mul_le_iff₀ two_pos]
      linarith
    · rw [if_neg hn] at h'
      exact hi.half v d hv n p h'
  · refine ⟨extra ++ [c2.nextId, c3.nextId], by show c4.ids = _; rw [ids4, hext, List.append_assoc], ?_⟩
    have k1 : s.done[id1.toNat]? = some false := by unfold flag at hf1; rwa [if_pos b1] at hf1
    have k2 : (s.done.set id1.toNat true)[id2.toNat]? = some false := by
      have := flag_set (done := s.done) (j := id2) b1 true hlt1
      rw [if_neg (Ne.symm hne), hf2] at this
      unfold flag at this
      rwa [if_pos b3] at this
    rw [List.length_append, hextl]
    show _ = ((s.done.set id1.toNat true).set id2.toNat true).count true
    rw [count_set k2, count_set k1]
    rfl
  · show ((s.done.set _ _).set _ _).length = _
    rw [List.length_set, List.length_set, hi.len]
  · intro id hid hfl
    have hfl' : flag ((s.done.set id1.toNat true).set id2.toNat true) id = some false := hfl
    rw [hflag] at hfl'
    by_cases z2 : id = id2
    · rw [if_pos z2] at hfl'; simp at hfl'
    · by_cases z1 : id = id1
      · rw [if_neg z2, if_pos z1] at hfl'; simp at hfl'
      · rw [if_neg z2, if_neg z1] at hfl'
        show c4.get? id = _
        rw [hfinal, if_neg (fun h : id = c3.nextId => e2new' (h ▸ hmem id hid)), if_neg (fun h : id = c2.nextId => e1new (h ▸ hmem id hid)), if_neg z2, if_neg z1]
        exact hi.same id hid hfl'
  · intro id x hx
    have hx' : c4.get? id = some x := hx
    rw [hfinal] at hx'
    by_cases z4 : id = c3.nextId
    · rw [if_pos z4] at hx'
      obtain rfl := Option.some.inj hx'
      exact ⟨_, _, _, _, rfl, ⟨_, hk4⟩, ⟨_, hk2⟩, ⟨_, hkN⟩, Or.inl ⟨fun h => e2new' (z4 ▸ hmem id h), rfl⟩⟩
    · by_cases z3 : id = c2.nextId
      · rw [if_neg z4, if_pos z3] at hx'
        obtain rfl := Option.some.inj hx'
        exact ⟨_, _, _, _, rfl, ⟨_, hk2⟩, ⟨_, hk3⟩, ⟨_, hkN⟩, Or.inl ⟨fun h => e1new (z3 ▸ hmem id h), rfl⟩⟩
      · by_cases z2 : id = id2
        · rw [if_neg z4, if_neg z3, if_pos z2] at hx'
          obtain rfl := Option.some.inj hx'
          exact ⟨_, _, _, _, rfl, ⟨_, hk1⟩, ⟨_, hk4⟩, ⟨_, hkN⟩, Or.inr ⟨_, z2 ▸ hd, rfl⟩⟩
        · by_cases z1 : id = id1
          · rw [if_neg z4, if_neg z3, if_neg z2, if_pos z1] at hx'
            obtain rfl := Option.some.inj hx'
            exact ⟨_, _, _, _, rfl, ⟨_, hk3⟩, ⟨_, hk1⟩, ⟨_, hkN⟩, Or.inr ⟨_, z1 ▸ he, rfl⟩⟩
          · rw [if_neg z4, if_neg z3, if_neg z2, if_neg z1] at hx'
            obtain ⟨i, j, l, gs, rfl, ⟨pi, hpi⟩, ⟨pj, hpj⟩, ⟨pl, hpl⟩, h⟩ := hi.tri id x hx'
            exact ⟨i, j, l, gs, rfl, ⟨_, hkeep _ _ hpi⟩, ⟨_, hkeep _ _ hpj⟩, ⟨_, hkeep _ _ hpl⟩, h⟩
  · intro id t h
    have h' : M.triAt id = some t := h
    by_cases z4 : id = c3.nextId
    · rw [z4, f4] at h'; obtain rfl := Option.some.inj h'; simp only [orient] at u3 ⊢; linarith
    · by_cases z3 : id = c2.nextId
      · rw [z3, f3] at h'; obtain rfl := Option.some.inj h'; exact u2
      · by_cases z2 : id = id2
        · rw [z2, f2] at h'; obtain rfl := Option.some.inj h'; exact u4
        · by_cases z1 : id = id1
          · rw [z1, f1] at h'; obtain rfl := Option.some.inj h'; exact u1
          · rw [f5 id z1 z2 z3 z4] at h'
            exact hi.up id t h'
  · intro A _ f hf
    rw [← hi.sum f hf]
    unfold Mesh.triangles
    show (((c4.ids).filterMap M.triAt).map _).sum = ((s.els.ids.filterMap _).map _).sum
    rw [triangles_sum, triangles_sum, ids4, List.map_append, List.sum_append]
    simp only [List.map_cons, List.map_nil, List.sum_cons, List.sum_nil, add_zero, f3, f4, Option.elim_some]
    refine sum_change' hi.els.1 (hmem _ hm1) (hmem _ hm2) hne _ _ _ (fun k hk z1 z2 => ?_) ?_
    · rw [f5 k z1 z2 (fun h => e1new (h ▸ hk)) (fun h => e2new' (h ▸ hk))]
    · simp only [f1, f2, w1, w2, Option.elim_some]
      rw [around_rot f r1, around_rot f r2]
      simp only [around]
      rw [hf p1 N, hf p2 N, hf N p3, hf N p4, hf p1 p2]
      abel
  · intro id hid
    have hl4 : (c4.ids.length : Int) = s.els.ids.length + 2 := by rw [ids4]; simp
    have hn2 := nextId_le ok2 (by rw [ids2]; exact hi.num)
    rw [ids2] at hn2
    have hn3 := nextId_le ok3 (by
      show ∀ id ∈ s.els.ids ++ [c2.nextId], 0 ≤ id ∧ id < ((s.els.ids ++ [c2.nextId]).length : Int)
      intro id hid
      rw [List.length_append, List.length_singleton]
      rcases List.mem_append.1 hid with h | h
      · have := hi.num id h; omega
      · rw [List.mem_singleton.1 h]; omega)
    have hl3 : (c3.ids.length : Int) = s.els.ids.length + 1 := by
      show ((s.els.ids ++ [c2.nextId]).length : Int) = _
      simp
    have hid' : id ∈ c4.ids := hid
    show 0 ≤ id ∧ id < (c4.ids.length : Int)
    rw [ids4] at hid'
    simp only [List.mem_append, List.mem_cons, List.not_mem_nil, or_false] at hid'
    rcases hid' with h | h | h
    · have := hi.num id h; omega
    · omega
    · omega
  · intro n hn
    have hn' : n ∈ s.nodes.ids ++ [new] := hn
    rcases List.mem_append.1 hn' with h | h
    · exact hi.nonneg n h
    · rw [List.mem_singleton.1 h]; exact nextId_nonneg hi.nodes hi.nonneg
  · intro n p h
    have h' : nodes'.get? n = some p := h
    rw [hget] at h'
    by_cases hn : n = new
    · rw [if_pos hn] at h'
      exact Or.inr ⟨_, p1, p2, hl1, o1, o2, (Option.some.inj h').symm⟩
    · rw [if_neg hn] at h'
      exact hi.mid n p h'
  · intro id hid hfl
    have hfl' : flag ((s.done.set id1.toNat true).set id2.toNat true) id = some true := hfl
    by_cases z2 : id = id2
    · subst z2
      refine ⟨t2, _, v2, f2, ?_, ⟨(p1, p4), rot_side' r2, by simp [Tri.sides]⟩, _, _, hd, sd2, hl2⟩
      intro h
      have e2 : orient p1 p4 N = orient p2 p1 p4 := by
        have e := orient_rot r2
        rw [← h] at e
        exact e
      have : orient p1 p4 N = 2⁻¹ * orient p2 p1 p4 := by
        simp only [hN, orient, Vec3.smul_x, Vec3.smul_y, Vec3.add_x, Vec3.add_y]
        have : (2 : K)⁻¹ * 2 = 1 := inv_mul_cancel₀ two_ne_zero
        linear_combination ((p4.x - p1.x) * p1.y - (p4.y - p1.y) * p1.x) * this
      rw [this, inv_mul_eq_iff_eq_mul₀ two_ne_zero] at e2
      linarith
    · by_cases z1 : id = id1
      · subst z1
        refine ⟨t1, _, v1, f1, ?_, ⟨(p3, p1), rot_side'' r1, by simp [Tri.sides]⟩, _, _, he, sd1, hl1⟩
        intro h
        have e2 : orient p3 p1 N = orient p1 p2 p3 := by
          have e := orient_rot r1
          rw [← h] at e
          exact e
        have : orient p3 p1 N = 2⁻¹ * orient p1 p2 p3 := by
          simp only [hN, orient, Vec3.smul_x, Vec3.smul_y, Vec3.add_x, Vec3.add_y]; ring
        rw [this, inv_mul_eq_iff_eq_mul₀ two_ne_zero] at e2
        linarith
      · rw [hflag, if_neg z2, if_neg z1] at hfl'
        obtain ⟨t, t', h1, h2, h3⟩ := hi.cut id hid hfl'
        refine ⟨t, t', h1, ?_, h3⟩
        show M.triAt id = _
        rw [f5 id z1 z2 (fun h => e1new (h ▸ hmem id hid)) (fun h => e2new' (h ▸ hmem id hid))]
        exact h2

theorem flag_def {m : Mesh K} (hnum : m.Numbered) {nrm : Vec3 K → K} {size : K} {s : St K} (hi : TInv nrm size m s) {id : Int} (h : id ∈ m.elements.ids) :
    ∃ b, flag s.done id = some b := by
  obtain ⟨h0, h1⟩ := hnum.1 id h
  unfold flag
  rw [if_pos h0]
  have : id.toNat < s.done.length := by rw [hi.len]; omega
  exact ⟨_, List.getElem?_eq_getElem this⟩

/-- A side and its reverse do not belong to one triangle. -/
theorem no_both {e : Elem} (he : ∃ a b c, e.nodeIds = [a, b, c] ∧ a ≠ b ∧ b ≠ c ∧ c ≠ a) {x y : Int} (h1 : (x, y) ∈ e.triSides) (h2 : (y, x) ∈ e.triSides) : False := by
  obtain ⟨a, b, c, h, hab, hbc, hca⟩ := he
  obtain ⟨ty, ns, fs⟩ := e
  simp only at h
  subst h
  cases ty <;> simp only [Elem.triSides, List.not_mem_nil, List.mem_cons, Prod.mk.injEq, or_false] at h1 h2
  omega

theorem cutFace_spec {m : Mesh K} (hm : m.WF) (hall : m.AllTriangles) (hfit : m.FacesFit) (hlist : m.Listed) (hnum : m.Numbered)
    {nrm : Vec3 K → K} (hsym : ∀ v, nrm (-v) = nrm v) {size : K} {s : St K} (hi : TInv nrm size m s) {id : Int} {e0 : Elem}
    (he0 : m.elements.get? id = some e0) {fid : Int} (hf : fid ∈ e0.faceIds) :
    ∃ s', cutFace nrm size m.faces id s fid = some s' ∧ TInv nrm size m s' ∧ (∀ j, flag s.done j = some true → flag s'.done j = some true) ∧
      ∀ f g n1 n2 p1 p2, m.faces.get? fid = some f → f.hasPair = true → m.faces.get? f.pairFaceId = some g → f.nodeIds = [n1, n2] →
        m.nodes.get? n1 = some p1 → m.nodes.get? n2 = some p2 → size * (3 / 2) < nrm (p2 - p1) →
        flag s'.done id = some true ∨ flag s'.done g.elementId = some true := by
  obtain ⟨f, hff, rfl, hline⟩ := (hlist.own id e0 he0 fid).1 hf
  obtain ⟨e1, he1, hside⟩ := hfit.owner fid f hff hline
  rw [he0] at he1
  obtain rfl := Option.some.inj he1
  obtain ⟨⟨n1, n2⟩, hs1, hfn⟩ := hside (hall _ _ he0).1
  simp only at hfn
  unfold cutFace
  simp only [hff, Option.bind_eq_bind, Option.bind_some]
  by_cases hp : f.hasPair = true
  swap
  · rw [if_neg hp]
    exact ⟨s, rfl, hi, fun _ h => h, fun f' g _ _ _ _ h1 h2 => by obtain rfl := Option.some.inj h1; exact absurd h2 hp⟩
  rw [if_pos hp]
  obtain ⟨g, hg, hgl, hgn⟩ := hfit.pair fid f hff hline hp
  obtain ⟨d0, hd0, hside2⟩ := hfit.owner _ g hg hgl
  obtain ⟨⟨m1, m2⟩, hs2, hgn2⟩ := hside2 (hall _ _ hd0).1
  rw [hgn, hfn] at hgn2
  simp only [List.reverse_cons, List.reverse_nil, List.nil_append, List.singleton_append, List.cons.injEq, and_true] at hgn2
  obtain ⟨rfl, rfl⟩ := hgn2
  have hide : f.elementId ∈ m.elements.ids := (hm.elements.2 _).2 ⟨_, he0⟩
  have hidd : g.elementId ∈ m.elements.ids := (hm.elements.2 _).2 ⟨_, hd0⟩
  obtain ⟨extra, hext, -⟩ := hi.ids
  obtain ⟨e, he⟩ := (hi.els.2 _).1 (show f.elementId ∈ s.els.ids by rw [hext]; exact List.mem_append_left _ hide)
  obtain ⟨d, hd⟩ := (hi.els.2 _).1 (show g.elementId ∈ s.els.ids by rw [hext]; exact List.mem_append_left _ hidd)
  obtain ⟨a, b, c, habc, hab, hbc, hca⟩ := hfit.three _ _ he0 (hall _ _ he0).1
  obtain ⟨a', b', c', habc', hab', hbc', hca'⟩ := hfit.three _ _ hd0 (hall _ _ hd0).1
  obtain ⟨n3, h3, hrot1⟩ := third_rot hab hbc hca (hall _ _ he0).1 habc hs1
  obtain ⟨n4, h4, hrot2⟩ := third_rot hab' hbc' hca' (hall _ _ hd0).1 habc' hs2
  have hn : ∀ n ∈ [a, b, c], ∃ p, m.nodes.get? n = some p := fun n hn => (hm.nodes.2 n).1 (hm.elemNodes _ _ he0 n (by rw [habc]; exact hn))
  obtain ⟨p1, q1⟩ := hn n1 (by rcases hrot1 with h | h | h <;> simp [h.1])
  obtain ⟨p2, q2⟩ := hn n2 (by rcases hrot1 with h | h | h <;> simp [h.2.1])
  have h3' : n3 ≠ -1 := by
    have : n3 ∈ e0.nodeIds := by rw [habc]; rcases hrot1 with h | h | h <;> simp [h.2.2]
    have := hnum.2 n3 (hm.elemNodes _ _ he0 n3 this)
    omega
  have h4' : n4 ≠ -1 := by
    have : n4 ∈ d0.nodeIds := by rw [habc']; rcases hrot2 with h | h | h <;> simp [h.2.2]
    have := hnum.2 n4 (hm.elemNodes _ _ hd0 n4 this)
    omega
  have hne : f.elementId ≠ g.elementId := by
    intro h
    rw [h, hd0] at he0
    obtain rfl := Option.some.inj he0
    exact no_both ⟨a, b, c, habc, hab, hbc, hca⟩ hs1 hs2
  simp only [hg, he, hd, hfn, hi.old _ _ q1, hi.old _ _ q2, Option.bind_some, List.getElem?_cons_zero, List.getElem?_cons_succ]
  by_cases hlong : size * (3 / 2) < nrm (p2 - p1)
  swap
  · rw [if_neg hlong]
    refine ⟨s, rfl, hi, fun _ h => h, ?_⟩
    intro f' g' k1 k2 r1 r2 h1 h2 h5 h6 h7 h8 h9
    obtain rfl := Option.some.inj h1
    rw [hfn] at h6
    simp only [List.cons.injEq, and_true] at h6
    obtain ⟨rfl, rfl⟩ := h6
    rw [q1] at h7
    rw [q2] at h8
    obtain rfl := Option.some.inj h7
    obtain rfl := Option.some.inj h8
    exact absurd h9 hlong
  rw [if_pos hlong]
  obtain ⟨c1, hc1⟩ := flag_def hnum hi hide
  obtain ⟨c2, hc2⟩ := flag_def hnum hi hidd
  have hgoal : ∀ {s'' : St K}, (flag s''.done f.elementId = some true ∨ flag s''.done g.elementId = some true) →
      ∀ f' g' n1 n2 p1 p2, some f = some f' → f'.hasPair = true → m.faces.get? f'.pairFaceId = some g' → f'.nodeIds = [n1, n2] →
        m.nodes.get? n1 = some p1 → m.nodes.get? n2 = some p2 → size * (3 / 2) < nrm (p2 - p1) →
        flag s''.done f.elementId = some true ∨ flag s''.done g'.elementId = some true := by
    intro s'' h f' g' k1 k2 r1 r2 h1 h2 h5 _ _ _ _
    obtain rfl := Option.some.inj h1
    rw [hg] at h5
    obtain rfl := Option.some.inj h5
    exact h
  by_cases hb1 : c1 = true
  · refine ⟨s, ?_, hi, fun _ h => h, hgoal (Or.inl (hb1 ▸ hc1))⟩
    cases apex e n1 n2 <;> cases apex d n1 n2 <;> simp [hc1, hb1]
  by_cases hb2 : c2 = true
  · refine ⟨s, ?_, hi, fun _ h => h, hgoal (Or.inr (hb2 ▸ hc2))⟩
    cases apex e n1 n2 <;> cases apex d n1 n2 <;> simp [hc1, hc2, hb1, hb2]
  have hb1' : c1 = false := by simpa using hb1
  have hb2' : c2 = false := by simpa using hb2
  subst hb1' hb2'
  have hee := hi.same _ hide hc1
  have hdd := hi.same _ hidd hc2
  rw [he, he0] at hee
  rw [hd, hd0] at hdd
  obtain rfl := Option.some.inj hee
  obtain rfl := Option.some.inj hdd
  have a3 : apex e n1 n2 = some n3 := by unfold apex; rw [h3]; simp [h3']
  have a4 : apex d n1 n2 = some n4 := by unfold apex; rw [third_comm, h4]; simp [h4']
  have shape : ∀ {x : Elem} {i j k : Int}, x.elementType = .triangle → x.nodeIds = [i, j, k] → x = ⟨.triangle, [i, j, k], x.faceIds⟩ := by
    intro x i j k h1 h2
    obtain ⟨ty, ns, fs⟩ := x
    simp only at h1 h2
    rw [h1, h2]
  rw [a3, a4]
  simp only [hc1, hc2, Option.bind_some, Bool.false_eq_true, if_false]
  obtain ⟨s', r1, r2, r3, r4⟩ := cutPair_spec hm hnum hsym hi (he0.trans (congrArg some (shape (hall _ _ he0).1 habc)))
    (hd0.trans (congrArg some (shape (hall _ _ hd0).1 habc'))) hne hc1 hc2 hrot1 hrot2 (hi.old _ _ q1) (hi.old _ _ q2) hlong
  exact ⟨s', r1, r2, r4, hgoal (Or.inl r3)⟩

theorem cutFaces_spec {m : Mesh K} (hm : m.WF) (hall : m.AllTriangles) (hfit : m.FacesFit) (hlist : m.Listed) (hnum : m.Numbered)
    {nrm : Vec3 K → K} (hsym : ∀ v, nrm (-v) = nrm v) {size : K} {id : Int} {e0 : Elem} (he0 : m.elements.get? id = some e0) :
    ∀ (l : List Int), (∀ fid ∈ l, fid ∈ e0.faceIds) → ∀ {s : St K}, TInv nrm size m s →
    ∃ s', cutFaces nrm size m.faces id l s = some s' ∧ TInv nrm size m s' ∧ (∀ j, flag s.done j = some true → flag s'.done j = some true) ∧
      ∀ fid ∈ l, ∀ f g n1 n2 p1 p2, m.faces.get? fid = some f → f.hasPair = true → m.faces.get? f.pairFaceId = some g → f.nodeIds = [n1, n2] →
        m.nodes.get? n1 = some p1 → m.nodes.get? n2 = some p2 → size * (3 / 2) < nrm (p2 - p1) →
        flag s'.done id = some true ∨ flag s'.done g.elementId = some true
  | [], _, s, hi => ⟨s, rfl, hi, fun _ h => h, by simp⟩
  | fid :: t, hl, s, hi => by
    obtain ⟨s1, h1, h2, h3, h4⟩ := cutFace_spec hm hall hfit hlist hnum hsym hi he0 (hl fid (by simp))
    obtain ⟨s2, k1, k2, k3, k4⟩ := cutFaces_spec hm hall hfit hlist hnum hsym he0 t (fun x hx => hl x (List.mem_cons_of_mem _ hx)) h2
    refine ⟨s2, ?_, k2, fun j hj => k3 j (h3 j hj), ?_⟩
    · unfold cutFaces
      simp only [h1, Option.bind_eq_bind, Option.bind_some]
      exact k1
    · intro x hx f g n1 n2 p1 p2 e1 e2 e3 e4 e5 e6 e7
      rcases List.mem_cons.1 hx with rfl | hx
      · rcases h4 f g n1 n2 p1 p2 e1 e2 e3 e4 e5 e6 e7 with h | h
        · exact Or.inl (k3 _ h)
        · exact Or.inr (k3 _ h)
      · exact k4 x hx f g n1 n2 p1 p2 e1 e2 e3 e4 e5 e6 e7

/-- Every long side of this element has a triangle that was cut. -/
def Served (nrm : Vec3 K → K) (size : K) (m : Mesh K) (s : St K) (id : Int) : Prop :=
  ∀ e0, m.elements.get? id = some e0 → ∀ fid ∈ e0.faceIds, ∀ f g n1 n2 p1 p2, m.faces.get? fid = some f → f.hasPair = true → m.faces.get? f.pairFaceId = some g →
    f.nodeIds = [n1, n2] → m.nodes.get? n1 = some p1 → m.nodes.get? n2 = some p2 → size * (3 / 2) < nrm (p2 - p1) →
    flag s.done id = some true ∨ flag s.done g.elementId = some true

theorem cutElement_spec {m : Mesh K} (hm : m.WF) (hall : m.AllTriangles) (hfit : m.FacesFit) (hlist : m.Listed) (hnum : m.Numbered)
    {nrm : Vec3 K → K} (hsym : ∀ v, nrm (-v) = nrm v) [FloorRing K] {size : K} {s : St K} (hi : TInv nrm size m s) {id : Int} (hid : id ∈ s.els.ids) :
    ∃ s', cutElement nrm size m.faces s id = some s' ∧ TInv nrm size m s' ∧ (∀ j, flag s.done j = some true → flag s'.done j = some true) ∧ Served nrm size m s' id := by
  obtain ⟨e, he⟩ := (hi.els.2 id).1 hid
  obtain ⟨a, b, c, fs, rfl, -, -, -, hfs⟩ := hi.tri id e he
  unfold cutElement
  simp only [he, Option.bind_eq_bind, Option.bind_some]
  rcases hfs with ⟨h1, rfl⟩ | ⟨e0, he0, rfl⟩
  · refine ⟨s, rfl, hi, fun _ h => h, ?_⟩
    intro e0 he0
    exact absurd ((hm.elements.2 id).2 ⟨_, he0⟩) h1
  · obtain ⟨s', h1, h2, h3, h4⟩ := cutFaces_spec hm hall hfit hlist hnum hsym (size := size) he0 e0.faceIds (fun _ h => h) hi
    refine ⟨s', h1, h2, h3, ?_⟩
    intro e1 he1
    rw [he0] at he1
    obtain rfl := Option.some.inj he1
    exact h4

theorem loop_spec {m : Mesh K} (hm : m.WF) (hall : m.AllTriangles) (hfit : m.FacesFit) (hlist : m.Listed) (hnum : m.Numbered)
    {nrm : Vec3 K → K} (hsym : ∀ v, nrm (-v) = nrm v) [FloorRing K] {size : K} :
    ∀ (fuel i : Nat) {s : St K}, TInv nrm size m s → (∀ j < i, ∀ id, m.elements.ids[j]? = some id → Served nrm size m s id) → 2 * m.elements.ids.length ≤ fuel + i →
    ∃ s', loop nrm size m.faces fuel i s = some s' ∧ TInv nrm size m s' ∧ ∀ id ∈ m.elements.ids, Served nrm size m s' id := by
  have hserved : ∀ {s : St K} {i : Nat}, TInv nrm size m s → s.els.ids.length ≤ i → (∀ j < i, ∀ id, m.elements.ids[j]? = some id → Served nrm size m s id) →
      ∀ id ∈ m.elements.ids, Served nrm size m s id := by
    intro s i hi hlen h id hid
    obtain ⟨extra, hext, -⟩ := hi.ids
    obtain ⟨j, hj, hj'⟩ := List.mem_iff_getElem.1 hid
    have : m.elements.ids.length ≤ s.els.ids.length := by rw [hext]; simp
    exact h j (by omega) id (by rw [List.getElem?_eq_getElem hj, hj'])
  intro fuel
  induction fuel with
  | zero =>
    intro i s hi hs hfuel
    obtain ⟨extra, hext, hl⟩ := hi.ids
    have h1 := List.count_le_length (a := true) (l := s.done)
    have h2 : s.els.ids.length ≤ i := by rw [hext, List.length_append, hl]; have := hi.len; omega
    refine ⟨s, ?_, hi, hserved hi h2 hs⟩
    unfold loop
    rw [if_neg (by omega)]
  | succ fuel ih =>
    intro i s hi hs hfuel
    unfold loop
    cases h : s.els.ids[i]? with
    | none =>
      exact ⟨s, rfl, hi, hserved hi (List.getElem?_eq_none_iff.1 h) hs⟩
    | some id =>
      obtain ⟨s1, h1, h2, h3, h4⟩ := cutElement_spec hm hall hfit hlist hnum hsym hi (size := size) (List.mem_of_getElem? h)
      simp only [h1, Option.bind_eq_bind, Option.bind_some]
      refine ih (i + 1) h2 ?_ (by omega)
      intro j hj id' hid'
      by_cases hji : j = i
      · subst hji
        obtain ⟨extra, hext, -⟩ := hi.ids
        have hlt : j < m.elements.ids.length := (List.getElem?_eq_some_iff.1 hid').1
        rw [hext, List.getElem?_append_left hlt, hid'] at h
        obtain rfl := Option.some.inj h
        exact h4
      · intro e0 a1 fid a2 f g n1 n2 p1 p2 e1 e2 e3 e4 e5 e6 e7
        rcases hs j (by omega) id' hid' e0 a1 fid a2 f g n1 n2 p1 p2 e1 e2 e3 e4 e5 e6 e7 with h | h
        · exact Or.inl (h3 _ h)
        · exact Or.inr (h3 _ h)

end Remesh
end ENigMA
