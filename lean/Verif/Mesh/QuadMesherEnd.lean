import Verif.Mesh.QuadMesherLemmas

/-!
# The front of quadrilaterals comes to an end
-/

set_option linter.unusedSectionVars false
set_option autoImplicit false

namespace ENigMA
namespace QuadMesher
open TriMesher (Par R St Edge Pass lift edgeAt nodeAt NF NF.bind nf_pure nf_lift nf_edgeAt nf_nodeAt nf_addToTree nf_removeEdge nf_edgeExists nf_edgeOk nf_findClosestNodes
  nf_shortestLoop nf_adjustOne nf_foldlM nf_newEdge bind_ok pure_ok lift_ok edgeAt_ok newEdge_ok addToTree_ok)

variable {K : Type} [Field K] [LinearOrder K] [IsStrictOrderedRing K]
variable {P : Par K}

/-! ### How much a step adds -/

/-- At most three edges are added for each element, and no more than two elements. -/
structure Size (st st' : St K) : Prop where
  front : st.front.length ≤ st'.front.length
  more : st'.front.length + 3 * st.mesh.elements.ids.length ≤ st.front.length + 3 * st'.mesh.elements.ids.length
  les : st.mesh.elements.ids.length ≤ st'.mesh.elements.ids.length
  two : st'.mesh.elements.ids.length ≤ st.mesh.elements.ids.length + 2

theorem Size.refl (st : St K) : Size st st := ⟨le_refl _, le_refl _, le_refl _, by omega⟩

theorem withElem_len (m : Mesh K) (e : Elem) : (withElem m e).elements.ids.length = m.elements.ids.length + 1 := by
  simp [withElem, Cont.add]

theorem withQuad_len {m m' : Mesh K} {a b c d : Int} (h : withQuad m a b c d = .ok m') :
    m.elements.ids.length + 1 ≤ m'.elements.ids.length ∧ m'.elements.ids.length ≤ m.elements.ids.length + 2 := by
  unfold withQuad at h
  simp only [bind_ok] at h
  obtain ⟨pa, -, pb, -, pc, -, pd, -, h⟩ := h
  cases hw : notConvex pa pb pc pd with
  | none =>
    rw [hw, pure_ok] at h
    subst h
    rw [withElem_len]; omega
  | some w =>
    rw [hw, pure_ok] at h
    subst h
    rw [withElem_len, withElem_len]; omega

theorem twoEdges_len {st st' : St K} {k : Nat} {e : Edge K} {n3 : Int} (h : twoEdges P st k e n3 = .ok st') :
    st'.front.length = st.front.length + 2 ∧ st'.mesh = st.mesh := by
  unfold twoEdges at h
  simp only [bind_ok] at h
  obtain ⟨ip, -, iq, -, p, -, q0, -, e1, -, st1, hst1, e', -, e2, -, q, -, st2, hst2, st3, hst3, h⟩ := h
  obtain ⟨a1, b1, t1, -, -, -, rfl⟩ := addToTree_ok hst1
  obtain ⟨a2, b2, t2, -, -, -, rfl⟩ := addToTree_ok hst2
  obtain ⟨l1, l2, -⟩ := removeEdge_len hst3
  rw [pure_ok] at h
  subst h
  simp [l1, l2]

theorem threeEdges_len {st st' : St K} {k : Nat} {e : Edge K} {n3 n4 : Int} (h : threeEdges P st k e n3 n4 = .ok st') :
    st'.front.length = st.front.length + 3 ∧ st'.mesh = st.mesh := by
  unfold threeEdges at h
  simp only [bind_ok] at h
  obtain ⟨ip, -, iq, -, p, -, q0, -, e1, -, st1, hst1, e2, -, st2, hst2, e', -, e3, -, q, -, st3, hst3, st4, hst4, h⟩ := h
  obtain ⟨a1, b1, t1, -, -, -, rfl⟩ := addToTree_ok hst1
  obtain ⟨a2, b2, t2, -, -, -, rfl⟩ := addToTree_ok hst2
  obtain ⟨a3, b3, t3, -, -, -, rfl⟩ := addToTree_ok hst3
  obtain ⟨l1, l2, -⟩ := removeEdge_len hst4
  rw [pure_ok] at h
  subst h
  simp [l1, l2]

theorem cleanOne_len {q q' : QSt K} {sEdges : List Nat} {k : Nat} {b : Bool} (h : cleanOne P sEdges q k = .ok (q', b)) :
    q'.st.front.length = q.st.front.length ∧ q'.st.mesh = q.st.mesh := by
  unfold cleanOne at h
  simp only [bind_ok] at h
  obtain ⟨e, -, h⟩ := h
  split_ifs at h with h1
  · rw [pure_ok, Prod.mk.injEq] at h
    obtain ⟨rfl, rfl⟩ := h
    exact ⟨rfl, rfl⟩
  · rw [bind_ok] at h
    obtain ⟨r, hr, h⟩ := h
    cases r with
    | none =>
      simp only [pure_ok, Prod.mk.injEq] at h
      obtain ⟨rfl, rfl⟩ := h
      exact ⟨rfl, rfl⟩
    | some j =>
      simp only [bind_ok, pure_ok, Prod.mk.injEq] at h
      obtain ⟨o', -, st1, hr1, st2, hr2, rfl, rfl⟩ := h
      obtain ⟨l1, l2, -⟩ := removeEdge_len hr1
      obtain ⟨m1, m2, -⟩ := removeEdge_len hr2
      exact ⟨m1.trans l1, m2.trans l2⟩

theorem clean_len {q q' : QSt K} {sEdges : List Nat} (h : cleanDuplicateEdges P sEdges q = .ok q') :
    q'.st.front.length = q.st.front.length ∧ q'.st.mesh = q.st.mesh := by
  unfold cleanDuplicateEdges at h
  split_ifs at h with h1
  · rw [pure_ok] at h
    subst h
    exact ⟨rfl, rfl⟩
  · simp only [bind_ok] at h
    obtain ⟨⟨q1, b1⟩, hc1, ⟨q2, b2⟩, hc2, ⟨q3, b3⟩, hc3, h⟩ := h
    obtain ⟨l1, m1⟩ := cleanOne_len hc1
    obtain ⟨l2, m2⟩ := cleanOne_len hc2
    obtain ⟨l3, m3⟩ := cleanOne_len hc3
    have l := (l3.trans l2).trans l1
    have m := (m3.trans m2).trans m1
    simp only at h
    split_ifs at h with h2
    · simp only [bind_ok, pure_ok] at h
      obtain ⟨fr, hfr, rfl⟩ := h
      exact ⟨(adjust_len hfr).trans l, m⟩
    · rw [pure_ok] at h
      subst h
      exact ⟨l, m⟩

theorem addQuadrilateral_size {q q' : QSt K} {sEdges : List Nat} {k : Nat} {n3 n4 : Int} (h : addQuadrilateral P sEdges q k n3 n4 = .ok q') : Size q.st q'.st := by
  unfold addQuadrilateral at h
  simp only [bind_ok] at h
  obtain ⟨e, -, h⟩ := h
  split_ifs at h with h1 h2
  · rw [pure_ok] at h
    subst h
    exact Size.refl _
  · simp only [bind_ok] at h
    obtain ⟨st1, hst1, h⟩ := h
    obtain ⟨a1, a2⟩ := twoEdges_len hst1
    obtain ⟨c1, c2⟩ := clean_len h
    have c1' : q'.st.front.length = st1.front.length := c1
    have a1' : st1.front.length = q.st.front.length + 2 := a1
    have hm : q'.st.mesh.elements.ids.length = q.st.mesh.elements.ids.length + 1 := by
      rw [c2]
      show st1.mesh.elements.ids.length = _
      rw [a2]
      exact withElem_len _ _
    exact ⟨by omega, by omega, by omega, by omega⟩
  · simp only [bind_ok] at h
    obtain ⟨m, hm, st1, hst1, h⟩ := h
    obtain ⟨a1, a2⟩ := threeEdges_len hst1
    obtain ⟨c1, c2⟩ := clean_len h
    have c1' : q'.st.front.length = st1.front.length := c1
    have a1' : st1.front.length = q.st.front.length + 3 := a1
    have hm' := withQuad_len hm
    have hm : q'.st.mesh.elements.ids.length = m.elements.ids.length := by
      rw [c2]
      show st1.mesh.elements.ids.length = _
      rw [a2]
    exact ⟨by omega, by omega, by omega, by omega⟩

theorem search_size {c : Pass K} {q q' : QSt K} {sEdges : List Nat} {sNodes : List Int} {i : Nat} {e : Edge K} {box : BBox K} {a b mid v : Vec3 K} {base : K} {new1 new2 : Vec3 K}
    (h : search P c sEdges sNodes q i e box a b mid v base new1 new2 = .ok q') : Size q.st q'.st := by
  have take : ∀ id1 id2 w1 w2, takeNodes P sEdges q i id1 id2 w1 w2 = .ok q' → Size q.st q'.st := by
    intro id1 id2 w1 w2 h
    unfold takeNodes at h
    have := addQuadrilateral_size h
    refine ⟨this.front, ?_, ?_, ?_⟩
    · have := this.more
      simp only at this
      split_ifs at this <;> exact this
    · have := this.les
      simp only at this
      split_ifs at this <;> exact this
    · have := this.two
      simp only at this
      split_ifs at this <;> exact this
  have try' : ∀ id1 id2 w1 w2, tryNew P c sEdges sNodes q i e a b mid v base id1 id2 w1 w2 = .ok q' → Size q.st q'.st := by
    intro id1 id2 w1 w2 h
    unfold tryNew at h
    simp only [bind_ok] at h
    obtain ⟨d1, -, d2, -, h⟩ := h
    generalize (if base * c.sizeFactor * c.shrinkFactor * (1 / 4) < d1 ∧ d1 < base * c.sizeFactor * c.expandFactor then a + (d1 * (1 / 2)) • v else w1) = w1 at h
    generalize (if base * c.sizeFactor * c.shrinkFactor * (1 / 4) < d2 ∧ d2 < base * c.sizeFactor * c.expandFactor then b + (d2 * (1 / 2)) • v else w2) = w2 at h
    by_cases h1 : facesUp P ⟨a, b, w1, w2⟩
    · rw [if_pos h1, bind_ok] at h
      obtain ⟨q4, -, h⟩ := h
      by_cases h2 : 3 / 2 * c.minQuality < q4
      · rw [if_pos h2, bind_ok] at h
        obtain ⟨q1, hq1, h⟩ := h
        have hq : q1 = q' := by
          split_ifs at h
          simpa [pure_ok] using h
        subst hq
        have := addQuadrilateral_size hq1
        exact ⟨this.front, this.more, this.les, this.two⟩
      · rw [if_neg h2, pure_ok] at h
        subst h
        exact Size.refl _
    · rw [if_neg h1, pure_ok] at h
      subst h
      exact Size.refl _
  unfold search at h
  simp only [bind_ok] at h
  obtain ⟨b1, -, b2, -, q3, -, h⟩ := h
  split_ifs at h
  all_goals first
    | exact take _ _ _ _ h
    | exact try' _ _ _ _ h
    | (rw [pure_ok] at h; subst h; exact Size.refl _)

theorem advance_size {c : Pass K} {q q' : QSt K} {i : Nat} {e : Edge K} (h : advance P c q i e = .ok q') : Size q.st q'.st := by
  rcases advance_cases h with rfl | ⟨sE, n3, n4, h⟩ | ⟨sE, sN, box, a, b, mid, v, base, w1, w2, h⟩
  · exact Size.refl _
  · exact addQuadrilateral_size h
  · exact search_size h

/-! ### Nothing but the loop runs out of rounds -/

theorem nf_containsNode (m : Mesh K) (q : Quad K) (l : List Int) : NF (containsNode P m q l) := by
  induction l with
  | nil => exact nf_pure _
  | cons j t ih =>
    unfold containsNode
    refine (nf_nodeAt _ _).bind fun o _ => ?_
    split_ifs
    · exact ih
    · exact nf_pure _
    · exact ih

theorem nf_cleanOne (sEdges : List Nat) (q : QSt K) (k : Nat) : NF (cleanOne P sEdges q k) := by
  unfold cleanOne
  refine (nf_edgeAt _ _).bind fun o _ => ?_
  split_ifs
  · exact nf_pure _
  · refine (nf_edgeExists _ _ _).bind fun r _ => ?_
    cases r with
    | none => exact nf_pure _
    | some j => exact (nf_edgeAt _ _).bind fun _ _ => (nf_removeEdge _ _).bind fun _ _ => (nf_removeEdge _ _).bind fun _ _ => nf_pure _

theorem nf_clean (sEdges : List Nat) (q : QSt K) : NF (cleanDuplicateEdges P sEdges q) := by
  unfold cleanDuplicateEdges
  split_ifs
  · exact nf_pure _
  · refine (nf_cleanOne _ _ _).bind fun r _ => ?_
    obtain ⟨s1, b1⟩ := r
    refine (nf_cleanOne _ _ _).bind fun r _ => ?_
    obtain ⟨s2, b2⟩ := r
    refine (nf_cleanOne _ _ _).bind fun r _ => ?_
    obtain ⟨s3, b3⟩ := r
    simp only
    split_ifs
    · exact (nf_foldlM _ (nf_adjustOne _) _ _).bind fun _ _ => nf_pure _
    · exact nf_pure _

theorem nf_withQuad (m : Mesh K) (a b c d : Int) : NF (withQuad m a b c d) := by
  unfold withQuad
  refine (nf_nodeAt _ _).bind fun _ _ => (nf_nodeAt _ _).bind fun _ _ => (nf_nodeAt _ _).bind fun _ _ => (nf_nodeAt _ _).bind fun _ _ => ?_
  split <;> exact nf_pure _

theorem nf_twoEdges (st : St K) (k : Nat) (e : Edge K) (n3 : Int) : NF (twoEdges P st k e n3) :=
  (nf_lift _).bind fun _ _ => (nf_lift _).bind fun _ _ => (nf_edgeAt _ _).bind fun _ _ => (nf_edgeAt _ _).bind fun _ _ =>
    (nf_newEdge _ _ _ _ _ _).bind fun _ _ => (nf_addToTree _ _).bind fun _ _ => (nf_edgeAt _ _).bind fun _ _ =>
    (nf_newEdge _ _ _ _ _ _).bind fun _ _ => (nf_edgeAt _ _).bind fun _ _ => (nf_addToTree _ _).bind fun _ _ =>
    (nf_removeEdge _ _).bind fun _ _ => nf_pure _

theorem nf_threeEdges (st : St K) (k : Nat) (e : Edge K) (n3 n4 : Int) : NF (threeEdges P st k e n3 n4) :=
  (nf_lift _).bind fun _ _ => (nf_lift _).bind fun _ _ => (nf_edgeAt _ _).bind fun _ _ => (nf_edgeAt _ _).bind fun _ _ =>
    (nf_newEdge _ _ _ _ _ _).bind fun _ _ => (nf_addToTree _ _).bind fun _ _ => (nf_newEdge _ _ _ _ _ _).bind fun _ _ => (nf_addToTree _ _).bind fun _ _ =>
    (nf_edgeAt _ _).bind fun _ _ => (nf_newEdge _ _ _ _ _ _).bind fun _ _ => (nf_edgeAt _ _).bind fun _ _ => (nf_addToTree _ _).bind fun _ _ =>
    (nf_removeEdge _ _).bind fun _ _ => nf_pure _

theorem nf_addQuadrilateral (sEdges : List Nat) (q : QSt K) (k : Nat) (n3 n4 : Int) : NF (addQuadrilateral P sEdges q k n3 n4) := by
  unfold addQuadrilateral
  refine (nf_edgeAt _ _).bind fun e _ => ?_
  split_ifs
  · exact nf_pure _
  · exact (nf_twoEdges _ _ _ _).bind fun _ _ => nf_clean _ _
  · exact (nf_withQuad _ _ _ _ _).bind fun _ _ => (nf_threeEdges _ _ _ _ _).bind fun _ _ => nf_clean _ _

theorem nf_penalty (bound q : K) {t : R Bool} (ht : NF t) : NF (penalty bound q t) := by
  unfold penalty
  split_ifs
  · exact ht.bind fun _ _ => nf_pure _
  · exact nf_pure _

theorem nf_bestNode (st : St K) (e : Edge K) (sEdges : List Nat) (box : BBox K) (a b s new : Vec3 K) (mk : Vec3 K → Quad K) (reach : K) (l : List Int) :
    ∀ best, NF (bestNode P st e sEdges box a b s new mk reach l best) := by
  induction l with
  | nil => exact fun _ => nf_pure _
  | cons n t ih =>
    intro best
    unfold bestNode
    by_cases h1 : n = e.n0 ∨ n = e.n1
    · rw [if_pos h1]; exact ih _
    · rw [if_neg h1]
      refine (nf_nodeAt _ _).bind fun p _ => ?_
      split_ifs
      all_goals first
        | exact (nf_penalty _ _ (nf_edgeOk _ _ _ _ _)).bind fun _ _ => ih _
        | exact ih _

theorem nf_notContains (m : Mesh K) (q : Quad K) (l : List Int) : NF (do pure (!(← containsNode P m q l)) : R Bool) :=
  (nf_containsNode _ _ _).bind fun _ _ => nf_pure _

theorem nf_score3 (st : St K) (e : Edge K) (sEdges : List Nat) (sNodes : List Int) (a b new1 new2 : Vec3 K) : NF (score3 P st e sEdges sNodes a b new1 new2) := by
  unfold score3
  split_ifs
  · exact (nf_penalty _ _ (nf_edgeOk _ _ _ _ _)).bind fun _ _ => (nf_penalty _ _ (nf_edgeOk _ _ _ _ _)).bind fun _ _ =>
      (nf_penalty _ _ (nf_edgeOk _ _ _ _ _)).bind fun _ _ => (nf_penalty _ _ (nf_edgeOk _ _ _ _ _)).bind fun _ _ =>
      (nf_penalty _ _ (nf_edgeOk _ _ _ _ _)).bind fun _ _ => nf_penalty _ _ (nf_notContains _ _ _)
  · exact nf_pure _

theorem nf_score4 (st : St K) (e : Edge K) (sEdges : List Nat) (sNodes : List Int) (a b new1 new2 : Vec3 K) (bound : K) :
    NF (score4 P st e sEdges sNodes a b new1 new2 bound) :=
  (nf_penalty _ _ (nf_edgeOk _ _ _ _ _)).bind fun _ _ => (nf_penalty _ _ (nf_edgeOk _ _ _ _ _)).bind fun _ _ =>
    (nf_penalty _ _ (nf_edgeOk _ _ _ _ _)).bind fun _ _ => nf_penalty _ _ (nf_notContains _ _ _)

theorem nf_tryNew (c : Pass K) (sEdges : List Nat) (sNodes : List Int) (q : QSt K) (i : Nat) (e : Edge K) (a b mid v : Vec3 K) (base : K) (id1 id2 : Int) (new1 new2 : Vec3 K) :
    NF (tryNew P c sEdges sNodes q i e a b mid v base id1 id2 new1 new2) := by
  unfold tryNew
  refine (nf_shortestLoop _ _ _ _ _).bind fun d1 _ => (nf_shortestLoop _ _ _ _ _).bind fun d2 _ => ?_
  generalize (if base * c.sizeFactor * c.shrinkFactor * (1 / 4) < d1 ∧ d1 < base * c.sizeFactor * c.expandFactor then a + (d1 * (1 / 2)) • v else new1) = w1
  generalize (if base * c.sizeFactor * c.shrinkFactor * (1 / 4) < d2 ∧ d2 < base * c.sizeFactor * c.expandFactor then b + (d2 * (1 / 2)) • v else new2) = w2
  simp only
  split_ifs
  · refine (nf_score4 _ _ _ _ _ _ _ _ _).bind fun q4 _ => ?_
    split_ifs
    · refine (nf_addQuadrilateral _ _ _ _ _).bind fun _ _ => ?_
      split_ifs
      · exact nf_pure _
      · simp [NF]
      · simp [NF]
    · exact nf_pure _
  · exact nf_pure _

theorem nf_closes (st : St K) (e : Edge K) (sEdges : List Nat) (sNodes : List Int) (a b : Vec3 K) (n3 n4 : Int) : NF (closes P st e sEdges sNodes a b n3 n4) := by
  unfold closes
  split_ifs
  · refine (nf_nodeAt _ _).bind fun p _ => ?_
    split_ifs
    · exact (nf_penalty _ _ (nf_edgeOk _ _ _ _ _)).bind fun _ _ => (nf_penalty _ _ (nf_edgeOk _ _ _ _ _)).bind fun _ _ =>
        (nf_containsNode _ _ _).bind fun _ _ => nf_pure _
    · exact nf_pure _
  · exact nf_pure _

theorem nf_search (c : Pass K) (sEdges : List Nat) (sNodes : List Int) (q : QSt K) (i : Nat) (e : Edge K) (box : BBox K) (a b mid v : Vec3 K) (base : K) (new1 new2 : Vec3 K) :
    NF (search P c sEdges sNodes q i e box a b mid v base new1 new2) := by
  unfold search
  refine (nf_bestNode _ _ _ _ _ _ _ _ _ _ _ _).bind fun b1 _ => (nf_bestNode _ _ _ _ _ _ _ _ _ _ _ _).bind fun b2 _ => (nf_score3 _ _ _ _ _ _ _ _).bind fun q3 _ => ?_
  by_cases h2 : c.minQuality < q3
  · rw [if_pos h2]; exact nf_addQuadrilateral _ _ _ _ _
  · rw [if_neg h2]
    by_cases h3 : c.addNodes = true
    · rw [if_pos h3]; exact nf_tryNew _ _ _ _ _ _ _ _ _ _ _ _ _ _ _
    · rw [if_neg h3]; exact nf_pure _

theorem nf_advance (c : Pass K) (q : QSt K) (i : Nat) (e : Edge K) : NF (advance P c q i e) := by
  unfold advance
  refine (nf_nodeAt _ _).bind fun a _ => (nf_nodeAt _ _).bind fun b _ => (nf_lift _).bind fun e1 _ => (nf_lift _).bind fun e2 _ =>
    (nf_lift _).bind fun e5 _ => (nf_lift _).bind fun e6 _ => ?_
  by_cases h1 : (e.n0 = e6.n1 ∨ e.n1 = e5.n0) ∧ e.prev ≠ e2.next ∧ e.next ≠ e1.prev
  · simp only
    rw [if_pos h1]; exact nf_pure _
  · simp only
    rw [if_neg h1]
    refine (nf_lift _).bind fun found _ => (nf_findClosestNodes _ _).bind fun sNodes _ => ?_
    by_cases h2 : e1.n0 = e5.n0 ∧ e2.n1 = e6.n1 ∨ e1.n0 = e6.n1 ∧ e2.n1 = e5.n0
    · rw [if_pos h2]; exact nf_addQuadrilateral _ _ _ _ _
    · rw [if_neg h2]
      refine (nf_closes _ _ _ _ _ _ _ _).bind fun close _ => ?_
      cases close with
      | true => rw [if_pos rfl]; exact nf_addQuadrilateral _ _ _ _ _
      | false => rw [if_neg (by simp)]; exact nf_search _ _ _ _ _ _ _ _ _ _ _ _ _ _

/-! ### The loop -/

/-- The front is no longer than the elements allow, and there is at most one element too many. -/
def Within (n0 M : Nat) (st : St K) : Prop :=
  st.front.length ≤ n0 + 3 * st.mesh.elements.ids.length ∧ st.mesh.elements.ids.length ≤ M + 1

theorem pass_fuel {c : Pass K} {n0 M : Nat} (hM : P.maxElem = M) (hpos : 0 < M) (fuel : Nat) :
    ∀ (i : Nat) (q : QSt K), Within n0 M q.st → i ≤ q.st.front.length → n0 + 3 * (M + 1) < fuel + i →
      NF (pass P c fuel i q) ∧ ∀ q', pass P c fuel i q = .ok q' → Within n0 M q'.st := by
  induction fuel with
  | zero =>
    intro i q hw hle hfu
    have := hw.1
    have := hw.2
    omega
  | succ fuel ih =>
    intro i q hw hle hfu
    unfold pass
    have stop : NF (pure q : R (QSt K)) ∧ ∀ q', (pure q : R (QSt K)) = .ok q' → Within n0 M q'.st := by
      refine ⟨nf_pure _, fun q' hq => ?_⟩
      rw [pure_ok] at hq
      subst hq
      exact hw
    cases he : q.st.front[i]? with
    | none => exact stop
    | some e =>
      have hlt : i < q.st.front.length := (List.getElem?_eq_some_iff.1 he).1
      simp only
      split_ifs with h1 h2 h3
      · exact ih _ _ hw (by omega) (by omega)
      · exact stop
      · exact ⟨by simp [NF], by simp⟩
      · have hlt2 : q.st.mesh.elements.ids.length < M := by
          rw [hM] at h3
          push Not at h3
          have := h3 (by exact_mod_cast hpos)
          unfold Cont.count at this
          exact_mod_cast this
        have key : ∀ q1, advance P c q i e = .ok q1 → Within n0 M q1.st ∧ i + 1 ≤ q1.st.front.length := by
          intro q1 hq1
          have s := advance_size hq1
          have := s.front
          have := s.more
          have := s.les
          have := s.two
          have := hw.1
          exact ⟨⟨by omega, by omega⟩, by omega⟩
        constructor
        · refine (nf_advance _ _ _ _).bind fun q1 hq1 => ?_
          obtain ⟨k1, k2⟩ := key q1 hq1
          exact (ih _ _ k1 k2 (by omega)).1
        · intro q' h
          rw [bind_ok] at h
          obtain ⟨q1, hq1, h⟩ := h
          obtain ⟨k1, k2⟩ := key q1 hq1
          exact (ih _ _ k1 k2 (by omega)).2 q' h

theorem runPasses_fuel {n0 M : Nat} (hM : P.maxElem = M) (hpos : 0 < M) {fuel : Nat} (hfu : n0 + 3 * (M + 1) < fuel) (cs : List (Pass K)) :
    ∀ q : QSt K, Within n0 M q.st → NF (runPasses P fuel cs q) ∧ ∀ q', runPasses P fuel cs q = .ok q' → Within n0 M q'.st := by
  induction cs with
  | nil =>
    intro q hw
    refine ⟨nf_pure _, fun q' h => ?_⟩
    rw [runPasses, pure_ok] at h
    subst h
    exact hw
  | cons c cs ih =>
    intro q hw
    obtain ⟨k1, k2⟩ := pass_fuel (c := c) hM hpos fuel 0 q hw (by omega) (by omega)
    refine ⟨k1.bind fun q1 h1 => (ih _ (k2 q1 h1)).1, fun q' h => ?_⟩
    rw [runPasses, bind_ok] at h
    obtain ⟨q1, h1, h⟩ := h
    exact (ih _ (k2 q1 h1)).2 q' h

theorem passes_fuel {n0 M : Nat} (hM : P.maxElem = M) (hpos : 0 < M) {fuel : Nat} (hfu : n0 + 3 * (M + 1) < fuel) {q : QSt K} (hw : Within n0 M q.st) :
    NF (passes P fuel q) ∧ ∀ q', passes P fuel q = .ok q' → Within n0 M q'.st := by
  obtain ⟨k1, k2⟩ := runPasses_fuel hM hpos hfu passList q hw
  unfold passes
  constructor
  · refine k1.bind fun q1 h1 => ?_
    split_ifs
    · simp [NF]
    · exact nf_pure _
  · intro q' h
    rw [bind_ok] at h
    obtain ⟨q1, h1, h⟩ := h
    split_ifs at h
    rw [pure_ok] at h
    subst h
    exact k2 q1 h1

/-- More rounds do not change the result. -/
theorem pass_more {c : Pass K} {r : R (QSt K)} (hr : NF r) (fuel : Nat) : ∀ (i : Nat) (q : QSt K), pass P c fuel i q = r → ∀ k, pass P c (fuel + k) i q = r := by
  induction fuel with
  | zero => intro i q h; subst h; exact absurd rfl hr
  | succ fuel ih =>
    intro i q h k
    rw [Nat.add_right_comm]
    unfold pass at h ⊢
    cases he : q.st.front[i]? with
    | none => rw [he] at h; exact h
    | some e =>
      rw [he] at h
      simp only at h ⊢
      split_ifs at h ⊢ with h1 h2 h3
      · exact ih _ _ h k
      · exact h
      · exact h
      · cases ha : advance P c q i e with
        | error x => rw [ha] at h; exact h
        | ok q1 =>
          rw [ha] at h
          exact ih _ _ h k

theorem runPasses_more {r : R (QSt K)} (hr : NF r) {fuel : Nat} (cs : List (Pass K)) : ∀ q : QSt K, runPasses P fuel cs q = r → ∀ k, runPasses P (fuel + k) cs q = r := by
  induction cs with
  | nil => intro q h k; exact h
  | cons c cs ih =>
    intro q h k
    rw [runPasses] at h ⊢
    cases hp : pass P c fuel 0 q with
    | error x =>
      rw [hp] at h
      have hx : NF (.error x : R (QSt K)) := by
        have : (.error x : R (QSt K)) = r := h
        rw [this]; exact hr
      rw [pass_more hx fuel 0 q hp k]
      exact h
    | ok q1 =>
      rw [hp] at h
      rw [pass_more (by simp [NF]) fuel 0 q hp k]
      exact ih q1 h k

end QuadMesher
end ENigMA
