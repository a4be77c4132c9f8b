import Verif.Mesh.TetMesherLemmas
import Verif.Mesh.ElementProps

/-!
# What a repair of the front does
-/

set_option linter.unusedSectionVars false
set_option autoImplicit false

namespace ENigMA
namespace TetMesher
open TriMesher (Err R lift nodeAt pushNew markInterior Pass bind_ok pure_ok lift_ok nodeAt_ok)

variable {K : Type} [Field K] [LinearOrder K] [IsStrictOrderedRing K] {P : Par K}

theorem foldlM_inv {α β : Type} {g : β → α → R β} (I : β → Prop) (hg : ∀ b a b', I b → g b a = .ok b' → I b') (l : List α) :
    ∀ b b', I b → l.foldlM g b = .ok b' → I b' := by
  induction l with
  | nil =>
    intro b b' hb h
    rw [List.foldlM_nil, pure_ok] at h
    rwa [← h]
  | cons a t ih =>
    intro b b' hb h
    rw [List.foldlM_cons, bind_ok] at h
    obtain ⟨b1, h1, h⟩ := h
    exact ih b1 b' (hg b a b1 hb h1) h

theorem pushNew_nodup {l : List Int} (h : l.Nodup) (n : Int) : (pushNew l n).Nodup := by
  unfold pushNew
  split_ifs with h1
  · exact h
  · rw [List.nodup_append]
    refine ⟨h, by simp, ?_⟩
    intro a ha b hb hab
    rw [List.mem_singleton] at hb
    subst hab; subst hb
    exact h1 ha

/-- Only the clock of the call has moved. -/
def Ticked (st st' : St K) : Prop := ∃ n b, st' = { st with ticks := n, stopped := b }

theorem Ticked.refl (st : St K) : Ticked st st := ⟨st.ticks, st.stopped, rfl⟩

theorem Ticked.tick (st : St K) : Ticked st (tick P st) := ⟨_, _, rfl⟩

theorem Ticked.trans {st st' st'' : St K} (h : Ticked st st') (h' : Ticked st' st'') : Ticked st st'' := by
  obtain ⟨n, b, rfl⟩ := h
  obtain ⟨n', b', rfl⟩ := h'
  exact ⟨n', b', rfl⟩

theorem scanSides_els {m : Mesh K} {x y : Fr K} {r r' : Plan K} {kl : Nat × Nat} (h : scanSides P m x y r kl = .ok r') : r'.els = r.els := by
  unfold scanSides at h
  simp only [bind_ok] at h
  obtain ⟨n1, -, n2, -, h⟩ := h
  split_ifs at h with h1
  · rw [pure_ok] at h; rw [h]
  · simp only [bind_ok] at h
    obtain ⟨n3, -, n4, -, h⟩ := h
    split at h
    · rw [pure_ok] at h; rw [h]
    · split_ifs at h with h2 h3
      · rw [pure_ok] at h; rw [h]
      · rw [pure_ok] at h; rw [← h]
      · rw [pure_ok] at h; rw [h]

theorem scanTwo_nodup {m : Mesh K} {x y : Fr K} {r r' : Plan K} (hn : r.els.Nodup) (h : scanTwo P m x r y = .ok r') : r'.els.Nodup := by
  unfold scanTwo at h
  split_ifs at h with h1
  · rw [pure_ok] at h; rwa [← h]
  · split at h
    · refine foldlM_inv (fun r : Plan K => r.els.Nodup) ?_ _ _ _ ?_ h
      · intro b a b' hb hb'
        rw [scanSides_els hb']; exact hb
      · exact pushNew_nodup (pushNew_nodup hn _) _
    · rw [pure_ok] at h; rwa [← h]

theorem scan_spec (l : List (Fr K)) : ∀ (st st' : St K) (r : Plan K) (o : Option (Plan K)), r.els.Nodup → scan P l st r = .ok (st', o) →
    Ticked st st' ∧ ∀ r', o = some r' → r'.els.Nodup := by
  induction l with
  | nil =>
    intro st st' r o hn h
    simp only [scan, pure_ok, Prod.mk.injEq] at h
    obtain ⟨rfl, rfl⟩ := h
    exact ⟨Ticked.refl _, by rintro r' h; rw [Option.some.injEq] at h; rwa [← h]⟩
  | cons x rest ih =>
    intro st st' r o hn h
    unfold scan at h
    simp only at h
    split_ifs at h with h1 h2
    · rw [pure_ok, Prod.mk.injEq] at h
      obtain ⟨rfl, rfl⟩ := h
      exact ⟨Ticked.tick _, by simp⟩
    · obtain ⟨g1, g2⟩ := ih _ _ _ _ hn h
      exact ⟨(Ticked.tick _).trans g1, g2⟩
    · rw [bind_ok] at h
      obtain ⟨r1, hr1, h⟩ := h
      obtain ⟨g1, g2⟩ := ih _ _ _ _ (foldlM_inv (fun r : Plan K => r.els.Nodup) (fun b a b' hb hb' => scanTwo_nodup hb hb') _ _ _ hn hr1) h
      exact ⟨(Ticked.tick _).trans g1, g2⟩

theorem around_nodup {m : Mesh K} {ball : Ball K} {els els' : List Int} {id : Int} (hn : els.Nodup) (h : around P m ball els id = .ok els') : els'.Nodup := by
  unfold around at h
  simp only [bind_ok, pure_ok] at h
  obtain ⟨e, -, ps, -, rfl⟩ := h
  split_ifs
  · exact pushNew_nodup hn _
  · exact hn

theorem collect_spec (factor : K) (l : List (Vec3 K)) : ∀ (st st' : St K) (els : List Int) (o : Option (List Int)), els.Nodup →
    collect P factor l st els = .ok (st', o) → Ticked st st' ∧ ∀ r', o = some r' → r'.Nodup := by
  induction l with
  | nil =>
    intro st st' r o hn h
    simp only [collect, pure_ok, Prod.mk.injEq] at h
    obtain ⟨rfl, rfl⟩ := h
    exact ⟨Ticked.refl _, by rintro r' h; rw [Option.some.injEq] at h; rwa [← h]⟩
  | cons x rest ih =>
    intro st st' r o hn h
    unfold collect at h
    simp only at h
    split_ifs at h with h1
    · rw [pure_ok, Prod.mk.injEq] at h
      obtain ⟨rfl, rfl⟩ := h
      exact ⟨Ticked.tick _, by simp⟩
    · rw [bind_ok] at h
      obtain ⟨r1, hr1, h⟩ := h
      obtain ⟨g1, g2⟩ := ih _ _ _ _ (foldlM_inv (fun r : List Int => r.Nodup) (fun b a b' hb hb' => around_nodup hb hb') _ _ _ hn hr1) h
      exact ⟨(Ticked.tick _).trans g1, g2⟩

/-! ### Opening elements -/

theorem addFace_spec (hv : Rtree.VolOk P.vol) (ht : 0 ≤ P.tol) {st st' : St K} {t : FaceType} {a b c : Int} (hi : Inv P st)
    (h : addFace P st ({ faceType := t, nodeIds := [a, b, c] } : Face) = .ok st') :
    ∃ fr tr nt, st' = { st with front := fr, tree := tr, nextTri := nt } ∧ Inv P st' ∧ fr.length = st.front.length + 1 ∧
      ∀ f, fsum f (trs fr) = fsum f (trs st.front) + f a b c := by
  unfold addFace at h
  simp only [bind_ok] at h
  obtain ⟨x, hx, h⟩ := h
  obtain ⟨p, q, r, hp, rfl⟩ := newTri_ok hx
  obtain ⟨p', q', r', tr, hp', hadd, rfl⟩ := addToTree_ok h
  refine ⟨_, tr, _, rfl, ⟨?_, hi.mesh, ?_⟩, by simp, ?_⟩
  · simp only [List.length_append, List.length_cons, List.length_nil]
    rw [hi.next]
  · show FInv P st.mesh.nodes (trs (st.front ++ [_])) tr
    have : trs (st.front ++ [(⟨st.nextTri, false, ⟨a, b, c⟩, ⟨none, none, none⟩, ⟨none, none, none⟩, none, ⟨p, q, r⟩⟩ : Fr K)]) =
        trs st.front ++ [⟨st.nextTri, false, ⟨a, b, c⟩⟩] := by simp [trs, Fr.tr]
    rw [this]
    exact hi.front.push hv ht _ (by simp [trs, hi.next]) rfl hp' hadd
  · intro f
    simp [trs, fsum, Fr.tr, Tr.val, on]

theorem addFaces_spec (hv : Rtree.VolOk P.vol) (ht : 0 ≤ P.tol) (l : List (Int × Int × Int)) (t : FaceType) : ∀ {st st' : St K}, Inv P st →
    (l.map fun x => ({ faceType := t, nodeIds := [x.1, x.2.1, x.2.2] } : Face)).foldlM (addFace P) st = .ok st' →
    ∃ fr tr nt, st' = { st with front := fr, tree := tr, nextTri := nt } ∧ Inv P st' ∧ fr.length = st.front.length + l.length ∧
      ∀ f, fsum f (trs fr) = fsum f (trs st.front) + (l.map fun x => f x.1 x.2.1 x.2.2).sum := by
  induction l with
  | nil =>
    intro st st' hi h
    rw [List.map_nil, List.foldlM_nil, pure_ok] at h
    subst h
    exact ⟨st.front, st.tree, st.nextTri, rfl, hi, by simp, by simp⟩
  | cons x rest ih =>
    intro st st' hi h
    rw [List.map_cons, List.foldlM_cons, bind_ok] at h
    obtain ⟨st1, h1, h⟩ := h
    obtain ⟨fr, tr, nt, rfl, g1, g2, g3⟩ := addFace_spec hv ht hi h1
    obtain ⟨fr', tr', nt', rfl, k1, k2, k3⟩ := ih g1 h
    refine ⟨fr', tr', nt', rfl, k1, ?_, fun f => ?_⟩
    · rw [k2]; simp only [g2, List.length_cons]; omega
    · rw [k3]; simp only [g3, List.map_cons, List.sum_cons]; ring

theorem tetFaces (a b c d : Int) : (tetElem a b c d).generateFaces = some
    (([(a, b, c), (b, d, c), (a, d, b), (a, c, d)] : List (Int × Int × Int)).map fun x => ({ faceType := .triangle, nodeIds := [x.1, x.2.1, x.2.2] } : Face),
      tetElem a b c d) := by
  rw [Elem.generateFaces_eq' _ (by simp [tetElem, ElementType.nbNodes])]
  rfl

theorem openElems_spec (hv : Rtree.VolOk P.vol) (ht : 0 ≤ P.tol) (ids : List Int) : ∀ (st st' : St K) (go : Bool), Inv P st → openElems P ids st = .ok (st', go) →
    ∃ fr tr nt n s k, st' = { st with front := fr, tree := tr, nextTri := nt, ticks := n, stopped := s } ∧ Inv P st' ∧
      (∀ id ∈ ids.take k, ∃ e, st.mesh.elements.get? id = some e) ∧ fr.length ≤ st.front.length + 4 * (ids.take k).length ∧
      (go = true → ids.take k = ids ∧ ∀ f, Sym3 f → fsum f (trs fr) = fsum f (trs st.front) + (ids.map (elval f st.mesh.elements)).sum) := by
  induction ids with
  | nil =>
    intro st st' go hi h
    simp only [openElems, pure_ok, Prod.mk.injEq] at h
    obtain ⟨rfl, rfl⟩ := h
    exact ⟨st.front, st.tree, st.nextTri, st.ticks, st.stopped, 0, rfl, hi, by simp, by simp, by simp⟩
  | cons id ids ih =>
    intro st st' go hi h
    unfold openElems at h
    simp only at h
    split_ifs at h with h1
    · rw [pure_ok, Prod.mk.injEq] at h
      obtain ⟨rfl, rfl⟩ := h
      exact ⟨st.front, st.tree, st.nextTri, _, _, 0, rfl, hi.tick, by simp, by simp, by simp⟩
    · simp only [bind_ok, lift_ok] at h
      obtain ⟨e, he, fs, hfs, st1, hst1, h⟩ := h
      obtain ⟨a, b, c, d, rfl, hbig⟩ := hi.mesh.tets id e he
      rw [tetFaces, Option.some.injEq] at hfs
      subst hfs
      obtain ⟨fr, tr, nt, rfl, g1, g2, g3⟩ := addFaces_spec hv ht _ _ hi.tick hst1
      obtain ⟨fr', tr', nt', n', s', k, rfl, k1, k2, k3, k4⟩ := ih _ _ _ g1 h
      refine ⟨fr', tr', nt', n', s', k + 1, rfl, k1, ?_, ?_, ?_⟩
      · intro i hi'
        rw [List.take_succ_cons, List.mem_cons] at hi'
        rcases hi' with rfl | hi'
        · exact ⟨_, he⟩
        · exact k2 i hi'
      · rw [List.take_succ_cons, List.length_cons]
        have g2' : fr.length = st.front.length + 4 := g2
        have k3' : fr'.length ≤ fr.length + 4 * (ids.take k).length := k3
        omega
      · intro hgo
        obtain ⟨e1, e2⟩ := k4 hgo
        refine ⟨by rw [List.take_succ_cons, e1], fun f hf => ?_⟩
        have g3' : fsum f (trs fr) = fsum f (trs st.front) + (f a b c + (f b d c + (f a d b + (f a c d + 0)))) := g3 f
        have e2' : fsum f (trs fr') = fsum f (trs fr) + (ids.map (elval f st.mesh.elements)).sum := e2 f hf
        have he' : st.mesh.elements.get? id = some (tetElem a b c d) := he
        have : elval f st.mesh.elements id = f a b c + f b d c + f a d b + f a c d := by
          unfold elval; rw [he']; rfl
        rw [e2', g3', List.map_cons, List.sum_cons, this]
        ring

/-! ### Removing pairs -/

/-- The number of times the triangle compared has been counted wrongly. -/
def odd (c : Nat) : ZMod 2 := (if 0 < c then 1 else 0) + c

theorem odd_zero {c : Nat} (h : (decide (0 < c) && decide (c % 2 = 0)) = false) : odd c = 0 := by
  unfold odd
  by_cases h0 : 0 < c
  · rw [if_pos h0]
    have h1 : c % 2 = 1 := by
      simp only [h0, decide_true, Bool.true_and, decide_eq_false_iff_not] at h
      omega
    have h2 : c = 2 * (c / 2) + 1 := by omega
    rw [h2]
    push_cast
    have : (2 : ZMod 2) = 0 := rfl
    rw [this]; simp; rfl
  · obtain rfl : c = 0 := by omega
    simp

theorem odd_succ (c : Nat) (g s : ZMod 2) : s + (if 0 < c then 0 else g) + g + odd (c + 1) * g = s + odd c * g := by
  unfold odd
  rw [if_pos (Nat.succ_pos c)]
  push_cast
  by_cases h0 : 0 < c
  · rw [if_pos h0, if_pos h0]
    generalize (c : ZMod 2) = d
    revert d g s; decide
  · obtain rfl : c = 0 := by omega
    simp only [lt_irrefl, if_false, Nat.cast_zero]
    revert g s; decide

theorem dedupInner_spec (hv : Rtree.VolOk P.vol) (ht : 0 ≤ P.tol) (i : Nat) (js : List Nat) : ∀ (st st' : St K) (c c' : Nat) (x : Tr),
    FInv P st.mesh.nodes (trs st.front) st.tree → (trs st.front)[i]? = some x → x.remove = decide (0 < c) → (∀ j ∈ js, j ≠ i) →
    dedupInner P i js st c = .ok (st', c') →
    ∃ fr t, st' = { st with front := fr, tree := t } ∧ FInv P st.mesh.nodes (trs fr) t ∧ fr.length = st.front.length ∧
      ∀ f, Sym3 f → fsum f (trs fr) + odd c' * on f x.n = fsum f (trs st.front) + odd c * on f x.n := by
  induction js with
  | nil =>
    intro st st' c c' x hi hx hr _ h
    simp only [dedupInner, pure_ok, Prod.mk.injEq] at h
    obtain ⟨rfl, rfl⟩ := h
    exact ⟨st.front, st.tree, rfl, hi, rfl, fun _ _ => rfl⟩
  | cons j js ih =>
    intro st st' c c' x hi hx hr hne h
    unfold dedupInner at h
    simp only [bind_ok, triAt_ok] at h
    obtain ⟨x1, hx1, y, hy, h⟩ := h
    have hx1' : x1.tr = x := by
      have := trs_get.2 ⟨x1, hx1, rfl⟩
      rw [hx] at this
      simpa using this.symm
    have hji : j ≠ i := hne j (by simp)
    have hne' : ∀ j ∈ js, j ≠ i := fun j hj => hne j (by simp [hj])
    split_ifs at h with h1 h2
    · exact ih _ _ _ _ _ hi hx hr hne' h
    · rw [bind_ok] at h
      obtain ⟨st1, hr1, h⟩ := h
      rw [bind_ok] at h
      obtain ⟨st2, hr2, h⟩ := h
      obtain ⟨x2, fr1, t1, rfl, g1, g2, g3⟩ := removeTri_spec hv ht hi hr1
      rw [hx, Option.some.injEq] at g1
      subst g1
      obtain ⟨y2, fr2, t2, rfl, k1, k2, k3⟩ := removeTri_spec hv ht (st := { st with front := fr1, tree := t1 }) g3 hr2
      simp only at k1 k2 k3
      have k1' := k1
      rw [g2, List.getElem?_set_ne hji.symm] at k1
      have hy2 : y2 = y.tr := by
        have := trs_get.2 ⟨y, hy, rfl⟩
        rw [k1] at this
        simpa using this
      have hx3 : (trs fr2)[i]? = some x.gone := by
        rw [k2, List.getElem?_set_ne hji, g2, List.getElem?_set_self (List.getElem?_eq_some_iff.1 hx).1]
      obtain ⟨fr, t, e0, e1, e2, e3⟩ := ih _ _ _ _ x.gone k3 hx3 (by simp [Tr.gone]) hne' h
      refine ⟨fr, t, e0, e1, ?_, fun f hf => ?_⟩
      · rw [e2]
        have l1 : fr1.length = st.front.length := by have := congrArg List.length g2; simpa [trs] using this
        have l2 : fr2.length = fr1.length := by have := congrArg List.length k2; simpa [trs] using this
        show fr2.length = _
        rw [l2, l1]
      · have e3' := e3 f hf
        have hgn : x.gone.n = x.n := rfl
        rw [hgn] at e3'
        rw [e3']
        show fsum f (trs fr2) + _ = _
        rw [k2, fsum_gone f k1', g2, fsum_gone f hx]
        have hyv : y2.val f = on f x.n := by
          rw [hy2]
          have : y.tr.remove = false := by simpa [Fr.tr] using h1
          unfold Tr.val
          rw [this, ← hx1']
          simp only [Bool.false_eq_true, if_false]
          exact (hf.on_sorted h2).symm
        have hxv : x.val f = if 0 < c then 0 else on f x.n := by
          unfold Tr.val
          rw [hr]
          by_cases h0 : 0 < c <;> simp [h0]
        rw [hyv, hxv]
        exact odd_succ c _ _
    · exact ih _ _ _ _ _ hi hx hr hne' h

theorem dedup_spec (hv : Rtree.VolOk P.vol) (ht : 0 ≤ P.tol) (is : List Nat) : ∀ (st st' : St K) (go : Bool), Inv P st → dedup P is st = .ok (st', go) →
    ∃ fr t n s u, st' = { st with front := fr, tree := t, ticks := n, stopped := s, upset := u } ∧ Inv P st' ∧ fr.length = st.front.length ∧
      (u = false → st.upset = false ∧ ∀ f, Sym3 f → fsum f (trs fr) = fsum f (trs st.front)) := by
  induction is with
  | nil =>
    intro st st' go hi h
    simp only [dedup, pure_ok, Prod.mk.injEq] at h
    obtain ⟨rfl, rfl⟩ := h
    exact ⟨st.front, st.tree, st.ticks, st.stopped, st.upset, rfl, hi, rfl, fun h => ⟨h, fun _ _ => rfl⟩⟩
  | cons i is ih =>
    intro st st' go hi h
    unfold dedup at h
    simp only at h
    split_ifs at h with h1
    · rw [pure_ok, Prod.mk.injEq] at h
      obtain ⟨rfl, rfl⟩ := h
      exact ⟨st.front, st.tree, _, _, st.upset, rfl, hi.tick, rfl, fun h => ⟨h, fun _ _ => rfl⟩⟩
    · simp only [bind_ok, triAt_ok] at h
      obtain ⟨x, hx, h⟩ := h
      split_ifs at h with h2
      · obtain ⟨fr, t, n, s, u, g0, g1, g2, g3⟩ := ih _ _ _ hi.tick h
        exact ⟨fr, t, n, s, u, g0, g1, g2, g3⟩
      · rw [bind_ok] at h
        obtain ⟨⟨st1, c⟩, hin, h⟩ := h
        simp only at h
        have hx' : (trs st.front)[i]? = some x.tr := trs_get.2 ⟨x, hx, rfl⟩
        obtain ⟨fr1, t1, rfl, g1, g2, g3⟩ := dedupInner_spec hv ht i _ (tick P st) st1 0 c x.tr hi.tick.front hx'
          (by simpa [Fr.tr] using h2) (by intro j hj; rw [List.mem_range'] at hj; obtain ⟨k, -, rfl⟩ := hj; omega) hin
        have hi1 : Inv P { tick P st with front := fr1, tree := t1, upset := st.upset || (decide (0 < c) && decide (c % 2 = 0)) } := by
          refine ⟨?_, hi.mesh, g1⟩
          show st.nextTri = fr1.length
          rw [hi.next]; exact g2.symm
        obtain ⟨fr, t, n, s, u, k0, k1, k2, k3⟩ := ih _ _ _ hi1 h
        refine ⟨fr, t, n, s, u, k0, k1, k2.trans g2, fun hu => ?_⟩
        obtain ⟨e1, e2⟩ := k3 hu
        simp only [Bool.or_eq_false_iff] at e1
        refine ⟨e1.1, fun f hf => (e2 f hf).trans ?_⟩
        have := g3 f hf
        rw [odd_zero e1.2] at this
        simp only [odd, lt_irrefl, if_false, Nat.cast_zero, add_zero, zero_mul] at this
        exact this

/-! ### The rest of a repair -/

theorem rebuildOne_trs {m : Mesh K} {tree : Rtree.Node K} {front front' : List (Fr K)} {i : Nat} (h : rebuildOne P m tree front i = .ok front') :
    trs front' = trs front := by
  unfold rebuildOne at h
  simp only [bind_ok] at h
  obtain ⟨x, -, h⟩ := h
  split_ifs at h with h1
  · rw [pure_ok] at h; rw [h]
  · simp only [bind_ok] at h
    obtain ⟨a, -, b, -, c, -, found, -, fr, hfr, h⟩ := h
    rw [checkOpen_ok h]
    exact pairLoop_spec hfr

theorem rebuild_spec {st st' : St K} (h : rebuildConnectivity P st = .ok st') : ∃ fr, st' = { st with front := fr } ∧ trs fr = trs st.front := by
  unfold rebuildConnectivity at h
  simp only [bind_ok, pure_ok] at h
  obtain ⟨fr, hfr, rfl⟩ := h
  exact ⟨fr, rfl, foldlM_inv (fun l => trs l = trs st.front) (fun b a b' hb hb' => (rebuildOne_trs hb').trans hb) _ _ _ rfl hfr⟩

theorem dropElems_spec (ids : List Int) : ∀ (st st' : St K), ids.Nodup → st.mesh.elements.Ok → dropElems ids st = .ok st' →
    ∃ els, st' = { st with mesh := { st.mesh with elements := els } } ∧ els.Ok ∧ (∀ id e, els.get? id = some e → st.mesh.elements.get? id = some e) ∧
      els.count ≤ st.mesh.elements.count ∧ ∀ f, esum f st.mesh.elements = (ids.map (elval f st.mesh.elements)).sum + esum f els := by
  induction ids with
  | nil =>
    intro st st' _ ho h
    simp only [dropElems, pure_ok] at h
    subst h
    exact ⟨st.mesh.elements, rfl, ho, fun _ _ h => h, le_refl _, by simp⟩
  | cons id ids ih =>
    intro st st' hn ho h
    simp only [dropElems, bind_ok, lift_ok] at h
    obtain ⟨els1, hr, h⟩ := h
    have hget := remove_get hr
    obtain ⟨els, rfl, g1, g2, g3, g4⟩ := ih _ _ (List.nodup_cons.1 hn).2 (Cont.remove_ok ho hr) h
    refine ⟨els, rfl, g1, fun j e he => ?_, g3.trans ?_, fun f => ?_⟩
    · have := g2 j e he
      simp only at this
      rw [hget] at this
      split_ifs at this
      exact this
    · obtain ⟨hm, rfl⟩ := Cont.remove_some hr
      show (st.mesh.elements.ids.erase id).length ≤ st.mesh.elements.ids.length
      exact List.length_erase_le
    · rw [esum_remove f ho hr, List.map_cons, List.sum_cons]
      have := g4 f
      simp only at this
      rw [this, add_assoc]
      congr 3
      apply List.map_congr_left
      intro j hj
      unfold elval
      rw [hget, if_neg]
      rintro rfl
      exact (List.nodup_cons.1 hn).1 hj

theorem Ticked.inv {st st' : St K} (h : Ticked st st') (hi : Inv P st) : Inv P st' := by
  obtain ⟨n, b, rfl⟩ := h
  exact ⟨hi.next, hi.mesh, hi.front⟩

theorem Ticked.went {st st' : St K} (h : Ticked st st') : Went P st st' := by
  obtain ⟨n, b, rfl⟩ := h
  exact ⟨rfl, fun _ _ h => h, fun _ _ h => Or.inl h, fun h => h, fun _ _ _ => rfl⟩

/-- What a repair does. -/
structure Repaired (P : Par K) (st st' : St K) : Prop where
  inv : Inv P st'
  went : Went P st st'
  front : st'.front.length ≤ st.front.length + 4 * st.mesh.elements.count
  count : st'.mesh.elements.count ≤ st.mesh.elements.count

theorem Ticked.repaired {st st' : St K} (h : Ticked st st') (hi : Inv P st) : Repaired P st st' := by
  refine ⟨h.inv hi, h.went, ?_, ?_⟩ <;> obtain ⟨n, b, rfl⟩ := h
  · exact Nat.le_add_right _ _
  · exact le_refl _

theorem take_le {els : Cont Elem} (ho : els.Ok) {ids : List Int} (hn : ids.Nodup) {k : Nat} (h : ∀ id ∈ ids.take k, ∃ e, els.get? id = some e) :
    (ids.take k).length ≤ els.count := by
  show _ ≤ els.ids.length
  have hs : (ids.take k) ⊆ els.ids := fun id hid => (ho.2 id).2 (h id hid)
  exact (List.Nodup.subperm (hn.sublist (List.take_sublist k ids)) hs).length_le

theorem repair_spec (hv : Rtree.VolOk P.vol) (ht : 0 ≤ P.tol) {factor : K} {st st' : St K} (hi : Inv P st) (h : repair P factor st = .ok st') :
    Repaired P st st' := by
  unfold repair at h
  rw [bind_ok] at h
  obtain ⟨⟨st1, r⟩, hscan, h⟩ := h
  obtain ⟨t1, n1⟩ := scan_spec _ _ _ _ _ (by simp) hscan
  cases r with
  | none =>
    simp only [pure_ok] at h
    subst h
    exact t1.repaired hi
  | some r =>
    simp only at h
    rw [bind_ok] at h
    obtain ⟨⟨st2, els⟩, hcol, h⟩ := h
    obtain ⟨t2, n2⟩ := collect_spec _ _ _ _ _ _ (n1 r rfl) hcol
    have t12 := t1.trans t2
    cases els with
    | none =>
      simp only [pure_ok] at h
      subst h
      exact t12.repaired hi
    | some els =>
      simp only at h
      rw [bind_ok] at h
      obtain ⟨⟨st3, go⟩, hop, h⟩ := h
      have hi2 := t12.inv hi
      have hnd := n2 els rfl
      have hm2 : st2.mesh = st.mesh := by obtain ⟨_, _, rfl⟩ := t12; rfl
      have hf2 : st2.front = st.front := by obtain ⟨_, _, rfl⟩ := t12; rfl
      have hb2 : st2.box = st.box := by obtain ⟨_, _, rfl⟩ := t12; rfl
      have hu2 : st2.upset = st.upset := by obtain ⟨_, _, rfl⟩ := t12; rfl
      obtain ⟨fr, tr, nt, n, s, k, rfl, g1, g2, g3, g4⟩ := openElems_spec hv ht _ _ _ _ hi2 hop
      have hlen : fr.length ≤ st.front.length + 4 * st.mesh.elements.count := by
        have := take_le hi2.mesh.els hnd g2
        rw [hm2] at this
        rw [hf2] at g3
        omega
      simp only at h
      cases go with
      | false =>
        rw [if_neg (by simp), pure_ok] at h
        subst h
        refine ⟨⟨g1.next, g1.mesh, g1.front⟩, ⟨hb2, ?_, ?_, by simp, by simp⟩, hlen, ?_⟩
        · intro id p hp; rw [← hm2] at hp; exact hp
        · intro id p hp; left; rw [← hm2]; exact hp
        · simp only; rw [hm2]
      | true =>
        obtain ⟨-, hsum⟩ := g4 rfl
        rw [if_pos rfl, bind_ok] at h
        obtain ⟨⟨st4, go⟩, hde, h⟩ := h
        obtain ⟨fr', t', n', s', u, rfl, k1, k2, k3⟩ := dedup_spec hv ht _ _ _ _ g1 hde
        have k2' : fr'.length = fr.length := k2
        simp only at h
        cases go with
        | false =>
          rw [if_neg (by simp), pure_ok] at h
          subst h
          refine ⟨⟨k1.next, k1.mesh, k1.front⟩, ⟨hb2, ?_, ?_, by simp, by simp⟩, ?_, ?_⟩
          · intro id p hp; rw [← hm2] at hp; exact hp
          · intro id p hp; left; rw [← hm2]; exact hp
          · simp only; rw [k2']; exact hlen
          · simp only; rw [hm2]
        | true =>
          rw [if_pos rfl, bind_ok] at h
          obtain ⟨st5, hre, h⟩ := h
          obtain ⟨fr'', rfl, htrs⟩ := rebuild_spec hre
          simp only at htrs
          obtain ⟨els', rfl, d1, d2, d3, d4⟩ := dropElems_spec _ _ _ hnd (by exact k1.mesh.els) h
          simp only at d2 d3 d4
          have hl : fr''.length = fr'.length := by have := congrArg List.length htrs; simpa [trs] using this
          have hfr'' : FInv P st2.mesh.nodes (trs fr'') t' := by rw [htrs]; exact k1.front
          refine ⟨⟨?_, ⟨hi2.mesh.nodes, hi2.mesh.faces, d1, fun id e he => hi2.mesh.tets id e (d2 id e he)⟩, hfr''⟩,
            ⟨hb2, ?_, ?_, ?_, ?_⟩, ?_, ?_⟩
          · have := k1.next
            simp only at this ⊢
            rw [this, hl]
          · intro id p hp; rw [← hm2] at hp; exact hp
          · intro id p hp; left; rw [← hm2]; exact hp
          · intro hu
            obtain ⟨e1, -⟩ := k3 hu
            simp only at e1
            rw [← hu2]; exact e1
          · intro hu f hf
            obtain ⟨-, e2⟩ := k3 hu
            have e2' := e2 f hf
            have hs := hsum f hf
            have hd := d4 f
            simp only at e2' hs hd
            unfold total
            simp only
            rw [htrs, e2', hs, ← hm2, ← hf2, hd]
            ring
          · simp only; rw [hl, k2']; exact hlen
          · simp only; rw [← hm2]; exact d3

end TetMesher
end ENigMA
