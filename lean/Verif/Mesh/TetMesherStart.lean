import Verif.Mesh.TetMesherRepair

/-!
# The start, the passes and the number of rounds of the mesher of solids
-/

set_option linter.unusedSectionVars false
set_option autoImplicit false

namespace ENigMA
namespace TetMesher
open TriMesher (Err R lift nodeAt pushNew markInterior Pass bind_ok pure_ok lift_ok nodeAt_ok NF NF.bind nf_pure nf_ok nf_lift nf_nodeAt nf_foldlM)

variable {K : Type} [Field K] [LinearOrder K] [IsStrictOrderedRing K] {P : Par K}

/-! ### The start -/

/-- The corners of the triangular elements. -/
def surfIds (src : Mesh K) : List Int → List (T3 Int)
  | [] => []
  | id :: t =>
    match src.elements.get? id with
    | some ⟨.triangle, [a, b, c], _⟩ => ⟨a, b, c⟩ :: surfIds src t
    | _ => surfIds src t

theorem addTris_spec (hv : Rtree.VolOk P.vol) (ht : 0 ≤ P.tol) {src : Mesh K} {ids : SMap Int Nat} (l : List Int) : ∀ (st st' : St K),
    FInv P st.mesh.nodes (trs st.front) st.tree → st.nextTri = st.front.length → addTris P src ids l st = .ok st' →
    ∃ fr tr nt, st' = { st with front := fr, tree := tr, nextTri := nt } ∧ FInv P st.mesh.nodes (trs fr) tr ∧ nt = fr.length ∧
      fr.length = st.front.length + (surfIds src l).length ∧ ∀ f, fsum f (trs fr) = fsum f (trs st.front) + ((surfIds src l).map (on f)).sum := by
  induction l with
  | nil =>
    intro st st' hi hn h
    simp only [addTris, pure_ok] at h
    subst h
    exact ⟨st.front, st.tree, st.nextTri, rfl, hi, hn, by simp [surfIds], by simp [surfIds]⟩
  | cons id t ih =>
    intro st st' hi hn h
    unfold addTris at h
    simp only [bind_ok, lift_ok] at h
    obtain ⟨el, hel, h⟩ := h
    obtain ⟨ty, ns, fs⟩ := el
    simp only at h
    split_ifs at h with h1
    · subst h1
      split at h
      · rename_i a b c fa fb fc
        simp only [bind_ok] at h
        obtain ⟨x, hx, p, -, q, -, r, -, st1, hst1, h⟩ := h
        obtain ⟨xa, xb, xc, -, rfl⟩ := newTri_ok hx
        obtain ⟨pa, pb, pc, tr, hp, hadd, rfl⟩ := addToTree_ok hst1
        have hs : surfIds src (id :: t) = ⟨a, b, c⟩ :: surfIds src t := by simp [surfIds, hel]
        have htr : ∀ y : Fr K, y.tr = ⟨st.nextTri, false, ⟨a, b, c⟩⟩ → trs (st.front ++ [y]) = trs st.front ++ [⟨st.nextTri, false, ⟨a, b, c⟩⟩] := by
          intro y hy; simp [trs, hy]
        obtain ⟨fr, tr', nt, rfl, g1, g2, g3, g4⟩ := ih _ st' (by
          simp only
          rw [htr _ rfl]
          exact hi.push hv ht _ (by simp [trs, hn]) rfl hp hadd) (by simp [hn]) h
        refine ⟨fr, tr', nt, rfl, g1, g2, ?_, fun f => ?_⟩
        · rw [g3, hs]; simp; omega
        · rw [g4, hs]
          simp only
          rw [htr _ rfl, fsum_append, List.map_cons, List.sum_cons]
          simp [fsum, Tr.val]
          ring
      · simp at h
    · have hs : surfIds src (id :: t) = surfIds src t := by
        unfold surfIds
        split
        · rename_i a b c fs' hel'
          rw [hel] at hel'
          simp only [Option.some.injEq, Elem.mk.injEq] at hel'
          exact absurd hel'.1 h1
        · cases t <;> rfl
      rw [hs]
      exact ih _ _ hi hn h

theorem addInner_spec (l : List (Vec3 K)) : ∀ st : St K, st.mesh.nodes.Ok → ∃ nodes inner, addInner l st = { st with mesh := { st.mesh with nodes := nodes }, inner := inner } ∧
    nodes.Ok ∧ (∀ id p, st.mesh.nodes.get? id = some p → nodes.get? id = some p) ∧ (∀ id p, nodes.get? id = some p → st.mesh.nodes.get? id = some p ∨ p ∈ l) := by
  induction l with
  | nil => intro st h; exact ⟨st.mesh.nodes, st.inner, rfl, h, fun _ _ h => h, fun _ _ h => Or.inl h⟩
  | cons q t ih =>
    intro st h
    obtain ⟨nodes, inner, g1, g2, g8, g9⟩ := ih { st with
      mesh := { st.mesh with nodes := st.mesh.nodes.add st.mesh.nodes.nextId q }, inner := st.inner ++ [(st.mesh.nodes.nextId, false)] }
      (Cont.add_ok h q (Cont.nextId_not_mem h))
    refine ⟨nodes, inner, g1, g2, fun id p hp => g8 id p ?_, fun id p hp => ?_⟩
    · show (st.mesh.nodes.add st.mesh.nodes.nextId q).get? id = some p
      rw [Cont.get?_add, if_neg]
      · exact hp
      · rintro rfl
        rw [Cont.get?_nextId] at hp; simp at hp
    · rcases g9 id p hp with k | k
      · have k' : (st.mesh.nodes.add st.mesh.nodes.nextId q).get? id = some p := k
        rw [Cont.get?_add] at k'
        split_ifs at k' with k2
        · right; simp only [Option.some.injEq] at k'; simp [k']
        · exact Or.inl k'
      · right; simp [k]

/-- The state at the start. -/
structure Started (P : Par K) (src : Mesh K) (points : List (Vec3 K)) (st : St K) : Prop where
  inv : Inv P st
  sum : ∀ f, total f st = ((surfIds src src.elements.ids).map (on f)).sum
  len : st.front.length = (surfIds src src.elements.ids).length
  count : st.mesh.elements.count = 0
  upset : st.upset = false
  old : ∀ id p, src.nodes.get? id = some p → st.mesh.nodes.get? id = some p
  new : ∀ id p, st.mesh.nodes.get? id = some p → src.nodes.get? id = some p ∨ p ∈ points
  box : st.box = (BBox.ofPoints P.big (src.nodes.ids.filterMap src.nodes.get?)).grow P.tol

theorem start_spec (hv : Rtree.VolOk P.vol) (ht : 0 ≤ P.tol) {src : Mesh K} (hs : src.nodes.Ok) {points : List (Vec3 K)} {old : List (Int × Bool)} {st : St K}
    (h : start P src points old = .ok st) : Started P src points st := by
  unfold start at h
  simp only [bind_ok] at h
  obtain ⟨⟨m, box⟩, hcopy, ids, -, st1, hst1, h⟩ := h
  rw [pure_ok] at h
  subst h
  obtain ⟨c1, c2, c3, c4, c5⟩ := TriMesher.copyNodes_spec src.nodes.ids hs.1 _ _ hcopy Cont.empty_ok (by simp [Mesh.empty, Cont.empty])
  have hget : ∀ id, m.nodes.get? id = src.nodes.get? id := by
    intro id
    rw [c4]
    split_ifs with h1
    · rfl
    · cases hid : src.nodes.get? id with
      | none => rfl
      | some p => exact absurd ((hs.2 id).2 ⟨p, hid⟩) h1
  obtain ⟨fr, tr, nt, rfl, b1, b2, b3, b4⟩ := addTris_spec hv ht src.elements.ids _ st1 ⟨by simp [trs], by simp [trs], TreeOk.empty _ _ _⟩ (by simp) hst1
  simp only at b1 b3 b4
  obtain ⟨nodes, inner, i1, i2, i3, i4⟩ := addInner_spec points { front := fr, tree := tr, mesh := m, inner := old, nextTri := nt, box := box.grow P.tol, ticks := 0, stopped := false, upset := false } c1
  simp only at i3 i4
  have hels : m.elements = Cont.empty := c3
  show Started P src points (addInner points _)
  rw [i1]
  refine ⟨⟨b2, ⟨i2, c2, ?_, ?_⟩, b1.ext i3⟩, fun f => ?_, ?_, ?_, rfl, ?_, ?_, ?_⟩
  · simp only; rw [hels]; exact Cont.empty_ok
  · intro id e he
    simp only at he
    rw [hels] at he
    simp [Cont.empty, Cont.get?] at he
  · unfold total
    simp only
    rw [b4, hels]
    simp [esum, fsum, trs, Cont.empty]
  · simp only; rw [b3]; simp
  · simp only; rw [hels]; rfl
  · intro id p hp
    apply i3
    rw [hget]; exact hp
  · intro id p hp
    rcases i4 id p hp with g | g
    · rw [hget] at g; exact Or.inl g
    · exact Or.inr g
  · have : box = _ := c5
    show box.grow P.tol = _
    rw [this]; rfl

/-! ### The passes -/

/-- What several passes and repairs do. -/
structure Ran (P : Par K) (st st' : St K) : Prop where
  inv : Inv P st'
  went : Went P st st'
  limit : 0 < P.maxElem → (st.mesh.elements.count : Int) ≤ P.maxElem → (st'.mesh.elements.count : Int) ≤ P.maxElem

theorem Ran.refl {st : St K} (hi : Inv P st) : Ran P st st := ⟨hi, Went.refl _, fun _ h => h⟩

theorem Ran.trans {st st' st'' : St K} (h : Ran P st st') (h' : Ran P st' st'') : Ran P st st'' :=
  ⟨h'.inv, h.went.trans h'.went, fun hp hl => h'.limit hp (h.limit hp hl)⟩

theorem Passed.ran {st st' : St K} (h : Passed P st st') : Ran P st st' := ⟨h.inv, h.went, h.limit⟩

theorem Repaired.ran {st st' : St K} (h : Repaired P st st') : Ran P st st' :=
  ⟨h.inv, h.went, fun _ hl => le_trans (by exact_mod_cast h.count) hl⟩

theorem roundPasses_nonneg (i : Nat) : ∀ c ∈ (roundPasses i : List (Pass K)), 0 ≤ c.minQuality := by
  intro c hc
  unfold roundPasses at hc
  split_ifs at hc <;> simp only [List.mem_append, List.mem_cons, List.not_mem_nil, or_false, false_or] at hc
  · rcases hc with (rfl | rfl) | rfl | rfl | rfl | rfl <;> norm_num
  · rcases hc with (rfl | rfl) | rfl | rfl | rfl | rfl <;> norm_num
  · rcases hc with rfl | rfl | rfl | rfl <;> norm_num

theorem firstPasses_nonneg : ∀ c ∈ (firstPasses : List (Pass K)), 0 ≤ c.minQuality := by
  intro c hc
  simp only [firstPasses, List.mem_cons, List.not_mem_nil, or_false] at hc
  rcases hc with rfl | rfl | rfl <;> norm_num

theorem rounds_spec (hv : Rtree.VolOk P.vol) (ht : 0 ≤ P.tol) {fuel : Nat} (is : List Nat) : ∀ st st' : St K, Inv P st → rounds P fuel is st = .ok st' → Ran P st st' := by
  induction is with
  | nil =>
    intro st st' hi h
    simp only [rounds, pure_ok] at h
    subst h; exact Ran.refl hi
  | cons i is ih =>
    intro st st' hi h
    unfold rounds at h
    by_cases h1 : unfinished st = true
    · rw [if_pos h1] at h
      simp only [bind_ok] at h
      obtain ⟨st1, hst1, st2, hst2, h⟩ := h
      have r1 := repair_spec hv ht hi hst1
      have r2 := runPasses_spec hv ht fuel _ _ _ (roundPasses_nonneg i) r1.inv hst2
      exact (r1.ran.trans r2.ran).trans (ih _ _ r2.inv h)
    · rw [if_neg h1, pure_ok] at h
      subst h; exact Ran.refl hi

theorem unfinished_sum {st : St K} (h : ¬ unfinished st = true) (f : Int → Int → Int → ZMod 2) : fsum f (trs st.front) = 0 := by
  unfold fsum trs
  rw [List.map_map]
  apply List.sum_eq_zero
  intro v hv
  obtain ⟨x, hx, rfl⟩ := List.mem_map.1 hv
  have : x.remove = true := by
    by_contra hr
    exact h (List.any_eq_true.2 ⟨x, hx, by simpa using hr⟩)
  simp [Tr.val, Fr.tr, this]

theorem passes_spec (hv : Rtree.VolOk P.vol) (ht : 0 ≤ P.tol) {fuel : Nat} {st st' : St K} (hi : Inv P st) (h : passes P fuel st = .ok st') :
    Ran P st st' ∧ ∀ f, fsum f (trs st'.front) = 0 := by
  unfold passes at h
  simp only [bind_ok] at h
  obtain ⟨st1, hst1, st2, hst2, h⟩ := h
  have r1 := runPasses_spec hv ht fuel _ _ _ firstPasses_nonneg hi hst1
  have r2 := rounds_spec hv ht _ _ _ r1.inv hst2
  split_ifs at h with h1
  rw [pure_ok] at h
  subst h
  exact ⟨r1.ran.trans r2, unfinished_sum h1⟩

/-! ### Only the loop over the front can run out of rounds -/

theorem nf_triAt (l : List (Fr K)) (k : Nat) : NF (triAt l k) := nf_lift _

theorem nf_addToTree (st : St K) (x : Fr K) : NF (addToTree P st x) := 
  (nf_nodeAt _ _).bind fun _ _ => (nf_nodeAt _ _).bind fun _ _ => (nf_nodeAt _ _).bind fun _ _ => (nf_lift _).bind fun _ _ => nf_pure _
theorem nf_removeTri (st : St K) (k : Nat) : NF (removeTri P st k) := 
  (nf_triAt _ _).bind fun _ _ => (nf_nodeAt _ _).bind fun _ _ => (nf_nodeAt _ _).bind fun _ _ => (nf_nodeAt _ _).bind fun _ _ => (nf_lift _).bind fun _ _ => nf_pure _

theorem nf_triangleExists (front : List (Fr K)) (x : Fr K) (l : List Nat) : NF (triangleExists front x l) := by
  induction l with
  | nil => exact nf_pure _
  | cons j t ih =>
    unfold triangleExists
    split_ifs
    · exact ih
    · refine (nf_triAt _ _).bind fun o _ => ?_
      split_ifs
      · exact nf_pure _
      · exact ih

theorem nf_triangleOk (front : List (Fr K)) (x : Fr K) (a b c : Vec3 K) (l : List Nat) : NF (triangleOk P front x a b c l) := by
  induction l with
  | nil => exact nf_pure _
  | cons j t ih =>
    unfold triangleOk
    split_ifs
    · exact ih
    · refine (nf_triAt _ _).bind fun o _ => ?_
      split_ifs
      · exact ih
      · exact nf_pure _
      · exact ih

theorem nf_closestLoop (front : List (Fr K)) (l : List Nat) : ∀ r, NF (closestLoop front l r) := by
  induction l with
  | nil => exact fun _ => nf_pure _
  | cons j t ih =>
    intro r
    unfold closestLoop
    refine (nf_triAt _ _).bind fun o _ => ?_
    split_ifs <;> exact ih _

theorem nf_findClosestNodes (st : St K) (l : List Nat) : NF (findClosestNodes st l) := (nf_closestLoop _ _ _).bind fun _ _ => nf_pure _

theorem nf_shortestLoop (front : List (Fr K)) (line : GLine K) (cur : Nat) (l : List Nat) : ∀ d, NF (shortestLoop P front line cur l d) := by
  induction l with
  | nil => exact fun _ => nf_pure _
  | cons j t ih =>
    intro d
    unfold shortestLoop
    by_cases h1 : j = cur
    · rw [if_pos h1]; exact ih _
    · rw [if_neg h1]
      refine (nf_triAt _ _).bind fun o _ => ?_
      by_cases h2 : o.remove = true
      · rw [if_pos h2]; exact ih _
      · rw [if_neg h2]
        split
        · exact ih _
        · exact ih _

theorem nf_containsNode (m : Mesh K) (a b c d : Vec3 K) (l : List Int) : NF (containsNode P m a b c d l) := by
  induction l with
  | nil => exact nf_pure _
  | cons j t ih =>
    unfold containsNode
    refine (nf_nodeAt _ _).bind fun o _ => ?_
    split_ifs
    · exact ih
    · exact nf_pure _
    · exact ih

theorem nf_pairLoop (i : Nat) (l : List Nat) : ∀ front : List (Fr K), NF (pairLoop i l front) := by
  induction l with
  | nil => exact fun _ => nf_pure _
  | cons j t ih =>
    intro front
    unfold pairLoop
    refine (nf_triAt _ _).bind fun x _ => ?_
    split_ifs
    · exact ih _
    · refine (nf_triAt _ _).bind fun y _ => ?_
      split_ifs <;> exact ih _

theorem nf_checkOpen (i : Nat) (front : List (Fr K)) : NF (checkOpen i front) := by
  unfold checkOpen
  refine (nf_triAt _ _).bind fun x _ => ?_
  split_ifs
  · simp [NF]
  · exact nf_pure _

theorem nf_adjustOne (sTris : List Nat) (front : List (Fr K)) (i : Nat) : NF (adjustOne sTris front i) := by
  unfold adjustOne
  refine (nf_triAt _ _).bind fun x _ => ?_
  split_ifs
  · exact nf_pure _
  · exact nf_pure _
  · refine (nf_lift _).bind fun _ _ => (nf_lift _).bind fun _ _ => (nf_lift _).bind fun _ _ => ?_
    split_ifs
    · exact (nf_pairLoop _ _ _).bind fun _ _ => nf_checkOpen _ _
    · exact nf_pure _

theorem nf_adjust (sTris : List Nat) (front : List (Fr K)) : NF (adjustConnectivity sTris front) := nf_foldlM _ (fun _ _ => nf_adjustOne _ _ _) _ _

theorem nf_cleanOne (sTris : List Nat) (st : St K) (k : Nat) : NF (cleanOne P sTris st k) := by
  unfold cleanOne
  refine (nf_triAt _ _).bind fun x _ => ?_
  split_ifs
  · exact nf_pure _
  · refine (nf_triangleExists _ _ _).bind fun o _ => ?_
    split
    · exact (nf_removeTri _ _).bind fun _ _ => (nf_removeTri _ _).bind fun _ _ => nf_pure _
    · exact nf_pure _

theorem nf_clean (sTris : List Nat) (st : St K) : NF (cleanDuplicates P sTris st) := by
  unfold cleanDuplicates
  split_ifs
  · exact nf_pure _
  · refine (nf_cleanOne _ _ _).bind fun a _ => ?_
    refine (nf_cleanOne _ _ _).bind fun b _ => ?_
    refine (nf_cleanOne _ _ _).bind fun c _ => ?_
    simp only
    split_ifs
    · exact (nf_adjust _ _).bind fun _ _ => nf_pure _
    · exact nf_pure _

theorem nf_newTri (m : Mesh K) (id : Nat) (n : T3 Int) (nb no : T3 (Option Nat)) (el : Option Int) : NF (newTri m id n nb no el) := 
  (nf_nodeAt _ _).bind fun _ _ => (nf_nodeAt _ _).bind fun _ _ => (nf_nodeAt _ _).bind fun _ _ => nf_pure _

theorem nf_attach (front : List (Fr K)) (q s id : Nat) : NF (attach front q s id) := 
  (nf_triAt _ _).bind fun _ _ => nf_pure _

theorem nf_addTet (sTris : List Nat) (st : St K) (k : Nat) (n4 : Int) : NF (addTet P sTris st k n4) := by
  unfold addTet
  refine (nf_triAt _ _).bind fun x _ => ?_
  split_ifs
  · exact nf_pure _
  · exact (nf_lift _).bind fun _ _ => (nf_lift _).bind fun _ _ => (nf_lift _).bind fun _ _ => (nf_triAt _ _).bind fun _ _ => (nf_triAt _ _).bind fun _ _ =>
      (nf_triAt _ _).bind fun _ _ => (nf_newTri _ _ _ _ _ _).bind fun _ _ => (nf_lift _).bind fun _ _ => (nf_attach _ _ _ _).bind fun _ _ =>
      (nf_addToTree _ _).bind fun _ _ => (nf_triAt _ _).bind fun _ _ => (nf_newTri _ _ _ _ _ _).bind fun _ _ => (nf_lift _).bind fun _ _ =>
      (nf_attach _ _ _ _).bind fun _ _ => (nf_addToTree _ _).bind fun _ _ => (nf_triAt _ _).bind fun _ _ => (nf_newTri _ _ _ _ _ _).bind fun _ _ =>
      (nf_lift _).bind fun _ _ => (nf_attach _ _ _ _).bind fun _ _ => (nf_addToTree _ _).bind fun _ _ => (nf_removeTri _ _).bind fun _ _ => nf_clean _ _

theorem nf_score (st : St K) (x : Fr K) (sTris : List Nat) (sNodes : List Int) (a b c d : Vec3 K) (bound : K) : NF (score P st x sTris sNodes a b c d bound) := by
  have last : ∀ q : K, NF (if bound < q then do pure (if ← containsNode P st.mesh a b c d sNodes then q - 2 else q) else (pure q : R K)) := by
    intro q
    split_ifs
    · exact (nf_containsNode _ _ _ _ _ _).bind fun _ _ => nf_pure _
    · exact nf_pure _
  have mid2 : ∀ q : K, NF (do
      let q ← if bound < q then do pure (if ← triangleOk P st.front x c a d sTris then q else q - 2) else pure q
      if bound < q then do pure (if ← containsNode P st.mesh a b c d sNodes then q - 2 else q) else (pure q : R K)) := by
    intro q
    split_ifs
    · exact (nf_triangleOk _ _ _ _ _ _).bind fun _ _ => (nf_pure _).bind fun _ _ => last _
    · exact (nf_pure _).bind fun _ _ => last _
  have mid1 : ∀ q : K, NF (do
      let q ← if bound < q then do pure (if ← triangleOk P st.front x b c d sTris then q else q - 2) else pure q
      let q ← if bound < q then do pure (if ← triangleOk P st.front x c a d sTris then q else q - 2) else pure q
      if bound < q then do pure (if ← containsNode P st.mesh a b c d sNodes then q - 2 else q) else (pure q : R K)) := by
    intro q
    by_cases h : bound < q
    · simp only [if_pos h]
      exact (nf_triangleOk _ _ _ _ _ _).bind fun _ _ => (nf_pure _).bind fun _ _ => mid2 _
    · simp only [if_neg h]
      exact (nf_pure _).bind fun _ _ => mid2 _
  unfold score
  simp only
  split_ifs
  · exact (nf_triangleOk _ _ _ _ _ _).bind fun _ _ => (nf_pure _).bind fun _ _ => mid1 _
  · exact (nf_pure _).bind fun _ _ => mid1 _

theorem nf_bestNode (st : St K) (x : Fr K) (sTris : List Nat) (sNodes : List Int) (a b c new : Vec3 K) (reach : K) (l : List Int) :
    ∀ best, NF (bestNode P st x sTris sNodes a b c new reach l best) := by
  induction l with
  | nil => exact fun _ => nf_pure _
  | cons n t ih =>
    intro best
    unfold bestNode
    split_ifs
    · exact ih _
    · refine (nf_nodeAt _ _).bind fun p _ => ?_
      split_ifs
      · exact (nf_score _ _ _ _ _ _ _ _ _).bind fun _ _ => ih _
      · exact ih _

theorem nf_closes (st : St K) (x : Fr K) (sTris : List Nat) (sNodes : List Int) (a b c d : Vec3 K) (n4 n5 n6 : Int) : NF (closes P st x sTris sNodes a b c d n4 n5 n6) := by
  unfold closes
  split_ifs
  · refine (nf_triangleOk _ _ _ _ _ _).bind fun r1 _ => ?_
    split_ifs
    · refine (nf_triangleOk _ _ _ _ _ _).bind fun r2 _ => ?_
      split_ifs
      · refine (nf_triangleOk _ _ _ _ _ _).bind fun r3 _ => ?_
        split_ifs
        · exact (nf_containsNode _ _ _ _ _ _).bind fun _ _ => nf_pure _
        · exact nf_pure _
      · exact nf_pure _
    · exact nf_pure _
  · exact nf_pure _
  · exact nf_pure _

theorem nf_tryNew (c : Pass K) (st : St K) (i : Nat) (x : Fr K) (sTris : List Nat) (sNodes : List Int) (n1 n2 n3 mid v new : Vec3 K) (base : K) :
    NF (tryNew P c st i x sTris sNodes n1 n2 n3 mid v new base) := by
  unfold tryNew
  refine (nf_shortestLoop _ _ _ _ _).bind fun dmin _ => ?_
  generalize (if base * c.sizeFactor * c.shrinkFactor * (1 / 4) < dmin ∧ dmin < base * c.sizeFactor * c.expandFactor
    then mid + (dmin * (1 / 2)) • v else new) = w
  simp only
  split_ifs
  · refine (nf_score _ _ _ _ _ _ _ _ _).bind fun q _ => ?_
    split_ifs
    · refine (nf_addTet _ _ _ _).bind fun _ _ => ?_
      split_ifs
      · exact nf_pure _
      · simp [NF]
    · exact nf_pure _
  · exact nf_pure _

theorem nf_opposite (front : List (Fr K)) (x : Fr K) (k : Nat) : NF (opposite front x k) :=
  (nf_lift _).bind fun _ _ => (nf_lift _).bind fun _ _ => nf_pure _

theorem nf_advance (c : Pass K) (st : St K) (i : Nat) (x : Fr K) : NF (advance P c st i x) := by
  unfold advance
  refine (nf_nodeAt _ _).bind fun _ _ => (nf_nodeAt _ _).bind fun _ _ => (nf_nodeAt _ _).bind fun _ _ => (nf_opposite _ _ _).bind fun _ _ =>
    (nf_opposite _ _ _).bind fun _ _ => (nf_opposite _ _ _).bind fun _ _ => (nf_nodeAt _ _).bind fun _ _ => (nf_lift _).bind fun _ _ =>
    (nf_findClosestNodes _ _).bind fun _ _ => (nf_closes _ _ _ _ _ _ _ _ _ _ _).bind fun cl _ => ?_
  cases cl with
  | true => rw [if_pos rfl]; exact nf_addTet _ _ _ _
  | false =>
    rw [if_neg (by simp)]
    refine (nf_bestNode _ _ _ _ _ _ _ _ _ _ _).bind fun best _ => ?_
    by_cases h2 : c.minQuality < best.1
    · rw [if_pos h2]; exact nf_addTet _ _ _ _
    · rw [if_neg h2]
      by_cases h3 : c.addNodes = true
      · rw [if_pos h3]; exact nf_tryNew _ _ _ _ _ _ _ _ _ _ _ _ _
      · rw [if_neg h3]; exact nf_pure _

theorem nf_rebuild (st : St K) : NF (rebuildConnectivity P st) := by
  refine (nf_foldlM _ (fun front i => ?_) _ _).bind fun _ _ => nf_pure _
  unfold rebuildOne
  refine (nf_triAt _ _).bind fun x _ => ?_
  split_ifs
  · exact nf_pure _
  · exact (nf_nodeAt _ _).bind fun _ _ => (nf_nodeAt _ _).bind fun _ _ => (nf_nodeAt _ _).bind fun _ _ => (nf_lift _).bind fun _ _ =>
      (nf_pairLoop _ _ _).bind fun _ _ => nf_checkOpen _ _

theorem nf_scanSides (m : Mesh K) (x y : Fr K) (r : Plan K) (kl : Nat × Nat) : NF (scanSides P m x y r kl) := by
  unfold scanSides
  refine (nf_nodeAt _ _).bind fun _ _ => (nf_nodeAt _ _).bind fun _ _ => ?_
  simp only
  split_ifs
  · exact nf_pure _
  · refine (nf_nodeAt _ _).bind fun _ _ => (nf_nodeAt _ _).bind fun _ _ => ?_
    split
    · exact nf_pure _
    · split_ifs <;> exact nf_pure _

theorem nf_scanTwo (m : Mesh K) (x : Fr K) (r : Plan K) (y : Fr K) : NF (scanTwo P m x r y) := by
  unfold scanTwo
  split_ifs
  · exact nf_pure _
  · split
    · exact nf_foldlM _ (fun _ _ => nf_scanSides _ _ _ _ _) _ _
    · exact nf_pure _

theorem nf_scan (l : List (Fr K)) : ∀ (st : St K) (r : Plan K), NF (scan P l st r) := by
  induction l with
  | nil => exact fun _ _ => nf_pure _
  | cons x t ih =>
    intro st r
    unfold scan
    simp only
    split_ifs
    · exact nf_pure _
    · exact ih _ _
    · exact (nf_foldlM _ (fun _ _ => nf_scanTwo _ _ _ _) _ _).bind fun _ _ => ih _ _

theorem nf_mapM {α β : Type} (g : α → R β) (hg : ∀ a, NF (g a)) (l : List α) : NF (l.mapM g) := by
  induction l with
  | nil => rw [List.mapM_nil]; exact nf_pure _
  | cons a t ih => rw [List.mapM_cons]; exact (hg a).bind fun _ _ => ih.bind fun _ _ => nf_pure _

theorem nf_around (m : Mesh K) (ball : Ball K) (els : List Int) (id : Int) : NF (around P m ball els id) :=
  (nf_lift _).bind fun _ _ => (nf_mapM _ (fun _ => nf_nodeAt _ _) _).bind fun _ _ => nf_pure _

theorem nf_collect (factor : K) (l : List (Vec3 K)) : ∀ (st : St K) (els : List Int), NF (collect P factor l st els) := by
  induction l with
  | nil => exact fun _ _ => nf_pure _
  | cons x t ih =>
    intro st r
    unfold collect
    simp only
    split_ifs
    · exact nf_pure _
    · exact (nf_foldlM _ (fun _ _ => nf_around _ _ _ _) _ _).bind fun _ _ => ih _ _

theorem nf_addFace (st : St K) (f : Face) : NF (addFace P st f) := by
  unfold addFace
  split
  · exact (nf_newTri _ _ _ _ _ _).bind fun _ _ => nf_addToTree _ _
  · simp [NF]

theorem nf_openElems (l : List Int) : ∀ st : St K, NF (openElems P l st) := by
  induction l with
  | nil => exact fun _ => nf_pure _
  | cons x t ih =>
    intro st
    unfold openElems
    simp only
    split_ifs
    · exact nf_pure _
    · exact (nf_lift _).bind fun _ _ => (nf_lift _).bind fun _ _ => (nf_foldlM _ (fun _ _ => nf_addFace _ _) _ _).bind fun _ _ => ih _

theorem nf_dedupInner (i : Nat) (l : List Nat) : ∀ (st : St K) (c : Nat), NF (dedupInner P i l st c) := by
  induction l with
  | nil => exact fun _ _ => nf_pure _
  | cons j t ih =>
    intro st c
    unfold dedupInner
    refine (nf_triAt _ _).bind fun _ _ => (nf_triAt _ _).bind fun _ _ => ?_
    split_ifs
    · exact ih _ _
    · exact (nf_removeTri _ _).bind fun _ _ => (nf_removeTri _ _).bind fun _ _ => ih _ _
    · exact ih _ _

theorem nf_dedup (l : List Nat) : ∀ st : St K, NF (dedup P l st) := by
  induction l with
  | nil => exact fun _ => nf_pure _
  | cons i t ih =>
    intro st
    unfold dedup
    simp only
    split_ifs
    · exact nf_pure _
    · refine (nf_triAt _ _).bind fun _ _ => ?_
      split_ifs
      · exact ih _
      · exact (nf_dedupInner _ _ _ _).bind fun _ _ => ih _

theorem nf_dropElems (l : List Int) : ∀ st : St K, NF (dropElems l st) := by
  induction l with
  | nil => exact fun _ => nf_pure _
  | cons i t ih => exact fun st => (nf_lift _).bind fun _ _ => ih _

theorem nf_repair (factor : K) (st : St K) : NF (repair P factor st) := by
  unfold repair
  refine (nf_scan _ _ _).bind fun a _ => ?_
  obtain ⟨st1, r⟩ := a
  simp only
  split
  · exact nf_pure _
  · refine (nf_collect _ _ _ _).bind fun b _ => ?_
    obtain ⟨st2, els⟩ := b
    simp only
    split
    · exact nf_pure _
    · refine (nf_openElems _ _).bind fun c _ => ?_
      obtain ⟨st3, go⟩ := c
      simp only
      split_ifs
      · refine (nf_dedup _ _).bind fun d _ => ?_
        obtain ⟨st4, go⟩ := d
        simp only
        split_ifs
        · exact (nf_rebuild _).bind fun _ _ => nf_dropElems _ _
        · exact nf_pure _
      · exact nf_pure _

theorem nf_triIds (src : Mesh K) (l : List Int) : ∀ i s, NF (triIds src l i s) := by
  induction l with
  | nil => exact fun _ _ => nf_pure _
  | cons i t ih =>
    intro k s
    unfold triIds
    refine (nf_lift _).bind fun _ _ => ?_
    split_ifs <;> exact ih _ _

theorem nf_neighbour (src : Mesh K) (ids : SMap Int Nat) (f : Int) : NF (neighbour src ids f) := by
  unfold neighbour
  refine (nf_lift _).bind fun f _ => ?_
  split_ifs
  · refine (nf_lift _).bind fun g _ => ?_
    split
    · exact nf_pure _
    · refine (nf_lift _).bind fun e _ => ?_
      split
      · exact nf_pure _
      · simp [NF]
  · simp [NF]

theorem nf_addTris (src : Mesh K) (ids : SMap Int Nat) (l : List Int) : ∀ st, NF (addTris P src ids l st) := by
  induction l with
  | nil => exact fun _ => nf_pure _
  | cons i t ih =>
    intro st
    unfold addTris
    refine (nf_lift _).bind fun el _ => ?_
    split_ifs
    · split
      · exact (nf_newTri _ _ _ _ _ _).bind fun _ _ => (nf_neighbour _ _ _).bind fun _ _ => (nf_neighbour _ _ _).bind fun _ _ =>
          (nf_neighbour _ _ _).bind fun _ _ => (nf_addToTree _ _).bind fun _ _ => ih _
      · simp [NF]
    · exact ih _

theorem nf_start (src : Mesh K) (points : List (Vec3 K)) (old : List (Int × Bool)) : NF (start P src points old) :=
  (TriMesher.nf_copyNodes _ _ _).bind fun _ _ => (nf_triIds _ _ _ _).bind fun _ _ => (nf_addTris _ _ _ _).bind fun _ _ => nf_pure _

/-! ### The number of rounds -/

theorem pass_fuel (hv : Rtree.VolOk P.vol) (ht : 0 ≤ P.tol) {c : Pass K} (hc : 0 ≤ c.minQuality) {M : Nat} (hM : P.maxElem = M) (hpos : 0 < M)
    (fuel : Nat) : ∀ (i : Nat) (st : St K), Inv P st → st.mesh.elements.count ≤ M → i ≤ st.front.length →
    st.front.length + 3 * (M - st.mesh.elements.count) < fuel + i → NF (pass P c fuel i st) := by
  induction fuel with
  | zero =>
    intro i st hi hl hle hfu
    omega
  | succ fuel ih =>
    intro i st hi hl hle hfu
    unfold pass
    cases he : st.front[i]? with
    | none => exact nf_pure _
    | some e =>
      have hlt : i < st.front.length := (List.getElem?_eq_some_iff.1 he).1
      simp only
      split_ifs with h1 h2 h3
      · exact ih _ _ hi hl (by omega) (by omega)
      · exact nf_pure _
      · simp [NF]
      · refine (nf_advance _ _ _ _).bind fun st1 hst1 => ?_
        have hc' : (tick P st).mesh.elements.count = st.mesh.elements.count := rfl
        have hf' : (tick P st).front.length = st.front.length := rfl
        have hlt2 : st.mesh.elements.count < M := by
          rw [hc', hM] at h3
          push Not at h3
          have := h3 (by exact_mod_cast hpos)
          exact_mod_cast this
        have g := advance_spec hv ht hc hi.tick he (by simp only [not_or, Bool.not_eq_true] at h1; exact h1.1) hst1
        rcases g.size with ⟨e1, e2⟩ | ⟨e1, e2⟩
        · exact ih _ _ g.inv (by omega) (by omega) (by omega)
        · exact ih _ _ g.inv (by omega) (by omega) (by omega)

theorem runPasses_fuel (hv : Rtree.VolOk P.vol) (ht : 0 ≤ P.tol) {M : Nat} (hM : P.maxElem = M) (hpos : 0 < M) {fuel : Nat} (cs : List (Pass K)) :
    ∀ st : St K, (∀ c ∈ cs, 0 ≤ c.minQuality) → Inv P st → st.mesh.elements.count ≤ M → st.front.length + 3 * M < fuel + 3 * st.mesh.elements.count →
    NF (runPasses P fuel cs st) ∧ ∀ st', runPasses P fuel cs st = .ok st' → Inv P st' ∧ st'.mesh.elements.count ≤ M ∧
      st'.front.length + 3 * st.mesh.elements.count = st.front.length + 3 * st'.mesh.elements.count := by
  induction cs with
  | nil =>
    intro st _ hi hl _
    refine ⟨nf_pure _, fun st' h => ?_⟩
    simp only [runPasses, pure_ok] at h
    subst h
    exact ⟨hi, hl, rfl⟩
  | cons c cs ih =>
    intro st hc hi hl hfu
    have key : ∀ st1, pass P c fuel 0 st = .ok st1 → Inv P st1 ∧ st1.mesh.elements.count ≤ M ∧
        st1.front.length + 3 * st.mesh.elements.count = st.front.length + 3 * st1.mesh.elements.count := by
      intro st1 h1
      have g := pass_spec hv ht (hc c (by simp)) fuel 0 st st1 hi h1
      obtain ⟨n, e1, e2⟩ := g.size
      refine ⟨g.inv, ?_, by omega⟩
      have := g.limit (by rw [hM]; exact_mod_cast hpos) (by rw [hM]; exact_mod_cast hl)
      rw [hM] at this
      exact_mod_cast this
    have hc' : ∀ c ∈ cs, 0 ≤ c.minQuality := fun c h => hc c (by simp [h])
    constructor
    · refine (pass_fuel hv ht (hc c (by simp)) hM hpos fuel 0 st hi hl (by omega) (by omega)).bind fun st1 h1 => ?_
      obtain ⟨k1, k2, k3⟩ := key st1 h1
      exact (ih st1 hc' k1 k2 (by omega)).1
    · intro st' h
      simp only [runPasses, bind_ok] at h
      obtain ⟨st1, h1, h⟩ := h
      obtain ⟨k1, k2, k3⟩ := key st1 h1
      obtain ⟨e1, e2, e3⟩ := (ih st1 hc' k1 k2 (by omega)).2 st' h
      exact ⟨e1, e2, by omega⟩

theorem rounds_fuel (hv : Rtree.VolOk P.vol) (ht : 0 ≤ P.tol) {M : Nat} (hM : P.maxElem = M) (hpos : 0 < M) {fuel : Nat} (is : List Nat) :
    ∀ st : St K, Inv P st → st.mesh.elements.count ≤ M → st.front.length + 7 * M * is.length < fuel → NF (rounds P fuel is st) := by
  induction is with
  | nil => exact fun _ _ _ _ => nf_pure _
  | cons i is ih =>
    intro st hi hl hfu
    rw [List.length_cons, Nat.mul_add, Nat.mul_one] at hfu
    unfold rounds
    by_cases h1 : unfinished st = true
    · rw [if_pos h1]
      refine (nf_repair _ _).bind fun st1 h1 => ?_
      have r1 := repair_spec hv ht hi h1
      have hf1 := r1.front
      have hc1 := r1.count
      obtain ⟨p1, p2⟩ := runPasses_fuel (fuel := fuel) hv ht hM hpos (roundPasses i) st1 (roundPasses_nonneg i) r1.inv (by omega) (by omega)
      refine p1.bind fun st2 h2 => ?_
      obtain ⟨k1, k2, k3⟩ := p2 st2 h2
      exact ih st2 k1 k2 (by omega)
    · rw [if_neg h1]; exact nf_pure _

theorem passes_fuel (hv : Rtree.VolOk P.vol) (ht : 0 ≤ P.tol) {M : Nat} (hM : P.maxElem = M) (hpos : 0 < M) {fuel : Nat} {st : St K} (hi : Inv P st)
    (h0 : st.mesh.elements.count = 0) (hfu : st.front.length + 87 * M < fuel) : NF (passes P fuel st) := by
  unfold passes
  obtain ⟨p1, p2⟩ := runPasses_fuel (fuel := fuel) hv ht hM hpos firstPasses st firstPasses_nonneg hi (by omega) (by omega)
  refine p1.bind fun st1 h1 => ?_
  obtain ⟨k1, k2, k3⟩ := p2 st1 h1
  refine (rounds_fuel hv ht hM hpos (List.range 12) st1 k1 k2 (by rw [List.length_range]; omega)).bind fun st2 h2 => ?_
  split_ifs
  · simp [NF]
  · exact nf_pure _

end TetMesher
end ENigMA
