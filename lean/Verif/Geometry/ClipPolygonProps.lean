import Verif.Geometry.Clip
import Verif.Geometry.LineProps
import Verif.Geometry.PolygonProps
import Verif.Geometry.VertexListProps

/-!
# C68: clipping a polygon
-/

set_option linter.unusedSectionVars false
set_option autoImplicit false

namespace ENigMA

variable {K : Type} [Field K] [LinearOrder K] [IsStrictOrderedRing K]

namespace Clip

open Polygon

/-- Height of a point above the plane. -/
def ht (pl : GPlane K) (x : Vec3 K) : K := pl.normal.dot x - pl.d

/-- Twice the vector area of the triangle `o`, `s`, `e`. -/
def tri (o s e : Vec3 K) : Vec3 K := Vec3.cross (s - o) (e - o)

theorem tri_split (o p q : Vec3 K) (t : K) : tri o p (p + t • (q - p)) + tri o (p + t • (q - p)) q = tri o p q := by
  unfold tri
  ext <;> simp [Vec3.cross_x, Vec3.cross_y, Vec3.cross_z] <;> ring

theorem tri_self (o p : Vec3 K) : tri o p p = 0 := by
  unfold tri
  ext <;> simp [Vec3.cross_x, Vec3.cross_y, Vec3.cross_z] <;> ring

theorem add_sub_self' (p q : Vec3 K) : p + (q - p) = q := by abel

/-- What clipping one edge with tolerance 0 gives. -/
inductive EdgeClip (pl : GPlane K) (p q : Vec3 K) (s e : Vec3 K) : Prop where
  | keep (hp : ht pl p < 0) (hq : ht pl q ≤ 0) (hs : s = p) (he : e = q)
  | keepq (hp : ht pl p ≤ 0) (hq : ht pl q < 0) (hs : s = p) (he : e = q)
  | exit (t : K) (ht0 : 0 ≤ t) (ht1 : t ≤ 1) (hp : ht pl p ≤ 0) (hq : 0 ≤ ht pl q) (hne : ht pl p ≠ ht pl q) (hs : s = p) (he : e = p + t • (q - p)) (h0 : ht pl e = 0)
  | enter (t : K) (ht0 : 0 ≤ t) (ht1 : t ≤ 1) (hp : 0 ≤ ht pl p) (hq : ht pl q ≤ 0) (hne : ht pl p ≠ ht pl q) (hs : s = p + t • (q - p)) (he : e = q) (h0 : ht pl s = 0)
  | drop (hp : 0 ≤ ht pl p) (hq : 0 ≤ ht pl q) (hs : s = p) (he : e = p)

theorem clip_vec (l : GLine K) (pl : GPlane K) (tol : K) : (l.clip pl tol).vec = (l.clip pl tol).endP - (l.clip pl tol).startP := rfl

/-- The parameter of the crossing point. -/
def alpha (pl : GPlane K) (p q : Vec3 K) : K := (pl.d - pl.normal.dot p) / pl.normal.dot (q - p)

theorem alpha_eq (pl : GPlane K) (p q : Vec3 K) : alpha pl p q = -ht pl p / (ht pl q - ht pl p) := by
  unfold alpha ht
  rw [Vec3.dot_sub]
  congr 1 <;> ring

theorem ht_alpha (pl : GPlane K) (p q : Vec3 K) (h : ht pl p ≠ ht pl q) : ht pl (p + alpha pl p q • (q - p)) = 0 := by
  have h' : ht pl q - ht pl p ≠ 0 := fun hh => h (by linarith)
  have : ht pl (p + alpha pl p q • (q - p)) = ht pl p + alpha pl p q * (ht pl q - ht pl p) := by
    unfold ht
    rw [Vec3.dot_add, Vec3.dot_smul, Vec3.dot_sub]
    ring
  rw [this, alpha_eq]
  field_simp
  ring

/-- The five outcomes of clipping an edge, in terms of the heights of its ends. -/
theorem clip_eq (pl : GPlane K) (p q : Vec3 K) :
    (((GLine.mk2 p q).clip pl 0).startP, ((GLine.mk2 p q).clip pl 0).endP) =
      if ht pl p = ht pl q then (if ht pl p < 0 then (p, q) else (p, p))
      else if ht pl p < ht pl q then
        (if ht pl p ≤ 0 ∧ 0 ≤ ht pl q then (p, p + alpha pl p q • (q - p)) else if ht pl p < 0 then (p, q) else (p, p))
      else (if 0 ≤ ht pl p ∧ ht pl q ≤ 0 then (p + alpha pl p q • (q - p), q) else if ht pl p < 0 then (p, q) else (p, p)) := by
  have hden : pl.normal.dot (q - p) = ht pl q - ht pl p := by unfold ht; rw [Vec3.dot_sub]; ring
  have hnum : ∀ x : K, (pl.normal.dot p < pl.d) ↔ ht pl p < 0 := by intro _; unfold ht; constructor <;> intro h <;> linarith
  have hal : (pl.d - pl.normal.dot p) / pl.normal.dot (q - p) = alpha pl p q := rfl
  unfold GLine.clip GLine.mk2
  dsimp only
  rw [hal, add_sub_self', hden]
  simp only [hnum 0]
  by_cases h1 : ht pl p = ht pl q
  · rw [if_neg (by rw [h1]; simp), if_pos h1]
  · have h1' : ht pl q - ht pl p ≠ 0 := fun hh => h1 (by linarith)
    rw [if_pos (abs_pos.2 h1'), if_neg h1, alpha_eq]
    by_cases h2 : ht pl p < ht pl q
    · have h3 : 0 < ht pl q - ht pl p := by linarith
      have e1 : (0 ≤ -ht pl p / (ht pl q - ht pl p) ∧ -ht pl p / (ht pl q - ht pl p) ≤ 1) ↔ (ht pl p ≤ 0 ∧ 0 ≤ ht pl q) := by
        rw [le_div_iff₀ h3, div_le_one h3]
        constructor <;> rintro ⟨a, b⟩ <;> constructor <;> linarith
      simp only [if_pos h2, if_pos h3, e1]
    · have h3 : ht pl q - ht pl p < 0 := lt_of_le_of_ne (by linarith) h1'
      have e1 : (0 ≤ -ht pl p / (ht pl q - ht pl p) ∧ -ht pl p / (ht pl q - ht pl p) ≤ 1) ↔ (0 ≤ ht pl p ∧ ht pl q ≤ 0) := by
        rw [le_div_iff_of_neg h3, div_le_one_of_neg h3]
        constructor <;> rintro ⟨a, b⟩ <;> constructor <;> linarith
      simp only [if_neg h2, if_neg h3.not_gt, e1]

theorem alpha_mem (pl : GPlane K) (p q : Vec3 K) (h : ht pl p ≠ ht pl q) (h2 : (ht pl p ≤ 0 ∧ 0 ≤ ht pl q) ∨ (0 ≤ ht pl p ∧ ht pl q ≤ 0)) :
    0 ≤ alpha pl p q ∧ alpha pl p q ≤ 1 := by
  rw [alpha_eq]
  rcases h2 with h2 | h2
  · have h3 : 0 < ht pl q - ht pl p := lt_of_le_of_ne (by linarith) (fun hh => h (by linarith))
    rw [le_div_iff₀ h3, div_le_one h3]; constructor <;> linarith
  · have h3 : ht pl q - ht pl p < 0 := lt_of_le_of_ne (by linarith) (fun hh => h (by linarith))
    rw [le_div_iff_of_neg h3, div_le_one_of_neg h3]; constructor <;> linarith

theorem edgeClip (pl : GPlane K) (p q : Vec3 K) : EdgeClip pl p q ((GLine.mk2 p q).clip pl 0).startP ((GLine.mk2 p q).clip pl 0).endP := by
  have h := clip_eq pl p q
  rw [Prod.ext_iff] at h
  dsimp only at h
  rw [h.1, h.2]
  clear h
  by_cases h1 : ht pl p = ht pl q
  · simp only [if_pos h1]
    by_cases h2 : ht pl p < 0
    · simp only [if_pos h2]; exact .keep h2 (by rw [← h1]; exact h2.le) rfl rfl
    · simp only [if_neg h2]; exact .drop (not_lt.1 h2) (by rw [← h1]; exact not_lt.1 h2) rfl rfl
  · simp only [if_neg h1]
    by_cases h2 : ht pl p < ht pl q
    · simp only [if_pos h2]
      by_cases h3 : ht pl p ≤ 0 ∧ 0 ≤ ht pl q
      · simp only [if_pos h3]
        obtain ⟨a, b⟩ := alpha_mem pl p q h1 (Or.inl h3)
        exact .exit _ a b h3.1 h3.2 h1 rfl rfl (ht_alpha pl p q h1)
      · simp only [if_neg h3]
        by_cases h4 : ht pl p < 0
        · simp only [if_pos h4]
          exact .keep h4 (by by_contra hh; push Not at hh; exact h3 ⟨h4.le, hh.le⟩) rfl rfl
        · simp only [if_neg h4]
          exact .drop (not_lt.1 h4) (by linarith) rfl rfl
    · simp only [if_neg h2]
      have h2' : ht pl q < ht pl p := lt_of_le_of_ne (not_lt.1 h2) (Ne.symm h1)
      by_cases h3 : 0 ≤ ht pl p ∧ ht pl q ≤ 0
      · simp only [if_pos h3]
        obtain ⟨a, b⟩ := alpha_mem pl p q h1 (Or.inr h3)
        exact .enter _ a b h3.1 h3.2 h1 rfl rfl (ht_alpha pl p q h1)
      · simp only [if_neg h3]
        by_cases h4 : ht pl p < 0
        · simp only [if_pos h4]
          exact .keep h4 (by linarith) rfl rfl
        · simp only [if_neg h4]
          refine .drop (not_lt.1 h4) ?_ rfl rfl
          by_contra hh; push Not at hh; exact h3 ⟨not_lt.1 h4, hh.le⟩

/-- The two clips of an edge, by the plane and by its opposite, make up the edge. -/
theorem clip_add (pl : GPlane K) (o p q : Vec3 K) (h : ht pl p = 0 → ht pl q = 0 → tri o p q = 0) :
    tri o ((GLine.mk2 p q).clip pl 0).startP ((GLine.mk2 p q).clip pl 0).endP +
      tri o ((GLine.mk2 p q).clip pl.invert 0).startP ((GLine.mk2 p q).clip pl.invert 0).endP = tri o p q := by
  have e1 := clip_eq pl p q
  have e2 := clip_eq pl.invert p q
  have hi : ∀ x, ht pl.invert x = -ht pl x := by
    intro x; unfold ht GPlane.invert; simp only [Vec3.dot, Vec3.neg_x, Vec3.neg_y, Vec3.neg_z]; ring
  have ha : alpha pl.invert p q = alpha pl p q := by
    rw [alpha_eq, alpha_eq, hi, hi, show -ht pl q - -ht pl p = -(ht pl q - ht pl p) by ring, neg_div_neg_eq]
  rw [ha, hi, hi] at e2
  rw [Prod.ext_iff] at e1 e2
  dsimp only at e1 e2
  rw [e1.1, e1.2, e2.1, e2.2]
  clear e1 e2
  have hsp := tri_split o p q (alpha pl p q)
  have hz := tri_self o p
  generalize alpha pl p q = t at *
  generalize ht pl p = a at *
  generalize ht pl q = b at *
  simp only [neg_inj, neg_lt_neg_iff, Left.neg_nonpos_iff, Left.nonneg_neg_iff, Left.neg_neg_iff]
  split_ifs <;> dsimp only <;>
    first
    | (exact hsp)
    | (rw [add_comm]; exact hsp)
    | (exfalso; grind)
    | (rw [hz, zero_add]; done)
    | (rw [hz, add_zero]; done)
    | (rw [hz, zero_add, h (by grind) (by grind)])

/-! ### The end points of the pieces -/

/-- The end points of the non-degenerate pieces of the edges. -/
def ends (pl : GPlane K) : List (Vec3 K) → List (Vec3 K)
  | p :: q :: l =>
    if ((GLine.mk2 p q).clip pl 0).startP ≠ ((GLine.mk2 p q).clip pl 0).endP then
      ((GLine.mk2 p q).clip pl 0).startP :: ((GLine.mk2 p q).clip pl 0).endP :: ends pl (q :: l)
    else ends pl (q :: l)
  | _ => []

theorem nrm_pos_iff {nrm : Vec3 K → K} (hN : IsNorm nrm) (v : Vec3 K) : 0 < nrm v ↔ v ≠ 0 :=
  ⟨fun h h0 => by rw [h0, hN.zero] at h; exact lt_irrefl _ h, fun h => hN.pos h⟩

theorem endPoints_clip {nrm : Vec3 K → K} (hN : IsNorm nrm) (pl : GPlane K) (vs : List (Vec3 K)) :
    Polyline.endPoints nrm (Polyline.clip nrm pl 0 vs) = ends pl vs := by
  unfold Polyline.clip Polyline.endPoints
  induction vs with
  | nil => rfl
  | cons p l ih =>
    cases l with
    | nil => rfl
    | cons q l =>
      simp only [Polyline.lines, List.map_cons, ends]
      have h : 0 < nrm ((GLine.mk2 p q).clip pl 0).vec ↔ ((GLine.mk2 p q).clip pl 0).startP ≠ ((GLine.mk2 p q).clip pl 0).endP := by
        rw [nrm_pos_iff hN, clip_vec, Ne, sub_eq_zero, eq_comm]
      by_cases hh : ((GLine.mk2 p q).clip pl 0).startP = ((GLine.mk2 p q).clip pl 0).endP
      · rw [List.filter_cons_of_neg (by rw [decide_eq_true_eq, h]; exact fun h => h hh), ih, if_neg (fun h => h hh)]
      · rw [List.filter_cons_of_pos (by rw [decide_eq_true_eq, h]; exact hh), List.flatMap_cons, ih, if_pos (h.2 hh), if_pos hh]
        rfl

theorem fuseFrom_zero {nrm : Vec3 K → K} (hN : IsNorm nrm) (a : Vec3 K) (l : List (Vec3 K)) : Polyline.fuseFrom nrm 0 a l = l := by
  induction l generalizing a with
  | nil => rfl
  | cons b l ih =>
    unfold Polyline.fuseFrom
    split_ifs with h
    · have : b = a := by
        by_contra hh
        exact absurd (hN.pos (sub_ne_zero.2 hh)) (not_lt.2 h)
      rw [ih, this]
    · rw [ih]

theorem fuse_zero {nrm : Vec3 K → K} (hN : IsNorm nrm) (l : List (Vec3 K)) : Polyline.fuse nrm 0 l = l := by
  cases l with
  | nil => rfl
  | cons a l => exact congrArg (a :: ·) (fuseFrom_zero hN a l)

theorem clip_vs {nrm : Vec3 K → K} (hN : IsNorm nrm) (pl : GPlane K) (p : Polygon K) :
    (p.clip nrm pl 0).vs = Polyline.close nrm 0 (VertexList.removeDuplicates (ends pl p.vs)) := by
  unfold Polygon.clip Polyline.setLines
  rw [if_neg (by simp), endPoints_clip hN, fuse_zero hN]
  rfl

theorem mem_uniqueFrom {α : Type} [DecidableEq α] (a : α) (l : List α) (x : α) : x ∈ VertexList.uniqueFrom a l ↔ x ∈ a :: l := by
  induction l generalizing a with
  | nil => simp [VertexList.uniqueFrom]
  | cons b l ih =>
    unfold VertexList.uniqueFrom
    split_ifs with h
    · rw [ih]; subst h; simp
    · rw [List.mem_cons, ih, List.mem_cons (a := x) (b := a)]

theorem mem_removeDuplicates {α : Type} [DecidableEq α] (l : List α) (x : α) : x ∈ VertexList.removeDuplicates l ↔ x ∈ l := by
  cases l with
  | nil => rfl
  | cons a l => exact mem_uniqueFrom a l x

theorem mem_close (nrm : Vec3 K → K) (tol : K) (l : List (Vec3 K)) (x : Vec3 K) : x ∈ Polyline.close nrm tol l ↔ x ∈ l := by
  unfold Polyline.close
  cases l with
  | nil => rfl
  | cons a l =>
    rw [List.head?_cons, List.getLast?_eq_some_getLast (by simp)]
    dsimp only
    split_ifs
    · rw [List.mem_append, List.mem_singleton, List.mem_cons]; tauto
    · rfl

theorem mem_clip {nrm : Vec3 K → K} (hN : IsNorm nrm) (pl : GPlane K) (p : Polygon K) (x : Vec3 K) :
    x ∈ (p.clip nrm pl 0).vs ↔ x ∈ ends pl p.vs := by
  rw [clip_vs hN, mem_close, mem_removeDuplicates]

/-- A kept piece lies on the edge and in the half-space. -/
theorem EdgeClip.piece {pl : GPlane K} {p q s e : Vec3 K} (h : EdgeClip pl p q s e) (hne : s ≠ e) :
    (ht pl s ≤ 0 ∧ Seg p q s ∧ (s = p ∨ (ht pl s = 0 ∧ 0 ≤ ht pl p))) ∧
      (ht pl e ≤ 0 ∧ Seg p q e ∧ (e = q ∨ (ht pl e = 0 ∧ 0 ≤ ht pl q))) := by
  have s0 : Seg p q p := ⟨0, le_refl _, zero_le_one, by simp⟩
  have s1 : Seg p q q := ⟨1, zero_le_one, le_refl _, by simp⟩
  cases h with
  | keep hp hq hs he => subst hs he; exact ⟨⟨hp.le, s0, .inl rfl⟩, hq, s1, .inl rfl⟩
  | keepq hp hq hs he => subst hs he; exact ⟨⟨hp, s0, .inl rfl⟩, hq.le, s1, .inl rfl⟩
  | exit t h0 h1 hp hq hn hs he hz =>
    rw [hs]
    exact ⟨⟨hp, s0, .inl rfl⟩, hz.le, ⟨t, h0, h1, he⟩, .inr ⟨hz, hq⟩⟩
  | enter t h0 h1 hp hq hn hs he hz =>
    rw [he]
    exact ⟨⟨hz.le, ⟨t, h0, h1, hs⟩, .inr ⟨hz, hp⟩⟩, hq, s1, .inl rfl⟩
  | drop hp hq hs he => exact absurd (hs.trans he.symm) hne

theorem EdgeClip.dropped {pl : GPlane K} {p q s e : Vec3 K} (h : EdgeClip pl p q s e) (hne : s = e) :
    p = q ∨ (0 ≤ ht pl p ∧ 0 ≤ ht pl q) := by
  cases h with
  | keep hp hq hs he => subst hs he; exact .inl hne
  | keepq hp hq hs he => subst hs he; exact .inl hne
  | exit t h0 h1 hp hq hn hs he hz => refine .inr ⟨?_, hq⟩; rw [← hs, hne, hz]
  | enter t h0 h1 hp hq hn hs he hz => refine .inr ⟨hp, ?_⟩; rw [← he, ← hne, hz]
  | drop hp hq hs he => exact .inr ⟨hp, hq⟩

theorem mem_ends (pl : GPlane K) (vs : List (Vec3 K)) (x : Vec3 K) (h : x ∈ ends pl vs) :
    ht pl x ≤ 0 ∧ ∃ e ∈ vs.zip vs.tail, Seg e.1 e.2 x := by
  induction vs with
  | nil => cases h
  | cons p l ih =>
    cases l with
    | nil => cases h
    | cons q l =>
      have hrest : x ∈ ends pl (q :: l) → ht pl x ≤ 0 ∧ ∃ e ∈ (p :: q :: l).zip (p :: q :: l).tail, Seg e.1 e.2 x := by
        intro h
        obtain ⟨h1, e, he, hs⟩ := ih h
        exact ⟨h1, e, List.mem_cons_of_mem _ he, hs⟩
      unfold ends at h
      split_ifs at h with hne
      · have hp := (edgeClip pl p q).piece hne
        rw [List.mem_cons, List.mem_cons] at h
        rcases h with h | h | h
        · rw [h]; exact ⟨hp.1.1, (p, q), by simp, hp.1.2.1⟩
        · rw [h]; exact ⟨hp.2.1, (p, q), by simp, hp.2.2.1⟩
        · exact hrest h
      · exact hrest h

theorem kept_mem_ends (pl : GPlane K) (vs : List (Vec3 K)) (v : Vec3 K) (hv : v ∈ vs) (h0 : ht pl v < 0) (hne : ∃ x ∈ vs, x ≠ v) :
    v ∈ ends pl vs := by
  induction vs with
  | nil => cases hv
  | cons p l ih2 =>
    cases l with
    | nil => obtain ⟨x, hx, hne⟩ := hne; rw [List.mem_singleton] at hv hx; exact absurd (hx.trans hv.symm) hne
    | cons q l =>
      have hrest : v ∈ ends pl (q :: l) → v ∈ ends pl (p :: q :: l) := by
        intro h; unfold ends; split_ifs
        · exact List.mem_cons_of_mem _ (List.mem_cons_of_mem _ h)
        · exact h
      have hc := edgeClip pl p q
      by_cases hp : p = v
      · by_cases hq : q = v
        · refine hrest (ih2 (by rw [hq]; exact List.mem_cons_self) ?_)
          obtain ⟨x, hx, hne⟩ := hne
          rw [List.mem_cons] at hx
          rcases hx with h | h
          · exact absurd (h.trans hp) hne
          · exact ⟨x, h, hne⟩
        · subst hp
          by_cases hse : ((GLine.mk2 p q).clip pl 0).startP = ((GLine.mk2 p q).clip pl 0).endP
          · rcases hc.dropped hse with h | h
            · exact absurd h.symm hq
            · exact absurd h.1 (not_le.2 h0)
          · unfold ends
            rw [if_pos hse]
            rcases (hc.piece hse).1.2.2 with h | h
            · rw [h]; exact List.mem_cons_self
            · exact absurd h.2 (not_le.2 h0)
      · rw [List.mem_cons] at hv
        rcases hv with h | hv
        · exact absurd h.symm hp
        · by_cases hq : q = v
          · subst hq
            by_cases hse : ((GLine.mk2 p q).clip pl 0).startP = ((GLine.mk2 p q).clip pl 0).endP
            · rcases hc.dropped hse with h | h
              · exact absurd h hp
              · exact absurd h.2 (not_le.2 h0)
            · unfold ends
              rw [if_pos hse]
              rcases (hc.piece hse).2.2.2 with h | h
              · rw [h]; simp
              · exact absurd h.2 (not_le.2 h0)
          · exact hrest (ih2 hv ⟨q, List.mem_cons_self, hq⟩)

/-! ### Areas -/

/-- The vector area (twice) swept from `o` along a path. -/
def sweep (o : Vec3 K) (l : List (Vec3 K)) : Vec3 K := openArea2 (l.map (· - o))

theorem sweep_cons_cons (o a b : Vec3 K) (l : List (Vec3 K)) : sweep o (a :: b :: l) = tri o a b + sweep o (b :: l) := rfl
theorem sweep_nil (o : Vec3 K) : sweep o ([] : List (Vec3 K)) = 0 := rfl
theorem sweep_single (o a : Vec3 K) : sweep o [a] = 0 := rfl

theorem vecArea2_sweep (o a : Vec3 K) (l : List (Vec3 K)) : vecArea2 (a :: l) = sweep o (a :: l ++ [a]) := by
  rw [← vecArea2_translate o]
  simp only [List.map_cons, vecArea2, sweep, List.map_append, List.map_nil]

theorem sweep_append (o a b : Vec3 K) (l : List (Vec3 K)) : sweep o (a :: l ++ [b]) = sweep o (a :: l) + tri o ((a :: l).getLast (by simp)) b := by
  induction l generalizing a with
  | nil => simp [sweep_cons_cons, sweep_single]
  | cons c l ih =>
    rw [List.cons_append, List.cons_append, sweep_cons_cons, ← List.cons_append, ih, sweep_cons_cons, List.getLast_cons_cons, add_assoc]

theorem uniqueFrom_sweep (o a : Vec3 K) (l : List (Vec3 K)) : sweep o (VertexList.uniqueFrom a l) = sweep o (a :: l) := by
  induction l generalizing a with
  | nil => rfl
  | cons b l ih =>
    unfold VertexList.uniqueFrom
    split_ifs with h
    · subst h; rw [ih, sweep_cons_cons, tri_self, zero_add]
    · obtain ⟨r, hr⟩ := uniqueFrom_head b l
      have := ih b
      rw [hr] at this ⊢
      rw [sweep_cons_cons, sweep_cons_cons, this]

theorem uniqueFrom_getLast (a : Vec3 K) (l : List (Vec3 K)) : (VertexList.uniqueFrom a l).getLast? = (a :: l).getLast? := by
  induction l generalizing a with
  | nil => rfl
  | cons b l ih =>
    unfold VertexList.uniqueFrom
    split_ifs with h
    · subst h; rw [ih, List.getLast?_cons_cons]
    · obtain ⟨r, hr⟩ := uniqueFrom_head b l
      have := ih b
      rw [hr] at this ⊢
      rw [List.getLast?_cons_cons, this, List.getLast?_cons_cons]

theorem removeDuplicates_area (l : List (Vec3 K)) : vecArea2 (VertexList.removeDuplicates l) = vecArea2 l := by
  cases l with
  | nil => rfl
  | cons a l =>
    have h1 := uniqueFrom_sweep 0 a l
    have h2 := uniqueFrom_getLast a l
    change vecArea2 (VertexList.uniqueFrom a l) = _
    obtain ⟨r, hr⟩ := uniqueFrom_head a l
    rw [hr] at h1 h2 ⊢
    rw [vecArea2_sweep 0, vecArea2_sweep 0, sweep_append, sweep_append, h1]
    rw [List.getLast?_eq_some_getLast (by simp), List.getLast?_eq_some_getLast (by simp)] at h2
    rw [Option.some.inj h2]

theorem close_area (nrm : Vec3 K → K) (tol : K) (l : List (Vec3 K)) : vecArea2 (Polyline.close nrm tol l) = vecArea2 l := by
  unfold Polyline.close
  cases l with
  | nil => rfl
  | cons a l =>
    rw [List.head?_cons, List.getLast?_eq_some_getLast (by simp)]
    dsimp only
    split_ifs
    · exact vecArea2_closed a l
    · rfl

theorem clip_area {nrm : Vec3 K → K} (hN : IsNorm nrm) (pl : GPlane K) (p : Polygon K) :
    vecArea2 (p.clip nrm pl 0).vs = vecArea2 (ends pl p.vs) := by
  rw [clip_vs hN, close_area, removeDuplicates_area]

/-- A point of the result that stands for the vertex `p`: the vertex itself, or a point on the plane if `p` is not strictly inside. -/
def Link (pl : GPlane K) (e p : Vec3 K) : Prop := ht pl e ≤ 0 ∧ (e = p ∨ (ht pl e = 0 ∧ 0 ≤ ht pl p))

theorem Link.both {pl : GPlane K} {e s p : Vec3 K} (h1 : Link pl e p) (h2 : Link pl s p) : e = s ∨ (ht pl e = 0 ∧ ht pl s = 0) := by
  obtain ⟨a1, b1⟩ := h1
  obtain ⟨a2, b2⟩ := h2
  rcases b1 with rfl | b1
  · rcases b2 with rfl | b2
    · exact .inl rfl
    · exact .inr ⟨le_antisymm a1 b2.2, b2.1⟩
  · rcases b2 with rfl | b2
    · exact .inr ⟨b1.1, le_antisymm a2 b1.2⟩
    · exact .inr ⟨b1.1, b2.1⟩

/-- Sum over the edges of the areas swept by their pieces. -/
def pieceSum (pl : GPlane K) (o : Vec3 K) : List (Vec3 K) → Vec3 K
  | p :: q :: l => tri o ((GLine.mk2 p q).clip pl 0).startP ((GLine.mk2 p q).clip pl 0).endP + pieceSum pl o (q :: l)
  | _ => 0

theorem ends_head (pl : GPlane K) (p : Vec3 K) (l : List (Vec3 K)) (s : Vec3 K) (h : (ends pl (p :: l)).head? = some s) : Link pl s p := by
  induction l generalizing p with
  | nil => cases h
  | cons q l ih =>
    unfold ends at h
    split_ifs at h with hne
    · have hp := ((edgeClip pl p q).piece hne).1
      rw [List.head?_cons] at h
      rw [← Option.some.inj h]
      exact ⟨hp.1, hp.2.2⟩
    · obtain ⟨h1, h2⟩ := ih q h
      rcases (edgeClip pl p q).dropped (not_not.1 hne) with hpq | hd
      · rw [hpq]; exact ⟨h1, h2⟩
      · refine ⟨h1, .inr ⟨?_, hd.1⟩⟩
        rcases h2 with rfl | h2
        · exact le_antisymm h1 hd.2
        · exact h2.1

theorem ends_last (pl : GPlane K) (p : Vec3 K) (l : List (Vec3 K)) (e : Vec3 K) (h : (ends pl (p :: l)).getLast? = some e) :
    Link pl e ((p :: l).getLast (by simp)) := by
  induction l generalizing p with
  | nil => cases h
  | cons q l ih =>
    rw [List.getLast_cons_cons]
    by_cases hq : ends pl (q :: l) = []
    · -- all later edges are dropped
      have hdrop : ∀ (q : Vec3 K) (l : List (Vec3 K)), ends pl (q :: l) = [] → Link pl e q → Link pl e ((q :: l).getLast (by simp)) := by
        intro q l
        induction l generalizing q with
        | nil => intro _ h; exact h
        | cons r l ih2 =>
          intro h1 h2
          rw [List.getLast_cons_cons]
          unfold ends at h1
          split_ifs at h1 with hne
          refine ih2 r h1 ?_
          rcases (edgeClip pl q r).dropped (not_not.1 hne) with hqr | hd
          · rw [← hqr]; exact h2
          · refine ⟨h2.1, .inr ⟨?_, hd.2⟩⟩
            rcases h2.2 with h3 | h3
            · exact le_antisymm h2.1 (by rw [h3]; exact hd.1)
            · exact h3.1
      refine hdrop q l hq ?_
      unfold ends at h
      rw [hq] at h
      split_ifs at h with hne
      · have hp := ((edgeClip pl p q).piece hne).2
        have he : ((GLine.mk2 p q).clip pl 0).endP = e := Option.some.inj h
        rw [← he]
        exact ⟨hp.1, hp.2.2⟩
      · cases h
    · refine ih q ?_
      unfold ends at h
      split_ifs at h with hne
      · obtain ⟨c, r, hr⟩ := List.exists_cons_of_ne_nil hq
        rw [hr, List.getLast?_cons_cons, List.getLast?_cons_cons] at h
        rw [hr]; exact h
      · exact h

/-- The path through the end points sweeps the areas of the pieces, when paths inside the plane sweep nothing. -/
theorem ends_sweep (pl : GPlane K) (o : Vec3 K) (P : Vec3 K → Prop) (hP : ∀ x y, P x → P y → ht pl x = 0 → ht pl y = 0 → tri o x y = 0)
    (p : Vec3 K) (l : List (Vec3 K)) (hm : ∀ x ∈ ends pl (p :: l), P x) : sweep o (ends pl (p :: l)) = pieceSum pl o (p :: l) := by
  induction l generalizing p with
  | nil => rfl
  | cons q l ih =>
    unfold ends pieceSum
    by_cases hne : ((GLine.mk2 p q).clip pl 0).startP = ((GLine.mk2 p q).clip pl 0).endP
    · unfold ends at hm
      rw [if_neg (fun h => h hne)] at hm ⊢
      rw [ih q hm, hne, tri_self, zero_add]
    · unfold ends at hm
      rw [if_pos hne] at hm ⊢
      rw [sweep_cons_cons, ← ih q (fun x hx => hm x (List.mem_cons_of_mem _ (List.mem_cons_of_mem _ hx)))]
      congr 1
      have hpc := ((edgeClip pl p q).piece hne).2
      cases hE : ends pl (q :: l) with
      | nil => rfl
      | cons s r =>
        have hs := ends_head pl q l s (by rw [hE]; rfl)
        rw [sweep_cons_cons]
        have : tri o ((GLine.mk2 p q).clip pl 0).endP s = 0 := by
          have he : Link pl ((GLine.mk2 p q).clip pl 0).endP q := ⟨hpc.1, hpc.2.2⟩
          rcases he.both hs with h | h
          · rw [h, tri_self]
          · refine hP _ _ (hm _ (by simp)) (hm _ (by rw [hE]; simp)) h.1 h.2
        rw [this, zero_add]

/-- The area of the closed path through the end points of the pieces of a closed polygon. -/
theorem ends_area (pl : GPlane K) (o : Vec3 K) (P : Vec3 K → Prop) (hP : ∀ x y, P x → P y → ht pl x = 0 → ht pl y = 0 → tri o x y = 0)
    (a : Vec3 K) (l : List (Vec3 K)) (hm : ∀ x ∈ ends pl (a :: l ++ [a]), P x) :
    vecArea2 (ends pl (a :: l ++ [a])) = pieceSum pl o (a :: l ++ [a]) := by
  rw [List.cons_append] at *
  rw [← ends_sweep pl o P hP a (l ++ [a]) hm]
  have hh := ends_head pl a (l ++ [a])
  have hl := ends_last pl a (l ++ [a])
  cases hE : ends pl (a :: (l ++ [a])) with
  | nil => rfl
  | cons s r =>
    rw [hE] at hh hl hm
    have hs := hh s rfl
    have he := hl _ (List.getLast?_eq_some_getLast (by simp))
    rw [vecArea2_sweep o, sweep_append]
    have : (a :: (l ++ [a])).getLast (by simp) = a := by simp
    rw [this] at he
    have : tri o ((s :: r).getLast (by simp)) s = 0 := by
      rcases he.both hs with h | h
      · rw [h, tri_self]
      · exact hP _ _ (hm _ (List.getLast_mem _)) (hm _ (by simp)) h.1 h.2
    rw [this, add_zero]

theorem pieceSum_add (pl : GPlane K) (o : Vec3 K) (vs : List (Vec3 K)) (h : ∀ x ∈ vs, ∀ y ∈ vs, ht pl x = 0 → ht pl y = 0 → tri o x y = 0) :
    pieceSum pl o vs + pieceSum pl.invert o vs = sweep o vs := by
  induction vs with
  | nil => simp [pieceSum, sweep_nil]
  | cons p l ih =>
    cases l with
    | nil => simp [pieceSum, sweep_single]
    | cons q l =>
      have h1 := clip_add pl o p q (h p (by simp) q (by simp))
      have h2 := ih (fun x hx y hy => h x (List.mem_cons_of_mem _ hx) y (List.mem_cons_of_mem _ hy))
      unfold pieceSum
      rw [sweep_cons_cons, ← h1, ← h2]
      abel

theorem crossing_mem_ends (pl : GPlane K) (vs : List (Vec3 K)) (p q x : Vec3 K) (he : (p, q) ∈ vs.zip vs.tail)
    (hc : (ht pl p < 0 ∧ 0 < ht pl q) ∨ (0 < ht pl p ∧ ht pl q < 0)) (hx : Seg p q x) (h0 : ht pl x = 0) : x ∈ ends pl vs := by
  induction vs with
  | nil => cases he
  | cons a l ih =>
    cases l with
    | nil => cases he
    | cons b l =>
      rw [List.tail_cons, List.zip_cons_cons, List.mem_cons] at he
      rcases he with he | he
      · obtain ⟨rfl, rfl⟩ := Prod.mk.inj he
        obtain ⟨t, -, -, ht'⟩ := hx
        have hlin : ∀ u : K, ht pl (p + u • (q - p)) = ht pl p + u * (ht pl q - ht pl p) := by
          intro u; unfold ht; rw [Vec3.dot_add, Vec3.dot_smul, Vec3.dot_sub]; ring
        have huniq : ∀ u : K, ht pl (p + u • (q - p)) = 0 → x = p + u • (q - p) := by
          intro u hu
          rw [ht', hlin] at h0
          rw [hlin] at hu
          have hd : ht pl q - ht pl p ≠ 0 := by rcases hc with hc | hc <;> intro hh <;> linarith [hc.1, hc.2]
          have : t = u := mul_right_cancel₀ hd (by linarith)
          rw [ht', this]
        have hpx : ht pl p ≠ 0 ∧ ht pl q ≠ 0 := by rcases hc with hc | hc; exacts [⟨hc.1.ne, hc.2.ne'⟩, ⟨hc.1.ne', hc.2.ne⟩]
        unfold ends
        have hcl := edgeClip pl p q
        cases hcl with
        | keep hp hq hs he => exfalso; rcases hc with hc | hc <;> linarith [hc.1, hc.2]
        | keepq hp hq hs he => exfalso; rcases hc with hc | hc <;> linarith [hc.1, hc.2]
        | exit u u0 u1 hp hq hn hs he hz =>
          have hx := huniq u (by rw [← he]; exact hz)
          rw [if_pos (by rw [hs]; intro hh; rw [← hh] at hz; exact hpx.1 hz), hx, ← he]
          simp
        | enter u u0 u1 hp hq hn hs he hz =>
          have hx := huniq u (by rw [← hs]; exact hz)
          rw [if_pos (by rw [he]; intro hh; rw [hh] at hz; exact hpx.2 hz), hx, ← hs]
          simp
        | drop hp hq hs he => exfalso; rcases hc with hc | hc <;> linarith [hc.1, hc.2]
      · have := ih he
        unfold ends
        split_ifs
        · exact List.mem_cons_of_mem _ (List.mem_cons_of_mem _ this)
        · exact this

theorem cross_cross_left (a b c : Vec3 K) : Vec3.cross (Vec3.cross a b) c = a.dot c • b - b.dot c • a := by
  ext <;> simp [Vec3.dot, Vec3.cross_x, Vec3.cross_y, Vec3.cross_z] <;> ring

theorem normSq_ne {v : Vec3 K} (h : v ≠ 0) : v.dot v ≠ 0 := by
  intro hh
  apply h
  simp only [Vec3.dot] at hh
  have hx := mul_self_nonneg v.x
  have hy := mul_self_nonneg v.y
  have hz := mul_self_nonneg v.z
  ext
  · exact mul_self_eq_zero.1 (le_antisymm (by linarith) hx)
  · exact mul_self_eq_zero.1 (le_antisymm (by linarith) hy)
  · exact mul_self_eq_zero.1 (le_antisymm (by linarith) hz)

/-- Two vectors parallel to `w ≠ 0` are parallel. -/
theorem cross_zero_of_parallel {w u v : Vec3 K} (hw : w ≠ 0) (hu : Vec3.cross w u = 0) (hv : Vec3.cross w v = 0) : Vec3.cross u v = 0 := by
  have hk := normSq_ne hw
  have key : ∀ u : Vec3 K, Vec3.cross w u = 0 → u = (w.dot u / w.dot w) • w := by
    intro u hu
    have h1 := cross_cross_left w u w
    rw [hu] at h1
    have h2 : w.dot w • u = w.dot u • w := by
      have : (0 : Vec3 K) = w.dot w • u - u.dot w • w := by
        rw [← h1]; ext <;> simp [Vec3.cross_x, Vec3.cross_y, Vec3.cross_z]
      rw [eq_comm, sub_eq_zero] at this
      rw [this, Vec3.dot_comm]
    ext
    · have := congrArg Vec3.x h2; simp at this ⊢; field_simp; linarith
    · have := congrArg Vec3.y h2; simp at this ⊢; field_simp; linarith
    · have := congrArg Vec3.z h2; simp at this ⊢; field_simp; linarith
  rw [key u hu, key v hv, Vec3.cross_smul_left, Vec3.cross_smul_right, Vec3.cross_self]
  simp

/-- A centre from which paths inside the cutting plane and the plane `m · x = c` sweep nothing. -/
theorem exists_centre (pl : GPlane K) (m : Vec3 K) (c : K) (hm : m ≠ 0) (v : Vec3 K) (hv : m.dot v = c) (h0 : ht pl v ≠ 0) :
    ∃ o : Vec3 K, ∀ x y : Vec3 K, m.dot x = c → m.dot y = c → ht pl x = 0 → ht pl y = 0 → tri o x y = 0 := by
  by_cases hw : Vec3.cross m pl.normal = 0
  · refine ⟨0, fun x y hx _ hx0 _ => absurd ?_ h0⟩
    have h1 : Vec3.cross (Vec3.cross m pl.normal) (v - x) = 0 := by
      rw [hw]; ext <;> simp [Vec3.cross_x, Vec3.cross_y, Vec3.cross_z]
    rw [cross_cross_left, Vec3.dot_sub, hv, hx, sub_self, zero_smul, zero_sub] at h1
    have h2 : pl.normal.dot (v - x) • m = 0 := neg_eq_zero.1 h1
    have h3 : pl.normal.dot (v - x) = 0 := by
      by_contra hh
      apply hm
      ext
      · have := congrArg Vec3.x h2; simpa [hh] using this
      · have := congrArg Vec3.y h2; simpa [hh] using this
      · have := congrArg Vec3.z h2; simpa [hh] using this
    rw [Vec3.dot_sub] at h3
    unfold ht at hx0 ⊢
    linarith
  · set n := pl.normal with hn
    have hk := normSq_ne hw
    have hgram : (Vec3.cross m n).dot (Vec3.cross m n) = m.dot m * n.dot n - m.dot n * m.dot n := by
      simp [Vec3.dot, Vec3.cross_x, Vec3.cross_y, Vec3.cross_z]; ring
    rw [hgram] at hk
    set D := m.dot m * n.dot n - m.dot n * m.dot n with hD
    refine ⟨((c * n.dot n - pl.d * m.dot n) / D) • m + ((pl.d * m.dot m - c * m.dot n) / D) • n, ?_⟩
    set o : Vec3 K := ((c * n.dot n - pl.d * m.dot n) / D) • m + ((pl.d * m.dot m - c * m.dot n) / D) • n with ho
    have hmo : m.dot o = c := by
      rw [ho, Vec3.dot_add, Vec3.dot_smul, Vec3.dot_smul, div_mul_eq_mul_div, div_mul_eq_mul_div, ← add_div, div_eq_iff hk, hD]
      ring
    have hno : n.dot o = pl.d := by
      rw [ho, Vec3.dot_add, Vec3.dot_smul, Vec3.dot_smul, Vec3.dot_comm n m, div_mul_eq_mul_div, div_mul_eq_mul_div, ← add_div, div_eq_iff hk, hD]
      ring
    intro x y hx hy hx0 hy0
    have par : ∀ x : Vec3 K, m.dot x = c → ht pl x = 0 → Vec3.cross (Vec3.cross m n) (x - o) = 0 := by
      intro x h1 h2
      have h3 : n.dot x = pl.d := by unfold ht at h2; rw [← hn] at h2; linarith
      rw [cross_cross_left, Vec3.dot_sub, Vec3.dot_sub, h1, h3, hmo, hno, sub_self, sub_self, zero_smul, zero_smul, sub_zero]
    exact cross_zero_of_parallel hw (par x hx hx0) (par y hy hy0)

theorem dot_seg {m p q x : Vec3 K} {c : K} (hp : m.dot p = c) (hq : m.dot q = c) (h : Seg p q x) : m.dot x = c := by
  obtain ⟨t, -, -, rfl⟩ := h
  rw [Vec3.dot_add, Vec3.dot_smul, Vec3.dot_sub, hp, hq]; ring

end Clip

open Clip in
/-- C68: what is returned when a polygon is clipped (with zero tolerance). Every vertex of the result lies on an edge of the polygon and on the inner side of the plane; every
vertex strictly inside is kept; every edge that crosses the plane contributes its crossing point; the result is a closed polyline without repeated neighbours (or
has at most two vertices). -/
theorem C68_clip (nrm : Vec3 K → K) (hN : IsNorm nrm) (pl : GPlane K) (p : Polygon K) :
    (∀ x ∈ (p.clip nrm pl 0).vs, pl.normal.dot x ≤ pl.d ∧ ∃ e ∈ p.vs.zip p.vs.tail, Seg e.1 e.2 x) ∧
    (∀ v ∈ p.vs, pl.normal.dot v < pl.d → (∃ x ∈ p.vs, x ≠ v) → v ∈ (p.clip nrm pl 0).vs) ∧
    (∀ e ∈ p.vs.zip p.vs.tail, ∀ x, Seg e.1 e.2 x → pl.normal.dot x = pl.d →
      ((pl.normal.dot e.1 < pl.d ∧ pl.d < pl.normal.dot e.2) ∨ (pl.d < pl.normal.dot e.1 ∧ pl.normal.dot e.2 < pl.d)) → x ∈ (p.clip nrm pl 0).vs) ∧
    (2 < (p.clip nrm pl 0).vs.length → (p.clip nrm pl 0).vs.head? = (p.clip nrm pl 0).vs.getLast?) ∧
    (p.clip nrm pl 0).vs.IsChain (· ≠ ·) := by
  refine ⟨fun x hx => ?_, fun v hv h0 hne => ?_, fun e he x hx h0 hc => ?_, ?_, ?_⟩
  · obtain ⟨h1, h2⟩ := mem_ends pl p.vs x ((mem_clip hN pl p x).1 hx)
    exact ⟨by unfold ht at h1; linarith, h2⟩
  · exact (mem_clip hN pl p v).2 (kept_mem_ends pl p.vs v hv (by unfold ht; linarith) hne)
  · refine (mem_clip hN pl p x).2 (crossing_mem_ends pl p.vs e.1 e.2 x he ?_ hx (by unfold ht; linarith))
    unfold ht
    rcases hc with hc | hc
    · left; constructor <;> linarith [hc.1, hc.2]
    · right; constructor <;> linarith [hc.1, hc.2]
  · rw [clip_vs hN]
    unfold Polyline.close
    generalize VertexList.removeDuplicates (ends pl p.vs) = D
    cases D with
    | nil => simp
    | cons a l =>
      rw [List.head?_cons, List.getLast?_eq_some_getLast (by simp)]
      dsimp only
      split_ifs with h
      · intro _; rw [List.getLast?_append]; simp
      · intro h2
        rw [List.head?_cons, List.getLast?_eq_some_getLast (by simp)]
        congr 1
        by_contra hne
        exact h ⟨h2, hN.pos (sub_ne_zero.2 (Ne.symm hne))⟩
  · rw [clip_vs hN]
    have hch : (VertexList.removeDuplicates (ends pl p.vs)).IsChain (· ≠ ·) := (C47_removeDuplicates (ends pl p.vs)).1
    revert hch
    generalize VertexList.removeDuplicates (ends pl p.vs) = D
    intro hch
    unfold Polyline.close
    cases D with
    | nil => simp
    | cons a l =>
      rw [List.head?_cons, List.getLast?_eq_some_getLast (by simp)]
      dsimp only
      split_ifs with h
      · rw [List.isChain_append]
        refine ⟨hch, by simp, ?_⟩
        intro x hx y hy
        rw [List.getLast?_eq_some_getLast (by simp)] at hx
        simp at hy
        subst hy
        rintro rfl
        have : (x :: l).getLast (by simp) = x := by simpa using hx
        rw [this, sub_self, hN.zero] at h
        exact lt_irrefl _ h.2
      · exact hch

open Clip in
/-- C68: the two sides. For a closed planar polygon that does not lie in the cutting plane, the vector areas of the polygon clipped by the plane and of the polygon
clipped by the opposite plane add up to the vector area of the polygon, convex or not: nothing is lost and nothing is counted twice. -/
theorem C68_area (nrm : Vec3 K → K) (hN : IsNorm nrm) (pl : GPlane K) (p : Polygon K) (a : Vec3 K) (l : List (Vec3 K)) (hvs : p.vs = a :: l ++ [a])
    (hpl : Planar p.vs) (hoff : ∃ v ∈ p.vs, pl.normal.dot v ≠ pl.d) :
    vecArea2 (p.clip nrm pl 0).vs + vecArea2 (p.clip nrm pl.invert 0).vs = vecArea2 p.vs := by
  obtain ⟨m, c, hm, hmc⟩ := hpl
  obtain ⟨v, hv, hv0⟩ := hoff
  obtain ⟨o, ho⟩ := exists_centre pl m c hm v (hmc v hv) (fun h => hv0 (by unfold ht at h; linarith))
  have hseg : ∀ pl' : GPlane K, ∀ x ∈ ends pl' p.vs, m.dot x = c := by
    intro pl' x hx
    obtain ⟨-, e, he, hs⟩ := mem_ends pl' p.vs x hx
    have he' := List.of_mem_zip (a := e.1) (b := e.2) he
    exact dot_seg (hmc _ he'.1) (hmc _ (List.mem_of_mem_tail he'.2)) hs
  have hi : ∀ x, ht pl.invert x = -ht pl x := by
    intro x; unfold ht GPlane.invert; simp only [Vec3.dot, Vec3.neg_x, Vec3.neg_y, Vec3.neg_z]; ring
  rw [clip_area hN, clip_area hN]
  have h1 := hseg pl
  have h2 := hseg pl.invert
  rw [hvs] at h1 h2 hmc ⊢
  rw [ends_area pl o (fun x => m.dot x = c) (fun x y hx hy => ho x y hx hy) a l h1,
    ends_area pl.invert o (fun x => m.dot x = c) (fun x y hx hy hx0 hy0 => ho x y hx hy (by rw [hi] at hx0; linarith) (by rw [hi] at hy0; linarith)) a l h2,
    pieceSum_add pl o _ (fun x hx y hy => ho x y (hmc x hx) (hmc y hy)), vecArea2_closed, vecArea2_sweep o]

/-- The sum of the absolute values. -/
def clipL1 (v : Vec3 ℚ) : ℚ := |v.x| + |v.y| + |v.z|

/-- A square with a dent, closed. -/
def clipDent : Polygon ℚ := Polygon.ofPolyline [⟨0, 0, 0⟩, ⟨4, 0, 0⟩, ⟨4, 4, 0⟩, ⟨2, 1, 0⟩, ⟨0, 4, 0⟩, ⟨0, 0, 0⟩]

/-- The hypotheses of C68 are met by a non-convex polygon that the plane `y = 2` cuts into three parts; the results are not empty. -/
example : Planar clipDent.vs ∧ (∃ v ∈ clipDent.vs, (⟨⟨0, 1, 0⟩, 2⟩ : GPlane ℚ).normal.dot v ≠ 2) ∧
    (clipDent.clip clipL1 ⟨⟨0, 1, 0⟩, 2⟩ 0).vs = [⟨0, 0, 0⟩, ⟨4, 0, 0⟩, ⟨4, 2, 0⟩, ⟨8 / 3, 2, 0⟩, ⟨2, 1, 0⟩, ⟨4 / 3, 2, 0⟩, ⟨0, 2, 0⟩, ⟨0, 0, 0⟩] ∧
    (clipDent.clip clipL1 (⟨⟨0, 1, 0⟩, 2⟩ : GPlane ℚ).invert 0).vs = [⟨4, 2, 0⟩, ⟨4, 4, 0⟩, ⟨8 / 3, 2, 0⟩, ⟨4 / 3, 2, 0⟩, ⟨0, 4, 0⟩, ⟨0, 2, 0⟩, ⟨4, 2, 0⟩] :=
  ⟨⟨⟨0, 0, 1⟩, 0, by decide +kernel, by decide +kernel⟩, by decide +kernel, by decide +kernel, by decide +kernel⟩

open Clip in
/-- C68, the excluded case: a polygon that lies in the cutting plane is returned empty by both clips. -/
theorem C68_in_plane (nrm : Vec3 K → K) (hN : IsNorm nrm) (pl : GPlane K) (p : Polygon K) (h : ∀ v ∈ p.vs, pl.normal.dot v = pl.d) :
    (p.clip nrm pl 0).vs = [] ∧ (p.clip nrm pl.invert 0).vs = [] := by
  have key : ∀ pl : GPlane K, ∀ vs : List (Vec3 K), (∀ v ∈ vs, ht pl v = 0) → ends pl vs = [] := by
    intro pl vs
    induction vs with
    | nil => intro _; rfl
    | cons a l ih =>
      intro h
      cases l with
      | nil => rfl
      | cons b l =>
        have ha := h a (by simp)
        have hb := h b (by simp)
        unfold ends
        rw [if_neg, ih (fun v hv => h v (List.mem_cons_of_mem _ hv))]
        rw [not_not]
        have := clip_eq pl a b
        rw [ha, hb, if_pos rfl, if_neg (lt_irrefl _), Prod.ext_iff] at this
        exact this.1.trans this.2.symm
  constructor
  · rw [clip_vs hN, key pl _ (fun v hv => by unfold ht; rw [h v hv, sub_self])]; rfl
  · rw [clip_vs hN, key pl.invert _ (fun v hv => ?_)]; · rfl
    have := h v hv
    unfold ht GPlane.invert
    simp only [Vec3.dot, Vec3.neg_x, Vec3.neg_y, Vec3.neg_z] at this ⊢
    linarith

/-- C68, closedness is needed: a triangle whose last corner is not followed by the first again loses the part of its area next to the edge that is only implied. -/
theorem C68_open : ∃ p : Polygon ℚ, p.vs = [⟨0, 0, 0⟩, ⟨2, 0, 0⟩, ⟨0, 2, 0⟩] ∧
    vecArea2 (p.clip clipL1 ⟨⟨0, 1, 0⟩, 1⟩ 0).vs + vecArea2 (p.clip clipL1 (⟨⟨0, 1, 0⟩, 1⟩ : GPlane ℚ).invert 0).vs = ⟨0, 0, 2⟩ ∧ vecArea2 p.vs = ⟨0, 0, 4⟩ :=
  ⟨Polygon.ofPolyline [⟨0, 0, 0⟩, ⟨2, 0, 0⟩, ⟨0, 2, 0⟩], rfl, by decide +kernel, by decide +kernel⟩

end ENigMA
