import Verif.Geometry.ClipPolygonProps
import Verif.Geometry.LineSortProps
import Verif.Geometry.PolyhedronProps

/-!
# C70: the volume of a clipped polyhedron
-/

set_option linter.unusedSectionVars false
set_option autoImplicit false

namespace ENigMA

variable {K : Type} [Field K] [LinearOrder K] [IsStrictOrderedRing K]

namespace Clip

open Polygon

/-! ### Sums along paths -/

/-- Sum of `g` over the consecutive pairs of a path. -/
def gsweep (g : Vec3 K → Vec3 K → Vec3 K) : List (Vec3 K) → Vec3 K
  | a :: b :: l => g a b + gsweep g (b :: l)
  | _ => 0

/-- The same for the path that returns to its first point. -/
def gclosed (g : Vec3 K → Vec3 K → Vec3 K) : List (Vec3 K) → Vec3 K
  | [] => 0
  | a :: l => gsweep g (a :: l ++ [a])

section Paths
variable (g : Vec3 K → Vec3 K → Vec3 K)

theorem gsweep_cons_cons (a b : Vec3 K) (l : List (Vec3 K)) : gsweep g (a :: b :: l) = g a b + gsweep g (b :: l) := rfl

theorem gclosed_cons (a : Vec3 K) (l : List (Vec3 K)) : gclosed g (a :: l) = gsweep g (a :: l ++ [a]) := rfl

theorem gsweep_append (a b : Vec3 K) (l : List (Vec3 K)) : gsweep g (a :: l ++ [b]) = gsweep g (a :: l) + g ((a :: l).getLast (by simp)) b := by
  induction l generalizing a with
  | nil => simp [gsweep]
  | cons c l ih =>
    rw [List.cons_append, List.cons_append, gsweep_cons_cons, ← List.cons_append, ih, gsweep_cons_cons, List.getLast_cons_cons, add_assoc]

theorem gsweep_tri (o : Vec3 K) (l : List (Vec3 K)) : gsweep (tri o) l = sweep o l := by
  induction l with
  | nil => rfl
  | cons a l ih =>
    cases l with
    | nil => rfl
    | cons b l => rw [gsweep_cons_cons, sweep_cons_cons, ih]

theorem gclosed_tri (o : Vec3 K) (l : List (Vec3 K)) : gclosed (tri o) l = vecArea2 l := by
  cases l with
  | nil => rfl
  | cons a l => rw [vecArea2_sweep o, ← gsweep_tri]; rfl

variable {g}

theorem uniqueFrom_gsweep (hg : ∀ x, g x x = 0) (a : Vec3 K) (l : List (Vec3 K)) : gsweep g (VertexList.uniqueFrom a l) = gsweep g (a :: l) := by
  induction l generalizing a with
  | nil => rfl
  | cons b l ih =>
    unfold VertexList.uniqueFrom
    split_ifs with h
    · subst h; rw [ih, gsweep_cons_cons, hg, zero_add]
    · obtain ⟨r, hr⟩ := uniqueFrom_head b l
      have := ih b
      rw [hr] at this ⊢
      rw [gsweep_cons_cons, gsweep_cons_cons, this]

theorem removeDuplicates_gclosed (hg : ∀ x, g x x = 0) (l : List (Vec3 K)) : gclosed g (VertexList.removeDuplicates l) = gclosed g l := by
  cases l with
  | nil => rfl
  | cons a l =>
    have h1 := uniqueFrom_gsweep hg a l
    have h2 := uniqueFrom_getLast a l
    change gclosed g (VertexList.uniqueFrom a l) = _
    obtain ⟨r, hr⟩ := uniqueFrom_head a l
    rw [hr] at h1 h2 ⊢
    rw [gclosed_cons, gclosed_cons, gsweep_append, gsweep_append, h1]
    rw [List.getLast?_eq_some_getLast (by simp), List.getLast?_eq_some_getLast (by simp)] at h2
    rw [Option.some.inj h2]

theorem close_gclosed (hg : ∀ x, g x x = 0) (nrm : Vec3 K → K) (tol : K) (l : List (Vec3 K)) : gclosed g (Polyline.close nrm tol l) = gclosed g l := by
  unfold Polyline.close
  cases l with
  | nil => rfl
  | cons a l =>
    rw [List.head?_cons, List.getLast?_eq_some_getLast (by simp)]
    dsimp only
    split_ifs
    · unfold gclosed
      rw [List.cons_append]
      dsimp only
      rw [gsweep_append]
      have : (a :: (l ++ [a])).getLast (by simp) = a := by simp
      rw [this, hg, add_zero, List.cons_append]
    · rfl

theorem clip_gclosed (hg : ∀ x, g x x = 0) {nrm : Vec3 K → K} (hN : IsNorm nrm) (pl : GPlane K) (p : Polygon K) :
    gclosed g (p.clip nrm pl 0).vs = gclosed g (ends pl p.vs) := by
  rw [clip_vs hN, close_gclosed hg, removeDuplicates_gclosed hg]

/-- Closed paths of at most three entries enclose nothing. -/
theorem gclosed_short (hg : ∀ x y, g x y = -g y x) (h0 : ∀ x, g x x = 0) (l : List (Vec3 K)) (hl : l.length ≤ 3) (hc : 2 < l.length → l.head? = l.getLast?) : gclosed g l = 0 := by
  match l, hl, hc with
  | [], _, _ => rfl
  | [a], _, _ => simp [gclosed, gsweep, h0]
  | [a, b], _, _ => simp only [gclosed, gsweep, List.cons_append, List.nil_append]; rw [hg a b]; simp
  | [a, b, c], _, hc =>
    have : a = c := by simpa using hc (by simp)
    subst this
    simp only [gclosed, gsweep, List.cons_append, List.nil_append]; rw [hg a b, h0]; simp
  | a :: b :: c :: d :: l, hl, _ => simp at hl; omega

end Paths

theorem tri_swap (o x y : Vec3 K) : tri o x y = -tri o y x := by unfold tri; exact Vec3.cross_swap _ _

/-- `tri`, for pairs of points on the plane. -/
def pterm (pl : GPlane K) (o x y : Vec3 K) : Vec3 K := if ht pl x = 0 ∧ ht pl y = 0 then tri o x y else 0

theorem pterm_self (pl : GPlane K) (o x : Vec3 K) : pterm pl o x x = 0 := by unfold pterm; split_ifs; exacts [tri_self o x, rfl]

theorem pterm_swap (pl : GPlane K) (o x y : Vec3 K) : pterm pl o x y = -pterm pl o y x := by
  unfold pterm
  by_cases h : ht pl x = 0 ∧ ht pl y = 0
  · rw [if_pos h, if_pos h.symm, tri_swap]
  · rw [if_neg h, if_neg (fun hh => h hh.symm), neg_zero]

theorem EdgeClip.off {pl : GPlane K} {p q s e : Vec3 K} (h : EdgeClip pl p q s e) (hne : s ≠ e) : ¬ (ht pl s = 0 ∧ ht pl e = 0) := by
  rintro ⟨h1, h2⟩
  have hlin : ∀ u : K, ht pl (p + u • (q - p)) = ht pl p + u * (ht pl q - ht pl p) := by
    intro u; unfold ht; rw [Vec3.dot_add, Vec3.dot_smul, Vec3.dot_sub]; ring
  cases h with
  | keep hp hq hs he => rw [hs] at h1; exact hp.ne h1
  | keepq hp hq hs he => rw [he] at h2; exact hq.ne h2
  | exit t h0 h1' hp hq hn hs he hz =>
    rw [hs] at h1
    rw [he, hlin, h1, sub_zero, zero_add] at hz
    rcases mul_eq_zero.1 hz with h | h
    · apply hne; rw [hs, he, h, zero_smul, add_zero]
    · exact hn (h1.trans h.symm)
  | enter t h0 h1' hp hq hn hs he hz =>
    rw [he] at h2
    rw [hs, hlin, h2] at hz
    have : (1 - t) * ht pl p = 0 := by linear_combination hz
    rcases mul_eq_zero.1 this with h | h
    · apply hne
      rw [hs, he, show t = 1 by linarith, one_smul]; abel
    · exact hn (h.trans h2.symm)
  | drop hp hq hs he => exact hne (hs.trans he.symm)

/-- The closed path through the ends of the pieces: the pieces and the paths inside the plane. -/
theorem ends_sweep' (pl : GPlane K) (o p : Vec3 K) (l : List (Vec3 K)) :
    gsweep (tri o) (ends pl (p :: l)) = pieceSum pl o (p :: l) + gsweep (pterm pl o) (ends pl (p :: l)) := by
  induction l generalizing p with
  | nil => simp [ends, pieceSum, gsweep]
  | cons q l ih =>
    unfold ends pieceSum
    by_cases hne : ((GLine.mk2 p q).clip pl 0).startP = ((GLine.mk2 p q).clip pl 0).endP
    · rw [if_neg (fun h => h hne), ih q, hne, tri_self, zero_add]
    · rw [if_pos hne, gsweep_cons_cons, gsweep_cons_cons]
      have hoff := (edgeClip pl p q).off hne
      have hpc := ((edgeClip pl p q).piece hne).2
      rw [show pterm pl o ((GLine.mk2 p q).clip pl 0).startP ((GLine.mk2 p q).clip pl 0).endP = 0 from if_neg hoff, zero_add, add_assoc]
      congr 1
      have hi := ih q
      cases hE : ends pl (q :: l) with
      | nil => rw [hE] at hi; simp [gsweep] at hi ⊢; exact hi
      | cons s r =>
        have hs := ends_head pl q l s (by rw [hE]; rfl)
        rw [hE] at hi
        rw [gsweep_cons_cons, gsweep_cons_cons, hi]
        have : tri o ((GLine.mk2 p q).clip pl 0).endP s = pterm pl o ((GLine.mk2 p q).clip pl 0).endP s := by
          have he : Link pl ((GLine.mk2 p q).clip pl 0).endP q := ⟨hpc.1, hpc.2.2⟩
          rcases he.both hs with h | h
          · rw [h, tri_self, pterm_self]
          · exact (if_pos h).symm
        rw [this]; abel

theorem ends_closed' (pl : GPlane K) (o a : Vec3 K) (l : List (Vec3 K)) :
    gclosed (tri o) (ends pl (a :: l ++ [a])) = pieceSum pl o (a :: l ++ [a]) + gclosed (pterm pl o) (ends pl (a :: l ++ [a])) := by
  rw [List.cons_append]
  have hsw := ends_sweep' pl o a (l ++ [a])
  have hh := ends_head pl a (l ++ [a])
  have hl := ends_last pl a (l ++ [a])
  cases hE : ends pl (a :: (l ++ [a])) with
  | nil => rw [hE] at hsw; simpa [gclosed, gsweep] using hsw
  | cons s r =>
    rw [hE] at hh hl hsw
    have hs := hh s rfl
    have he := hl _ (List.getLast?_eq_some_getLast (by simp))
    have : (a :: (l ++ [a])).getLast (by simp) = a := by simp
    rw [this] at he
    rw [gclosed_cons, gclosed_cons, gsweep_append, gsweep_append, hsw]
    have : tri o ((s :: r).getLast (by simp)) s = pterm pl o ((s :: r).getLast (by simp)) s := by
      rcases he.both hs with h | h
      · rw [h, tri_self, pterm_self]
      · exact (if_pos h).symm
    rw [this]; abel

/-- Vector area of a clipped closed polygon. -/
theorem clip_area_split {nrm : Vec3 K → K} (hN : IsNorm nrm) (pl : GPlane K) (o : Vec3 K) (p : Polygon K) (a : Vec3 K) (l : List (Vec3 K)) (h : p.vs = a :: l ++ [a]) :
    vecArea2 (p.clip nrm pl 0).vs = pieceSum pl o p.vs + gclosed (pterm pl o) (p.clip nrm pl 0).vs := by
  rw [← gclosed_tri o, clip_gclosed (tri_self o) hN, clip_gclosed (pterm_self pl o) hN, h, ends_closed']

/-- The piece of an edge, as a term of a sum. -/
def piece (pl : GPlane K) (o : Vec3 K) (e : Vec3 K × Vec3 K) : Vec3 K :=
  tri o ((GLine.mk2 e.1 e.2).clip pl 0).startP ((GLine.mk2 e.1 e.2).clip pl 0).endP

theorem piece_swap (pl : GPlane K) (o : Vec3 K) (e : Vec3 K × Vec3 K) : piece pl o e.swap = -piece pl o e := by
  obtain ⟨p, q⟩ := e
  unfold piece
  simp only [Prod.swap]
  have e1 := clip_eq pl p q
  have e2 := clip_eq pl q p
  rw [Prod.ext_iff] at e1 e2
  dsimp only at e1 e2
  rw [e1.1, e1.2, e2.1, e2.2]
  clear e1 e2
  by_cases h1 : ht pl p = ht pl q
  · rw [h1]
    simp only [if_true]
    by_cases h2 : ht pl q < 0
    · simp only [if_pos h2]; exact tri_swap o q p
    · simp only [if_neg h2, tri_self, neg_zero]
  · have hx : q + alpha pl q p • (p - q) = p + alpha pl p q • (q - p) := by
      have : alpha pl q p = 1 - alpha pl p q := by
        rw [alpha_eq, alpha_eq]
        have : ht pl q - ht pl p ≠ 0 := fun hh => h1 (by linarith)
        have : ht pl p - ht pl q ≠ 0 := fun hh => h1 (by linarith)
        field_simp
        ring
      rw [this]
      ext <;> simp <;> ring
    rw [hx]
    generalize p + alpha pl p q • (q - p) = x
    have hz := tri_self o p
    have hz' := tri_self o q
    have s1 := tri_swap o p q
    have s2 := tri_swap o p x
    have s3 := tri_swap o x q
    have s4 := tri_swap o q p
    have s5 := tri_swap o x p
    have s6 := tri_swap o q x
    generalize ht pl p = u at *
    generalize ht pl q = v at *
    split_ifs <;> dsimp only <;>
    first
    | (exfalso; grind)
    | (assumption)
    | (rw [hz, hz', neg_zero]; done)

theorem pieceSum_eq (pl : GPlane K) (o a : Vec3 K) (l : List (Vec3 K)) : pieceSum pl o (a :: l) = (((a :: l).zip l).map (piece pl o)).sum := by
  induction l generalizing a with
  | nil => rfl
  | cons b l ih => unfold pieceSum; rw [ih]; rfl

theorem pieceSum_loop (pl : GPlane K) (o a : Vec3 K) (l : List (Vec3 K)) :
    pieceSum pl o (a :: l ++ [a]) = ((Polyhedron.loopEdges (a :: l ++ [a])).map (piece pl o)).sum := by
  rw [List.cons_append, pieceSum_eq]
  unfold Polyhedron.loopEdges
  dsimp only
  have h1 : (a :: (l ++ [a])).zip (l ++ [a] ++ [a]) = (a :: (l ++ [a])).zip (l ++ [a]) ++ [(a, a)] := by
    have := List.zip_append (l₁ := a :: l) (r₁ := [a]) (l₂ := l ++ [a]) (r₂ := [a]) (by simp)
    have h2 := List.zip_append (l₁ := a :: l) (r₁ := [a]) (l₂ := l ++ [a]) (r₂ := []) (by simp)
    simp only [List.cons_append, List.append_nil, List.zip_nil_right] at this h2 ⊢
    rw [this, h2]
    simp
  rw [h1, List.map_append, List.sum_append]
  have : piece pl o (a, a) = 0 := by
    unfold piece
    have := clip_eq pl a a
    rw [if_pos rfl, Prod.ext_iff] at this
    dsimp only at this
    rw [this.1, this.2]
    split_ifs <;> exact tri_self o a
  simp [this]

theorem sum_pieces (pl : GPlane K) (o : Vec3 K) (faces : List (List (Vec3 K))) (hcl : ∀ f ∈ faces, ∃ a l, f = a :: l ++ [a])
    (hs : Polyhedron.ClosedSurface faces) : (faces.map (pieceSum pl o)).sum = 0 := by
  have h1 : (faces.map (pieceSum pl o)).sum = ((faces.flatMap Polyhedron.loopEdges).map (piece pl o)).sum := by
    clear hs
    induction faces with
    | nil => rfl
    | cons f t ih =>
      rw [List.map_cons, List.sum_cons, List.flatMap_cons, List.map_append, List.sum_append, ih (fun g hg => hcl g (by simp [hg]))]
      obtain ⟨a, l, rfl⟩ := hcl f (by simp)
      rw [pieceSum_loop]
  have h2 := (hs.map (piece pl o)).sum_eq
  rw [List.map_map, show piece pl o ∘ Prod.swap = fun e => -piece pl o e from funext fun e => piece_swap pl o e] at h2
  have h3 : ∀ es : List (Vec3 K × Vec3 K), (es.map fun e => -piece pl o e).sum = -(es.map (piece pl o)).sum := by
    intro es
    induction es with
    | nil => simp
    | cons e t ih => simp only [List.map_cons, List.sum_cons, ih, neg_add]
  rw [h3, ← h1] at h2
  ext
  · have := congrArg Vec3.x h2; simp at this ⊢; linarith
  · have := congrArg Vec3.y h2; simp at this ⊢; linarith
  · have := congrArg Vec3.z h2; simp at this ⊢; linarith

/-! ### The new face -/

/-- Every vertex of a path twice, except the first and the last. -/
theorem uniqueFrom_dbl (a : Vec3 K) (l : List (Vec3 K)) (h : (a :: l).IsChain (· ≠ ·)) :
    VertexList.uniqueFrom a (((a :: l).zip l).flatMap fun e => [e.1, e.2]) = a :: l := by
  induction l generalizing a with
  | nil => rfl
  | cons b l ih =>
    rw [List.isChain_cons_cons] at h
    have := ih b h.2
    simp only [List.zip_cons_cons, List.flatMap_cons, List.cons_append, List.nil_append]
    rw [VertexList.uniqueFrom, if_pos rfl, VertexList.uniqueFrom, if_neg h.1, this]

theorem ringEdges_cons (a : Vec3 K) (l : List (Vec3 K)) : ringEdges (a :: l) = (a :: l).zip (l ++ [a]) := by
  unfold ringEdges; simp

theorem zip_closed (a : Vec3 K) (l : List (Vec3 K)) : (a :: (l ++ [a])).zip (l ++ [a]) = (a :: l).zip (l ++ [a]) := by
  have h2 := List.zip_append (l₁ := a :: l) (r₁ := [a]) (l₂ := l ++ [a]) (r₂ := []) (by simp)
  simpa only [List.cons_append, List.append_nil, List.zip_nil_right] using h2

theorem chain_closed (a : Vec3 K) (l : List (Vec3 K)) (hnd : (a :: l).Nodup) (h2 : l ≠ []) : (a :: (l ++ [a])).IsChain (· ≠ ·) := by
  rw [← List.cons_append, List.isChain_append]
  refine ⟨List.Pairwise.isChain hnd, by simp, ?_⟩
  intro x hx y hy
  simp only [List.head?_cons, Option.mem_def, Option.some.injEq] at hy
  subst hy
  rintro rfl
  obtain ⟨b, r, rfl⟩ := List.exists_cons_of_ne_nil h2
  rw [List.getLast?_cons_cons] at hx
  exact (List.nodup_cons.1 hnd).1 (List.mem_of_getLast? hx)

theorem chain_zip_ne (a : Vec3 K) (l : List (Vec3 K)) (h : (a :: l).IsChain (· ≠ ·)) : ∀ e ∈ (a :: l).zip l, e.1 ≠ e.2 := by
  induction l generalizing a with
  | nil => simp
  | cons b l ih =>
    rw [List.isChain_cons_cons] at h
    intro e he
    rw [List.zip_cons_cons, List.mem_cons] at he
    rcases he with rfl | he
    · exact h.1
    · exact ih b h.2 e he

/-- The polyline of the new face: the loop of the cut edges, closed. -/
theorem setLines_ring {nrm : Vec3 K → K} (hN : IsNorm nrm) (c : List (Vec3 K)) (hnd : c.Nodup) (h3 : 3 ≤ c.length) (ls : List (GLine K)) (hok : ∀ l ∈ ls, l.Ok)
    (hls : (ls.map fun l => (l.startP, l.endP)).Perm (ringEdges c)) :
    ∃ a l, ((a :: l) ~r c ∨ (a :: l) ~r c.reverse) ∧ Polyline.setLines nrm true 0 ls = a :: l ++ [a] := by
  have hsym : (ls.map fun l => s(l.startP, l.endP)).Perm ((ringEdges c).map fun e => s(e.1, e.2)) := by
    have := hls.map fun e => s(e.1, e.2)
    rw [List.map_map] at this
    exact this
  obtain ⟨c', hc', hsort, -⟩ := C69_sort nrm hN c hnd h3 ls hok hsym
  have hlen : c'.length = c.length := by
    rcases hc' with h | h
    · exact h.perm.length_eq
    · rw [h.perm.length_eq, List.length_reverse]
  have hnd' : c'.Nodup := by
    rcases hc' with h | h
    · exact h.perm.nodup_iff.2 hnd
    · exact h.perm.nodup_iff.2 (List.nodup_reverse.2 hnd)
  cases c' with
  | nil => simp at hlen; omega
  | cons a l =>
    refine ⟨a, l, hc', ?_⟩
    have hl : l ≠ [] := by rintro rfl; simp at hlen; omega
    have hch := chain_closed a l hnd' hl
    unfold Polyline.setLines
    rw [if_pos rfl, hsort, fuse_zero hN]
    have hne : ∀ e ∈ ringEdges (a :: l), e.1 ≠ e.2 := by
      rw [ringEdges_cons, ← zip_closed]
      exact chain_zip_ne a _ hch
    have hep : Polyline.endPoints nrm ((ringEdges (a :: l)).map fun e => GLine.mk2 e.1 e.2) = (ringEdges (a :: l)).flatMap fun e => [e.1, e.2] := by
      unfold Polyline.endPoints
      rw [List.flatMap_map]
      apply List.flatMap_congr
      intro e he
      rw [if_pos]
      · rfl
      · rw [nrm_pos_iff hN]
        exact sub_ne_zero.2 (Ne.symm (hne e he))
    rw [hep, ringEdges_cons, ← zip_closed]
    obtain ⟨b, r, hbr⟩ := List.exists_cons_of_ne_nil (show l ++ [a] ≠ [] by simp)
    have := uniqueFrom_dbl a (l ++ [a]) hch
    rw [hbr] at this ⊢
    rw [List.cons_append, hbr]
    refine Eq.trans ?_ this
    simp only [List.zip_cons_cons, List.flatMap_cons, List.cons_append, List.nil_append]
    conv_rhs => rw [VertexList.uniqueFrom, if_pos rfl]
    rfl

theorem vecArea2_rotated {c c' : List (Vec3 K)} (h : c' ~r c) : vecArea2 c' = vecArea2 c := by
  obtain ⟨m, rfl⟩ := h
  rw [List.rotate_eq_drop_append_take_mod, vecArea2_append_comm, List.take_append_drop]

theorem ring_sum (o : Vec3 K) (c : List (Vec3 K)) : ((ringEdges c).map fun e => tri o e.1 e.2).sum = vecArea2 c := by
  cases c with
  | nil => rfl
  | cons a l =>
    rw [ringEdges_cons, ← gclosed_tri o, gclosed_cons]
    have : ∀ (a : Vec3 K) (l : List (Vec3 K)), gsweep (tri o) (a :: l) = (((a :: l).zip l).map fun e => tri o e.1 e.2).sum := by
      intro a l
      induction l generalizing a with
      | nil => rfl
      | cons b l ih => rw [gsweep_cons_cons, ih]; rfl
    rw [List.cons_append, this, zip_closed]

/-- A polygon inside a plane has its vector area across the plane. -/
theorem dot_vecArea2_zero {m : Vec3 K} {d : K} (hm : m ≠ 0) (vs : List (Vec3 K)) (h : ∀ v ∈ vs, m.dot v = d) (u : Vec3 K) (hu : m.dot u = 0) :
    u.dot (vecArea2 vs) = 0 := by
  cases vs with
  | nil => simp [vecArea2, Vec3.dot]
  | cons a l =>
    rw [vecArea2_sweep a]
    have key : ∀ l : List (Vec3 K), (∀ v ∈ l, m.dot v = d) → u.dot (sweep a l) = 0 := by
      intro l
      induction l with
      | nil => intro _; simp [sweep_nil, Vec3.dot]
      | cons b l ih =>
        intro hl
        cases l with
        | nil => simp [sweep_single, Vec3.dot]
        | cons c l =>
          rw [sweep_cons_cons, Vec3.dot_add, ih (fun v hv => hl v (List.mem_cons_of_mem _ hv)), add_zero]
          have ha := h a (by simp)
          have := det_zero_of_orthogonal hm (p := b - a) (q := c - a) (r := u)
            (by rw [Vec3.dot_sub, hl b (by simp), ha, sub_self]) (by rw [Vec3.dot_sub, hl c (by simp), ha, sub_self]) hu
          rw [Vec3.dot_comm] at this
          unfold tri
          first | exact this | (rw [Vec3.dot_comm]; exact this)
    exact key _ (by intro v hv; apply h; simp at hv ⊢; tauto)

theorem coneVolume_at (o f : Vec3 K) {m : Vec3 K} {d : K} (hm : m ≠ 0) (vs : List (Vec3 K)) (h : ∀ v ∈ vs, m.dot v = d) (hf : m.dot f = d) :
    Polyhedron.coneVolume o vs = (f - o).dot (vecArea2 vs) / 6 := by
  cases vs with
  | nil => simp [Polyhedron.coneVolume, vecArea2, Vec3.dot]
  | cons a l =>
    rw [Polyhedron.coneVolume_eq]
    have := dot_vecArea2_zero hm (a :: l) h (a - f) (by rw [Vec3.dot_sub, h a (by simp), hf, sub_self])
    have e : (a - o).dot (vecArea2 (a :: l)) = (a - f).dot (vecArea2 (a :: l)) + (f - o).dot (vecArea2 (a :: l)) := by
      simp only [Vec3.dot, Vec3.sub_x, Vec3.sub_y, Vec3.sub_z]; ring
    rw [e, this, zero_add]

/-! ### The polyhedron -/

section Poly
open Polyhedron

theorem insertL_perm (id : Int) (q : Polygon K) (m : List (Int × Polygon K)) (h : SMap.findL id m = none) : (SMap.insertL id q m).Perm ((id, q) :: m) := by
  induction m with
  | nil => rfl
  | cons x y ih =>
    obtain ⟨k', v'⟩ := x
    simp only [SMap.findL] at h
    by_cases hk : id = k'
    · rw [if_pos hk] at h; simp at h
    · rw [if_neg hk] at h
      simp only [SMap.insertL]
      split_ifs with h1
      · rfl
      · exact ((ih h).cons _).trans (List.Perm.swap _ _ _)

theorem addPolygons_perm (L : List (Int × Polygon K)) : ∀ p : Polyhedron K, (L.map (·.1)).Nodup → (∀ e ∈ L, p.polygons.find? e.1 = none) →
    (p.addPolygons L).polygons.entries.Perm (p.polygons.entries ++ L) := by
  induction L with
  | nil => intro p _ _; simp [addPolygons]
  | cons e t ih =>
    intro p hnd hnew
    obtain ⟨id, q⟩ := e
    rw [List.map_cons, List.nodup_cons] at hnd
    rw [addPolygons]
    refine (ih (p.addPolygon id q) hnd.2 ?_).trans ?_
    · intro e he
      have : (p.addPolygon id q).polygons.find? e.1 = if e.1 = id then some q else p.polygons.find? e.1 := SMap.find?_insert p.polygons id e.1 q
      rw [this, if_neg, hnew e (by simp [he])]
      rintro rfl
      exact hnd.1 (List.mem_map.2 ⟨e, he, rfl⟩)
    · have := insertL_perm id q p.polygons.entries (hnew (id, q) (by simp))
      refine (List.Perm.append_right t this).trans ?_
      rw [List.cons_append]
      exact List.perm_middle.symm

theorem addPolygons_append (L : List (Int × Polygon K)) (e : Int × Polygon K) : ∀ p : Polyhedron K, p.addPolygons (L ++ [e]) = (p.addPolygons L).addPolygon e.1 e.2 := by
  induction L with
  | nil => intro p; rfl
  | cons x t ih => intro p; exact ih _

/-- The volume of a polyhedron built from polygons whose terms are right, when the vector areas of its faces add up to 0. -/
theorem volume_list (nrm : Vec3 K → K) (eps : K) (L : List (Int × Polygon K)) (hnd : (L.map (·.1)).Nodup) (h4 : 4 ≤ L.length)
    (hg : ∀ e ∈ L, e.2.vs ≠ [] ∧ ∀ v0, volumeTerm nrm eps v0 e.2 = 3 * coneVolume v0 e.2.vs) (hc : (L.map fun e => vecArea2 e.2.vs).sum = 0) (o : Vec3 K) :
    ((empty.addPolygons L).calculateVolume nrm eps false).m_volume = (L.map fun e => coneVolume o e.2.vs).sum := by
  obtain ⟨h1, h2, -, h3, h5⟩ := addPolygons_spec L empty hnd (fun _ _ => rfl)
  have key : ∀ (o' : Vec3 K) (L : List (Int × Polygon K)), (L.map fun e => coneVolume o e.2.vs).sum =
      (L.map fun e => coneVolume o' e.2.vs).sum + (o' - o).dot (L.map fun e => vecArea2 e.2.vs).sum / 6 := by
    intro o' L
    induction L with
    | nil => simp [Vec3.dot]
    | cons e t ih =>
      simp only [List.map_cons, List.sum_cons, ih]
      cases hv : e.2.vs with
      | nil => simp [coneVolume, vecArea2]
      | cons a l =>
        rw [coneVolume_eq, coneVolume_eq]
        simp only [Vec3.dot, Vec3.sub_x, Vec3.sub_y, Vec3.sub_z, Vec3.add_x, Vec3.add_y, Vec3.add_z]
        ring
  cases L with
  | nil => simp at h4
  | cons e0 t =>
    obtain ⟨v0, r, hv0⟩ := List.exists_cons_of_ne_nil (hg e0 (by simp)).1
    rw [key v0, hc]
    have hpoly : ∀ e ∈ e0 :: t, (empty.addPolygons (e0 :: t)).polygon e.1 = e.2 := by
      intro e he; rw [polygon, h2 e he]; rfl
    have hfold : ∀ (u : List (Int × Polygon K)) (acc : K), (∀ f ∈ u, f ∈ e0 :: t) →
        (u.map (·.1)).foldl (fun acc i => acc + volumeTerm nrm eps v0 ((empty.addPolygons (e0 :: t)).polygon i)) acc =
          acc + 3 * (u.map fun e => coneVolume v0 e.2.vs).sum := by
      intro u
      induction u with
      | nil => intro acc _; simp
      | cons f u ih =>
        intro acc hu
        have hf := hu f (by simp)
        rw [List.map_cons, List.foldl_cons, ih _ (fun g hg => hu g (by simp [hg])), hpoly f hf, (hg f hf).2 v0]
        simp only [List.map_cons, List.sum_cons]
        ring
    have hb : (empty.addPolygons (e0 :: t)).bVolume = false := by rw [h5]; rfl
    simp only [calculateVolume, hb, Bool.not_false, Bool.true_or, if_true]
    unfold volumeOf
    rw [if_pos (by rw [h3]; simp only [empty, SMap.empty, List.length_nil, Nat.zero_add]; exact h4), h1]
    simp only [empty, List.nil_append, List.map_cons]
    have := hpoly e0 (by simp)
    simp only [empty] at this hfold
    rw [this, hv0]
    dsimp only
    rw [hfold t 0 (fun g hg => by simp [hg])]
    have h0 : coneVolume v0 (v0 :: r) = 0 := by rw [coneVolume_eq]; simp [Vec3.dot]
    simp only [List.sum_cons, hv0, h0, zero_add]
    simp [Vec3.dot]

/-- The term of a polygon whose normal is cached. -/
theorem volumeTerm_cached (nrm : Vec3 K → K) (hN : IsNorm nrm) (eps : K) (heps : eps < 1) (q : Polygon K) (hA : q.bArea = false) (hB : q.bNormal = true)
    (hsq : q.m_normal.normSq = 1) (horth : ∀ v ∈ q.vs, ∀ w ∈ q.vs, (v - w).dot q.m_normal = 0) (hlen : 1 < q.vs.length) (v0 : Vec3 K) :
    volumeTerm nrm eps v0 q = 3 * coneVolume v0 q.vs := by
  obtain ⟨vs, n, bN, ar, bA⟩ := q
  dsimp only at hA hB hsq horth hlen ⊢
  subst hA hB
  have hnrm : nrm n = 1 := hN.eq_of_sq zero_le_one (by rw [hsq]; ring)
  have hn0 : n ≠ 0 := by
    intro h0; rw [h0] at hsq; simp [Vec3.normSq] at hsq
  have hpar := vecArea2_parallel hsq vs horth
  have harea := areaWith_of_parallel nrm eps n vs _ hlen hn0 hnrm heps hpar
  have hm : (⟨vs, n, true, ar, false⟩ : Polygon K).calculateArea nrm eps false = ⟨vs, n, true, areaWith nrm eps n vs, true⟩ := by
    simp [calculateArea, calculateNormal, hlen]
  rw [volumeTerm, hm]
  cases vs with
  | nil => simp at hlen
  | cons v l =>
    simp only
    rw [coneVolume_eq, harea]
    conv_rhs => rw [hpar, Vec3.dot_smul]
    ring

theorem hasCorner_reverse {nrm : Vec3 K → K} (hN : IsNorm nrm) {eps : K} {vs : List (Vec3 K)} (h : HasCorner nrm eps vs) : HasCorner nrm eps vs.reverse := by
  obtain ⟨l, a, b, c, r, hvs, hlt⟩ := h
  refine ⟨r.reverse, c, b, a, l.reverse, by rw [hvs]; simp, ?_⟩
  have : Vec3.cross (b - c) (a - c) = -Vec3.cross (b - a) (c - a) := by
    ext <;> simp [Vec3.cross_x, Vec3.cross_y, Vec3.cross_z] <;> ring
  rw [this, hN.neg]
  exact hlt

theorem sum_filter_map {ι : Type} (l : List ι) (p : ι → Bool) (g : ι → Vec3 K) (h : ∀ e ∈ l, p e = false → g e = 0) : ((l.filter p).map g).sum = (l.map g).sum := by
  induction l with
  | nil => rfl
  | cons a l ih =>
    have := ih (fun e he => h e (List.mem_cons_of_mem _ he))
    cases hp : p a with
    | true => rw [List.filter_cons_of_pos hp, List.map_cons, List.sum_cons, this, List.map_cons, List.sum_cons]
    | false => rw [List.filter_cons_of_neg (by simp [hp]), this, List.map_cons, List.sum_cons, h a (by simp) hp, zero_add]

theorem sum_filter_map' {ι : Type} (l : List ι) (p : ι → Bool) (g : ι → K) (h : ∀ e ∈ l, p e = false → g e = 0) : ((l.filter p).map g).sum = (l.map g).sum := by
  induction l with
  | nil => rfl
  | cons a l ih =>
    have := ih (fun e he => h e (List.mem_cons_of_mem _ he))
    cases hp : p a with
    | true => rw [List.filter_cons_of_pos hp, List.map_cons, List.sum_cons, this, List.map_cons, List.sum_cons]
    | false => rw [List.filter_cons_of_neg (by simp [hp]), this, List.map_cons, List.sum_cons, h a (by simp) hp, zero_add]

end Poly
end Clip

open Polyhedron Polygon

/-! ### Specification -/

/-- The edges of the faces that lie in the plane. -/
def cutEdges (pl : GPlane K) (faces : List (List (Vec3 K))) : List (Vec3 K × Vec3 K) :=
  (faces.flatMap fun f => f.zip f.tail).filter fun e => decide (pl.normal.dot e.1 = pl.d) && decide (pl.normal.dot e.2 = pl.d)

/-- A polyhedron made of closed planar polygons that fit together into a closed surface. -/
structure SolidFaces (P : Polyhedron K) : Prop where
  faces : ∀ e ∈ P.polygons.entries, (∃ a l, e.2.vs = a :: l ++ [a]) ∧ Planar e.2.vs
  closed : ClosedSurface (P.polygons.entries.map fun e => e.2.vs)

/-- The clip is clean: the clipped faces leave one opening, a simple loop, the surface turning its inner side to the cutting plane; the new face points along the normal of
the plane; no face of the result is degenerate (with respect to the machine epsilon), and there are at least four. -/
structure CleanCut (nrm : Vec3 K → K) (eps : K) (np : Polygon K) (id : Int) (pl : GPlane K) (P : Polyhedron K) : Prop where
  ring : ∃ c : List (Vec3 K), c.Nodup ∧ 3 ≤ c.length ∧ (cutEdges pl ((P.clipFaces nrm pl 0).map fun e => e.2.vs)).Perm (ringEdges c) ∧
    pl.normal.dot (vecArea2 c) ≤ 0
  cap : 0 ≤ pl.normal.dot (vecArea2 (P.clip nrm eps np id pl 0).1.vs)
  corners : ∀ e ∈ (P.clip nrm eps np id pl 0).2.polygons.entries, HasCorner nrm eps e.2.vs
  four : 4 ≤ (P.clip nrm eps np id pl 0).2.nbPolygons

namespace Clip

theorem lines_pairs (vs : List (Vec3 K)) : (Polyline.lines vs).map (fun l => (l.startP, l.endP)) = vs.zip vs.tail := by
  induction vs with
  | nil => rfl
  | cons a l ih =>
    cases l with
    | nil => rfl
    | cons b l => simp only [Polyline.lines, List.map_cons, ih]; rfl

theorem planeLines_pairs (pl : GPlane K) (L : List (Int × Polygon K)) :
    ((L.flatMap fun e => (Polyline.lines e.2.vs).filter fun l => decide (pl.distance l.startP ≤ 0) && decide (pl.distance l.endP ≤ 0)).map
      fun l => (l.startP, l.endP)) = cutEdges pl (L.map fun e => e.2.vs) := by
  have hd : ∀ x : Vec3 K, pl.distance x ≤ 0 ↔ pl.normal.dot x = pl.d := by
    intro x; unfold GPlane.distance; rw [abs_nonpos_iff, sub_eq_zero]
  unfold cutEdges
  induction L with
  | nil => rfl
  | cons e t ih =>
    rw [List.flatMap_cons, List.map_append, ih, List.map_cons, List.flatMap_cons, List.filter_append]
    congr 1
    rw [← lines_pairs, List.filter_map]
    congr 1
    apply List.filter_congr
    intro l _
    simp only [Function.comp, hd]

theorem ok_lines (vs : List (Vec3 K)) : ∀ l ∈ Polyline.lines vs, l.Ok := by
  induction vs with
  | nil => intro l hl; cases hl
  | cons a r ih =>
    cases r with
    | nil => intro l hl; cases hl
    | cons b r =>
      intro l hl
      rw [Polyline.lines, List.mem_cons] at hl
      rcases hl with rfl | hl
      · exact mk2_ok _ _
      · exact ih l hl

theorem gsweep_cut (pl : GPlane K) (o : Vec3 K) (vs : List (Vec3 K)) :
    gsweep (pterm pl o) vs = (((vs.zip vs.tail).filter fun e => decide (pl.normal.dot e.1 = pl.d) && decide (pl.normal.dot e.2 = pl.d)).map fun e => tri o e.1 e.2).sum := by
  induction vs with
  | nil => rfl
  | cons a l ih =>
    cases l with
    | nil => rfl
    | cons b l =>
      rw [gsweep_cons_cons, ih, show (a :: b :: l).zip (a :: b :: l).tail = (a, b) :: (b :: l).zip (b :: l).tail from rfl]
      have hz : ∀ x : Vec3 K, ht pl x = 0 ↔ pl.normal.dot x = pl.d := by intro x; unfold ht; rw [sub_eq_zero]
      unfold pterm
      simp only [hz]
      by_cases h : pl.normal.dot a = pl.d ∧ pl.normal.dot b = pl.d
      · rw [if_pos h, List.filter_cons_of_pos (by simp [h.1, h.2]), List.map_cons, List.sum_cons]
      · rw [if_neg h, List.filter_cons_of_neg (by simpa using h), zero_add]

theorem gclosed_eq_gsweep {g : Vec3 K → Vec3 K → Vec3 K} (hg : ∀ x, g x x = 0) (vs : List (Vec3 K)) (h : vs.head? = vs.getLast?) : gclosed g vs = gsweep g vs := by
  cases vs with
  | nil => rfl
  | cons a l =>
    rw [gclosed_cons, gsweep_append]
    rw [List.head?_cons, List.getLast?_eq_some_getLast (by simp)] at h
    rw [← Option.some.inj h, hg, add_zero]

/-- The vector areas of the clipped faces add up to the area of the opening. -/
theorem sum_clipFaces {nrm : Vec3 K → K} (hN : IsNorm nrm) (pl : GPlane K) (P : Polyhedron K) (hP : SolidFaces P) (o : Vec3 K) :
    ((P.clipFaces nrm pl 0).map fun e => vecArea2 e.2.vs).sum = ((cutEdges pl ((P.clipFaces nrm pl 0).map fun e => e.2.vs)).map fun e => tri o e.1 e.2).sum := by
  have hshort : ∀ (g : Vec3 K → Vec3 K → Vec3 K), (∀ x y, g x y = -g y x) → (∀ x, g x x = 0) →
      ∀ e ∈ P.polygons.entries.map (fun e => (e.1, e.2.clip nrm pl 0)), (decide (3 < e.2.vs.length)) = false → gclosed g e.2.vs = 0 := by
    intro g h1 h2 e he hlen
    obtain ⟨e', -, rfl⟩ := List.mem_map.1 he
    exact gclosed_short h1 h2 _ (by simpa using hlen) (C68_clip nrm hN pl e'.2).2.2.2.1
  have hA : ((P.clipFaces nrm pl 0).map fun e => vecArea2 e.2.vs).sum = ((P.polygons.entries.map fun e => (e.1, e.2.clip nrm pl 0)).map fun e => vecArea2 e.2.vs).sum := by
    unfold clipFaces
    apply sum_filter_map
    intro e he hl
    rw [← gclosed_tri o]
    exact hshort _ (tri_swap o) (tri_self o) e he hl
  have hB : ((P.clipFaces nrm pl 0).map fun e => gclosed (pterm pl o) e.2.vs).sum =
      ((P.polygons.entries.map fun e => (e.1, e.2.clip nrm pl 0)).map fun e => gclosed (pterm pl o) e.2.vs).sum := by
    unfold clipFaces
    apply sum_filter_map
    intro e he hl
    exact hshort _ (pterm_swap pl o) (pterm_self pl o) e he hl
  have hC : ((P.polygons.entries.map fun e => (e.1, e.2.clip nrm pl 0)).map fun e => vecArea2 e.2.vs).sum =
      ((P.polygons.entries.map fun e => e.2.vs).map (pieceSum pl o)).sum +
        ((P.polygons.entries.map fun e => (e.1, e.2.clip nrm pl 0)).map fun e => gclosed (pterm pl o) e.2.vs).sum := by
    have hf := hP.faces
    revert hf
    generalize P.polygons.entries = L
    intro hf
    induction L with
    | nil => simp
    | cons e t ih =>
      simp only [List.map_cons, List.sum_cons] at ih ⊢
      rw [ih (fun e he => hf e (List.mem_cons_of_mem _ he))]
      obtain ⟨⟨a, l, h⟩, -⟩ := hf e (by simp)
      rw [clip_area_split hN pl o e.2 a l h]
      abel
  have hD := sum_pieces pl o _ (by
    intro f hf
    obtain ⟨e, he, rfl⟩ := List.mem_map.1 hf
    exact (hP.faces e he).1) hP.closed
  rw [hA, hC, hD, zero_add, ← hB]
  have hcl : ∀ e ∈ P.clipFaces nrm pl 0, e.2.vs.head? = e.2.vs.getLast? := by
    intro e he
    unfold clipFaces at he
    obtain ⟨he, hl⟩ := List.mem_filter.1 he
    obtain ⟨e', -, rfl⟩ := List.mem_map.1 he
    refine (C68_clip nrm hN pl e'.2).2.2.2.1 ?_
    have := of_decide_eq_true hl
    dsimp only at this ⊢
    omega
  revert hcl
  generalize P.clipFaces nrm pl 0 = L
  intro hcl
  unfold cutEdges
  induction L with
  | nil => rfl
  | cons e t ih =>
    simp only [List.map_cons, List.sum_cons, List.flatMap_cons, List.filter_append, List.map_append, List.sum_append] at ih ⊢
    rw [ih (fun e he => hcl e (List.mem_cons_of_mem _ he)), gclosed_eq_gsweep (pterm_self pl o) _ (hcl e (by simp)), gsweep_cut]

end Clip

open Clip in
/-- C70: for every polyhedron made of closed planar polygons that fit together into a closed surface, and every clean clip by a plane, the volume of the clipped polyhedron is
the sum of the signed volumes of the cones from any point of the plane over the parts of the faces below the plane: the new face closes the surface. -/
theorem C70_volume (nrm : Vec3 K → K) (hN : IsNorm nrm) (eps : K) (heps : 0 ≤ eps ∧ eps < 1) (np : Polygon K) (hnp : np.bArea = false) (id : Int) (pl : GPlane K)
    (hn : pl.normal ≠ 0) (P : Polyhedron K) (hP : SolidFaces P) (hid : P.polygons.find? id = none) (hcut : CleanCut nrm eps np id pl P) (o : Vec3 K)
    (ho : pl.normal.dot o = pl.d) :
    ((P.clip nrm eps np id pl 0).2.calculateVolume nrm eps false).m_volume = (P.polygons.entries.map fun e => coneVolume o (e.2.clip nrm pl 0).vs).sum := by
  obtain ⟨⟨c, hnd, h3, hring, hside⟩, hcap, hcorn, hfour⟩ := hcut
  have hkeys : ((P.clipFaces nrm pl 0).map (·.1)).Nodup := by
    have : ((P.clipFaces nrm pl 0).map (·.1)).Sublist P.polygons.keys := by
      unfold clipFaces SMap.keys
      have := (List.filter_sublist (p := fun e : Int × Polygon K => decide (3 < e.2.vs.length)) (l := P.polygons.entries.map fun e => (e.1, e.2.clip nrm pl 0))).map (·.1)
      rwa [List.map_map] at this
    exact this.nodup P.polygons.keys_nodup
  have hidn : id ∉ (P.clipFaces nrm pl 0).map (·.1) := by
    intro h
    have : id ∈ P.polygons.keys := by
      unfold clipFaces at h
      obtain ⟨e, he, rfl⟩ := List.mem_map.1 h
      obtain ⟨e', he', rfl⟩ := List.mem_map.1 (List.mem_filter.1 he).1
      exact List.mem_map.2 ⟨e', he', rfl⟩
    rw [SMap.mem_keys, hid] at this
    simp at this
  have hperm := addPolygons_perm (P.clipFaces nrm pl 0) empty hkeys (fun _ _ => rfl)
  rw [show (empty : Polyhedron K).polygons.entries = [] from rfl, List.nil_append] at hperm
  set Q := empty.addPolygons (P.clipFaces nrm pl 0) with hQ
  have hls : ((Q.planeLines pl 0).map fun l => (l.startP, l.endP)).Perm (ringEdges c) := by
    refine List.Perm.trans ?_ hring
    rw [← planeLines_pairs]
    exact (hperm.flatMap_right _).map _
  have hok : ∀ l ∈ Q.planeLines pl 0, l.Ok := by
    intro l hl
    unfold planeLines at hl
    obtain ⟨e, -, he⟩ := List.mem_flatMap.1 hl
    exact ok_lines _ l (List.mem_filter.1 he).1
  obtain ⟨a, l, hrot, hset⟩ := setLines_ring hN c hnd h3 _ hok hls
  have hlen : 2 < (Q.planeLines pl 0).length := by
    have := hls.length_eq
    rw [List.length_map, LineList.length_ringEdges] at this
    omega
  -- the new face
  set vs := a :: l ++ [a] with hvs
  set q0 := (np.setPolyline vs).calculateNormal nrm eps true with hq0
  have hclip : P.clip nrm eps np id pl 0 = (if pl.normal.dot q0.m_normal < 0 then q0.invert else q0, Q.addPolygon id (if pl.normal.dot q0.m_normal < 0 then q0.invert else q0)) := by
    unfold Polyhedron.clip Polyhedron.close
    dsimp only
    rw [← hQ, if_pos hlen, hset]
  set q := if pl.normal.dot q0.m_normal < 0 then q0.invert else q0 with hq
  rw [hclip] at hcap hcorn hfour ⊢
  dsimp only at hcap hcorn hfour ⊢
  have hadd : Q.addPolygon id q = empty.addPolygons (P.clipFaces nrm pl 0 ++ [(id, q)]) := by rw [addPolygons_append]
  rw [hadd] at hcorn hfour ⊢
  have hkeys' : ((P.clipFaces nrm pl 0 ++ [(id, q)]).map (·.1)).Nodup := by
    rw [List.map_append, List.nodup_append]
    refine ⟨hkeys, by simp, ?_⟩
    intro x hx y hy
    simp only [List.map_cons, List.map_nil, List.mem_singleton] at hy
    rw [hy]
    rintro rfl
    exact hidn hx
  have hperm' := addPolygons_perm (P.clipFaces nrm pl 0 ++ [(id, q)]) empty hkeys' (fun _ _ => rfl)
  rw [show (empty : Polyhedron K).polygons.entries = [] from rfl, List.nil_append] at hperm'
  have hcorn' : ∀ e ∈ P.clipFaces nrm pl 0 ++ [(id, q)], HasCorner nrm eps e.2.vs := fun e he => hcorn e (hperm'.symm.subset he)
  -- the loop lies in the plane
  have hcpl : ∀ v ∈ c, pl.normal.dot v = pl.d := by
    intro v hv
    have : ∃ w, (v, w) ∈ ringEdges c := by
      obtain ⟨k, hk, rfl⟩ := List.getElem_of_mem hv
      have hk' : k < (ringEdges c).length := by rw [LineList.length_ringEdges]; exact hk
      have := List.getElem_mem hk'
      rw [LineList.getElem_ringEdges] at this
      exact ⟨_, this⟩
    obtain ⟨w, hw⟩ := this
    have := hring.symm.subset hw
    unfold cutEdges at this
    have := (List.mem_filter.1 this).2
    simp only [Bool.and_eq_true, decide_eq_true_eq] at this
    exact this.1
  have hvpl : ∀ v ∈ vs, pl.normal.dot v = pl.d := by
    intro v hv
    apply hcpl
    have : v ∈ a :: l := by rw [hvs] at hv; simp at hv ⊢; tauto
    rcases hrot with h | h
    · exact h.perm.subset this
    · exact List.mem_reverse.1 (h.perm.subset this)
  have hq0vs : q0.vs = vs := by rw [hq0]; simp [calculateNormal, setPolyline]
  have hq0n : q0.m_normal = normal nrm eps vs := by rw [hq0]; simp [calculateNormal, setPolyline]
  have hq0b : q0.bNormal = true := by rw [hq0]; simp [calculateNormal, setPolyline]
  have hq0a : q0.bArea = false := by rw [hq0]; simp [calculateNormal, setPolyline, hnp]
  have hqvs : q.vs = vs ∨ q.vs = vs.reverse := by
    rw [hq]; split_ifs
    · right; simp [invert, hq0vs]
    · left; exact hq0vs
  have hcorner : HasCorner nrm eps vs := by
    have := hcorn' (id, q) (by simp)
    dsimp only at this
    rcases hqvs with h | h
    · rwa [h] at this
    · rw [h] at this
      have := hasCorner_reverse hN this
      rwa [List.reverse_reverse] at this
  obtain ⟨hsq, horth, -, -⟩ := C37_area nrm hN eps heps vs ⟨pl.normal, pl.d, hn, hvpl⟩ hcorner
  have hterm : ∀ v0, volumeTerm nrm eps v0 q = 3 * coneVolume v0 q.vs := by
    intro v0
    apply volumeTerm_cached nrm hN eps heps.2 q
    · rw [hq]; split_ifs <;> simp [invert, hq0a]
    · rw [hq]; split_ifs <;> simp [invert, hq0b]
    · rw [hq]; split_ifs
      · rw [← hsq, ← hq0n]; simp [invert, Vec3.normSq, Vec3.dot]
      · rw [hq0n]; exact hsq
    · rw [hq]; split_ifs
      · intro v hv w hw
        simp only [invert, hq0vs, List.mem_reverse] at hv hw
        have := horth v hv w hw
        rw [← hq0n] at this
        simp only [invert]
        simp only [Vec3.dot, Vec3.neg_x, Vec3.neg_y, Vec3.neg_z] at this ⊢
        linarith
      · rw [hq0vs, hq0n]; exact horth
    · rcases hqvs with h | h <;> rw [h] <;> simp [hvs]
  have hqpl : ∀ v ∈ q.vs, pl.normal.dot v = pl.d := by
    intro v hv
    rcases hqvs with h | h
    · rw [h] at hv; exact hvpl v hv
    · rw [h] at hv; exact hvpl v (List.mem_reverse.1 hv)
  -- the vector areas add up to 0
  have hvA : vecArea2 q.vs = vecArea2 c ∨ vecArea2 q.vs = -vecArea2 c := by
    have h1 : vecArea2 vs = vecArea2 c ∨ vecArea2 vs = -vecArea2 c := by
      rw [hvs, vecArea2_closed]
      rcases hrot with h | h
      · left; exact vecArea2_rotated h
      · right; rw [vecArea2_rotated h, vecArea2_reverse]
    rcases hqvs with h | h
    · rw [h]; exact h1
    · rw [h, vecArea2_reverse]
      rcases h1 with h1 | h1
      · right; rw [h1]
      · left; rw [h1, neg_neg]
  have hzero : vecArea2 c + vecArea2 q.vs = 0 := by
    rcases hvA with h | h
    · rw [h] at hcap
      have h0 : pl.normal.dot (vecArea2 c) = 0 := le_antisymm hside hcap
      have hw : vecArea2 c = 0 := by
        have hz : ∀ u : Vec3 K, u.dot (vecArea2 c) = 0 := by
          intro u
          have hk := normSq_ne hn
          have := dot_vecArea2_zero hn c hcpl (u - (pl.normal.dot u / pl.normal.dot pl.normal) • pl.normal) (by
            rw [Vec3.dot_sub, Vec3.dot_smul, div_mul_cancel₀ _ hk, sub_self])
          have e : (u - (pl.normal.dot u / pl.normal.dot pl.normal) • pl.normal).dot (vecArea2 c) =
              u.dot (vecArea2 c) - (pl.normal.dot u / pl.normal.dot pl.normal) * pl.normal.dot (vecArea2 c) := by
            simp only [Vec3.dot, Vec3.sub_x, Vec3.sub_y, Vec3.sub_z, Vec3.smul_x, Vec3.smul_y, Vec3.smul_z]; ring
          rw [e, h0, mul_zero, sub_zero] at this
          exact this
        by_contra hne
        exact normSq_ne hne (hz _)
      rw [h, hw, add_zero]
    · rw [h, add_neg_cancel]
  have hsum : ((P.clipFaces nrm pl 0 ++ [(id, q)]).map fun e => vecArea2 e.2.vs).sum = 0 := by
    rw [List.map_append, List.sum_append, sum_clipFaces hN pl P hP o, (hring.map fun e => tri o e.1 e.2).sum_eq, ring_sum]
    simpa using hzero
  rw [volume_list nrm eps _ hkeys' _ _ hsum o]
  · rw [List.map_append, List.sum_append]
    have hq0c : coneVolume o q.vs = 0 := by
      rw [coneVolume_at o o hn q.vs hqpl ho]; simp [Vec3.dot]
    simp only [List.map_cons, List.map_nil, List.sum_cons, List.sum_nil, hq0c, add_zero]
    unfold clipFaces
    rw [sum_filter_map', List.map_map]
    · rfl
    · intro e he hl
      obtain ⟨e', he', rfl⟩ := List.mem_map.1 he
      have h0 : vecArea2 (e'.2.clip nrm pl 0).vs = 0 := by
        rw [← gclosed_tri o]
        exact gclosed_short (tri_swap o) (tri_self o) _ (by simpa using hl) (C68_clip nrm hN pl e'.2).2.2.2.1
      dsimp only
      cases hv : (e'.2.clip nrm pl 0).vs with
      | nil => rfl
      | cons x y => rw [hv] at h0; rw [coneVolume_eq, h0]; simp [Vec3.dot]
  · have : (empty.addPolygons (P.clipFaces nrm pl 0 ++ [(id, q)])).ids.length = (P.clipFaces nrm pl 0 ++ [(id, q)]).length := by
      rw [(addPolygons_spec _ empty hkeys' (fun _ _ => rfl)).1]; simp [empty]
    unfold nbPolygons at hfour
    rw [this] at hfour
    exact hfour
  · intro e he
    refine ⟨?_, ?_⟩
    · obtain ⟨x, p1, p2, p3, y, hx, -⟩ := hcorn' e he
      rw [hx]; simp
    · intro v0
      rw [List.mem_append] at he
      rcases he with he | he
      · have hc := hcorn' e (List.mem_append_left _ he)
        unfold clipFaces at he
        obtain ⟨e', he', rfl⟩ := List.mem_map.1 (List.mem_filter.1 he).1
        dsimp only at hc ⊢
        have hpl' : Planar (e'.2.clip nrm pl 0).vs := by
          obtain ⟨m, d, hm, hmd⟩ := (hP.faces e' he').2
          refine ⟨m, d, hm, ?_⟩
          intro v hv
          obtain ⟨-, e2, he2, hs⟩ := (C68_clip nrm hN pl e'.2).1 v hv
          have := List.of_mem_zip (a := e2.1) (b := e2.2) he2
          exact dot_seg (hmd _ this.1) (hmd _ (List.mem_of_mem_tail this.2)) hs
        exact volumeTerm_eq nrm hN eps heps v0 _ hpl' hc
      · rw [List.mem_singleton] at he
        rw [he]
        exact hterm v0


open Clip in
/-- C70: when the clips by a plane and by the same plane with its normal turned around are both clean, the volumes of the two clipped polyhedra add up to the volume of the
polyhedron. (`build l` is the polyhedron with the faces `l`.) -/
theorem C70_both (nrm : Vec3 K → K) (hN : IsNorm nrm) (eps : K) (heps : 0 ≤ eps ∧ eps < 1) (np np' : Polygon K) (hnp : np.bArea = false ∧ np'.bArea = false) (id : Int)
    (pl : GPlane K) (hn : pl.normal ≠ 0) (l : List (Int × List (Vec3 K))) (hids : (l.map (·.1)).Nodup) (h4 : 4 ≤ l.length)
    (hl : ∀ f ∈ l, Planar f.2 ∧ HasCorner nrm eps f.2 ∧ ∃ a r, f.2 = a :: r ++ [a]) (hc : ClosedSurface (l.map (·.2))) (hid : id ∉ l.map (·.1))
    (hcut : CleanCut nrm eps np id pl (build l)) (hcut' : CleanCut nrm eps np' id pl.invert (build l)) :
    (((build l).clip nrm eps np id pl 0).2.calculateVolume nrm eps false).m_volume + (((build l).clip nrm eps np' id pl.invert 0).2.calculateVolume nrm eps false).m_volume =
      ((build l).calculateVolume nrm eps false).m_volume := by
  have hkeys : ((l.map fun f => (f.1, Polygon.ofPolyline f.2)).map (·.1)).Nodup := by rw [List.map_map]; exact hids
  have hperm := addPolygons_perm (l.map fun f => (f.1, Polygon.ofPolyline f.2)) empty hkeys (fun _ _ => rfl)
  rw [show (empty : Polyhedron K).polygons.entries = [] from rfl, List.nil_append] at hperm
  have hmap : ((build l).polygons.entries.map fun e => e.2.vs).Perm (l.map (·.2)) := by
    have := hperm.map fun e => e.2.vs
    rw [List.map_map] at this
    exact this
  have hfaces : ∀ e ∈ (build l).polygons.entries, (∃ a r, e.2.vs = a :: r ++ [a]) ∧ Planar e.2.vs := by
    intro e he
    obtain ⟨f, hf, rfl⟩ := List.mem_map.1 (hperm.subset he)
    exact ⟨(hl f hf).2.2, (hl f hf).1⟩
  have hS : SolidFaces (build l) := by
    refine ⟨hfaces, ?_⟩
    unfold ClosedSurface
    have h1 := hmap.flatMap_right loopEdges
    exact h1.trans (hc.trans (h1.map _).symm)
  have hid' : (build l).polygons.find? id = none := by
    by_contra h
    have : id ∈ (build l).polygons.keys := by
      rw [SMap.mem_keys]
      exact Option.isSome_iff_ne_none.2 h
    apply hid
    obtain ⟨e, he, rfl⟩ := List.mem_map.1 this
    obtain ⟨f, hf, rfl⟩ := List.mem_map.1 (hperm.subset he)
    exact List.mem_map.2 ⟨f, hf, rfl⟩
  have hk := normSq_ne hn
  obtain ⟨o, ho⟩ : ∃ o, pl.normal.dot o = pl.d := ⟨(pl.d / pl.normal.dot pl.normal) • pl.normal, by rw [Vec3.dot_smul, div_mul_cancel₀ _ hk]⟩
  have hni : pl.invert.normal ≠ 0 := by
    intro h
    apply hn
    have : -(-pl.normal) = -(0 : Vec3 K) := congrArg _ h
    simpa using this
  have hoi : pl.invert.normal.dot o = pl.invert.d := by
    unfold GPlane.invert
    rw [← ho]; simp only [Vec3.dot, Vec3.neg_x, Vec3.neg_y, Vec3.neg_z]; ring
  rw [C70_volume nrm hN eps heps np hnp.1 id pl hn _ hS hid' hcut o ho, C70_volume nrm hN eps heps np' hnp.2 id pl.invert hni _ hS hid' hcut' o hoi,
    C60_volume nrm hN eps heps l hids h4 (fun f hf => ⟨(hl f hf).1, (hl f hf).2.1⟩) hc o]
  have e1 : (l.map fun f => coneVolume o f.2).sum = ((build l).polygons.entries.map fun e => coneVolume o e.2.vs).sum := by
    have := (hmap.map (coneVolume o)).sum_eq
    rw [List.map_map, List.map_map] at this
    exact this.symm
  rw [e1]
  revert hfaces
  generalize (build l).polygons.entries = L
  intro hfaces
  induction L with
  | nil => simp
  | cons e t ih =>
    simp only [List.map_cons, List.sum_cons] at ih ⊢
    rw [← ih (fun e he => hfaces e (List.mem_cons_of_mem _ he))]
    obtain ⟨⟨a, r, hvs⟩, hpl⟩ := hfaces e (by simp)
    suffices h : coneVolume o e.2.vs = coneVolume o (e.2.clip nrm pl 0).vs + coneVolume o (e.2.clip nrm pl.invert 0).vs by rw [h]; abel
    by_cases hoff : ∃ v ∈ e.2.vs, pl.normal.dot v ≠ pl.d
    · have hadd := C68_area nrm hN pl e.2 a r hvs hpl hoff
      obtain ⟨m, d, hm, hmd⟩ := hpl
      have hin : ∀ pl' : GPlane K, ∀ v ∈ (e.2.clip nrm pl' 0).vs, m.dot v = d := by
        intro pl' v hv
        obtain ⟨-, e2, he2, hs⟩ := (C68_clip nrm hN pl' e.2).1 v hv
        have := List.of_mem_zip (a := e2.1) (b := e2.2) he2
        exact dot_seg (hmd _ this.1) (hmd _ (List.mem_of_mem_tail this.2)) hs
      have hf : m.dot a = d := hmd a (by rw [hvs]; simp)
      rw [coneVolume_at o a hm _ hmd hf, coneVolume_at o a hm _ (hin pl) hf, coneVolume_at o a hm _ (hin pl.invert) hf, ← hadd]
      simp only [Vec3.dot, Vec3.add_x, Vec3.add_y, Vec3.add_z]; ring
    · push Not at hoff
      obtain ⟨h1, h2⟩ := C68_in_plane nrm hN pl e.2 hoff
      rw [h1, h2, coneVolume_at o o hn _ hoff ho]
      simp [coneVolume, Vec3.dot]

/-- The faces of the unit cube, pointing outwards. -/
def cutCubeFaces : List (Int × List (Vec3 ℚ)) :=
  [(0, [⟨0, 0, 0⟩, ⟨0, 1, 0⟩, ⟨1, 1, 0⟩, ⟨1, 0, 0⟩, ⟨0, 0, 0⟩]), (1, [⟨0, 0, 1⟩, ⟨1, 0, 1⟩, ⟨1, 1, 1⟩, ⟨0, 1, 1⟩, ⟨0, 0, 1⟩]),
   (2, [⟨0, 0, 0⟩, ⟨1, 0, 0⟩, ⟨1, 0, 1⟩, ⟨0, 0, 1⟩, ⟨0, 0, 0⟩]), (3, [⟨1, 0, 0⟩, ⟨1, 1, 0⟩, ⟨1, 1, 1⟩, ⟨1, 0, 1⟩, ⟨1, 0, 0⟩]),
   (4, [⟨1, 1, 0⟩, ⟨0, 1, 0⟩, ⟨0, 1, 1⟩, ⟨1, 1, 1⟩, ⟨1, 1, 0⟩]), (5, [⟨0, 1, 0⟩, ⟨0, 0, 0⟩, ⟨0, 0, 1⟩, ⟨0, 1, 1⟩, ⟨0, 1, 0⟩])]

/-- The oblique plane x + z = 5/4. -/
def cutCubePlane : GPlane ℚ := ⟨⟨1, 0, 1⟩, 5 / 4⟩

theorem hasCorner_first (nrm : Vec3 K → K) (eps : K) (vs : List (Vec3 K)) (h : 3 ≤ vs.length ∧ eps < nrm (Vec3.cross (vs.getD 1 0 - vs.getD 0 0) (vs.getD 2 0 - vs.getD 0 0))) :
    HasCorner nrm eps vs := by
  match vs, h with
  | a :: b :: c :: r, h => exact ⟨[], a, b, c, r, rfl, h.2⟩

/-- The hypotheses of `C70_both` are met by the unit cube and an oblique plane (with the sum of absolute values for the norm, which clipping only compares with 0 and with the
machine epsilon): the faces, and both clips. -/
theorem cutCube_clean : CleanCut clipL1 (1 / 1000) (Polygon.ofPolyline []) 99 cutCubePlane (build cutCubeFaces) ∧
    CleanCut clipL1 (1 / 1000) (Polygon.ofPolyline []) 99 cutCubePlane.invert (build cutCubeFaces) := by
  refine ⟨⟨⟨[⟨1 / 4, 0, 1⟩, ⟨1 / 4, 1, 1⟩, ⟨1, 1, 1 / 4⟩, ⟨1, 0, 1 / 4⟩], by decide +kernel, by decide +kernel, by decide +kernel, by decide +kernel⟩, by decide +kernel,
    fun e he => hasCorner_first _ _ _ ?_, by decide +kernel⟩,
    ⟨[⟨1, 0, 1 / 4⟩, ⟨1, 1, 1 / 4⟩, ⟨1 / 4, 1, 1⟩, ⟨1 / 4, 0, 1⟩], by decide +kernel, by decide +kernel, by decide +kernel, by decide +kernel⟩, by decide +kernel,
    fun e he => hasCorner_first _ _ _ ?_, by decide +kernel⟩
  · revert e; decide +kernel
  · revert e; decide +kernel

example : ClosedSurface (cutCubeFaces.map (·.2)) ∧ (cutCubeFaces.map (·.1)).Nodup ∧ 99 ∉ cutCubeFaces.map (·.1) ∧
    (∀ f ∈ cutCubeFaces, (∃ a r, f.2 = a :: r ++ [a]) ∧ Planar f.2 ∧ HasCorner clipL1 (1 / 1000) f.2) := by
  refine ⟨by unfold ClosedSurface; decide +kernel, by decide +kernel, by decide +kernel, ?_⟩
  intro f hf
  refine ⟨⟨f.2.getD 0 0, (f.2.drop 1).take 3, ?_⟩, ?_, hasCorner_first _ _ _ ?_⟩
  · revert f; decide +kernel
  · refine ⟨Vec3.cross (f.2.getD 1 0 - f.2.getD 0 0) (f.2.getD 2 0 - f.2.getD 0 0), (Vec3.cross (f.2.getD 1 0 - f.2.getD 0 0) (f.2.getD 2 0 - f.2.getD 0 0)).dot (f.2.getD 0 0), ?_, ?_⟩
    · revert f; decide +kernel
    · revert f; decide +kernel
  · revert f; decide +kernel

/-- The two parts have the volumes 23/32 and 9/32. -/
example : (((build cutCubeFaces).clip clipL1 (1 / 1000) (Polygon.ofPolyline []) 99 cutCubePlane 0).2.calculateVolume clipL1 (1 / 1000) false).m_volume = 23 / 32 ∧
    (((build cutCubeFaces).clip clipL1 (1 / 1000) (Polygon.ofPolyline []) 99 cutCubePlane.invert 0).2.calculateVolume clipL1 (1 / 1000) false).m_volume = 9 / 32 := by
  decide +kernel

/-- A prism of height 2 over a dart, its faces pointing outwards; the first face starts at the reflex corner. -/
def cutDartFaces : List (Int × List (Vec3 ℚ)) :=
  [(0, [⟨0, 0, 0⟩, ⟨-2, 2, 0⟩, ⟨-2, 2, 2⟩, ⟨0, 0, 2⟩, ⟨0, 0, 0⟩]), (1, [⟨-2, 2, 0⟩, ⟨0, -3, 0⟩, ⟨0, -3, 2⟩, ⟨-2, 2, 2⟩, ⟨-2, 2, 0⟩]),
   (2, [⟨0, -3, 0⟩, ⟨2, 2, 0⟩, ⟨2, 2, 2⟩, ⟨0, -3, 2⟩, ⟨0, -3, 0⟩]), (3, [⟨2, 2, 0⟩, ⟨0, 0, 0⟩, ⟨0, 0, 2⟩, ⟨2, 2, 2⟩, ⟨2, 2, 0⟩]),
   (4, [⟨0, -3, 0⟩, ⟨-2, 2, 0⟩, ⟨0, 0, 0⟩, ⟨2, 2, 0⟩, ⟨0, -3, 0⟩]), (5, [⟨0, -3, 2⟩, ⟨2, 2, 2⟩, ⟨0, 0, 2⟩, ⟨-2, 2, 2⟩, ⟨0, -3, 2⟩])]

/-- Without the hypothesis `cap` it fails: the new face is turned by the corner at its second point, and when that corner is reflex it ends up pointing into the solid. Half
of this prism of volume 12 is reported to have the volume 2. -/
theorem C70_reflex :
    ClosedSurface (cutDartFaces.map (·.2)) ∧
    ((build cutDartFaces).calculateVolume clipL1 (1 / 1000) false).m_volume = 12 ∧
    (((build cutDartFaces).clip clipL1 (1 / 1000) (Polygon.ofPolyline []) 99 ⟨⟨0, 0, 1⟩, 1⟩ 0).2.calculateVolume clipL1 (1 / 1000) false).m_volume = 2 ∧
    (⟨0, 0, 1⟩ : Vec3 ℚ).dot (vecArea2 ((build cutDartFaces).clip clipL1 (1 / 1000) (Polygon.ofPolyline []) 99 ⟨⟨0, 0, 1⟩, 1⟩ 0).1.vs) < 0 := by
  refine ⟨by unfold ClosedSurface; decide +kernel, by decide +kernel, by decide +kernel, by decide +kernel⟩

end ENigMA
