import Verif.Csg.StlExchange
import Verif.Csg.RoundSpec
import Verif.Csg.BspProps
import Verif.Csg.CubeProps
import Verif.Geometry.PolygonProps
import Verif.Mesh.MeshLemmas
import Mathlib.Tactic.IntervalCases

/-! # C135: STL export and import of a solid -/

set_option linter.unusedSectionVars false
set_option autoImplicit false

namespace ENigMA
open Csg Polygon

/-! ### Sums over the sides of a path and of a ring -/

section Ring
variable {V M : Type} [AddCommGroup M]

/-- The sum of `g` over the consecutive pairs of a path. -/
def pathSum (g : V → V → M) : List V → M
  | a :: b :: l => g a b + pathSum g (b :: l)
  | _ => 0

/-- The sum of `g` over the sides of the ring with these corners. -/
def ringSum (g : V → V → M) : List V → M
  | [] => 0
  | a :: l => pathSum g (a :: l ++ [a])

variable (g : V → V → M)

theorem pathSum_append (p : List V) (b : V) (q : List V) : pathSum g (p ++ b :: q) = pathSum g (p ++ [b]) + pathSum g (b :: q) := by
  induction p with
  | nil => simp [pathSum]
  | cons a p ih =>
    cases p with
    | nil => simp [pathSum]
    | cons c p =>
      simp only [List.cons_append, pathSum] at ih ⊢
      rw [ih, add_assoc]

theorem ringSum_append_comm (l r : List V) : ringSum g (l ++ r) = ringSum g (r ++ l) := by
  cases l with
  | nil => simp
  | cons a l =>
    cases r with
    | nil => simp
    | cons b r =>
      have h1 : pathSum g (a :: l ++ b :: r ++ [a]) = pathSum g (a :: l ++ [b]) + pathSum g (b :: r ++ [a]) := by
        have := pathSum_append g (a :: l) b (r ++ [a])
        simpa using this
      have h2 : pathSum g (b :: r ++ a :: l ++ [b]) = pathSum g (b :: r ++ [a]) + pathSum g (a :: l ++ [b]) := by
        have := pathSum_append g (b :: r) a (l ++ [b])
        simpa using this
      change pathSum g (a :: l ++ b :: r ++ [a]) = pathSum g (b :: r ++ a :: l ++ [b])
      rw [h1, h2, add_comm]

variable (ha : ∀ a b, g a b = -g b a)

include ha in
theorem ringSum_ear (i p m : V) (w : List V) : ringSum g (i :: (p :: w ++ [m])) = ringSum g [i, p, m] + ringSum g (p :: w ++ [m]) := by
  have e1 : ringSum g (i :: (p :: w ++ [m])) = g i p + pathSum g (p :: w ++ [m]) + g m i := by
    have := pathSum_append g (p :: w) m [i]
    simp only [ringSum, List.cons_append, pathSum, List.append_assoc, List.nil_append, add_zero] at this ⊢
    rw [this, add_assoc]
  have e2 : ringSum g (p :: w ++ [m]) = pathSum g (p :: w ++ [m]) + g m p := by
    have := pathSum_append g (p :: w) m [p]
    simp only [ringSum, List.cons_append, pathSum, List.append_assoc, List.nil_append, add_zero] at this ⊢
    rw [this]
  have e3 : ringSum g [i, p, m] = g i p + (g p m + g m i) := by simp [ringSum, pathSum]
  rw [e1, e2, e3, ha p m]
  abel

include ha in
theorem ringSum_two (l : List V) (h : l.length = 2) : ringSum g l = 0 := by
  match l, h with
  | [a, b], _ => simp [ringSum, pathSum, ha b a]

end Ring

section Tri
variable {K : Type} [Field K] [LinearOrder K] [IsStrictOrderedRing K] {M : Type} [AddCommGroup M]

/-- A sum over sides that changes sign with the direction is the same for the polygon and for its triangles together. -/
theorem triLoop_ringSum (g : Vec3 K → Vec3 K → M) (ha : ∀ a b, g a b = -g b a) (ang : Vec3 K → Vec3 K → K) (maxAngle : K)
    (hmax : ∀ v w, |ang v w| < maxAngle) (vs : List (Vec3 K)) (k : Nat) (chain : List Nat) (hk : chain.length ≤ k + 2) (p : Nat × Nat × Nat)
    (h2 : 2 ≤ chain.length) :
    ((triLoop ang maxAngle vs k chain p).map fun t => ringSum g [t.1, t.2.1, t.2.2]).sum = ringSum g (chain.map (vtx vs)) := by
  induction k generalizing chain p with
  | zero =>
    have : chain.length = 2 := by omega
    simp [triLoop, ringSum_two g ha (chain.map (vtx vs)) (by simp [this])]
  | succ k ih =>
    unfold triLoop
    by_cases h3 : 2 < chain.length
    · rw [if_pos h3]
      simp only
      have hear := bestEar_spec ang vs chain h3 (List.range chain.length) (fun i hi => List.mem_range.1 hi)
        maxAngle (p.1, p.2.1, p.2.2, 0) (Or.inr ⟨by
          intro h0
          have := congrArg List.length h0
          rw [List.length_range, List.length_nil] at this; omega, hmax⟩)
      generalize bestEar ang vs chain (List.range chain.length) maxAngle (p.1, p.2.1, p.2.2, 0) = b at hear ⊢
      obtain ⟨ii, ip, im, wi⟩ := b
      obtain ⟨l, r, hch, hwi, hhead, hlast⟩ := hear
      simp only at hch hwi hhead hlast ⊢
      have herase : chain.eraseIdx wi = l ++ r := by rw [hch, ← hwi, eraseIdx_mid]
      rw [herase]
      have hlr : (l ++ r).length + 1 = chain.length := by rw [hch]; simp; omega
      have i2 := ih (l ++ r) (by omega) (ii, ip, im) (by omega)
      obtain ⟨w, hw⟩ : ∃ w, r ++ l = ip :: w ++ [im] := by
        match hrl : r ++ l with
        | [] => rw [hrl] at hhead; simp at hhead
        | [a] =>
          have := congrArg List.length hrl
          simp at this hlr; omega
        | a :: c :: rest =>
          rw [hrl] at hhead hlast
          have ha : a = ip := by simpa using hhead
          subst ha
          have hne : c :: rest ≠ [] := by simp
          rw [List.getLast?_cons_cons, List.getLast?_eq_some_getLast hne] at hlast
          have : (c :: rest).getLast hne = im := by simpa using hlast
          refine ⟨(c :: rest).dropLast, ?_⟩
          rw [← this, List.cons_append, List.dropLast_concat_getLast hne]
      rw [List.map_cons, List.sum_cons, i2, hch]
      have e1 : ringSum g ((l ++ ii :: r).map (vtx vs)) = ringSum g ((ii :: (r ++ l)).map (vtx vs)) := by
        rw [List.map_append, ringSum_append_comm, ← List.map_append]; rfl
      have e2 : ringSum g ((l ++ r).map (vtx vs)) = ringSum g ((r ++ l).map (vtx vs)) := by
        rw [List.map_append, ringSum_append_comm, ← List.map_append]
      rw [e1, e2, hw]
      simp only [List.map_cons, List.map_append, List.map_nil, List.cons_append]
      have := ringSum_ear g ha (vtx vs ii) (vtx vs ip) (vtx vs im) (w.map (vtx vs))
      simp only [List.cons_append] at this
      rw [this]
    · rw [if_neg h3]
      have : chain.length = 2 := by omega
      simp [ringSum_two g ha (chain.map (vtx vs)) (by simp [this])]

theorem triangulate_ringSum (g : Vec3 K → Vec3 K → M) (ha : ∀ a b, g a b = -g b a) (ang : Vec3 K → Vec3 K → K) (maxAngle : K)
    (hmax : ∀ v w, |ang v w| < maxAngle) (a : Vec3 K) (l : List (Vec3 K)) (h3 : 3 ≤ (a :: l).length) :
    ((triangulate ang maxAngle (a :: l ++ [a])).map fun t => ringSum g [t.1, t.2.1, t.2.2]).sum = pathSum g (a :: l ++ [a]) := by
  have hn : (a :: l ++ [a]).length - 1 = (a :: l).length := by simp
  have h := triLoop_ringSum g ha ang maxAngle hmax (a :: l ++ [a]) (a :: l).length (List.range (a :: l).length) (by simp) (0, 1, 2)
    (by simp at h3 ⊢; omega)
  rw [map_vtx_closed] at h
  unfold triangulate
  rw [hn, h]
  rfl

/-! ### The file -/

theorem addFacets_spec (ts : List (Vec3 K × Vec3 K × Vec3 K)) (n : Nat) (s : Stl.File K) (hok : s.Ok) (hn : ∀ i ∈ s.ids, i < (n : Int)) :
    (addFacets n ts s).Ok ∧ (addFacets n ts s).ids = s.ids ++ (List.range' n ts.length).map (fun i : Nat => (i : Int)) ∧
    (∀ i ∈ s.ids, (addFacets n ts s).get? i = s.get? i) ∧
    ∀ k (hk : k < ts.length), (addFacets n ts s).get? ((n + k : Nat) : Int) = some (triFacet ts[k]) := by
  induction ts generalizing n s with
  | nil => exact ⟨hok, by simp [addFacets], fun _ _ => rfl, fun k hk => absurd hk (by simp)⟩
  | cons t ts ih =>
    have hnm : (n : Int) ∉ s.ids := fun h => absurd (hn _ h) (lt_irrefl _)
    have hok' := Cont.add_ok hok (triFacet t) hnm
    obtain ⟨h1, h2, h3, h4⟩ := ih (n + 1) (s.add (n : Int) (triFacet t)) hok' (by
      intro i hi
      simp only [Cont.add, List.mem_append, List.mem_singleton] at hi
      rcases hi with hi | rfl
      · have := hn i hi; push_cast; omega
      · push_cast; omega)
    have hget : ∀ j, (s.add (n : Int) (triFacet t)).get? j = if j = (n : Int) then some (triFacet t) else s.get? j := by
      intro j
      rw [Cont.get?_add]
    refine ⟨h1, ?_, ?_, ?_⟩
    · change (addFacets (n + 1) ts (s.add (n : Int) (triFacet t))).ids = _
      rw [h2]
      simp [Cont.add, List.range'_succ]
    · intro i hi
      change (addFacets (n + 1) ts (s.add (n : Int) (triFacet t))).get? i = _
      rw [h3 i (by simp [Cont.add, hi]), hget, if_neg]
      rintro rfl
      exact hnm hi
    · intro k hk
      change (addFacets (n + 1) ts (s.add (n : Int) (triFacet t))).get? _ = _
      cases k with
      | zero =>
        have h0 : ((n + 0 : Nat) : Int) = (n : Int) := by simp
        rw [h0, h3 (n : Int) (by simp [Cont.add]), hget, if_pos rfl]
        rfl
      | succ k =>
        have := h4 k (by simpa using hk)
        rw [show n + (k + 1) = n + 1 + k by omega, this]
        rfl

/-- The polygon made of one exported triangle. -/
def triPoly (nrm : Vec3 K → K) (eps : K) (t : Vec3 K × Vec3 K × Vec3 K) : Poly K :=
  ⟨closeExact [t.1, t.2.1, t.2.2], Polygon.normal nrm eps (closeExact [t.1, t.2.1, t.2.2])⟩

theorem fromStl_toStl (nrm : Vec3 K → K) (eps : K) (ang : Vec3 K → Vec3 K → K) (maxAngle : K) (ps qs : List (Poly K)) :
    fromStl nrm eps qs (toStl ang maxAngle ps) =
      some (qs ++ (ps.flatMap fun p => triangulate ang maxAngle p.vs).map (triPoly nrm eps)) := by
  generalize hts : (ps.flatMap fun p => triangulate ang maxAngle p.vs) = ts
  have hto : toStl ang maxAngle ps = addFacets 0 ts Cont.empty := by rw [← hts]; rfl
  obtain ⟨-, h2, -, h4⟩ := addFacets_spec ts 0 Cont.empty Cont.empty_ok (by simp [Cont.empty])
  unfold fromStl
  rw [hto, h2]
  have key : ∀ (l : List Nat), (∀ k ∈ l, k < ts.length) →
      (l.map fun i : Nat => (i : Int)).mapM (fun id => do
        let f ← (addFacets 0 ts Cont.empty).get? id
        facetPoly nrm eps f) = some (l.map fun k => triPoly nrm eps (ts.getD k (0, 0, 0))) := by
    intro l hl
    induction l with
    | nil => rfl
    | cons k l ih =>
      have hk := hl k (by simp)
      have hg := h4 k hk
      rw [Nat.zero_add] at hg
      rw [List.map_cons, List.mapM_cons, ih (fun j hj => hl j (by simp [hj])), hg]
      have : ts.getD k (0, 0, 0) = ts[k] := by simp [List.getD, List.getElem?_eq_getElem hk]
      rw [List.map_cons, this]
      rfl
  have := key (List.range ts.length) (fun k hk => List.mem_range.1 hk)
  have hids : (Cont.empty : Stl.File K).ids ++ (List.range' 0 ts.length).map (fun i : Nat => (i : Int)) = (List.range ts.length).map fun i : Nat => (i : Int) := by
    rw [List.range_eq_range']; rfl
  rw [hids, this]
  have hr : (List.range ts.length).map (fun k => triPoly nrm eps (ts.getD k (0, 0, 0))) = ts.map (triPoly nrm eps) := by
    apply List.ext_getElem
    · simp
    · intro i h1 h2
      simp at h1
      simp [List.getD, List.getElem?_eq_getElem h1]
  rw [hr]
  rfl

/-- A closed polygon with at least three corners. -/
def ClosedPoly (p : Poly K) : Prop := ∃ a l, 2 ≤ l.length ∧ p.vs = a :: l ++ [a]

/-- Six times the signed volume of the cones from the origin over the polygons: for the faces of a solid with their normals
pointing outwards, six times its volume. -/
def volume6 (ps : List (Poly K)) : K :=
  (ps.map fun p => match p.vs with
    | [] => 0
    | a :: _ => a.dot (vecArea2 p.vs)).sum

theorem pathSum_triPoly (g : Vec3 K → Vec3 K → M) (hz : ∀ a, g a a = 0) (nrm : Vec3 K → K) (eps : K) (t : Vec3 K × Vec3 K × Vec3 K) :
    pathSum g (triPoly nrm eps t).vs = ringSum g [t.1, t.2.1, t.2.2] := by
  obtain ⟨a, b, c⟩ := t
  by_cases h : c = a
  · subst h
    simp [triPoly, closeExact, ringSum, pathSum, hz]
  · simp [triPoly, closeExact, ringSum, pathSum, h]

theorem sum_flatMap_map {α β : Type} (l : List α) (f : α → List β) (h : β → M) :
    ((l.flatMap f).map h).sum = (l.map fun x => ((f x).map h).sum).sum := by
  induction l with
  | nil => simp
  | cons a l ih => simp [ih]

theorem exchange_sum (g : Vec3 K → Vec3 K → M) (ha : ∀ a b, g a b = -g b a) (hz : ∀ a, g a a = 0) (nrm : Vec3 K → K) (eps : K)
    (ang : Vec3 K → Vec3 K → K) (maxAngle : K) (hmax : ∀ v w, |ang v w| < maxAngle) (ps : List (Poly K)) (hps : ∀ p ∈ ps, ClosedPoly p) :
    (((ps.flatMap fun p => triangulate ang maxAngle p.vs).map (triPoly nrm eps)).map fun q => pathSum g q.vs).sum =
      (ps.map fun p => pathSum g p.vs).sum := by
  rw [List.map_map]
  have e : ((fun q : Poly K => pathSum g q.vs) ∘ triPoly nrm eps) = fun t => ringSum g [t.1, t.2.1, t.2.2] := by
    funext t
    exact pathSum_triPoly g hz nrm eps t
  rw [e, sum_flatMap_map]
  congr 1
  apply List.map_congr_left
  intro p hp
  obtain ⟨a, l, hl, hv⟩ := hps p hp
  rw [hv]
  exact triangulate_ringSum g ha ang maxAngle hmax a l (by simp; omega)

/-! ### Closedness -/

theorem pathSum_sidesOf {V : Type} (g : V → V → M) (vs : List V) : pathSum g vs = ((vs.zip vs.tail).map fun s => g s.1 s.2).sum := by
  induction vs with
  | nil => rfl
  | cons a l ih =>
    cases l with
    | nil => rfl
    | cons b l =>
      simp only [pathSum, List.tail_cons, List.zip_cons_cons, List.map_cons, List.sum_cons] at ih ⊢
      rw [ih]

open Classical in
/-- +1 for the directed side `e`, -1 for its reverse. -/
noncomputable def sideSign (e : Vec3 K × Vec3 K) (a b : Vec3 K) : ℤ := (if (a, b) = e then 1 else 0) - (if (b, a) = e then 1 else 0)

open Classical in
theorem sideSign_sum (e : Vec3 K × Vec3 K) (s : List (Vec3 K × Vec3 K)) :
    (s.map fun x => sideSign e x.1 x.2).sum = (s.count e : ℤ) - ((s.map Prod.swap).count e : ℤ) := by
  induction s with
  | nil => simp
  | cons x s ih =>
    obtain ⟨a, b⟩ := x
    rw [List.map_cons, List.sum_cons, ih, List.map_cons, List.count_cons, List.count_cons]
    unfold sideSign
    simp only [Prod.swap_prod_mk, beq_iff_eq]
    by_cases h1 : (a, b) = e <;> by_cases h2 : (b, a) = e <;> simp [h1, h2] <;> ring

theorem closedSurface_iff (ps : List (Poly K)) : ClosedSurface ps ↔ ∀ e, (ps.map fun p => pathSum (sideSign e) p.vs).sum = 0 := by
  classical
  unfold ClosedSurface
  have e1 : ∀ e, (ps.map fun p => pathSum (sideSign e) p.vs).sum =
      ((ps.flatMap fun p => sidesOf p.vs).map fun x => sideSign e x.1 x.2).sum := by
    intro e
    rw [sum_flatMap_map]
    congr 1
    apply List.map_congr_left
    intro p _
    exact pathSum_sidesOf _ _
  simp only [e1, sideSign_sum, List.perm_iff_count]
  constructor
  · intro h e
    have := h e
    omega
  · intro h e
    have := h e
    omega

theorem openArea2_pathSum (l : List (Vec3 K)) : openArea2 l = pathSum Vec3.cross l := by
  induction l with
  | nil => rfl
  | cons a l ih =>
    cases l with
    | nil => rfl
    | cons b l => rw [openArea2, pathSum, ih]

theorem cross_self' (a : Vec3 K) : Vec3.cross a a = 0 := by ext <;> simp [Vec3.cross] <;> ring

theorem cross_anti (a b : Vec3 K) : Vec3.cross a b = -Vec3.cross b a := by ext <;> simp [Vec3.cross] <;> ring

theorem vecArea2_ring (a : Vec3 K) (l : List (Vec3 K)) : vecArea2 (a :: l ++ [a]) = pathSum Vec3.cross (a :: l ++ [a]) := by
  change openArea2 (a :: (l ++ [a]) ++ [a]) = _
  rw [openArea2_pathSum]
  have := pathSum_append Vec3.cross (a :: l) a [a]
  simp only [List.cons_append, List.append_assoc, List.nil_append] at this ⊢
  rw [this]
  simp [pathSum, cross_self']

theorem vecArea2_triPoly (nrm : Vec3 K → K) (eps : K) (t : Vec3 K × Vec3 K × Vec3 K) :
    vecArea2 (triPoly nrm eps t).vs = pathSum Vec3.cross (triPoly nrm eps t).vs ∧
    vecArea2 (triPoly nrm eps t).vs = Vec3.cross (t.2.1 - t.1) (t.2.2 - t.1) := by
  obtain ⟨a, b, c⟩ := t
  by_cases h : c = a
  · subst h
    simp only [triPoly, closeExact, List.head?_cons, List.getLast?_cons_cons, List.getLast?_singleton, ne_eq, not_true_eq_false, if_false]
    constructor
    · simp [vecArea2, openArea2, pathSum, cross_self']
    · ext <;> simp [vecArea2, openArea2, Vec3.cross] <;> ring
  · have e : (triPoly nrm eps (a, b, c)).vs = a :: [b, c] ++ [a] := by simp [triPoly, closeExact, h]
    rw [e]
    refine ⟨vecArea2_ring a [b, c], ?_⟩
    rw [vecArea2_ring]
    ext <;> simp [pathSum, Vec3.cross] <;> ring

/-- **C135.** A solid bounded by closed polygons, written to STL facets and read back into an empty solid: every facet is read; the
result has `n - 2` triangles for every polygon with `n` corners, whose corners are corners of that polygon; its sides cancel like
those of the solid, so that it is closed if the solid is; and the vector area is the same. -/
theorem C135_exchange (nrm : Vec3 K → K) (eps : K) (ang : Vec3 K → Vec3 K → K) (maxAngle : K) (hmax : ∀ v w, |ang v w| < maxAngle)
    (ps : List (Poly K)) (hps : ∀ p ∈ ps, ClosedPoly p) :
    ∃ qs, fromStl nrm eps [] (toStl ang maxAngle ps) = some qs ∧ qs.length = (ps.map fun p => p.vs.length - 3).sum ∧
      (∀ q ∈ qs, ∃ p ∈ ps, ∀ v ∈ q.vs, v ∈ p.vs) ∧ (ClosedSurface qs ↔ ClosedSurface ps) ∧ areaSum qs = areaSum ps := by
  refine ⟨_, by rw [fromStl_toStl, List.nil_append], ?_, ?_, ?_, ?_⟩
  · rw [List.length_map, List.length_flatMap]
    congr 1
    apply List.map_congr_left
    intro p hp
    obtain ⟨a, l, hl, hv⟩ := hps p hp
    rw [hv, (C40_triangulate ang maxAngle hmax a l (by simp; omega)).1]
    simp
  · intro q hq
    obtain ⟨t, ht, rfl⟩ := List.mem_map.1 hq
    obtain ⟨p, hp, ht⟩ := List.mem_flatMap.1 ht
    obtain ⟨a, l, hl, hv⟩ := hps p hp
    rw [hv] at ht
    obtain ⟨i, j, k, -, h1, h2, h3⟩ := (C40_triangulate ang maxAngle hmax a l (by simp; omega)).2.2 t ht
    refine ⟨p, hp, fun v hv' => ?_⟩
    have hm : v = t.1 ∨ v = t.2.1 ∨ v = t.2.2 := by
      obtain ⟨x, y, z⟩ := t
      by_cases h : z = x
      · simp [triPoly, closeExact, h] at hv' ⊢; tauto
      · simp [triPoly, closeExact, h] at hv' ⊢; tauto
    rw [hv]
    apply List.mem_append_left
    rcases hm with rfl | rfl | rfl
    · exact List.mem_of_getElem? h1
    · exact List.mem_of_getElem? h2
    · exact List.mem_of_getElem? h3
  · rw [closedSurface_iff, closedSurface_iff]
    have : ∀ e, _ := fun e => exchange_sum (sideSign e) (fun a b => by unfold sideSign; ring) (fun a => by unfold sideSign; ring) nrm eps ang maxAngle hmax ps hps
    simp only [this]
  · have := exchange_sum (Vec3.cross (K := K)) cross_anti cross_self' nrm eps ang maxAngle hmax ps hps
    unfold areaSum
    have e1 : (((ps.flatMap fun p => triangulate ang maxAngle p.vs).map (triPoly nrm eps)).map fun q => vecArea2 q.vs) =
        (((ps.flatMap fun p => triangulate ang maxAngle p.vs).map (triPoly nrm eps)).map fun q => pathSum Vec3.cross q.vs) := by
      apply List.map_congr_left
      intro q hq
      obtain ⟨t, -, rfl⟩ := List.mem_map.1 hq
      exact (vecArea2_triPoly nrm eps t).1
    have e2 : (ps.map fun p => vecArea2 p.vs) = ps.map fun p => pathSum Vec3.cross p.vs := by
      apply List.map_congr_left
      intro p hp
      obtain ⟨a, l, -, hv⟩ := hps p hp
      rw [hv, vecArea2_ring]
    rw [e1, e2, this]

/-- **C135 (volume).** If the polygons are flat, the enclosed volume is the same. -/
theorem C135_volume (nrm : Vec3 K → K) (eps : K) (ang : Vec3 K → Vec3 K → K) (maxAngle : K) (hmax : ∀ v w, |ang v w| < maxAngle)
    (ps : List (Poly K)) (hps : ∀ p ∈ ps, ClosedPoly p ∧ Proper p) :
    ∃ qs, fromStl nrm eps [] (toStl ang maxAngle ps) = some qs ∧ volume6 qs = volume6 ps := by
  refine ⟨_, by rw [fromStl_toStl, List.nil_append], ?_⟩
  unfold volume6
  rw [List.map_map, sum_flatMap_map]
  congr 1
  apply List.map_congr_left
  intro p hp
  obtain ⟨⟨a, l, hl, hv⟩, -, hn, hpl⟩ := hps p hp
  obtain ⟨-, h2, h4⟩ := C40_triangulate ang maxAngle hmax a l (by simp; omega)
  have hflat : ∀ v ∈ a :: l, ∀ w ∈ a :: l, p.normal.dot (v - w) = 0 := by
    intro v hv1 w hw1
    have := hpl v (by rw [hv]; exact List.mem_append_left _ hv1) w (by rw [hv]; exact List.mem_append_left _ hw1)
    have e : p.normal.dot (v - w) = p.normal.dot v - p.normal.dot w := by simp [Vec3.dot]; ring
    rw [e, this, sub_self]
  have hmem : ∀ t ∈ triangulate ang maxAngle (a :: l ++ [a]), t.1 ∈ a :: l ∧ t.2.1 ∈ a :: l ∧ t.2.2 ∈ a :: l := by
    intro t ht
    obtain ⟨i, j, k, -, h1, h2, h3⟩ := h4 t ht
    exact ⟨List.mem_of_getElem? h1, List.mem_of_getElem? h2, List.mem_of_getElem? h3⟩
  have etri : ∀ p q r : Vec3 K, vecArea2 [p, q, r] = Vec3.cross (q - p) (r - p) := by
    intro p q r
    ext <;> simp [vecArea2] <;> ring
  have hterm : ∀ t ∈ triangulate ang maxAngle (a :: l ++ [a]),
      (match (triPoly nrm eps t).vs with
        | [] => 0
        | b :: _ => b.dot (vecArea2 (triPoly nrm eps t).vs)) = a.dot (vecArea2 [t.1, t.2.1, t.2.2]) := by
    intro t ht
    obtain ⟨m1, m2, m3⟩ := hmem t ht
    have hd := det_zero_of_orthogonal hn (hflat _ m2 _ m1) (hflat _ m3 _ m1) (hflat _ m1 a (by simp))
    have hh : ∃ r, (triPoly nrm eps t).vs = t.1 :: r := by
      obtain ⟨x, y, z⟩ := t
      by_cases h : z = x <;> simp [triPoly, closeExact, h]
    obtain ⟨r, hr⟩ := hh
    have h5 := (vecArea2_triPoly nrm eps t).2
    rw [hr] at h5 ⊢
    simp only
    rw [h5, etri]
    have e : (Vec3.cross (t.2.1 - t.1) (t.2.2 - t.1)).dot (t.1 - a) =
        t.1.dot (Vec3.cross (t.2.1 - t.1) (t.2.2 - t.1)) - a.dot (Vec3.cross (t.2.1 - t.1) (t.2.2 - t.1)) := by
      simp only [Vec3.dot, Vec3.sub_x, Vec3.sub_y, Vec3.sub_z]; ring
    rw [e] at hd
    exact sub_eq_zero.1 hd
  rw [hv]
  simp only [List.cons_append]
  rw [← List.cons_append]
  have hsum : ∀ ts : List (Vec3 K × Vec3 K × Vec3 K), (∀ t ∈ ts, t ∈ triangulate ang maxAngle (a :: l ++ [a])) →
      (ts.map ((fun p : Poly K => match p.vs with
        | [] => 0
        | a :: _ => a.dot (vecArea2 p.vs)) ∘ triPoly nrm eps)).sum = a.dot ((ts.map fun t => vecArea2 [t.1, t.2.1, t.2.2]).sum) := by
    intro ts hts
    induction ts with
    | nil => simp [Vec3.dot]
    | cons t ts ih =>
      rw [List.map_cons, List.sum_cons, ih (fun x hx => hts x (by simp [hx])), List.map_cons, List.sum_cons]
      have := hterm t (hts t (by simp))
      simp only [Function.comp]
      rw [this]
      simp [Vec3.dot]; ring
  rw [hsum _ (fun t ht => ht), h2, vecArea2_ring]
  rw [vecArea2, openArea2_pathSum]

/-- **C135 (normals).** Every facet of the exported file has the normal zero, whatever the solid. -/
theorem C135_facet_normals (ang : Vec3 K → Vec3 K → K) (maxAngle : K) (ps : List (Poly K)) :
    ∀ id ∈ (toStl ang maxAngle ps).ids, ∃ f, (toStl ang maxAngle ps).get? id = some f ∧ f.normal = 0 ∧ f.verts.length = 3 := by
  intro id hid
  generalize hts : (ps.flatMap fun p => triangulate ang maxAngle p.vs) = ts
  have hto : toStl ang maxAngle ps = addFacets 0 ts Cont.empty := by rw [← hts]; rfl
  obtain ⟨-, h2, -, h4⟩ := addFacets_spec ts 0 Cont.empty Cont.empty_ok (by simp [Cont.empty])
  rw [hto] at hid ⊢
  rw [h2] at hid
  simp only [Cont.empty, List.nil_append, List.mem_map, List.mem_range'] at hid
  obtain ⟨k, ⟨i, hi, rfl⟩, rfl⟩ := hid
  refine ⟨_, by simpa using h4 i hi, rfl, rfl⟩

/-- **C135 (normals of what is read back).** For a flat convex polygon whose stored normal is its unit normal, every triangle of
sufficient area is read back with that normal. -/
theorem C135_normals {nrm : Vec3 K → K} (hN : IsNorm nrm) (eps : K) (heps : 0 ≤ eps) (ang : Vec3 K → Vec3 K → K) (maxAngle : K)
    (hmax : ∀ v w, |ang v w| < maxAngle) (p : Poly K) (a : Vec3 K) (l : List (Vec3 K)) (hl : 2 ≤ l.length) (hv : p.vs = a :: l ++ [a])
    (hp : Proper p) (hu : nrm p.normal = 1)
    (hconv : ∀ (i j k : Nat) (x y z : Vec3 K), i < j → j < k → (a :: l)[i]? = some x → (a :: l)[j]? = some y →
      (a :: l)[k]? = some z → 0 ≤ (Vec3.cross (y - x) (z - x)).dot p.normal) :
    ∃ qs, fromStl nrm eps [] (toStl ang maxAngle [p]) = some qs ∧ ∀ q ∈ qs, eps < nrm (vecArea2 q.vs) → q.normal = p.normal := by
  refine ⟨_, by rw [fromStl_toStl, List.nil_append], ?_⟩
  intro q hq hbig
  obtain ⟨t, ht, rfl⟩ := List.mem_map.1 hq
  simp only [List.flatMap_cons, List.flatMap_nil, List.append_nil] at ht
  rw [hv] at ht
  obtain ⟨-, hn, hpl⟩ := hp
  obtain ⟨-, -, h4⟩ := C40_triangulate ang maxAngle hmax a l (by simp; omega)
  have hpos := (C40_convex ang maxAngle hmax a l (by simp; omega) p.normal hconv).1 t ht
  obtain ⟨i, j, k, -, h1, h2, h3⟩ := h4 t ht
  have hflat : ∀ v ∈ a :: l, ∀ w ∈ a :: l, (v - w).dot p.normal = 0 := by
    intro v hv1 w hw1
    have := hpl v (by rw [hv]; exact List.mem_append_left _ hv1) w (by rw [hv]; exact List.mem_append_left _ hw1)
    have e : (v - w).dot p.normal = p.normal.dot v - p.normal.dot w := by simp [Vec3.dot]; ring
    rw [e, this, sub_self]
  have hunit : p.normal.normSq = 1 := by rw [← hN.sq, hu]; ring
  have hpar := cross_parallel hunit (hflat _ (List.mem_of_getElem? h2) _ (List.mem_of_getElem? h1)) (hflat _ (List.mem_of_getElem? h3) _ (List.mem_of_getElem? h1))
  have h5 := (vecArea2_triPoly nrm eps t).2
  rw [h5] at hbig
  have etri : vecArea2 [t.1, t.2.1, t.2.2] = Vec3.cross (t.2.1 - t.1) (t.2.2 - t.1) := by
    ext <;> simp [vecArea2] <;> ring
  rw [etri] at hpos
  set c := Vec3.cross (t.2.1 - t.1) (t.2.2 - t.1) with hc
  set β := c.dot p.normal with hβ
  have hnc : nrm c = β := by
    have h6 := hN.sq c
    have h7 : c.normSq = β * β := by
      rw [hpar]
      have : (β • p.normal).normSq = β * β * p.normal.normSq := by simp [Vec3.normSq, Vec3.dot]; ring
      rw [this, hunit, mul_one]
    rw [h7] at h6
    exact (mul_self_inj (hN.nonneg c) hpos).1 h6
  have hβ0 : β ≠ 0 := by
    rw [hnc] at hbig
    exact (lt_of_le_of_lt heps hbig).ne'
  have hvs : ∃ r, (triPoly nrm eps t).vs = t.1 :: t.2.1 :: t.2.2 :: r := by
    obtain ⟨x, y, z⟩ := t
    by_cases h : z = x <;> simp [triPoly, closeExact, h]
  obtain ⟨r, hr⟩ := hvs
  have hno : (triPoly nrm eps t).normal = Polygon.normal nrm eps (triPoly nrm eps t).vs := rfl
  rw [hno, hr]
  unfold Polygon.normal Polygon.normalLoop
  simp only
  rw [if_pos hbig, ← hc, hnc, hpar]
  have : β⁻¹ • β • p.normal = (β⁻¹ * β) • p.normal := by ext <;> simp <;> ring
  rw [this, inv_mul_cancel₀ hβ0]
  ext <;> simp

end Tri

/-- Non-vacuity: the cube, exported and read back: twelve triangles, closed, of volume 8. -/
example : (∀ p ∈ cubeQ 0 ⟨1, 1, 1⟩, ClosedPoly p ∧ Proper p) ∧ ClosedSurface (cubeQ 0 ⟨1, 1, 1⟩) ∧ volume6 (cubeQ 0 ⟨1, 1, 1⟩) = 48 ∧
    (∀ v w : Vec3 ℚ, |(fun _ _ : Vec3 ℚ => (1 : ℚ)) v w| < 6284 / 1000) ∧
    (toStl (fun _ _ : Vec3 ℚ => (1 : ℚ)) (6284 / 1000) (cubeQ 0 ⟨1, 1, 1⟩)).ids.length = 12 := by
  refine ⟨?_, ?_, by decide +kernel, fun _ _ => by norm_num, by decide +kernel⟩
  · have h : ∀ p ∈ cubeQ 0 ⟨1, 1, 1⟩, p.vs.length = 5 ∧ p.vs = p.vs.getD 0 0 :: [p.vs.getD 1 0, p.vs.getD 2 0, p.vs.getD 3 0] ++ [p.vs.getD 0 0] ∧
        p.vs ≠ [] ∧ p.normal ≠ 0 ∧ ∀ v ∈ p.vs, ∀ w ∈ p.vs, p.normal.dot v = p.normal.dot w := by decide +kernel
    intro p hp
    obtain ⟨-, h1, h2⟩ := h p hp
    exact ⟨⟨_, _, by simp, h1⟩, h2⟩
  · unfold ClosedSurface
    decide +kernel

/-- Non-vacuity of `C135_normals`: a square. -/
example : ∃ qs, fromStl realNorm 0 [] (toStl (fun _ _ : Vec3 ℝ => (1 : ℝ)) 6
      [⟨[⟨0, 0, 0⟩, ⟨2, 0, 0⟩, ⟨2, 2, 0⟩, ⟨0, 2, 0⟩, ⟨0, 0, 0⟩], ⟨0, 0, 1⟩⟩]) = some qs ∧
    ∀ q ∈ qs, 0 < realNorm (vecArea2 q.vs) → q.normal = (⟨0, 0, 1⟩ : Vec3 ℝ) := by
  refine C135_normals isNorm_real 0 le_rfl _ 6 (fun _ _ => by norm_num) _ ⟨0, 0, 0⟩ [⟨2, 0, 0⟩, ⟨2, 2, 0⟩, ⟨0, 2, 0⟩] (by simp) rfl
    ⟨by simp, ?_, ?_⟩ ?_ ?_
  · intro h
    have := congrArg Vec3.z h
    norm_num at this
  · intro v hv w hw
    simp only [List.mem_cons, List.not_mem_nil, or_false] at hv hw
    rcases hv with rfl | rfl | rfl | rfl | rfl <;> rcases hw with rfl | rfl | rfl | rfl | rfl <;> simp [Vec3.dot]
  · have h1 := isNorm_real.sq (⟨0, 0, 1⟩ : Vec3 ℝ)
    have h2 := isNorm_real.nonneg (⟨0, 0, 1⟩ : Vec3 ℝ)
    have h3 : (⟨0, 0, 1⟩ : Vec3 ℝ).normSq = 1 := by simp [Vec3.normSq, Vec3.dot]
    rw [h3] at h1
    nlinarith
  · intro i j k x y z hij hjk hx hy hz
    have hk : k < 4 := by
      by_contra hk
      rw [List.getElem?_eq_none (by simp; omega)] at hz
      simp at hz
    interval_cases k <;> interval_cases j <;> interval_cases i <;> simp at hx hy hz <;> subst hx <;> subst hy <;> subst hz <;>
      norm_num [Vec3.cross, Vec3.dot]

end ENigMA
