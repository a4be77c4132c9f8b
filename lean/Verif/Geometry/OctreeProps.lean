import Verif.Geometry.Octree
import Verif.Base.Norm
import Mathlib.Data.List.GetD
import Mathlib.Algebra.Order.Ring.Rat

/-!
# C16: what a search in the octree returns
-/

set_option linter.unusedSectionVars false
set_option autoImplicit false

namespace ENigMA

variable {K : Type} [Field K] [LinearOrder K] [IsStrictOrderedRing K]

namespace Octree

/-- A point no coordinate of which is further than `eps` from the query is in the octant of the query. -/
theorem goesTo_of_near (eps : K) (mid p q : Vec3 K) (hx : |p.x - q.x| ≤ eps) (hy : |p.y - q.y| ≤ eps) (hz : |p.z - q.z| ≤ eps) :
    goesTo eps mid p (dispatch mid q.x q.y q.z) = true := by
  rw [abs_le] at hx hy hz
  have key : ∀ (lo up m x : K), lo ≤ x → x ≤ up → (if x < m then decide (lo < m) else decide (¬ up < m)) = true := by
    intro lo up m x h1 h2
    split_ifs with h
    · exact decide_eq_true (lt_of_le_of_lt h1 h)
    · exact decide_eq_true (fun h' => h (lt_of_le_of_lt h2 h'))
  have kx := key (p.x - eps) (p.x + eps) mid.x q.x (by linarith) (by linarith)
  have ky := key (p.y - eps) (p.y + eps) mid.y q.y (by linarith) (by linarith)
  have kz := key (p.z - eps) (p.z + eps) mid.z q.z (by linarith) (by linarith)
  have hm : ∃ x ∈ [p.x - eps, p.x + eps], ∃ y ∈ [p.y - eps, p.y + eps], ∃ z ∈ [p.z - eps, p.z + eps], dispatch mid x y z = dispatch mid q.x q.y q.z := by
    refine ⟨if q.x < mid.x then p.x - eps else p.x + eps, by split_ifs <;> simp, if q.y < mid.y then p.y - eps else p.y + eps, by split_ifs <;> simp,
      if q.z < mid.z then p.z - eps else p.z + eps, by split_ifs <;> simp, ?_⟩
    have e : ∀ (lo up m x : K), (if x < m then decide (lo < m) else decide (¬ up < m)) = true → ((if x < m then lo else up) < m ↔ x < m) := by
      intro lo up m x h
      split_ifs at h ⊢ with h'
      · simp [h', of_decide_eq_true h]
      · simp [h', of_decide_eq_true h]
    unfold dispatch
    simp only [e _ _ _ _ kx, e _ _ _ _ ky, e _ _ _ _ kz]
  obtain ⟨x, hx, y, hy, z, hz, h⟩ := hm
  simp only [List.mem_cons, List.not_mem_nil, or_false] at hx hy hz
  unfold goesTo
  simp only [Bool.or_eq_true, decide_eq_true_eq]
  rcases hx with rfl | rfl <;> rcases hy with rfl | rfl <;> rcases hz with rfl | rfl <;> tauto

/-- If no child is too large, none is subdivided. -/
theorem split_none (max : Nat) (cs : Fin 8 → List Nat) (cells : Fin 8 → Cell K) (rec : List Nat → Cell K → Option (Node K))
    (h : ∀ i, (cs i).length ≤ max) (l : List (Fin 8)) : ∀ nb nodes done, split max cs cells rec l nb nodes done = some (nodes, done) := by
  induction l with
  | nil => intros; rfl
  | cons i t ih =>
    intro nb nodes done
    unfold split
    rw [if_neg (by have := h i; omega)]
    exact ih _ _ _

/-- The children after the loop: each is either as it was or the result of a recursive call on the same list. -/
theorem split_coords (max : Nat) (cs : Fin 8 → List Nat) (cells : Fin 8 → Cell K) (rec : List Nat → Cell K → Option (Node K)) (P : List Nat → Prop)
    (hP : ∀ i, P (cs i)) (hr : ∀ i n, rec (cs i) (cells i) = some n → P n.coords) (l : List (Fin 8)) :
    ∀ nb nodes done r, (∀ i, P (nodes i).coords) → split max cs cells rec l nb nodes done = some r → ∀ i, P (r.1 i).coords := by
  induction l with
  | nil => intro nb nodes done r h hs; cases hs; exact h
  | cons i t ih =>
    intro nb nodes done r h hs
    unfold split at hs
    split_ifs at hs with hc
    · obtain ⟨n, hn, hs⟩ := Option.bind_eq_some_iff.1 hs
      refine ih _ _ _ r (fun j => ?_) hs
      by_cases hj : j = i
      · subst hj; simpa using hr j n hn
      · simpa [hj] using h j
    · exact ih _ _ _ r h hs

end Octree

open Octree

/-! ### C16 -/

/-- C16, without a bound on the number of points: an id that `find` appends belongs to a point within the tolerance. -/
theorem C16_sound (nrm : Vec3 K → K) (pts : List (Int × Vec3 K)) (root : Node K) (q : Vec3 K) (tol : K) (out r : List Int)
    (h : find nrm pts root q tol out = some r) : ∃ new, r = out ++ new ∧ ∀ i ∈ new, ∃ e ∈ pts, e.1 = i ∧ nrm (e.2 - q) ≤ tol := by
  simp only [find, Option.bind_eq_bind] at h
  obtain ⟨n, hn, h⟩ := Option.bind_eq_some_iff.1 h
  refine ⟨_, (Option.some.inj h).symm, fun i hi => ?_⟩
  obtain ⟨k, hk, hi⟩ := List.mem_filterMap.1 hi
  obtain ⟨e, he, hi⟩ := Option.bind_eq_some_iff.1 hi
  split_ifs at hi with hd
  exact ⟨e, List.mem_of_getElem? he, Option.some.inj hi, hd⟩

/-- C16, the part that holds: for at most 1000 points and a tolerance of at most the machine epsilon (in particular for the default tolerance 0), `build`
succeeds and `find` appends exactly the ids of the points within the tolerance, in the order in which they were added. What is missing: larger tolerances
(`C16_other_octant`) and more points (`C16_subdivided`), for which the claim is false. -/
theorem C16_find_partial (nrm : Vec3 K → K) (hN : IsNorm nrm) (fuel : Nat) (hf : 0 < fuel) (big eps : K) (pts : List (Int × Vec3 K)) (hn : pts.length ≤ 1000) :
    ∃ root, build fuel big eps pts = some root ∧ ∀ q tol out, tol ≤ eps →
      find nrm pts root q tol out = some (out ++ (pts.filter fun e => decide (nrm (e.2 - q) ≤ tol)).map (·.1)) := by
  obtain ⟨fuel, rfl⟩ := Nat.exists_eq_succ_of_ne_zero (Nat.pos_iff_ne_zero.1 hf)
  set cell := rootCell eps (BBox.ofPoints big (pts.map (·.2))) with hcell
  set pt : Nat → Vec3 K := fun i => (pts.map (·.2)).getD i ⟨0, 0, 0⟩ with hpt
  have hlen : ∀ i, (childCoords eps pt cell (List.range pts.length) i).length ≤ maxPerNode := fun i =>
    (List.length_filter_le _ _).trans (by simpa [maxPerNode] using hn)
  refine ⟨.full (List.range pts.length) true cell fun i => .bare (childCoords eps pt cell (List.range pts.length) i) (childCell cell i), ?_, ?_⟩
  · simp only [build, create]
    rw [split_none _ _ _ _ hlen]
    rfl
  · intro q tol out htol
    simp only [find, findRec, if_true, Option.bind_eq_bind, Option.bind_some, Node.coords]
    show some (out ++ _) = _
    congr 2
    have hcoords : ∀ (l : List (Int × Vec3 K)) (k : Nat), (∀ i, (h : i < l.length) → pt (k + i) = (l[i]).2 ∧ pts[k + i]? = some l[i]) →
        ((childCoords eps pt cell (List.range' k l.length) (dispatch cell.mid q.x q.y q.z)).filterMap fun i =>
          (pts[i]?).bind fun e => if nrm (e.2 - q) ≤ tol then some e.1 else none) =
        (l.filter fun e => decide (nrm (e.2 - q) ≤ tol)).map (·.1) := by
      intro l
      induction l with
      | nil => intro k _; rfl
      | cons e l ih =>
        intro k h
        have h0 := h 0 (by simp)
        simp only [Nat.add_zero, List.getElem_cons_zero] at h0
        have ih := ih (k + 1) (fun i hi => by
          have := h (i + 1) (by simpa using hi)
          simpa [Nat.add_assoc, Nat.add_comm 1 i] using this)
        unfold childCoords at ih ⊢
        rw [List.length_cons, List.range'_succ, List.filter_cons, List.filter_cons]
        by_cases hd : nrm (e.2 - q) ≤ tol
        · have hg : goesTo eps cell.mid (pt k) (dispatch cell.mid q.x q.y q.z) = true := by
            have hc : ∀ c : K, c * c ≤ (e.2 - q).normSq → |c| ≤ eps := by
              intro c hc
              have h1 := hN.nonneg (e.2 - q)
              rw [← hN.sq] at hc
              have : |c| ≤ nrm (e.2 - q) := abs_le.2 ⟨by nlinarith, by nlinarith⟩
              exact this.trans (hd.trans htol)
            rw [h0.1]
            refine goesTo_of_near _ _ _ _ (hc _ ?_) (hc _ ?_) (hc _ ?_) <;> simp only [Vec3.normSq, Vec3.dot, Vec3.sub_x, Vec3.sub_y, Vec3.sub_z] <;>
              nlinarith [sq_nonneg (e.2.x - q.x), sq_nonneg (e.2.y - q.y), sq_nonneg (e.2.z - q.z)]
          simp only [hg, if_true, hd, decide_true, List.filterMap_cons, h0.2, Option.bind_some, List.map_cons]
          rw [ih]
        · simp only [hd, decide_false, Bool.false_eq_true, if_false]
          by_cases hg : goesTo eps cell.mid (pt k) (dispatch cell.mid q.x q.y q.z) = true
          · simp only [hg, if_true, List.filterMap_cons, h0.2, Option.bind_some, hd, if_false]
            exact ih
          · simp only [hg, if_false]
            exact ih
    have := hcoords pts 0 (fun i hi => by
      refine ⟨?_, by simpa using List.getElem?_eq_getElem hi⟩
      simp [hpt, List.getD_eq_getElem?_getD, hi])
    rw [← List.range_eq_range'] at this
    exact this

/-- C16 fails for a larger tolerance: the points `(−1, 0, 0)` and `(1, 0, 0)`, searched from `(−1, 0, 0)` with tolerance 3, give only the first. -/
theorem C16_other_octant :
    (build 5 (100 : ℚ) (1 / 1000) [(7, ⟨-1, 0, 0⟩), (8, ⟨1, 0, 0⟩)]).bind
      (fun root => find (fun v => |v.x|) [(7, ⟨-1, 0, 0⟩), (8, ⟨1, 0, 0⟩)] root ⟨-1, 0, 0⟩ 3 []) = some [7] := by
  decide +kernel

/-- A cluster of `n` points at the origin, a point not far from it and a point far away. -/
def Octree.cluster (n : Nat) : List (Int × Vec3 ℚ) := List.replicate n (0, ⟨0, 0, 0⟩) ++ [(1, ⟨3, 3, 3⟩), (2, ⟨8, 8, 8⟩)]

namespace Octree

/-- The loop over the children never fails if the recursive calls do not; a child not in the list stays, and a subdivision is remembered. -/
theorem split_some (max : Nat) (cs : Fin 8 → List Nat) (cells : Fin 8 → Cell K) (rec : List Nat → Cell K → Option (Node K))
    (h : ∀ i, max < (cs i).length → ∃ n, rec (cs i) (cells i) = some n) (l : List (Fin 8)) :
    ∀ nb nodes done, ∃ r, split max cs cells rec l nb nodes done = some r ∧ (done = true → r.2 = true) ∧ ∀ j, j ∉ l → r.1 j = nodes j := by
  induction l with
  | nil => intro nb nodes done; exact ⟨_, rfl, id, fun _ _ => rfl⟩
  | cons i t ih =>
    intro nb nodes done
    unfold split
    split_ifs with hc
    · obtain ⟨n, hn⟩ := h i hc.2
      obtain ⟨r, hr, h1, h2⟩ := ih 0 (Function.update nodes i n) true
      refine ⟨r, by simpa [hn] using hr, fun _ => h1 rfl, fun j hj => ?_⟩
      rw [h2 j (fun hh => hj (List.mem_cons_of_mem _ hh)), Function.update_of_ne (by rintro rfl; exact hj List.mem_cons_self)]
    · obtain ⟨r, hr, h1, h2⟩ := ih nb nodes done
      exact ⟨r, hr, h1, fun j hj => h2 j (fun hh => hj (List.mem_cons_of_mem _ hh))⟩

/-- A node whose child 0 is subdivided: its list is empty, it is not a leaf, and its child 0 is the subdivided one. -/
theorem create_first (max : Nat) (eps : K) (pt : Nat → Vec3 K) (f : Nat) (coords : List Nat) (cell : Cell K) (n0 : Node K)
    (h : ∀ i, max < (childCoords eps pt cell coords i).length → ∃ n, create max eps pt f (childCoords eps pt cell coords i) (childCell cell i) = some n)
    (h0 : create max eps pt f (childCoords eps pt cell coords 0) (childCell cell 0) = some n0)
    (hl : (childCoords eps pt cell coords 0).length ≠ coords.length) (hm : max < (childCoords eps pt cell coords 0).length) :
    ∃ nodes, create max eps pt (f + 1) coords cell = some (.full [] false cell nodes) ∧ nodes 0 = n0 := by
  obtain ⟨r, hr, h1, h2⟩ := split_some max (childCoords eps pt cell coords) (childCell cell) (create max eps pt f) h ((List.finRange 8).tail) 0
    (Function.update (fun i => .bare (childCoords eps pt cell coords i) (childCell cell i)) 0 n0) true
  have hfin : List.finRange 8 = 0 :: (List.finRange 8).tail := by decide
  refine ⟨r.1, ?_, by rw [h2 0 (by decide)]; simp⟩
  rw [create]
  have hs : split max (childCoords eps pt cell coords) (childCell cell) (create max eps pt f) (List.finRange 8) coords.length
      (fun i => .bare (childCoords eps pt cell coords i) (childCell cell i)) false = some r := by
    rw [hfin]
    show (if _ then _ else _) = _
    rw [if_pos ⟨hl, hm⟩, h0]
    exact hr
  simp only [hs, Option.bind_eq_bind, Option.bind_some, h1 rfl]
  rfl

/-- Points in the same place are never separated. -/
theorem create_same (max : Nat) (eps : K) (pt : Nat → Vec3 K) (f : Nat) (coords : List Nat) (cell : Cell K) (p : Vec3 K) (h : ∀ i ∈ coords, pt i = p) :
    ∃ nodes, create max eps pt (f + 1) coords cell = some (.full coords true cell nodes) := by
  have hc : ∀ i, childCoords eps pt cell coords i = if goesTo eps cell.mid p i then coords else [] := by
    intro i
    unfold childCoords
    split_ifs with hg
    · exact List.filter_eq_self.2 (fun j hj => by rw [h j hj]; exact hg)
    · exact List.filter_eq_nil_iff.2 (fun j hj => by rw [h j hj]; exact hg)
  have hs : ∀ l nodes done, split max (childCoords eps pt cell coords) (childCell cell) (create max eps pt f) l coords.length nodes done = some (nodes, done) := by
    intro l
    induction l with
    | nil => intros; rfl
    | cons i t ih =>
      intro nodes done
      show (if _ then _ else _) = _
      rw [if_neg, ih]
      rintro ⟨h1, h2⟩
      rw [hc i] at h1 h2
      split_ifs at h1 h2
      · exact h1 rfl
      · exact absurd h2 (by simp)
  refine ⟨fun i => .bare (childCoords eps pt cell coords i) (childCell cell i), ?_⟩
  rw [create]
  simp only [hs, Option.bind_eq_bind, Option.bind_some]
  rfl

/-- The box of the cluster. -/
theorem cluster_box (n : Nat) (h : 0 < n) : BBox.ofPoints (100 : ℚ) ((cluster n).map (·.2)) = ⟨⟨0, 0, 0⟩, ⟨8, 8, 8⟩⟩ := by
  have h' : ∀ n, (List.replicate n (⟨0, 0, 0⟩ : Vec3 ℚ)).foldl BBox.addCoordinate ⟨⟨0, 0, 0⟩, ⟨0, 0, 0⟩⟩ = ⟨⟨0, 0, 0⟩, ⟨0, 0, 0⟩⟩ := by
    intro n
    induction n with
    | zero => rfl
    | succ n ih => rw [List.replicate_succ, List.foldl_cons]; exact Eq.trans (by congr 1) ih
  obtain ⟨n, rfl⟩ := Nat.exists_eq_succ_of_ne_zero (Nat.pos_iff_ne_zero.1 h)
  unfold BBox.ofPoints cluster
  rw [List.map_append, List.map_replicate, List.foldl_append, List.replicate_succ, List.foldl_cons]
  rw [show BBox.addCoordinate (BBox.reset (100 : ℚ)) ((0 : Int), (⟨0, 0, 0⟩ : Vec3 ℚ)).2 = ⟨⟨0, 0, 0⟩, ⟨0, 0, 0⟩⟩ by decide +kernel, h']
  decide +kernel

/-- The points of the cluster by position. -/
def clusterPt (n i : Nat) : Vec3 ℚ := ((cluster n).map (·.2)).getD i ⟨0, 0, 0⟩

theorem clusterPt_lt (n i : Nat) (h : i ∈ List.range n) : clusterPt n i = ⟨0, 0, 0⟩ := by
  rw [List.mem_range] at h
  unfold clusterPt cluster
  rw [List.map_append, List.map_replicate, List.getD_append _ _ _ _ (by simpa using h)]
  simp [List.getD_eq_getElem?_getD, h]

theorem clusterPt_1 (n : Nat) : clusterPt n n = ⟨3, 3, 3⟩ := by
  unfold clusterPt cluster
  rw [List.map_append, List.map_replicate, List.getD_append_right _ _ _ _ (by simp)]
  simp

theorem clusterPt_2 (n : Nat) : clusterPt n (n + 1) = ⟨8, 8, 8⟩ := by
  unfold clusterPt cluster
  rw [List.map_append, List.map_replicate, List.getD_append_right _ _ _ _ (by simp)]
  simp

/-- What a child receives of the cluster and of further points. -/
theorem cluster_child (n : Nat) (cell : Cell ℚ) (t : List Nat) (m : Fin 8) :
    childCoords (1 / 1000) (clusterPt n) cell (List.range n ++ t) m =
      (if goesTo (1 / 1000) cell.mid ⟨0, 0, 0⟩ m then List.range n else []) ++ t.filter fun i => goesTo (1 / 1000) cell.mid (clusterPt n i) m := by
  unfold childCoords
  rw [List.filter_append]
  congr 1
  split_ifs with hg
  · exact List.filter_eq_self.2 (fun j hj => by rw [clusterPt_lt n j hj]; exact hg)
  · exact List.filter_eq_nil_iff.2 (fun j hj => by rw [clusterPt_lt n j hj]; exact hg)

/-- The cell of the root of the cluster. -/
def clusterCell : Cell ℚ := rootCell (1 / 1000) ⟨⟨0, 0, 0⟩, ⟨8, 8, 8⟩⟩

end Octree

/-- C16 fails for more than 1000 points in one place: none of them is found there, whatever the tolerance. -/
theorem C16_subdivided (n : Nat) (hn : 1000 < n) : ∃ root, build 3 (100 : ℚ) (1 / 1000) (cluster n) = some root ∧
    ∀ (nrm : Vec3 ℚ → ℚ) (tol : ℚ), find nrm (cluster n) root ⟨0, 0, 0⟩ tol [] = some [] := by
  -- third level: all points in the same place
  obtain ⟨n3, h3⟩ := create_same 1000 (1 / 1000) (clusterPt n) 0 (List.range n) (childCell (childCell clusterCell 0) 0) _ (clusterPt_lt n)
  -- second level
  have k2 : ∀ m, goesTo (1 / 1000) (childCell clusterCell 0).mid ⟨0, 0, 0⟩ m = decide (m = 0) := by decide +kernel
  have k2' : goesTo (1 / 1000) (childCell clusterCell 0).mid ⟨3, 3, 3⟩ 0 = false := by decide +kernel
  have c2 : childCoords (1 / 1000) (clusterPt n) (childCell clusterCell 0) (List.range n ++ [n]) 0 = List.range n := by
    rw [cluster_child, List.filter_cons, clusterPt_1, k2, k2']
    simp
  have c2' : ∀ m, 1000 < (childCoords (1 / 1000) (clusterPt n) (childCell clusterCell 0) (List.range n ++ [n]) m).length → m = 0 := by
    intro m hm
    by_contra h
    rw [cluster_child, k2, decide_eq_false h] at hm
    have := List.length_filter_le (fun i => goesTo (1 / 1000) (childCell clusterCell 0).mid (clusterPt n i) m) [n]
    simp only [Bool.false_eq_true, if_false, List.nil_append, List.length_singleton] at hm this
    omega
  obtain ⟨n2, h2, h2'⟩ := create_first 1000 (1 / 1000) (clusterPt n) 1 (List.range n ++ [n]) (childCell clusterCell 0) _
    (fun m hm => by rw [c2' m hm, c2]; exact ⟨_, h3⟩) (by rw [c2]; exact h3) (by rw [c2]; simp) (by rw [c2]; simpa using hn)
  -- the root
  have k1 : ∀ m, goesTo (1 / 1000) clusterCell.mid ⟨0, 0, 0⟩ m = decide (m = 0) := by decide +kernel
  have k1' : goesTo (1 / 1000) clusterCell.mid ⟨3, 3, 3⟩ 0 = true ∧ goesTo (1 / 1000) clusterCell.mid ⟨8, 8, 8⟩ 0 = false := by decide +kernel
  have c1 : childCoords (1 / 1000) (clusterPt n) clusterCell (List.range n ++ [n, n + 1]) 0 = List.range n ++ [n] := by
    rw [cluster_child, List.filter_cons, List.filter_cons, clusterPt_1, clusterPt_2, k1, k1'.1, k1'.2]
    simp
  have c1' : ∀ m, 1000 < (childCoords (1 / 1000) (clusterPt n) clusterCell (List.range n ++ [n, n + 1]) m).length → m = 0 := by
    intro m hm
    by_contra h
    rw [cluster_child, k1, decide_eq_false h] at hm
    have := List.length_filter_le (fun i => goesTo (1 / 1000) clusterCell.mid (clusterPt n i) m) [n, n + 1]
    simp only [Bool.false_eq_true, if_false, List.nil_append, List.length_cons, List.length_nil] at hm this
    omega
  obtain ⟨n1, h1, h1'⟩ := create_first 1000 (1 / 1000) (clusterPt n) 2 (List.range n ++ [n, n + 1]) clusterCell _
    (fun m hm => by rw [c1' m hm, c1]; exact ⟨_, h2⟩) (by rw [c1]; exact h2) (by rw [c1]; simp) (by rw [c1]; simp; omega)
  have hlen : List.range (cluster n).length = List.range n ++ [n, n + 1] := by
    rw [show (cluster n).length = n + 2 by simp [cluster], List.range_succ, List.range_succ]
    simp
  refine ⟨.full [] false clusterCell n1, ?_, ?_⟩
  · unfold build
    rw [cluster_box n (by omega), hlen]
    exact h1
  · intro nrm tol
    have e1 : dispatch clusterCell.mid (0 : ℚ) 0 0 = 0 := by decide +kernel
    have e2 : dispatch (childCell clusterCell 0).mid (0 : ℚ) 0 0 = 0 := by decide +kernel
    unfold find
    simp only [findRec, e1, h1', e2, h2']
    rfl

/-- The points of the example: fewer than 1000, not all in one octant. -/
def octreeExample : List (Int × Vec3 ℝ) := [(7, ⟨0, 0, 0⟩), (3, ⟨2, 0, 0⟩), (5, ⟨2, 2, 2⟩), (9, ⟨0, 0, 0⟩)]

/-- `C16_find_partial` applies to it: searching at the origin with the default tolerance 0 finds the two points there. -/
example : ∃ root, build 1 (100 : ℝ) (1 / 1000) octreeExample = some root ∧ find realNorm octreeExample root ⟨0, 0, 0⟩ 0 [] = some [7, 9] := by
  obtain ⟨root, h1, h2⟩ := C16_find_partial realNorm isNorm_real 1 (by decide) (100 : ℝ) (1 / 1000) octreeExample (by decide)
  refine ⟨root, h1, ?_⟩
  rw [h2 _ _ _ (by norm_num)]
  have hz : ∀ v : Vec3 ℝ, realNorm (v - ⟨0, 0, 0⟩) ≤ 0 ↔ v.x = 0 ∧ v.y = 0 ∧ v.z = 0 := by
    intro v
    have hs := isNorm_real.sq (v - ⟨0, 0, 0⟩)
    have hn := isNorm_real.nonneg (v - ⟨0, 0, 0⟩)
    simp only [Vec3.normSq, Vec3.dot, Vec3.sub_x, Vec3.sub_y, Vec3.sub_z, sub_zero] at hs
    constructor
    · intro h
      have h0 : realNorm (v - ⟨0, 0, 0⟩) = 0 := le_antisymm h hn
      rw [h0] at hs
      refine ⟨?_, ?_, ?_⟩ <;> nlinarith [sq_nonneg v.x, sq_nonneg v.y, sq_nonneg v.z]
    · rintro ⟨h1, h2, h3⟩
      rw [h1, h2, h3] at hs
      nlinarith
  simp [octreeExample, List.filter_cons, hz]

/-- The point lies in the box of the cell. -/
def Octree.Cell.Has {K : Type} [Field K] [LinearOrder K] (c : Octree.Cell K) (p : Vec3 K) : Prop :=
  (c.min.x ≤ p.x ∧ p.x ≤ c.max.x) ∧ (c.min.y ≤ p.y ∧ p.y ≤ c.max.y) ∧ (c.min.z ≤ p.z ∧ p.z ≤ c.max.z)

/-- **C16.** The child a point is dispatched to covers the point, except in the octant left, front, top, whose points are sent to the child
left, back, top. -/
theorem C16_child_cells {K : Type} [Field K] [LinearOrder K] [IsStrictOrderedRing K] (c : Octree.Cell K) (p : Vec3 K) (h : c.Has p)
    (hne : ¬ (p.x < c.mid.x ∧ c.mid.y ≤ p.y ∧ c.mid.z ≤ p.z)) :
    (Octree.childCell c (Octree.dispatch c.mid p.x p.y p.z)).Has p := by
  obtain ⟨⟨h1, h2⟩, ⟨h3, h4⟩, h5, h6⟩ := h
  unfold Octree.dispatch
  split_ifs with q1 q2 q3 q3 q2 q3 q3
  all_goals
    simp only [Octree.Cell.Has, Octree.childCell]
    push Not at *
    norm_num
  all_goals
    first
      | exact absurd (hne q1 ‹_›) (not_lt.2 ‹_›)
      | (refine ⟨⟨?_, ?_⟩, ⟨?_, ?_⟩, ?_, ?_⟩ <;> first | assumption | exact le_of_lt ‹_›)

/-- The excepted octant, concretely: the point (1, 3, 3) of the cell from 0 to 4 is sent to a child that does not contain it. -/
example : (⟨⟨0, 0, 0⟩, ⟨4, 4, 4⟩, ⟨2, 2, 2⟩⟩ : Octree.Cell ℚ).Has ⟨1, 3, 3⟩ ∧
    ¬ (Octree.childCell (⟨⟨0, 0, 0⟩, ⟨4, 4, 4⟩, ⟨2, 2, 2⟩⟩ : Octree.Cell ℚ) (Octree.dispatch ⟨2, 2, 2⟩ 1 3 3)).Has ⟨1, 3, 3⟩ := by
  unfold Octree.Cell.Has; decide +kernel

end ENigMA
