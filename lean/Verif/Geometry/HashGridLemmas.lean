import Verif.Geometry.HashGridCsr
import Verif.Geometry.BBoxProps
import Mathlib.Data.List.Perm.Basic
import Mathlib.Data.List.Perm.Lattice
import Mathlib.Algebra.Order.Floor.Ring

/-! # Helper lemmas: search in the hash grid -/

set_option linter.unusedSectionVars false

namespace ENigMA
namespace HashGrid
variable {K : Type} [Field K] [LinearOrder K] [IsStrictOrderedRing K] [FloorRing K]

theorem trunc_mono {r s : K} (h : r ≤ s) : trunc r ≤ trunc s := by
  unfold trunc
  split_ifs with h1 h2 h2
  · exact Int.floor_le_floor h
  · exact absurd (h1.trans h) h2
  · have a : ⌈r⌉ ≤ 0 := by rw [Int.ceil_le]; push_cast; exact le_of_lt (not_le.1 h1)
    have b : 0 ≤ ⌊s⌋ := Int.floor_nonneg.2 h2
    exact a.trans b
  · exact Int.ceil_le_ceil h

theorem clamp_mono {a b : Int} (n : Nat) (h : a ≤ b) : clamp a n ≤ clamp b n := by
  unfold clamp; omega

theorem clamp_lt (a : Int) {n : Nat} (h : 1 ≤ n) : clamp a n < n := by unfold clamp; omega

theorem cellCoord_mono {m : Machine K} {a b delta : K} {n i j : Nat} (hd : 0 ≤ delta) (hab : a ≤ b)
    (hi : cellCoord m a delta n = some i) (hj : cellCoord m b delta n = some j) : i ≤ j := by
  unfold cellCoord at hi hj
  split_ifs at hi hj with h
  · rw [hi] at hj
    simp only [Option.some.injEq] at hj
    exact le_of_eq hj
  · simp only [Option.some.injEq] at hi hj
    subst hi hj
    apply clamp_mono
    apply trunc_mono
    exact mul_le_mul_of_nonneg_right hab (by positivity)

theorem cellCoord_lt {m : Machine K} {a delta : K} {n i : Nat} (hn : 1 ≤ n)
    (hi : cellCoord m a delta n = some i) : i < n := by
  unfold cellCoord at hi
  split_ifs at hi with h
  · simp only [Option.map_eq_some_iff] at hi
    obtain ⟨z, -, rfl⟩ := hi
    exact clamp_lt z hn
  · simp only [Option.some.injEq] at hi
    subst hi; exact clamp_lt _ hn

theorem cellCoord_some {m : Machine K} {delta : K} (h : delta ≠ 0 ∨ m.bad ≠ none) (a : K) (n : Nat) :
    ∃ i, cellCoord m a delta n = some i := by
  unfold cellCoord
  split_ifs with h1
  · rcases h with h | h
    · exact absurd h1 h
    · obtain ⟨z, hz⟩ := Option.ne_none_iff_exists'.1 h
      exact ⟨clamp z n, by simp [hz]⟩
  · exact ⟨_, rfl⟩

theorem mem_upTo {lo hi i : Nat} : i ∈ upTo lo hi ↔ lo ≤ i ∧ i ≤ hi := by
  unfold upTo
  rw [List.mem_range'_1]
  omega

theorem nodup_upTo (lo hi : Nat) : (upTo lo hi).Nodup := List.nodup_range'

/-- Facts about the sizes that hold after `setup`. -/
structure Sizes (g : Grid K) : Prop where
  nX1 : 1 ≤ g.nX
  nY1 : 1 ≤ g.nY
  nZ1 : 1 ≤ g.nZ
  nXY_eq : g.nX * g.nY ≤ g.nXY
  nCells_eq : g.nXY * g.nZ ≤ g.nCells

theorem setup_sizes (m : Machine K) (g : Grid K) : Sizes (g.setup m) := by
  have h1 : 1 ≤ m.cbrt g.objs.length + 1 := by omega
  refine ⟨?_, ?_, ?_, ?_, ?_⟩ <;> simp only [Grid.setup]
  · split_ifs <;> omega
  · split_ifs <;> omega
  · split_ifs <;> omega
  · apply Nat.mul_le_mul <;> split_ifs <;> omega
  · apply Nat.mul_le_mul_left; split_ifs <;> omega

theorem index_lt {g : Grid K} (hs : Sizes g) {i j k : Nat} (hi : i < g.nX) (hj : j < g.nY) (hk : k < g.nZ) :
    i + j * g.nX + k * g.nXY < g.nCells := by
  have h1 : i + j * g.nX < g.nXY := by
    have : (j + 1) * g.nX ≤ g.nY * g.nX := Nat.mul_le_mul_right _ hj
    have h2 := hs.nXY_eq
    rw [Nat.mul_comm] at h2
    nlinarith
  have h3 : (k + 1) * g.nXY ≤ g.nZ * g.nXY := Nat.mul_le_mul_right _ hk
  have h4 := hs.nCells_eq
  rw [Nat.mul_comm] at h4
  nlinarith

theorem index_inj {g : Grid K} (hs : Sizes g) {i j k i' j' k' : Nat} (hi : i < g.nX) (hj : j < g.nY)
    (hi' : i' < g.nX) (hj' : j' < g.nY)
    (e : i + j * g.nX + k * g.nXY = i' + j' * g.nX + k' * g.nXY) : i = i' ∧ j = j' ∧ k = k' := by
  have hX : 0 < g.nX := hs.nX1
  have low : ∀ a b : Nat, a < g.nX → b < g.nY → a + b * g.nX < g.nXY := by
    intro a b ha hb
    have : (b + 1) * g.nX ≤ g.nY * g.nX := Nat.mul_le_mul_right _ hb
    have h2 := hs.nXY_eq
    rw [Nat.mul_comm] at h2
    nlinarith
  have hl := low i j hi hj
  have hl' := low i' j' hi' hj'
  have hXY : 0 < g.nXY := by omega
  have hk : k = k' := by
    have h1 : (i + j * g.nX + k * g.nXY) / g.nXY = k := by
      rw [Nat.add_mul_div_right _ _ hXY, Nat.div_eq_of_lt hl, Nat.zero_add]
    have h2 : (i' + j' * g.nX + k' * g.nXY) / g.nXY = k' := by
      rw [Nat.add_mul_div_right _ _ hXY, Nat.div_eq_of_lt hl', Nat.zero_add]
    rw [← h1, ← h2, e]
  subst hk
  have e2 : i + j * g.nX = i' + j' * g.nX := by omega
  have hjj : j = j' := by
    have h1 : (i + j * g.nX) / g.nX = j := by
      rw [Nat.add_mul_div_right _ _ hX, Nat.div_eq_of_lt hi, Nat.zero_add]
    have h2 : (i' + j' * g.nX) / g.nX = j' := by
      rw [Nat.add_mul_div_right _ _ hX, Nat.div_eq_of_lt hi', Nat.zero_add]
    rw [← h1, ← h2, e2]
  subst hjj
  exact ⟨by omega, rfl, rfl⟩

/-- Cells visited by `find`. -/
def visited (g : Grid K) (imin imax jmin jmax kmin kmax : Nat) : List Nat :=
  (upTo imin imax).flatMap fun i => (upTo jmin jmax).flatMap fun j =>
    (upTo kmin kmax).map fun k => i + j * g.nX + k * g.nXY

theorem mem_visited {g : Grid K} {imin imax jmin jmax kmin kmax c : Nat} :
    c ∈ visited g imin imax jmin jmax kmin kmax ↔ ∃ i j k, (imin ≤ i ∧ i ≤ imax) ∧ (jmin ≤ j ∧ j ≤ jmax) ∧
      (kmin ≤ k ∧ k ≤ kmax) ∧ c = i + j * g.nX + k * g.nXY := by
  unfold visited
  simp only [List.mem_flatMap, List.mem_map, mem_upTo]
  constructor
  · rintro ⟨i, hi, j, hj, k, hk, rfl⟩; exact ⟨i, j, k, hi, hj, hk, rfl⟩
  · rintro ⟨i, j, k, hi, hj, hk, rfl⟩; exact ⟨i, hi, j, hj, k, hk, rfl⟩

theorem nodup_visited {g : Grid K} (hs : Sizes g) {imin imax jmin jmax kmin kmax : Nat}
    (hi : imax < g.nX) (hj : jmax < g.nY) : (visited g imin imax jmin jmax kmin kmax).Nodup := by
  unfold visited
  rw [List.nodup_flatMap]
  refine ⟨fun i hi' => ?_, ?_⟩
  · rw [mem_upTo] at hi'
    rw [List.nodup_flatMap]
    refine ⟨fun j hj' => ?_, ?_⟩
    · rw [mem_upTo] at hj'
      refine (List.nodup_map_iff_inj_on (nodup_upTo _ _)).2 ?_
      intro k _ k' _ e
      exact (index_inj hs (by omega) (by omega) (by omega) (by omega) e).2.2
    · refine (nodup_upTo _ _).imp_of_mem ?_
      intro j j' hj1 hj2 hne
      rw [mem_upTo] at hj1 hj2
      rw [Function.onFun, List.disjoint_left]
      intro c hc hc'
      obtain ⟨k, -, rfl⟩ := List.mem_map.1 hc
      obtain ⟨k', -, e⟩ := List.mem_map.1 hc'
      exact hne (index_inj hs (by omega) (by omega) (by omega) (by omega) e).2.1.symm
  · refine (nodup_upTo _ _).imp_of_mem ?_
    intro i i' hi1 hi2 hne
    rw [mem_upTo] at hi1 hi2
    rw [Function.onFun, List.disjoint_left]
    intro c hc hc'
    obtain ⟨j, hj1, hc⟩ := List.mem_flatMap.1 hc
    obtain ⟨k, -, rfl⟩ := List.mem_map.1 hc
    obtain ⟨j', hj2, hc'⟩ := List.mem_flatMap.1 hc'
    obtain ⟨k', -, e⟩ := List.mem_map.1 hc'
    rw [mem_upTo] at hj1 hj2
    exact hne (index_inj hs (by omega) (by omega) (by omega) (by omega) e).1.symm

/-- What `find` collects for the object at position `idx`. -/
def sel (objs : List (Int × Vec3 K)) (q : Vec3 K) (tol : K) (idx : Nat) : List Int :=
  match objs[idx]? with
  | some o => if Vec3.Within o.2 q tol then [o.1] else []
  | none => []

theorem flatMap_sel (objs : List (Int × Vec3 K)) (q : Vec3 K) (tol : K) :
    (List.range objs.length).flatMap (sel objs q tol) =
      (objs.filter (fun o => decide (Vec3.Within o.2 q tol))).map (·.1) := by
  induction objs using List.reverseRecOn with
  | nil => rfl
  | append_singleton t o ih =>
    rw [List.length_append, List.length_singleton, List.range_succ, List.flatMap_append, List.filter_append,
      List.map_append, ← ih]
    congr 1
    · apply List.flatMap_congr
      intro i hi
      rw [List.mem_range] at hi
      simp [sel, List.getElem?_append_left hi]
    · simp only [List.flatMap_cons, List.flatMap_nil, List.append_nil, sel]
      simp only [List.length_append, List.length_singleton, Nat.lt_add_one, List.getElem?_concat_length,
        List.filter_cons, List.filter_nil]
      by_cases h : Vec3.Within o.2 q tol <;> simp [h]

theorem perm_flatMap_of_cover {L R : List Nat} {f : Nat → List Int} (hL : L.Nodup) (hR : R.Nodup)
    (h1 : ∀ x ∈ L, x ∈ R) (h2 : ∀ x ∈ R, x ∉ L → f x = []) : (L.flatMap f).Perm (R.flatMap f) := by
  have e : (R.filter (fun x => decide (x ∈ L))).Perm L := by
    rw [List.perm_ext_iff_of_nodup (hR.filter _) hL]
    intro x
    simp only [List.mem_filter, decide_eq_true_eq]
    exact ⟨fun h => h.2, fun h => ⟨h1 x h, h⟩⟩
  have s := List.filter_append_perm (fun x => decide (x ∈ L)) R
  have z : (R.filter (fun x => !decide (x ∈ L))).flatMap f = [] := by
    rw [List.flatMap_eq_nil_iff]
    intro x hx
    simp only [List.mem_filter, Bool.not_eq_true', decide_eq_false_iff_not] at hx
    exact h2 x hx.1 hx.2
  have := s.flatMap_right f
  rw [List.flatMap_append, z, List.append_nil] at this
  exact (e.flatMap_right f).symm.trans this

theorem addAll_objs (g : Grid K) (objs : List (Int × Vec3 K)) :
    g.addAll objs = { g with objs := g.objs ++ objs } := by
  induction objs generalizing g with
  | nil => simp [Grid.addAll]
  | cons o t ih =>
    simp only [Grid.addAll, ih, Grid.addObj]
    simp

theorem cellOf_lt {m : Machine K} {g : Grid K} (hs : Sizes g) {p : Vec3 K} {c : Nat} (h : g.cellOf m p = some c) :
    c < g.nCells := by
  unfold Grid.cellOf at h
  cases h1 : cellCoord m (p.x - g.orig.x) g.delta.x g.nX with
  | none => simp [h1] at h
  | some i =>
    cases h2 : cellCoord m (p.y - g.orig.y) g.delta.y g.nY with
    | none => simp [h1, h2] at h
    | some j =>
      cases h3 : cellCoord m (p.z - g.orig.z) g.delta.z g.nZ with
      | none => simp [h1, h2, h3] at h
      | some k =>
        simp [h1, h2, h3] at h
        subst h
        exact index_lt hs (cellCoord_lt hs.nX1 h1) (cellCoord_lt hs.nY1 h2) (cellCoord_lt hs.nZ1 h3)

/-- The step sizes allow the cast of every cell coordinate. -/
def Castable (m : Machine K) (g : Grid K) : Prop :=
  (g.delta.x ≠ 0 ∨ m.bad ≠ none) ∧ (g.delta.y ≠ 0 ∨ m.bad ≠ none) ∧ (g.delta.z ≠ 0 ∨ m.bad ≠ none)

theorem cellOf_some {m : Machine K} {g : Grid K} (h : Castable m g) (p : Vec3 K) :
    ∃ i j k, cellCoord m (p.x - g.orig.x) g.delta.x g.nX = some i ∧
      cellCoord m (p.y - g.orig.y) g.delta.y g.nY = some j ∧
      cellCoord m (p.z - g.orig.z) g.delta.z g.nZ = some k ∧ g.cellOf m p = some (i + j * g.nX + k * g.nXY) := by
  obtain ⟨hx, hy, hz⟩ := h
  obtain ⟨i, hi⟩ := cellCoord_some hx (p.x - g.orig.x) g.nX
  obtain ⟨j, hj⟩ := cellCoord_some hy (p.y - g.orig.y) g.nY
  obtain ⟨k, hk⟩ := cellCoord_some hz (p.z - g.orig.z) g.nZ
  exact ⟨i, j, k, hi, hj, hk, by simp [Grid.cellOf, hi, hj, hk]⟩

/-- `build()` followed by `find()` on a grid whose pointers are clear (a fresh one, or one just reset), given that the casts are
defined and, if there are objects, the steps are non-negative. -/
theorem build_find_of_clear (m : Machine K) (objs : List (Int × Vec3 K)) (g₀ : Grid K) (ho : g₀.objs = objs) (hp : g₀.ptr.size = 0)
    (hc : Castable m (g₀.setup m))
    (hd : objs ≠ [] → 0 ≤ (g₀.setup m).delta.x ∧ 0 ≤ (g₀.setup m).delta.y ∧ 0 ≤ (g₀.setup m).delta.z) :
    ∃ g, g₀.build m = some g ∧ g.box = (g₀.setup m).box ∧ ∀ q tol, ∃ r, g.find m q tol = some r ∧
      r.Perm ((objs.filter (fun o => decide (Vec3.Within o.2 q tol))).map (·.1)) := by
  generalize hg : g₀.setup m = g0 at *
  have hs : Sizes g0 := hg ▸ setup_sizes _ _
  have hobjs : g0.objs = objs := by
    rw [← hg]; simpa [Grid.setup] using ho
  have hptr : g0.ptr.size = g0.nCells + 1 ∧ ∀ j, g0.ptr.get j = 0 := by
    rw [← hg]
    refine ⟨by simp [Grid.setup, Arr.resize], fun j => ?_⟩
    simp [Grid.setup, Arr.resize, hp]
  -- the cells of the objects
  let cf : Vec3 K → Nat := fun p => ((g0.cellOf m p).getD 0)
  have hcf : ∀ p, g0.cellOf m p = some (cf p) := by
    intro p
    obtain ⟨i, j, k, -, -, -, h⟩ := cellOf_some hc p
    simp [cf, h]
  have hcells : (g0.objs.map (·.2)).mapM (g0.cellOf m) = some ((g0.objs.map (·.2)).map cf) :=
    mapM_option_eq (fun p _ => hcf p)
  set cells := (g0.objs.map (·.2)).map cf with hcells_def
  have hclt : ∀ c ∈ cells, c < g0.nCells := by
    intro c hcm
    obtain ⟨p, -, rfl⟩ := List.mem_map.1 hcm
    exact cellOf_lt hs (hcf p)
  obtain ⟨ptr', list', hcsr, hps, hls, hsl⟩ := csr_spec g0.nCells cells hclt g0.ptr g0.list hptr.1 (fun j _ => hptr.2 j)
  refine ⟨{ g0 with ptr := ptr', list := list' }, ?_, rfl, ?_⟩
  · unfold Grid.build
    simp only [hg, hcells, hcsr, Option.bind_eq_bind, Option.bind_some]
    rfl
  · intro q tol
    obtain ⟨hx, hy, hz⟩ := hc
    obtain ⟨imin, himin⟩ := cellCoord_some hx (q.x - tol - g0.orig.x) g0.nX
    obtain ⟨jmin, hjmin⟩ := cellCoord_some hy (q.y - tol - g0.orig.y) g0.nY
    obtain ⟨kmin, hkmin⟩ := cellCoord_some hz (q.z - tol - g0.orig.z) g0.nZ
    obtain ⟨imax, himax⟩ := cellCoord_some hx (q.x + tol - g0.orig.x) g0.nX
    obtain ⟨jmax, hjmax⟩ := cellCoord_some hy (q.y + tol - g0.orig.y) g0.nY
    obtain ⟨kmax, hkmax⟩ := cellCoord_some hz (q.z + tol - g0.orig.z) g0.nZ
    have limax := cellCoord_lt hs.nX1 himax
    have ljmax := cellCoord_lt hs.nY1 hjmax
    have lkmax := cellCoord_lt hs.nZ1 hkmax
    -- reading one cell
    have hread : ∀ c < g0.nCells,
        ({ g0 with ptr := ptr', list := list' } : Grid K).readCell q tol c =
          some ((bucket c cells 0).flatMap (sel objs q tol)) := by
      intro c hcn
      obtain ⟨h1, h2, h3⟩ := hsl c hcn
      have r1 : ptr'.read c = some (ptr'.get c) := Arr.read_of_lt (by omega)
      have r2 : ptr'.read (c + 1) = some (ptr'.get (c + 1)) := Arr.read_of_lt (by omega)
      have hm : (List.range' (ptr'.get c) (ptr'.get (c + 1) - ptr'.get c)).mapM (fun iptr => do
          let idx ← list'.read iptr
          let o ← g0.objs[idx]?
          return if Vec3.Within o.2 q tol then [o.1] else []) =
          some ((List.range' (ptr'.get c) (ptr'.get (c + 1) - ptr'.get c)).map
            (fun iptr => sel objs q tol (list'.get iptr))) := by
        apply mapM_option_eq
        intro iptr hip
        have hip' := List.mem_range'_1.1 hip
        have hrd : list'.read iptr = some (list'.get iptr) := Arr.read_of_lt (by omega)
        have hmem : list'.get iptr ∈ bucket c cells 0 := by
          rw [← h3]; exact List.mem_map.2 ⟨iptr, hip, rfl⟩
        rw [mem_bucket] at hmem
        have hlt : list'.get iptr < objs.length := by
          have := (List.getElem?_eq_some_iff.1 hmem.2).1
          simpa [hcells_def, hobjs] using this
        simp only [hrd, hobjs, List.getElem?_eq_getElem hlt, Option.bind_eq_bind, Option.bind_some, sel]
        rfl
      unfold Grid.readCell
      simp only [r1, r2, Option.bind_eq_bind, Option.bind_some]
      simp only [Option.bind_eq_bind] at hm
      rw [hm]
      simp only [Option.bind_some]
      rw [← h3, List.flatMap_def, List.map_map]
      rfl
    have hvis : ∀ c ∈ visited g0 imin imax jmin jmax kmin kmax, c < g0.nCells := by
      intro c hcv
      obtain ⟨i, j, k, hi, hj, hk, rfl⟩ := mem_visited.1 hcv
      exact index_lt hs (by omega) (by omega) (by omega)
    refine ⟨((visited g0 imin imax jmin jmax kmin kmax).flatMap
      (fun c => bucket c cells 0)).flatMap (sel objs q tol), ?_, ?_⟩
    · unfold Grid.find
      simp only [himin, hjmin, hkmin, himax, hjmax, hkmax, Option.bind_eq_bind, Option.bind_some]
      have hm := mapM_option_eq (l := visited g0 imin imax jmin jmax kmin kmax) (fun c hcv => hread c (hvis c hcv))
      unfold visited at hm ⊢
      rw [hm]
      simp only [Option.bind_some]
      rw [List.flatMap_assoc, ← List.flatMap_def]
      rfl
    · rw [← flatMap_sel]
      apply perm_flatMap_of_cover
      · rw [List.nodup_flatMap]
        refine ⟨fun c _ => nodup_bucket, ?_⟩
        refine (nodup_visited hs limax ljmax).imp ?_
        intro c c' hne
        rw [Function.onFun, List.disjoint_left]
        intro x hxc hxc'
        rw [mem_bucket] at hxc hxc'
        have := hxc.2.symm.trans hxc'.2
        simp only [Option.some.injEq] at this
        exact hne this
      · exact List.nodup_range
      · intro x hx'
        obtain ⟨c, -, hxc⟩ := List.mem_flatMap.1 hx'
        rw [mem_bucket] at hxc
        have := (List.getElem?_eq_some_iff.1 hxc.2).1
        rw [List.mem_range]
        simpa [hcells_def, hobjs] using this
      · intro x hxr hxn
        rw [List.mem_range] at hxr
        unfold sel
        rw [List.getElem?_eq_getElem hxr]
        simp only
        by_contra hw
        have hw' : Vec3.Within objs[x].2 q tol := by
          by_contra hn; simp [hn] at hw
        apply hxn
        obtain ⟨⟨cx1, cx2⟩, ⟨cy1, cy2⟩, ⟨cz1, cz2⟩⟩ := hw'.cube
        obtain ⟨i, j, k, hi, hj, hk, hcell⟩ := cellOf_some ⟨hx, hy, hz⟩ objs[x].2
        obtain ⟨dx, dy, dz⟩ := hd (by intro e; subst e; simp at hxr)
        rw [List.mem_flatMap]
        refine ⟨i + j * g0.nX + k * g0.nXY, ?_, ?_⟩
        · rw [mem_visited]
          exact ⟨i, j, k,
            ⟨cellCoord_mono dx (by linarith) himin hi, cellCoord_mono dx (by linarith) hi himax⟩,
            ⟨cellCoord_mono dy (by linarith) hjmin hj, cellCoord_mono dy (by linarith) hj hjmax⟩,
            ⟨cellCoord_mono dz (by linarith) hkmin hk, cellCoord_mono dz (by linarith) hk hkmax⟩, rfl⟩
        · rw [mem_bucket]
          refine ⟨Nat.zero_le _, ?_⟩
          have : cf objs[x].2 = i + j * g0.nX + k * g0.nXY := by simp [cf, hcell]
          rw [← this]
          simp [hcells_def, hobjs, List.getElem?_eq_getElem hxr]

/-- `build()` followed by `find()` on a fresh grid. -/
theorem build_find (m : Machine K) (objs : List (Int × Vec3 K)) (hc : Castable m (((Grid.new m).addAll objs).setup m))
    (hd : objs ≠ [] → 0 ≤ (((Grid.new m).addAll objs).setup m).delta.x ∧
      0 ≤ (((Grid.new m).addAll objs).setup m).delta.y ∧ 0 ≤ (((Grid.new m).addAll objs).setup m).delta.z) :
    ∃ g, ofList m objs = some g ∧ ∀ q tol, ∃ r, g.find m q tol = some r ∧
      r.Perm ((objs.filter (fun o => decide (Vec3.Within o.2 q tol))).map (·.1)) := by
  obtain ⟨g, h1, -, h2⟩ := build_find_of_clear m objs ((Grid.new m).addAll objs) (by rw [addAll_objs]; simp [Grid.new])
    (by rw [addAll_objs]; simp [Grid.new, Arr.empty]) hc hd
  exact ⟨g, h1, h2⟩

end HashGrid
end ENigMA
