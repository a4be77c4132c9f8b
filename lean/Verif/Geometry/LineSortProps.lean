import Verif.Geometry.Clip
import Verif.Geometry.LineProps
import Mathlib.Data.List.Rotate
import Mathlib.Data.Sym.Sym2
import Mathlib.Data.Set.Function

/-!
# C69: sorting the lines of a loop
-/

set_option linter.unusedSectionVars false
set_option autoImplicit false

namespace ENigMA

variable {K : Type} [Field K] [LinearOrder K] [IsStrictOrderedRing K]

/-- The end points of a line, without direction. -/
def GLine.ends (l : GLine K) : Sym2 (Vec3 K) := s(l.startP, l.endP)

/-- The edges of the closed loop through the points `c`: every point with its successor, the last with the first. -/
def ringEdges {α : Type} (c : List α) : List (α × α) := c.zip (c.rotate 1)

namespace LineList

theorem swap_eq (f : Nat → GLine K) (a b : Nat) : swap f a b = f ∘ Equiv.swap a b := by
  funext k
  unfold swap
  simp only [Function.comp, Equiv.swap_apply_def]
  split_ifs <;> rfl

theorem touch {nrm : Vec3 K → K} (hN : IsNorm nrm) (a b : Vec3 K) : nrm (a - b) ≤ 0 ↔ a = b := by
  constructor
  · intro h
    by_contra hh
    exact absurd (hN.pos (sub_ne_zero.2 hh)) (not_lt.2 h)
  · rintro rfl; rw [sub_self, hN.zero]

theorem GLine_ext' {l : GLine K} (h : l.Ok) {a b : Vec3 K} (h1 : l.startP = a) (h2 : l.endP = b) : l = GLine.mk2 a b := by
  cases l with
  | mk s e v =>
    unfold GLine.Ok at h
    dsimp only at h h1 h2
    subst h1 h2 h
    rfl

theorem invert_mk2 (a b : Vec3 K) : (GLine.mk2 a b).invert = GLine.mk2 b a := by
  unfold GLine.invert GLine.mk2
  dsimp only
  congr 1 <;> abel

section Main
variable (n : Nat) (q : Nat → Vec3 K)

/-- The lines are the edges of the loop, and the first `i + 1` of them are in place. -/
structure Inv (i : Nat) (f : Nat → GLine K) : Prop where
  ok : ∀ k < n, (f k).Ok
  bij : Set.BijOn (fun k => (f k).ends) (Set.Iio n) ((fun k => s(q k, q (k + 1))) '' Set.Iio n)
  done : ∀ k ≤ i, f k = GLine.mk2 (q k) (q (k + 1))

variable {n q}

theorem Inv.edge {i : Nat} {f : Nat → GLine K} (h : Inv n q i f) {k : Nat} (hk : k < n) :
    ∃ m < n, f k = GLine.mk2 (q m) (q (m + 1)) ∨ f k = GLine.mk2 (q (m + 1)) (q m) := by
  obtain ⟨m, hm, he⟩ := h.bij.mapsTo hk
  refine ⟨m, hm, ?_⟩
  dsimp only at he
  unfold GLine.ends at he
  rw [Sym2.eq_iff] at he
  rcases he with ⟨h1, h2⟩ | ⟨h1, h2⟩
  · exact .inl (GLine_ext' (h.ok k hk) h1.symm h2.symm)
  · exact .inr (GLine_ext' (h.ok k hk) h2.symm h1.symm)

theorem ends_mk2 (a b : Vec3 K) : (GLine.mk2 a b).ends = s(a, b) := rfl

theorem Inv.unique {i : Nat} {f : Nat → GLine K} (h : Inv n q i f) {j k : Nat} (hj : j < n) (hk : k < n) (he : (f j).ends = (f k).ends) : j = k :=
  h.bij.injOn hj hk he

/-- Among the lines after `i`, only the edge `i + 1` touches the end of line `i`. -/
theorem Inv.no_touch {i : Nat} {f : Nat → GLine K} (h : Inv n q i f) (hq : Set.InjOn q (Set.Iio n)) (hper : q n = q 0) (hi : i + 1 < n) {j : Nat} (hj : j < n)
    (hij : i < j) (hne : (f j).ends ≠ s(q (i + 1), q (i + 2))) : (f j).startP ≠ q (i + 1) ∧ (f j).endP ≠ q (i + 1) := by
  obtain ⟨m, hm, he⟩ := h.edge hj
  have hmi : m ≠ i := by
    rintro rfl
    have h0 := h.done m (le_refl _)
    have : (f j).ends = (f m).ends := by
      rcases he with he | he
      · rw [he, h0]
      · rw [he, h0, ends_mk2, ends_mk2, Sym2.eq_swap]
    exact hij.ne' (h.unique hj hm this)
  have hmi' : m ≠ i + 1 := by
    rintro rfl
    apply hne
    rcases he with he | he
    · rw [he]; rfl
    · rw [he, ends_mk2, Sym2.eq_swap]
  have a1 : q m ≠ q (i + 1) := fun hh => hmi' (hq hm hi hh)
  have a2 : q (m + 1) ≠ q (i + 1) := by
    intro hh
    by_cases hmn : m + 1 = n
    · rw [hmn, hper] at hh
      exact absurd (hq (show 0 < n by omega) hi hh) (by omega)
    · exact hmi (by have := hq (show m + 1 < n by omega) hi hh; omega)
  rcases he with he | he
  · rw [he]; exact ⟨a1, a2⟩
  · rw [he]; exact ⟨a2, a1⟩

theorem bij_swap {F : Nat → Sym2 (Vec3 K)} {E : Set (Sym2 (Vec3 K))} (h : Set.BijOn F (Set.Iio n) E) {a b : Nat} (ha : a < n) (hb : b < n) :
    Set.BijOn (F ∘ Equiv.swap a b) (Set.Iio n) E := by
  refine h.comp ?_
  refine ⟨?_, (Equiv.swap a b).injective.injOn, ?_⟩
  · intro k hk
    rw [Equiv.swap_apply_def]
    split_ifs
    exacts [hb, ha, hk]
  · intro k hk
    refine ⟨Equiv.swap a b k, ?_, Equiv.swap_apply_self a b k⟩
    rw [Equiv.swap_apply_def]
    split_ifs
    exacts [hb, ha, hk]

/-- Putting the line found at `j` into place `i + 1`. -/
theorem Inv.place {i : Nat} {f : Nat → GLine K} (h : Inv n q i f) {j : Nat} (hj : j < n) (hij : i < j)
    (he : f j = GLine.mk2 (q (i + 1)) (q (i + 2))) : Inv n q (i + 1) (if i + 1 ≠ j then swap f (i + 1) j else f) := by
  split_ifs with hc
  · rw [swap_eq]
    refine ⟨?_, ?_, ?_⟩
    · intro k hk
      simp only [Function.comp, Equiv.swap_apply_def]
      split_ifs
      exacts [h.ok j hj, h.ok (i + 1) (by omega), h.ok k hk]
    · exact bij_swap h.bij (show i + 1 < n by omega) hj
    · intro k hk
      simp only [Function.comp, Equiv.swap_apply_def]
      split_ifs with h1 h2
      · rw [h1, he]
      · omega
      · exact h.done k (by omega)
  · refine ⟨h.ok, h.bij, fun k hk => ?_⟩
    rcases Nat.lt_or_ge i k with hk' | hk'
    · have : k = j := by omega
      rw [this, he]
      congr 2 <;> omega
    · exact h.done k hk'

theorem Inv.flip {i : Nat} {f : Nat → GLine K} (h : Inv n q i f) {j : Nat} (hj : j < n) (hij : i < j) {a b : Vec3 K} (he : f j = GLine.mk2 a b) :
    Inv n q i (Function.update f j (f j).invert) := by
  refine ⟨?_, ?_, ?_⟩
  · intro k hk
    by_cases hkj : k = j
    · subst hkj; rw [Function.update_self, he, invert_mk2]; exact mk2_ok _ _
    · rw [Function.update_of_ne hkj]; exact h.ok k hk
  · refine h.bij.congr ?_
    intro k hk
    dsimp only
    by_cases hkj : k = j
    · subst hkj; rw [Function.update_self, he, invert_mk2, ends_mk2, ends_mk2, Sym2.eq_swap]
    · rw [Function.update_of_ne hkj]
  · intro k hk
    rw [Function.update_of_ne (by omega)]
    exact h.done k hk

/-- State of the inner loop before index `j`: the next edge is still at or after `j`, or it is in place. -/
def Loop (n : Nat) (q : Nat → Vec3 K) (i j : Nat) (f : Nat → GLine K) : Prop :=
  (Inv n q i f ∧ ∃ k, j ≤ k ∧ k < n ∧ (f k).ends = s(q (i + 1), q (i + 2))) ∨ (Inv n q (i + 1) f ∧ i + 1 < j)

theorem Loop.step {nrm : Vec3 K → K} (hN : IsNorm nrm) (hq : Set.InjOn q (Set.Iio n)) (hper : q n = q 0) {i j : Nat} {f : Nat → GLine K} (hi : i + 1 < n)
    (hij : i < j) (hj : j < n) (h : Loop n q i j f) : Loop n q i (j + 1) (sortBody nrm 0 i f j) := by
  have hqq : q (i + 2) ≠ q (i + 1) := by
    intro hh
    by_cases hmn : i + 2 = n
    · rw [hmn, hper] at hh; exact absurd (hq (show 0 < n by omega) hi hh) (by omega)
    · exact absurd (hq (show i + 2 < n by omega) hi hh) (by omega)
  -- when line j does not touch the end of line i
  have idle : ∀ i' : Nat, Inv n q i' f → i ≤ i' → (f j).startP ≠ q (i + 1) → (f j).endP ≠ q (i + 1) → sortBody nrm 0 i f j = f := by
    intro i' hI hle h1 h2
    have hei : (f i).endP = q (i + 1) := by rw [hI.done i hle]; rfl
    unfold sortBody
    simp only [touch hN, hei]
    rw [if_neg h1, if_neg (by rw [hei]; exact h2)]
  rcases h with ⟨hI, k, hjk, hk, hke⟩ | ⟨hI, hlt⟩
  · have hei : (f i).endP = q (i + 1) := by rw [hI.done i (le_refl _)]; rfl
    by_cases hjE : (f j).ends = s(q (i + 1), q (i + 2))
    · right
      refine ⟨?_, by omega⟩
      unfold sortBody
      simp only [touch hN]
      rw [hei]
      unfold GLine.ends at hjE
      rw [Sym2.eq_iff] at hjE
      rcases hjE with ⟨h1, h2⟩ | ⟨h1, h2⟩
      · rw [if_pos h1]
        have hp := hI.place hj hij (GLine_ext' (hI.ok j hj) h1 h2)
        rw [if_neg]
        · exact hp
        · split_ifs with hc
          · have e1 : swap f (i + 1) j j = f (i + 1) := by unfold swap; rw [if_neg (Ne.symm hc), if_pos rfl]
            have e2 : swap f (i + 1) j i = f i := by unfold swap; rw [if_neg (by omega), if_neg (by omega)]
            rw [e1, e2, hei]
            refine (hI.no_touch hq hper hi (show i + 1 < n from hi) (by omega) ?_).2
            intro hh
            refine hc (hI.unique hi hj (hh.trans ?_))
            unfold GLine.ends; rw [h1, h2]
          · rw [hei, h2]; exact hqq
      · have hn1 : ¬ (f j).startP = q (i + 1) := by rw [h1]; exact hqq
        simp only [if_neg hn1]
        rw [if_pos (by rw [hei]; exact h2)]
        have hm := GLine_ext' (hI.ok j hj) h1 h2
        have hfl := hI.flip hj hij hm
        refine hfl.place hj hij ?_
        rw [Function.update_self, hm, invert_mk2]
    · left
      have hnt := hI.no_touch hq hper hi hj hij hjE
      rw [idle i hI (le_refl _) hnt.1 hnt.2]
      refine ⟨hI, k, ?_, hk, hke⟩
      rcases Nat.lt_or_ge j k with h1 | h1
      · exact h1
      · have : k = j := by omega
        subst this; exact absurd hke hjE
  · right
    have hI0 : Inv n q i f := ⟨hI.ok, hI.bij, fun k hk => hI.done k (by omega)⟩
    have hnt := hI0.no_touch hq hper hi hj hij (by
      intro hh
      have h1 : (f (i + 1)).ends = s(q (i + 1), q (i + 2)) := by rw [hI.done (i + 1) (le_refl _)]; rfl
      have := hI.unique hj hi (hh.trans h1.symm)
      omega)
    rw [idle (i + 1) hI (by omega) hnt.1 hnt.2]
    exact ⟨hI, by omega⟩

theorem Loop.fold {nrm : Vec3 K → K} (hN : IsNorm nrm) (hq : Set.InjOn q (Set.Iio n)) (hper : q n = q 0) {i : Nat} (hi : i + 1 < n) (m j : Nat) (hij : i < j)
    (hjm : j + m = n) {f : Nat → GLine K} (h : Loop n q i j f) : Loop n q i n ((List.range' j m).foldl (sortBody nrm 0 i) f) := by
  induction m generalizing j f with
  | zero => rw [show j = n by omega] at h; exact h
  | succ m ih =>
    rw [List.range'_succ, List.foldl_cons]
    exact ih (j + 1) (by omega) (by omega) (h.step hN hq hper hi hij (by omega))

theorem Inv.inner {nrm : Vec3 K → K} (hN : IsNorm nrm) (hq : Set.InjOn q (Set.Iio n)) (hper : q n = q 0) (h3 : 3 ≤ n) {i : Nat} (hi : i + 1 < n) {f : Nat → GLine K}
    (h : Inv n q i f) : Inv n q (i + 1) (sortInner nrm 0 n f i) := by
  unfold sortInner
  have h0 : Loop n q i (i + 1) f := by
    left
    refine ⟨h, ?_⟩
    obtain ⟨k, hk, hke⟩ := h.bij.surjOn ⟨i + 1, hi, rfl⟩
    refine ⟨k, ?_, hk, hke⟩
    by_contra hh
    have hki : k ≤ i := by omega
    dsimp only at hke
    rw [h.done k hki, ends_mk2, Sym2.eq_iff] at hke
    have hk0 : k < n := hk
    rcases hke with hke | hke
    · exact absurd (hq hk hi hke.1) (by omega)
    · have h1 := hq (show k + 1 < n by omega) hi hke.2
      have h2 : k = i := by omega
      subst h2
      by_cases hmn : k + 1 + 1 = n
      · rw [hmn, hper] at hke
        have := hq hk (show 0 < n by omega) hke.1
        omega
      · exact absurd (hq hk (show k + 1 + 1 < n by omega) hke.1) (by omega)
  rcases Loop.fold hN hq hper hi (n - (i + 1)) (i + 1) (by omega) (by omega) h0 with h1 | h1
  · obtain ⟨k, hk, hk', -⟩ := h1.2; omega
  · exact h1.1

theorem Inv.all {nrm : Vec3 K → K} (hN : IsNorm nrm) (hq : Set.InjOn q (Set.Iio n)) (hper : q n = q 0) (h3 : 3 ≤ n) {f : Nat → GLine K} (h : Inv n q 0 f)
    (m : Nat) (hm : m < n) : Inv n q m ((List.range m).foldl (sortInner nrm 0 n) f) := by
  induction m with
  | zero => exact h
  | succ m ih =>
    rw [List.range_succ, List.foldl_append]
    exact (ih (by omega)).inner hN hq hper h3 hm

theorem sort_loop {nrm : Vec3 K → K} (hN : IsNorm nrm) (hq : Set.InjOn q (Set.Iio n)) (hper : q n = q 0) (h3 : 3 ≤ n) (ls : List (GLine K)) (hn : ls.length = n)
    (h : Inv n q 0 (fun k => ls.getD k ⟨0, 0, 0⟩)) : sort nrm 0 ls = (List.range n).map fun k => GLine.mk2 (q k) (q (k + 1)) := by
  unfold sort
  rw [hn]
  dsimp only
  apply List.map_congr_left
  intro k hk
  rw [List.mem_range] at hk
  have hlast := h.all hN hq hper h3 (n - 1) (by omega)
  have hr : List.range n = List.range (n - 1) ++ [n - 1] := by
    rw [← List.range_succ]; congr 1; omega
  rw [hr, List.foldl_append, List.foldl_cons, List.foldl_nil]
  have : ∀ g : Nat → GLine K, sortInner nrm 0 n g (n - 1) = g := by
    intro g
    unfold sortInner
    rw [show n - (n - 1 + 1) = 0 by omega]
    rfl
  rw [this]
  exact hlast.done k (by omega)

end Main

section Loops
variable {α : Type}

theorem length_ringEdges (c : List α) : (ringEdges c).length = c.length := by
  unfold ringEdges; simp

theorem ringEdges_rotate (c : List α) (m : Nat) : ringEdges (c.rotate m) = (ringEdges c).rotate m := by
  unfold ringEdges
  have := List.zipWith_rotate_distrib Prod.mk c (c.rotate 1) m (by simp)
  rw [List.rotate_rotate, Nat.add_comm 1 m, ← List.rotate_rotate] at this
  exact this.symm

theorem getElem_ringEdges (c : List α) (k : Nat) (hk : k < (ringEdges c).length) :
    (ringEdges c)[k] = (c[k]'(by rw [length_ringEdges] at hk; exact hk), c[(k + 1) % c.length]'(Nat.mod_lt _ (by rw [length_ringEdges] at hk; omega))) := by
  have := List.getElem_zip (l := c) (l' := c.rotate 1) (i := k) (h := hk)
  rw [List.getElem_rotate] at this
  exact this

theorem ringEdges_reverse (c : List α) (hc : c ≠ []) : ∃ m, ringEdges c.reverse = (((ringEdges c).map Prod.swap).rotate m).reverse := by
  have hlen : 0 < c.length := List.length_pos_iff.2 hc
  refine ⟨c.length - 1 % c.length, ?_⟩
  have h1 : ((ringEdges c).map Prod.swap) = (c.rotate 1).zip c := by
    unfold ringEdges; exact List.zip_swap _ _
  have h2 := List.zipWith_rotate_distrib Prod.mk (c.rotate 1) c (c.length - 1 % c.length) (by simp)
  rw [h1]
  change _ = (List.rotate (List.zipWith Prod.mk (c.rotate 1) c) (c.length - 1 % c.length)).reverse
  rw [h2, List.rotate_rotate]
  have h3 : c.rotate (1 + (c.length - 1 % c.length)) = c := by
    rcases Nat.lt_or_ge 1 c.length with h | h
    · rw [Nat.mod_eq_of_lt h, show 1 + (c.length - 1) = c.length by omega, List.rotate_length]
    · have : c.length = 1 := by omega
      rw [this]
      obtain ⟨a, rfl⟩ := List.length_eq_one_iff.1 this
      exact List.rotate_singleton _ _
  rw [h3]
  unfold ringEdges
  rw [List.rotate_reverse]
  change List.zipWith Prod.mk _ _ = _
  rw [← List.reverse_zipWith (by simp)]

theorem sym_perm_rotate (c : List α) (m : Nat) :
    ((ringEdges (c.rotate m)).map fun e => s(e.1, e.2)).Perm ((ringEdges c).map fun e => s(e.1, e.2)) := by
  rw [ringEdges_rotate]
  exact ((ringEdges c).rotate_perm m).map _

theorem sym_perm_reverse (c : List α) (hc : c ≠ []) :
    ((ringEdges c.reverse).map fun e => s(e.1, e.2)).Perm ((ringEdges c).map fun e => s(e.1, e.2)) := by
  obtain ⟨m, hm⟩ := ringEdges_reverse c hc
  rw [hm]
  refine ((List.reverse_perm _).map _).trans (((List.rotate_perm _ m).map _).trans ?_)
  rw [List.map_map]
  have : ((fun e : α × α => s(e.1, e.2)) ∘ Prod.swap) = fun e => s(e.1, e.2) := by
    funext e; simp [Sym2.eq_swap]
  rw [this]

/-- An edge of the loop can be made the first one by turning the loop. -/
theorem exists_rotation (c : List α) (a b : α) (h : (a, b) ∈ ringEdges c) : ∃ m, (ringEdges (c.rotate m))[0]? = some (a, b) := by
  obtain ⟨m, hm, he⟩ := List.getElem_of_mem h
  refine ⟨m, ?_⟩
  rw [ringEdges_rotate, ← List.head?_eq_getElem?, List.head?_rotate hm, List.getElem?_eq_getElem hm, he]

theorem exists_oriented (c : List α) (a b : α) (h : s(a, b) ∈ (ringEdges c).map fun e => s(e.1, e.2)) :
    ∃ c', (c' ~r c ∨ c' ~r c.reverse) ∧ (ringEdges c')[0]? = some (a, b) := by
  rw [List.mem_map] at h
  obtain ⟨⟨x, y⟩, he, hs⟩ := h
  rw [Sym2.eq_iff] at hs
  rcases hs with ⟨rfl, rfl⟩ | ⟨rfl, rfl⟩
  · obtain ⟨m, hm⟩ := exists_rotation c x y he
    exact ⟨c.rotate m, .inl (List.IsRotated.forall c m), hm⟩
  · have hc : c ≠ [] := by rintro rfl; cases he
    obtain ⟨m0, hm0⟩ := ringEdges_reverse c hc
    have : (y, x) ∈ ringEdges c.reverse := by
      rw [hm0, List.mem_reverse, List.mem_rotate, List.mem_map]
      exact ⟨(x, y), he, rfl⟩
    obtain ⟨m, hm⟩ := exists_rotation c.reverse y x this
    exact ⟨c.reverse.rotate m, .inr (List.IsRotated.forall _ m), hm⟩

/-- The edges of a loop of at least three different points are different. -/
theorem nodup_sym (c : List α) (hnd : c.Nodup) (h3 : 3 ≤ c.length) : ((ringEdges c).map fun e => s(e.1, e.2)).Nodup := by
  rw [List.nodup_iff_injective_get]
  rintro ⟨i, hi⟩ ⟨j, hj⟩ h
  rw [List.length_map, length_ringEdges] at hi hj
  simp only [List.get_eq_getElem, List.getElem_map, getElem_ringEdges] at h
  rw [Sym2.eq_iff] at h
  apply Fin.ext
  dsimp only
  rcases h with ⟨h1, -⟩ | ⟨h1, h2⟩
  · exact (hnd.getElem_inj_iff).1 h1
  · have e1 := (hnd.getElem_inj_iff).1 h1
    have e2 := (hnd.getElem_inj_iff).1 h2
    exfalso
    rcases Nat.lt_or_ge (j + 1) c.length with hj1 | hj1
    · rw [Nat.mod_eq_of_lt hj1] at e1
      rcases Nat.lt_or_ge (i + 1) c.length with hi1 | hi1
      · rw [Nat.mod_eq_of_lt hi1] at e2; omega
      · rw [show i + 1 = c.length by omega, Nat.mod_self] at e2; omega
    · rw [show j + 1 = c.length by omega, Nat.mod_self] at e1
      rcases Nat.lt_or_ge (i + 1) c.length with hi1 | hi1
      · rw [Nat.mod_eq_of_lt hi1] at e2; omega
      · omega

end Loops
end LineList

open LineList in
/-- **C69.** For every loop of at least three different points `c` and every list of lines that is, up to order and up to the direction of each line, the list of
the edges of the loop, `sort` with tolerance 0 returns the edges of the loop one after the other, each starting where the previous one ends, in the
direction of the line that was first: the loop itself, or the loop in the opposite sense, from some point on. -/
theorem C69_sort (nrm : Vec3 K → K) (hN : IsNorm nrm) (c : List (Vec3 K)) (hnd : c.Nodup) (h3 : 3 ≤ c.length) (ls : List (GLine K)) (hok : ∀ l ∈ ls, l.Ok)
    (hls : (ls.map fun l => s(l.startP, l.endP)).Perm ((ringEdges c).map fun e => s(e.1, e.2))) :
    ∃ c', (c' ~r c ∨ c' ~r c.reverse) ∧ LineList.sort nrm 0 ls = (ringEdges c').map (fun e => GLine.mk2 e.1 e.2) ∧
      (LineList.sort nrm 0 ls).head? = ls.head? := by
  have hlen : ls.length = c.length := by
    have := hls.length_eq
    rwa [List.length_map, List.length_map, length_ringEdges] at this
  cases ls with
  | nil => simp at hlen; omega
  | cons l0 lr =>
    have hc : c ≠ [] := by rintro rfl; simp at h3
    have hmem : s(l0.startP, l0.endP) ∈ (ringEdges c).map fun e => s(e.1, e.2) := hls.subset (by simp)
    obtain ⟨c', hc', hfirst⟩ := exists_oriented c _ _ hmem
    have hperm' : ((ringEdges c').map fun e => s(e.1, e.2)).Perm ((ringEdges c).map fun e => s(e.1, e.2)) := by
      rcases hc' with h | h
      · obtain ⟨m, rfl⟩ := h.symm
        exact sym_perm_rotate c m
      · obtain ⟨m, rfl⟩ := h.symm
        exact (sym_perm_rotate _ m).trans (sym_perm_reverse c hc)
    have hnd' : c'.Nodup := by
      rcases hc' with h | h
      · exact h.perm.nodup_iff.2 hnd
      · exact h.perm.nodup_iff.2 (List.nodup_reverse.2 hnd)
    have hlen' : c'.length = c.length := by
      rcases hc' with h | h
      · exact h.perm.length_eq
      · rw [h.perm.length_eq, List.length_reverse]
    generalize hls' : l0 :: lr = ls at *
    have hP := hls.trans hperm'.symm
    have hndP := (hP.nodup_iff).2 (nodup_sym c' hnd' (by omega))
    set n := c'.length with hn
    have hn0 : 0 < n := by omega
    let q : Nat → Vec3 K := fun k => c'[k % n]'(Nat.mod_lt _ hn0)
    have hqlt : ∀ k (hk : k < n), q k = c'[k] := by
      intro k hk
      simp only [q, Nat.mod_eq_of_lt hk]
    have hq : Set.InjOn q (Set.Iio n) := by
      intro i hi j hj hij
      rw [hqlt i hi, hqlt j hj] at hij
      exact (hnd'.getElem_inj_iff).1 hij
    have hper : q n = q 0 := by simp only [q, Nat.mod_self, Nat.zero_mod]
    have hedge : ∀ k (hk : k < (ringEdges c').length), (ringEdges c')[k] = (q k, q (k + 1)) := by
      intro k hk
      rw [getElem_ringEdges, hqlt k (by rw [length_ringEdges] at hk; exact hk)]
    have hgetD : ∀ k (hk : k < ls.length), ls.getD k ⟨0, 0, 0⟩ = ls[k] := fun k hk => by
      rw [List.getD_eq_getElem?_getD, List.getElem?_eq_getElem hk, Option.getD_some]
    have hlsn : ls.length = n := by omega
    have hinv : Inv n q 0 (fun k => ls.getD k ⟨0, 0, 0⟩) := by
      refine ⟨?_, ⟨?_, ?_, ?_⟩, ?_⟩
      · intro k hk
        rw [hgetD k (by omega)]
        exact hok _ (List.getElem_mem _)
      · intro k hk
        dsimp only
        have hk' : k < ls.length := by rw [hlsn]; exact hk
        rw [hgetD k hk']
        have : (ls[k]).ends ∈ (ringEdges c').map fun e => s(e.1, e.2) := hP.subset (List.mem_map.2 ⟨ls[k], List.getElem_mem _, rfl⟩)
        rw [List.mem_map] at this
        obtain ⟨e, he, hs⟩ := this
        obtain ⟨m, hm, rfl⟩ := List.getElem_of_mem he
        rw [hedge m hm] at hs
        exact ⟨m, by rw [length_ringEdges] at hm; exact hm, hs⟩
      · intro i hi j hj hij
        dsimp only at hij
        have hi' : i < ls.length := by rw [hlsn]; exact hi
        have hj' : j < ls.length := by rw [hlsn]; exact hj
        rw [hgetD i hi', hgetD j hj'] at hij
        have hi2 : i < (ls.map fun l => s(l.startP, l.endP)).length := by rw [List.length_map]; exact hi'
        have hj2 : j < (ls.map fun l => s(l.startP, l.endP)).length := by rw [List.length_map]; exact hj'
        refine (hndP.getElem_inj_iff (hi := hi2) (hj := hj2)).1 ?_
        rw [List.getElem_map, List.getElem_map]
        exact hij
      · rintro x ⟨m, hm, rfl⟩
        have hm' : m < (ringEdges c').length := by rw [length_ringEdges]; exact hm
        have : s(q m, q (m + 1)) ∈ ls.map fun l => s(l.startP, l.endP) := by
          refine hP.symm.subset (List.mem_map.2 ⟨_, List.getElem_mem hm', ?_⟩)
          rw [hedge m hm']
        rw [List.mem_map] at this
        obtain ⟨l, hl, hs⟩ := this
        obtain ⟨k, hk, rfl⟩ := List.getElem_of_mem hl
        refine ⟨k, by rw [← hlsn]; exact hk, ?_⟩
        dsimp only
        rw [hgetD k hk]
        exact hs
      · intro k hk
        have hk0 : k = 0 := by omega
        subst hk0
        rw [hgetD 0 (by omega)]
        have h0 : 0 < (ringEdges c').length := by rw [length_ringEdges]; exact hn0
        rw [List.getElem?_eq_getElem h0, hedge 0 h0] at hfirst
        have := Prod.mk.inj (Option.some.inj hfirst)
        have hl0 : ls[0]'(by omega) = l0 := by subst hls'; rfl
        rw [hl0]
        exact GLine_ext' (hok l0 (by rw [← hls']; simp)) this.1.symm this.2.symm
    have hsort := sort_loop hN hq hper (by omega) ls hlsn hinv
    refine ⟨c', hc', ?_, ?_⟩
    · rw [hsort]
      apply List.ext_getElem
      · rw [List.length_map, List.length_map, List.length_range, length_ringEdges]
      · intro k hk1 hk2
        rw [List.getElem_map, List.getElem_map, List.getElem_range, hedge]
    · rw [hsort]
      have := hinv.done 0 (le_refl _)
      rw [hgetD 0 (by omega)] at this
      rw [List.head?_eq_getElem?, List.head?_eq_getElem?, List.getElem?_eq_getElem (by omega : 0 < ls.length), this,
        List.getElem?_eq_getElem (by rw [List.length_map, List.length_range]; exact hn0), List.getElem_map, List.getElem_range]

/-- The four edges of a square, out of order and two of them against the sense of the loop. -/
def shuffledSquare : List (GLine ℚ) :=
  [GLine.mk2 ⟨1, 0, 0⟩ ⟨0, 0, 0⟩, GLine.mk2 ⟨1, 1, 0⟩ ⟨0, 1, 0⟩, GLine.mk2 ⟨1, 0, 0⟩ ⟨1, 1, 0⟩, GLine.mk2 ⟨0, 0, 0⟩ ⟨0, 1, 0⟩]

/-- The hypotheses of C69 are met by it, with the corners of the square as the loop; the result is the square in the sense of the first line. -/
example : ([⟨0, 0, 0⟩, ⟨1, 0, 0⟩, ⟨1, 1, 0⟩, ⟨0, 1, 0⟩] : List (Vec3 ℚ)).Nodup ∧ (∀ l ∈ shuffledSquare, l.Ok) ∧
    (shuffledSquare.map fun l => s(l.startP, l.endP)).Perm
      ((ringEdges ([⟨0, 0, 0⟩, ⟨1, 0, 0⟩, ⟨1, 1, 0⟩, ⟨0, 1, 0⟩] : List (Vec3 ℚ))).map fun e => s(e.1, e.2)) ∧
    (LineList.sort (fun v => |v.x| + |v.y| + |v.z|) 0 shuffledSquare).map (fun l => (l.startP, l.endP)) =
      [(⟨1, 0, 0⟩, ⟨0, 0, 0⟩), (⟨0, 0, 0⟩, ⟨0, 1, 0⟩), (⟨0, 1, 0⟩, ⟨1, 1, 0⟩), (⟨1, 1, 0⟩, ⟨1, 0, 0⟩)] := by
  refine ⟨by decide +kernel, ?_, by decide +kernel, by decide +kernel⟩
  intro l hl
  simp only [shuffledSquare, List.mem_cons, List.not_mem_nil, or_false] at hl
  rcases hl with rfl | rfl | rfl | rfl <;> rfl

end ENigMA
