import Verif.Mesh.SpaceSpec
import Verif.Mesh.GeneralPosition
import Mathlib.Data.Finset.Max
import Mathlib.Algebra.BigOperators.Fin
import Mathlib.Algebra.BigOperators.Ring.Finset
import Mathlib.Algebra.Order.BigOperators.Group.Finset

/-!
# Rays through tetrahedra

The number of tetrahedra around a point is the number of faces that a ray from the point crosses, counted with their direction.
-/

set_option linter.unusedSectionVars false
set_option autoImplicit false

namespace ENigMA
namespace Space
variable {K : Type} [Field K] [LinearOrder K] [IsStrictOrderedRing K]

/-! ### Four functions on a line -/

section Line
variable (lam mu : Fin 4 → K)

/-- The sign of `lam i * mu j - lam j * mu i` tells which of two functions of `t` vanishes first. -/
def cmp (i j : Fin 4) : K := lam i * mu j - lam j * mu i

def Exit (i : Fin 4) : Prop := 0 < lam i ∧ ∀ j, j ≠ i → 0 < cmp lam mu i j
def Enter (i : Fin 4) : Prop := lam i < 0 ∧ ∀ j, j ≠ i → cmp lam mu i j < 0

variable {lam mu}

theorem cmp_eq (i j : Fin 4) (hi : mu i ≠ 0) (hj : mu j ≠ 0) : cmp lam mu i j = mu i * mu j * (-lam j / mu j - -lam i / mu i) := by
  unfold cmp; field_simp; ring

theorem cmp_sum (i : Fin 4) (hm : ∑ j, mu j = 0) : ∑ j, cmp lam mu i j = - (∑ j, lam j) * mu i := by
  unfold cmp
  rw [Finset.sum_sub_distrib, ← Finset.mul_sum, hm, ← Finset.sum_mul]
  ring

theorem exit_mu {i : Fin 4} (hl : 0 < ∑ j, lam j) (hm : ∑ j, mu j = 0) (h : ∀ j, j ≠ i → 0 < cmp lam mu i j) : mu i < 0 := by
  have h0 : 0 < ∑ j, cmp lam mu i j := by
    apply Finset.sum_pos'
    · intro j _
      by_cases hj : j = i
      · subst hj; simp [cmp]
      · exact (h j hj).le
    · refine ⟨i + 1, Finset.mem_univ _, h _ ?_⟩
      intro he
      have : (1 : Fin 4) = 0 := by simpa using he
      exact absurd this (by decide)
  rw [cmp_sum i hm] at h0
  nlinarith

theorem enter_mu {i : Fin 4} (hl : 0 < ∑ j, lam j) (hm : ∑ j, mu j = 0) (h : ∀ j, j ≠ i → cmp lam mu i j < 0) : 0 < mu i := by
  have h0 : 0 < ∑ j, -cmp lam mu i j := by
    apply Finset.sum_pos'
    · intro j _
      by_cases hj : j = i
      · subst hj; simp [cmp]
      · have := h j hj; linarith
    · refine ⟨i + 1, Finset.mem_univ _, ?_⟩
      have := h (i + 1) (fun he => absurd (show (1 : Fin 4) = 0 by simpa using he) (by decide))
      linarith
  rw [Finset.sum_neg_distrib, cmp_sum i hm] at h0
  nlinarith

open Classical in
/-- The ray leaves the tetrahedron once more than it enters exactly if it starts inside. -/
theorem line_count (hl : 0 < ∑ j, lam j) (hm : ∑ j, mu j = 0) (hl0 : ∀ i, lam i ≠ 0) (hm0 : ∀ i, mu i ≠ 0) (hc : ∀ i j, i ≠ j → cmp lam mu i j ≠ 0) :
    ∑ i, ((if Exit lam mu i then (1 : ℤ) else 0) - if Enter lam mu i then 1 else 0) = if ∀ i, 0 < lam i then 1 else 0 := by
  have hE : (Finset.univ.filter fun i => mu i < 0).Nonempty := by
    by_contra h
    rw [Finset.not_nonempty_iff_eq_empty, Finset.filter_eq_empty_iff] at h
    have : 0 < ∑ j, mu j := Finset.sum_pos (fun j hj => lt_of_le_of_ne (not_lt.1 (h hj)) (hm0 j).symm) ⟨0, Finset.mem_univ _⟩
    exact absurd hm this.ne'
  have hB : (Finset.univ.filter fun i => 0 < mu i).Nonempty := by
    by_contra h
    rw [Finset.not_nonempty_iff_eq_empty, Finset.filter_eq_empty_iff] at h
    have : ∑ j, mu j < 0 := Finset.sum_neg (fun j hj => lt_of_le_of_ne (not_lt.1 (h hj)) (hm0 j)) ⟨0, Finset.mem_univ _⟩
    exact absurd hm this.ne
  obtain ⟨e, he, hemin⟩ := Finset.exists_min_image _ (fun i => -lam i / mu i) hE
  obtain ⟨b, hb, hbmax⟩ := Finset.exists_max_image _ (fun i => -lam i / mu i) hB
  have he' : mu e < 0 := (Finset.mem_filter.1 he).2
  have hb' : 0 < mu b := (Finset.mem_filter.1 hb).2
  have heb : e ≠ b := by rintro rfl; exact absurd he' (not_lt.2 hb'.le)
  let t := fun i => -lam i / mu i
  have tne : ∀ i j, i ≠ j → t i ≠ t j := by
    intro i j hij h
    apply hc i j hij
    rw [cmp_eq i j (hm0 i) (hm0 j)]
    show mu i * mu j * (t j - t i) = 0
    rw [h]; ring
  have hcmp : ∀ i j, cmp lam mu i j = mu i * mu j * (t j - t i) := fun i j => cmp_eq i j (hm0 i) (hm0 j)
  have hlam : ∀ i, lam i = - (mu i * t i) := fun i => by
    show lam i = -(mu i * (-lam i / mu i))
    have := hm0 i
    field_simp
  have emin : ∀ j, j ≠ e → mu j < 0 → t e < t j := fun j hj hneg =>
    lt_of_le_of_ne (hemin j (Finset.mem_filter.2 ⟨Finset.mem_univ _, hneg⟩)) (tne e j hj.symm)
  have bmax : ∀ j, j ≠ b → 0 < mu j → t j < t b := fun j hj hpos =>
    lt_of_le_of_ne (hbmax j (Finset.mem_filter.2 ⟨Finset.mem_univ _, hpos⟩)) (tne j b hj)
  have hexit : ∀ i, Exit lam mu i ↔ i = e ∧ 0 < t e ∧ t b < t e := by
    intro i
    constructor
    · intro ⟨h1, h2⟩
      have hmi := exit_mu hl hm h2
      have hi : i = e := by
        by_contra hne
        have h3 := emin i hne hmi
        have h4 := h2 e (Ne.symm hne)
        rw [hcmp] at h4
        have : 0 < mu i * mu e := mul_pos_of_neg_of_neg hmi he'
        nlinarith
      subst hi
      refine ⟨rfl, ?_, ?_⟩
      · rw [hlam] at h1; nlinarith
      · have h4 := h2 b heb.symm
        rw [hcmp] at h4
        have : mu i * mu b < 0 := mul_neg_of_neg_of_pos hmi hb'
        nlinarith
    · rintro ⟨rfl, h1, h2⟩
      refine ⟨by rw [hlam]; nlinarith, fun j hj => ?_⟩
      rw [hcmp]
      rcases lt_or_gt_of_ne (hm0 j) with h | h
      · exact mul_pos (mul_pos_of_neg_of_neg he' h) (sub_pos.2 (emin j hj h))
      · refine mul_pos_of_neg_of_neg (mul_neg_of_neg_of_pos he' h) (sub_neg.2 ?_)
        by_cases hjb : j = b
        · rw [hjb]; exact h2
        · exact (bmax j hjb h).trans h2
  have henter : ∀ i, Enter lam mu i ↔ i = b ∧ 0 < t b ∧ t b < t e := by
    intro i
    constructor
    · intro ⟨h1, h2⟩
      have hmi := enter_mu hl hm h2
      have hi : i = b := by
        by_contra hne
        have h3 := bmax i hne hmi
        have h4 := h2 b (Ne.symm hne)
        rw [hcmp] at h4
        have : 0 < mu i * mu b := mul_pos hmi hb'
        nlinarith
      subst hi
      refine ⟨rfl, ?_, ?_⟩
      · rw [hlam] at h1; nlinarith
      · have h4 := h2 e heb
        rw [hcmp] at h4
        have : mu i * mu e < 0 := mul_neg_of_pos_of_neg hmi he'
        nlinarith
    · rintro ⟨rfl, h1, h2⟩
      refine ⟨by rw [hlam]; nlinarith, fun j hj => ?_⟩
      rw [hcmp]
      rcases lt_or_gt_of_ne (hm0 j) with h | h
      · refine mul_neg_of_neg_of_pos (mul_neg_of_pos_of_neg hb' h) (sub_pos.2 ?_)
        by_cases hje : j = e
        · rw [hje]; exact h2
        · exact h2.trans (emin j hje h)
      · exact mul_neg_of_pos_of_neg (mul_pos hb' h) (sub_neg.2 (bmax j hj h))
  have hin : (∀ i, 0 < lam i) ↔ 0 < t e ∧ t b < 0 := by
    constructor
    · intro h
      have h1 := h e
      have h2 := h b
      rw [hlam] at h1 h2
      constructor <;> nlinarith
    · rintro ⟨h1, h2⟩ i
      rw [hlam]
      rcases lt_or_gt_of_ne (hm0 i) with h | h
      · have : 0 < t i := by
          by_cases hie : i = e
          · rw [hie]; exact h1
          · exact h1.trans (emin i hie h)
        nlinarith
      · have : t i < 0 := by
          by_cases hib : i = b
          · rw [hib]; exact h2
          · exact (bmax i hib h).trans h2
        nlinarith
  have htb : t b ≠ 0 := by
    intro h
    apply hl0 b
    rw [hlam, h]; ring
  rw [Finset.sum_sub_distrib]
  have s1 : ∑ i, (if Exit lam mu i then (1 : ℤ) else 0) = if 0 < t e ∧ t b < t e then 1 else 0 := by
    simp only [hexit]
    split_ifs with h
    · simp [h]
    · simp [h]
  have s2 : ∑ i, (if Enter lam mu i then (1 : ℤ) else 0) = if 0 < t b ∧ t b < t e then 1 else 0 := by
    simp only [henter]
    split_ifs with h
    · simp [h]
    · simp [h]
  rw [s1, s2]
  simp only [hin]
  have hte : t b ≠ t e := tne b e heb.symm
  rcases lt_or_gt_of_ne hte with h1 | h1 <;> rcases lt_or_gt_of_ne htb with h2 | h2 <;> by_cases h3 : 0 < t e
  all_goals simp only [h1, h2, h3, not_lt.2 h1.le, not_lt.2 h2.le, and_true, and_false, true_and, false_and, if_true, if_false]
  all_goals first | rfl | (exfalso; linarith) | norm_num

end Line

/-! ### A ray and a tetrahedron -/

theorem all4 (P : Fin 4 → Prop) : (∀ j, P j) ↔ P 0 ∧ P 1 ∧ P 2 ∧ P 3 :=
  ⟨fun h => ⟨h 0, h 1, h 2, h 3⟩, fun ⟨h0, h1, h2, h3⟩ j => match j with | 0 => h0 | 1 => h1 | 2 => h2 | 3 => h3⟩

/-- The ray from `p` along `d` crosses the triangle: `1` if it comes from behind, `-1` if it comes from the front. -/
def ray (d p : Vec3 K) (t : Tri K) : ℤ :=
  let a := t.v0 - p
  let b := t.v1 - p
  let c := t.v2 - p
  if 0 < det3 a b c ∧ 0 < det3 a b d ∧ 0 < det3 b c d ∧ 0 < det3 c a d then 1
  else if det3 a b c < 0 ∧ det3 a b d < 0 ∧ det3 b c d < 0 ∧ det3 c a d < 0 then -1 else 0

/-- A function of triangles that changes sign with the orientation. -/
structure Odd {A : Type} [Neg A] (f : Tri K → A) : Prop where
  turn : ∀ a b c, f ⟨b, c, a⟩ = f ⟨a, b, c⟩
  swap : ∀ a b c, f ⟨b, a, c⟩ = - f ⟨a, b, c⟩

theorem det3_turn (a b c : Vec3 K) : det3 b c a = det3 a b c := by
  simp only [det3, Vec3.cross, Vec3.dot]; ring

theorem det3_swap (a b c : Vec3 K) : det3 b a c = - det3 a b c := by
  simp only [det3, Vec3.cross, Vec3.dot]; ring

theorem ray_odd (d p : Vec3 K) : Odd (ray d p) where
  turn a b c := by
    simp only [ray, det3_turn (a - p) (b - p) (c - p)]
    refine if_congr ?_ rfl (if_congr ?_ rfl rfl) <;> tauto
  swap a b c := by
    have h1 := det3_swap (a - p) (b - p) (c - p)
    have h2 := det3_swap (a - p) (b - p) d
    have h3 := det3_swap (b - p) (c - p) d
    have h4 := det3_swap (c - p) (a - p) d
    simp only [ray, h1, h2, h3, h4, Left.neg_pos_iff, Left.neg_neg_iff]
    split_ifs with h5 h6 h7 h8 <;> first | rfl | (exfalso; tauto) | (exfalso; exact absurd h5.1 (not_lt.2 h6.1.le)) | skip

/-- The sum of a function over the faces of a tetrahedron. -/
def hull {A : Type} [Add A] (f : Tri K → A) (t : Tet K) : A :=
  f ⟨t.v0, t.v1, t.v2⟩ + f ⟨t.v1, t.v3, t.v2⟩ + f ⟨t.v0, t.v3, t.v1⟩ + f ⟨t.v0, t.v2, t.v3⟩

/-- The point moved by `s d`. -/
def move (p d : Vec3 K) (s : K) : Vec3 K := ⟨p.x + s * d.x, p.y + s * d.y, p.z + s * d.z⟩

/-- How fast the point `p + s d` moves behind the triangle. -/
def rate (t : Tri K) (d : Vec3 K) : K := - (Vec3.cross (t.v1 - t.v0) (t.v2 - t.v0)).dot d

theorem behind_move (t : Tri K) (p d : Vec3 K) (s : K) : behind t (move p d s) = behind t p + s * rate t d := by
  simp only [behind, rate, det3, move, Vec3.cross, Vec3.dot, Vec3.sub_x, Vec3.sub_y, Vec3.sub_z]; ring

theorem rate_eq (t : Tri K) (d p : Vec3 K) : rate t d = - (det3 (t.v0 - p) (t.v1 - p) d + det3 (t.v1 - p) (t.v2 - p) d + det3 (t.v2 - p) (t.v0 - p) d) := by
  simp only [rate, det3, Vec3.cross, Vec3.dot, Vec3.sub_x, Vec3.sub_y, Vec3.sub_z]; ring

/-- The edges of a tetrahedron, in the direction in which a ray along `d` may pass them. -/
structure Clear (t : Tet K) (p d : Vec3 K) : Prop where
  off : ∀ f ∈ t.faces, behind f p ≠ 0
  across : ∀ f ∈ t.faces, rate f d ≠ 0
  edge : ∀ f ∈ t.faces, det3 (f.v0 - p) (f.v1 - p) d ≠ 0 ∧ det3 (f.v1 - p) (f.v2 - p) d ≠ 0 ∧ det3 (f.v2 - p) (f.v0 - p) d ≠ 0

theorem volume_split (t : Tet K) (p : Vec3 K) : behind ⟨t.v0, t.v1, t.v2⟩ p + behind ⟨t.v1, t.v3, t.v2⟩ p + behind ⟨t.v0, t.v3, t.v1⟩ p + behind ⟨t.v0, t.v2, t.v3⟩ p
    = behind ⟨t.v0, t.v1, t.v2⟩ t.v3 := by
  simp only [behind, det3, Vec3.cross, Vec3.dot, Vec3.sub_x, Vec3.sub_y, Vec3.sub_z]; ring

theorem cmp_det (a b c e d : Vec3 K) :
    det3 a b c * -(det3 b e d + det3 e c d + det3 c b d) - det3 b e c * -(det3 a b d + det3 b c d + det3 c a d)
      = (det3 a b c + det3 b e c + det3 a e b + det3 a c e) * det3 b c d := by
  simp only [det3, Vec3.cross, Vec3.dot]; ring

set_option maxHeartbeats 1000000 in
/-- **The ray from a point leaves a tetrahedron once more than it enters exactly if the point is inside.** -/
theorem hull_ray (t : Tet K) (p d : Vec3 K) (hpos : t.Positive) (h : Clear t p d) : hull (ray d p) t = if t.Inside p then 1 else 0 := by
  classical
  set a := t.v0 - p with ha
  set b := t.v1 - p with hb
  set c := t.v2 - p with hc
  set e := t.v3 - p with he
  have hV : 0 < det3 a b c + det3 b e c + det3 a e b + det3 a c e := by
    have := volume_split t p
    unfold Tet.Positive at hpos
    rw [← this] at hpos
    exact hpos
  have f0 := h.off ⟨t.v0, t.v1, t.v2⟩ (by simp [Tet.faces])
  have f1 := h.off ⟨t.v1, t.v3, t.v2⟩ (by simp [Tet.faces])
  have f2 := h.off ⟨t.v0, t.v3, t.v1⟩ (by simp [Tet.faces])
  have f3 := h.off ⟨t.v0, t.v2, t.v3⟩ (by simp [Tet.faces])
  have g0 := h.across ⟨t.v0, t.v1, t.v2⟩ (by simp [Tet.faces])
  have g1 := h.across ⟨t.v1, t.v3, t.v2⟩ (by simp [Tet.faces])
  have g2 := h.across ⟨t.v0, t.v3, t.v1⟩ (by simp [Tet.faces])
  have g3 := h.across ⟨t.v0, t.v2, t.v3⟩ (by simp [Tet.faces])
  obtain ⟨e01, e12, e20⟩ := h.edge ⟨t.v0, t.v1, t.v2⟩ (by simp [Tet.faces])
  obtain ⟨e13, e32, -⟩ := h.edge ⟨t.v1, t.v3, t.v2⟩ (by simp [Tet.faces])
  obtain ⟨e03, -, -⟩ := h.edge ⟨t.v0, t.v3, t.v1⟩ (by simp [Tet.faces])
  rw [rate_eq _ _ p] at g0 g1 g2 g3
  simp only [behind, ← ha, ← hb, ← hc, ← he] at f0 f1 f2 f3 g0 g1 g2 g3 e01 e12 e20 e13 e32 e03
  set lam : Fin 4 → K := ![det3 a b c, det3 b e c, det3 a e b, det3 a c e] with hlam
  set mu : Fin 4 → K := ![-(det3 a b d + det3 b c d + det3 c a d), -(det3 b e d + det3 e c d + det3 c b d), -(det3 a e d + det3 e b d + det3 b a d), -(det3 a c d + det3 c e d + det3 e a d)] with hmu
  set V := det3 a b c + det3 b e c + det3 a e b + det3 a c e with hVd
  have sl : ∑ j, lam j = V := by simp [hlam, Fin.sum_univ_four, hVd]
  have sm : ∑ j, mu j = 0 := by
    simp only [hmu, Fin.sum_univ_four, Matrix.cons_val]
    simp only [det3, Vec3.cross, Vec3.dot]; ring
  have c01 : cmp lam mu 0 1 = V * det3 b c d := by simp only [cmp, hlam, hmu, Matrix.cons_val, hVd]; simp only [det3, Vec3.cross, Vec3.dot]; ring
  have c02 : cmp lam mu 0 2 = V * det3 a b d := by simp only [cmp, hlam, hmu, Matrix.cons_val, hVd]; simp only [det3, Vec3.cross, Vec3.dot]; ring
  have c03 : cmp lam mu 0 3 = V * det3 c a d := by simp only [cmp, hlam, hmu, Matrix.cons_val, hVd]; simp only [det3, Vec3.cross, Vec3.dot]; ring
  have c12 : cmp lam mu 1 2 = V * det3 b e d := by simp only [cmp, hlam, hmu, Matrix.cons_val, hVd]; simp only [det3, Vec3.cross, Vec3.dot]; ring
  have c13 : cmp lam mu 1 3 = V * det3 e c d := by simp only [cmp, hlam, hmu, Matrix.cons_val, hVd]; simp only [det3, Vec3.cross, Vec3.dot]; ring
  have c23 : cmp lam mu 2 3 = V * det3 a e d := by simp only [cmp, hlam, hmu, Matrix.cons_val, hVd]; simp only [det3, Vec3.cross, Vec3.dot]; ring
  have anti : ∀ i j, cmp lam mu j i = - cmp lam mu i j := fun i j => by unfold cmp; ring
  have c10 : cmp lam mu 1 0 = V * det3 c b d := by rw [anti 0 1, c01, det3_swap b c d]; ring
  have c20 : cmp lam mu 2 0 = V * det3 b a d := by rw [anti 0 2, c02, det3_swap a b d]; ring
  have c30 : cmp lam mu 3 0 = V * det3 a c d := by rw [anti 0 3, c03, det3_swap c a d]; ring
  have c21 : cmp lam mu 2 1 = V * det3 e b d := by rw [anti 1 2, c12, det3_swap b e d]; ring
  have c31 : cmp lam mu 3 1 = V * det3 c e d := by rw [anti 1 3, c13, det3_swap e c d]; ring
  have c32 : cmp lam mu 3 2 = V * det3 e a d := by rw [anti 2 3, c23, det3_swap a e d]; ring
  have key := line_count (lam := lam) (mu := mu) (by rw [sl]; exact hV) sm
    ((all4 _).2 ⟨f0, f1, f2, f3⟩)
    ((all4 _).2 ⟨g0, g1, g2, g3⟩)
    (by
      have hne : ∀ x : K, x ≠ 0 → V * x ≠ 0 := fun x hx => mul_ne_zero hV.ne' hx
      have n01 : cmp lam mu 0 1 ≠ 0 := by rw [c01]; exact hne _ e12
      have n02 : cmp lam mu 0 2 ≠ 0 := by rw [c02]; exact hne _ e01
      have n03 : cmp lam mu 0 3 ≠ 0 := by rw [c03]; exact hne _ e20
      have n12 : cmp lam mu 1 2 ≠ 0 := by rw [c12]; exact hne _ e13
      have n13 : cmp lam mu 1 3 ≠ 0 := by rw [c13]; exact hne _ e32
      have n23 : cmp lam mu 2 3 ≠ 0 := by rw [c23]; exact hne _ e03
      have hn : ∀ i j, cmp lam mu i j ≠ 0 → cmp lam mu j i ≠ 0 := fun i j h => by rw [anti i j]; exact neg_ne_zero.2 h
      refine (all4 _).2 ⟨?_, ?_, ?_, ?_⟩ <;> refine (all4 _).2 ⟨?_, ?_, ?_, ?_⟩ <;> intro hij <;> first | exact absurd rfl hij | assumption | exact hn _ _ (by assumption))
  rw [Fin.sum_univ_four] at key
  have pp : ∀ x : K, 0 < V * x ↔ 0 < x := fun x => ⟨fun h => (mul_pos_iff_of_pos_left hV).1 h, fun h => mul_pos hV h⟩
  have pn : ∀ x : K, V * x < 0 ↔ x < 0 := fun x => by
    constructor
    · intro h; by_contra h'; exact absurd h (not_lt.2 (mul_nonneg hV.le (not_lt.1 h')))
    · intro h; exact mul_neg_of_pos_of_neg hV h
  have split : ∀ (A B : Prop) [Decidable A] [Decidable B], (A → ¬ B) → (if A then (1 : ℤ) else if B then -1 else 0) = (if A then 1 else 0) - if B then 1 else 0 := by
    intro A B _ _ hAB
    by_cases hA : A
    · simp [hA, hAB hA]
    · by_cases hB : B <;> simp [hA, hB]
  have hx : ∀ (i : Fin 4) (x y z : Vec3 K), lam i = det3 x y z → (Exit lam mu i ↔ 0 < det3 x y z ∧ 0 < det3 x y d ∧ 0 < det3 y z d ∧ 0 < det3 z x d) →
      (Enter lam mu i ↔ det3 x y z < 0 ∧ det3 x y d < 0 ∧ det3 y z d < 0 ∧ det3 z x d < 0) →
      (if 0 < det3 x y z ∧ 0 < det3 x y d ∧ 0 < det3 y z d ∧ 0 < det3 z x d then (1 : ℤ)
        else if det3 x y z < 0 ∧ det3 x y d < 0 ∧ det3 y z d < 0 ∧ det3 z x d < 0 then -1 else 0)
      = (if Exit lam mu i then 1 else 0) - if Enter lam mu i then 1 else 0 := by
    intro i x y z _ h1 h2
    rw [split _ _ (fun hA hB => absurd hA.1 (not_lt.2 hB.1.le))]
    simp only [h1, h2]
  have l0 : lam 0 = det3 a b c := rfl
  have l1 : lam 1 = det3 b e c := rfl
  have l2 : lam 2 = det3 a e b := rfl
  have l3 : lam 3 = det3 a c e := rfl
  have r0 := hx 0 a b c rfl (by unfold Exit; rw [all4]; simp only [c01, c02, c03, pp, l0]; simp <;> tauto) (by unfold Enter; rw [all4]; simp only [c01, c02, c03, pn, l0]; simp <;> tauto)
  have r1 := hx 1 b e c rfl (by unfold Exit; rw [all4]; simp only [c10, c12, c13, pp, l1]; simp <;> tauto) (by unfold Enter; rw [all4]; simp only [c10, c12, c13, pn, l1]; simp <;> tauto)
  have r2 := hx 2 a e b rfl (by unfold Exit; rw [all4]; simp only [c20, c21, c23, pp, l2]; simp <;> tauto) (by unfold Enter; rw [all4]; simp only [c20, c21, c23, pn, l2]; simp <;> tauto)
  have r3 := hx 3 a c e rfl (by unfold Exit; rw [all4]; simp only [c30, c31, c32, pp, l3]; simp <;> tauto) (by unfold Enter; rw [all4]; simp only [c30, c31, c32, pn, l3]; simp <;> tauto)
  have hIn : t.Inside p ↔ ∀ i, 0 < lam i := by
    rw [all4]
    simp only [Tet.Inside, Tet.faces, List.mem_cons, List.not_mem_nil, or_false, forall_eq_or_imp, forall_eq, behind, ← ha, ← hb, ← hc, ← he, l0, l1, l2, l3]
  simp only [hIn]
  rw [← key]
  simp only [hull, ray, ← ha, ← hb, ← hc, ← he]
  rw [r0, r1, r2, r3]

/-! ### Directions and points in general position -/

theorem small_step (L : List (K × K)) (h : ∀ u ∈ L, 0 < u.1) : ∃ δ, 0 < δ ∧ ∀ s, 0 < s → s < δ → ∀ u ∈ L, 0 < u.1 + s * u.2 := by
  induction L with
  | nil => exact ⟨1, one_pos, by simp⟩
  | cons c t ih =>
    obtain ⟨δ, h1, h2⟩ := ih (fun c hc => h c (List.mem_cons_of_mem _ hc))
    have h0 := h c (by simp)
    have hden : 0 < |c.2| + 1 := by positivity
    refine ⟨min δ (c.1 / (|c.2| + 1)), lt_min h1 (div_pos h0 hden), ?_⟩
    intro s hs hs2 d hd
    rcases List.mem_cons.1 hd with rfl | hd
    · have h3 : s * (|d.2| + 1) < d.1 := (lt_div_iff₀ hden).1 (lt_of_lt_of_le hs2 (min_le_right _ _))
      have h4 : -(s * |d.2|) ≤ s * d.2 := by
        have := mul_le_mul_of_nonneg_left (neg_abs_le d.2) hs.le
        linarith
      nlinarith
    · exact h2 s hs (lt_of_lt_of_le hs2 (min_le_left _ _)) d hd

/-- Between `0` and `b` there is a number that keeps finitely many positive numbers positive and makes finitely many linear functions non-zero. -/
theorem step (P N : List (K × K)) (hP : ∀ u ∈ P, 0 < u.1) (hN : ∀ u ∈ N, u.1 ≠ 0 ∨ u.2 ≠ 0) {b : K} (hb : 0 < b) :
    ∃ s, 0 < s ∧ s < b ∧ (∀ u ∈ P, 0 < u.1 + s * u.2) ∧ ∀ u ∈ N, u.1 + s * u.2 ≠ 0 := by
  obtain ⟨δ, h1, h2⟩ := small_step P hP
  obtain ⟨s, hs1, hs2, hs3⟩ := General.avoid (N.map fun u => - u.1 / u.2).toFinset (lt_min h1 hb)
  refine ⟨s, hs1, lt_of_lt_of_le hs2 (min_le_right _ _), h2 s hs1 (lt_of_lt_of_le hs2 (min_le_left _ _)), ?_⟩
  intro u hu h
  by_cases hz : u.2 = 0
  · rcases hN u hu with h3 | h3
    · rw [hz, mul_zero, add_zero] at h; exact h3 h
    · exact h3 hz
  · apply hs3
    rw [List.mem_toFinset]
    refine List.mem_map.2 ⟨u, hu, ?_⟩
    rw [div_eq_iff hz]
    linear_combination -h

theorem dot_self_ne {n : Vec3 K} (h : n ≠ ⟨0, 0, 0⟩) : n.dot n ≠ 0 := by
  intro h0
  apply h
  simp only [Vec3.dot] at h0
  have hx := mul_self_nonneg n.x
  have hy := mul_self_nonneg n.y
  have hz := mul_self_nonneg n.z
  apply Vec3.ext
  · exact mul_self_eq_zero.1 (by linarith)
  · exact mul_self_eq_zero.1 (by linarith)
  · exact mul_self_eq_zero.1 (by linarith)

theorem dot_move (n p d : Vec3 K) (s : K) : n.dot (move p d s) = n.dot p + s * n.dot d := by
  simp only [Vec3.dot, move]; ring

/-- A direction along none of finitely many planes. -/
theorem direction (N : List (Vec3 K)) (hN : ∀ n ∈ N, n ≠ ⟨0, 0, 0⟩) : ∃ d : Vec3 K, ∀ n ∈ N, n.dot d ≠ 0 := by
  induction N with
  | nil => exact ⟨⟨0, 0, 0⟩, by simp⟩
  | cons n t ih =>
    obtain ⟨d, hd⟩ := ih (fun m hm => hN m (List.mem_cons_of_mem _ hm))
    obtain ⟨s, -, -, -, h⟩ := step ([] : List (K × K)) ((n :: t).map fun m => (m.dot d, m.dot n)) (by simp) (by
      intro u hu
      obtain ⟨m, hm, rfl⟩ := List.mem_map.1 hu
      rcases List.mem_cons.1 hm with rfl | hm
      · exact Or.inr (dot_self_ne (hN m (by simp)))
      · exact Or.inl (hd m hm)) (zero_lt_one (α := K))
    refine ⟨move d n s, fun m hm => ?_⟩
    rw [dot_move]
    exact h _ (List.mem_map.2 ⟨m, hm, rfl⟩)

/-- The normal of a triangle. -/
def normal (t : Tri K) : Vec3 K := Vec3.cross (t.v1 - t.v0) (t.v2 - t.v0)

theorem rate_normal (t : Tri K) (d : Vec3 K) : rate t d = - (normal t).dot d := rfl

theorem behind_normal (t : Tri K) (p : Vec3 K) : behind t p = (normal t).dot (t.v0 - p) := by
  simp only [behind, normal, det3, Vec3.cross, Vec3.dot, Vec3.sub_x, Vec3.sub_y, Vec3.sub_z]; ring

theorem normal_ne {t : Tri K} {p : Vec3 K} (h : behind t p ≠ 0) : normal t ≠ ⟨0, 0, 0⟩ := by
  intro h0
  apply h
  rw [behind_normal, h0]
  simp [Vec3.dot]

theorem det_cross (a b d : Vec3 K) : det3 a b d = (Vec3.cross a b).dot d := by
  simp only [det3, Vec3.cross, Vec3.dot]; ring

theorem cross_ne {a b c : Vec3 K} (h : det3 a b c ≠ 0) : Vec3.cross a b ≠ ⟨0, 0, 0⟩ := by
  intro h0
  apply h
  rw [det_cross, h0]
  simp [Vec3.dot]

/-- From a point on none of the planes of the faces there is a ray that passes no edge of finitely many tetrahedra. -/
theorem clear_direction (l : List (Tet K)) (p : Vec3 K) (h : ∀ t ∈ l, ∀ f ∈ t.faces, behind f p ≠ 0) : ∃ d, ∀ t ∈ l, Clear t p d := by
  obtain ⟨d, hd⟩ := direction ((l.flatMap Tet.faces).flatMap fun f => [normal f, Vec3.cross (f.v0 - p) (f.v1 - p), Vec3.cross (f.v1 - p) (f.v2 - p), Vec3.cross (f.v2 - p) (f.v0 - p)]) (by
    intro n hn
    obtain ⟨f, hf, hn⟩ := List.mem_flatMap.1 hn
    obtain ⟨t, ht, hf⟩ := List.mem_flatMap.1 hf
    have h0 := h t ht f hf
    simp only [List.mem_cons, List.not_mem_nil, or_false] at hn
    rcases hn with rfl | rfl | rfl | rfl
    · exact normal_ne h0
    · exact cross_ne h0
    · refine cross_ne (c := f.v0 - p) ?_
      rw [det3_turn]; exact h0
    · refine cross_ne (c := f.v1 - p) ?_
      rw [det3_turn, det3_turn]; exact h0)
  refine ⟨d, fun t ht => ⟨h t ht, fun f hf => ?_, fun f hf => ?_⟩⟩
  · rw [rate_normal]
    exact neg_ne_zero.2 (hd _ (List.mem_flatMap.2 ⟨f, List.mem_flatMap.2 ⟨t, ht, hf⟩, by simp⟩))
  · simp only [det_cross]
    refine ⟨hd _ (List.mem_flatMap.2 ⟨f, List.mem_flatMap.2 ⟨t, ht, hf⟩, by simp⟩), hd _ (List.mem_flatMap.2 ⟨f, List.mem_flatMap.2 ⟨t, ht, hf⟩, by simp⟩), hd _ (List.mem_flatMap.2 ⟨f, List.mem_flatMap.2 ⟨t, ht, hf⟩, by simp⟩)⟩

theorem count_ray (l : List (Tet K)) (p d : Vec3 K) (hpos : ∀ t ∈ l, t.Positive) (h : ∀ t ∈ l, Clear t p d) :
    (l.map (hull (ray d p))).sum = ((l.countP fun t => decide (t.Inside p) : ℕ) : ℤ) := by
  induction l with
  | nil => rfl
  | cons t l ih =>
    rw [List.map_cons, List.sum_cons, hull_ray t p d (hpos t (by simp)) (h t (by simp)), ih (fun t ht => hpos t (List.mem_cons_of_mem _ ht)) (fun t ht => h t (List.mem_cons_of_mem _ ht)), List.countP_cons]
    by_cases hi : t.Inside p <;> simp [hi]
    ring

/-! ### Lists of tetrahedra with the same boundary -/

/-- The two lists have the same boundary: no odd function of the faces tells them apart. -/
def SameHull (l l' : List (Tet K)) : Prop := ∀ (A : Type) [AddCommGroup A] (f : Tri K → A), Odd f → (l.map (hull f)).sum = (l'.map (hull f)).sum

/-- The point is on none of the planes of the faces. -/
def Off (l : List (Tet K)) (p : Vec3 K) : Prop := ∀ t ∈ l, ∀ f ∈ t.faces, behind f p ≠ 0

theorem count_same {l l' : List (Tet K)} (hl : ∀ t ∈ l, t.Positive) (hl' : ∀ t ∈ l', t.Positive) (h : SameHull l l') {p : Vec3 K} (ho : Off l p) (ho' : Off l' p) :
    (l.countP fun t => decide (t.Inside p)) = l'.countP fun t => decide (t.Inside p) := by
  obtain ⟨d, hd⟩ := clear_direction (l ++ l') p (by
    intro t ht
    rcases List.mem_append.1 ht with h1 | h1
    · exact ho t h1
    · exact ho' t h1)
  have h1 := count_ray l p d hl (fun t ht => hd t (List.mem_append_left _ ht))
  have h2 := count_ray l' p d hl' (fun t ht => hd t (List.mem_append_right _ ht))
  have h3 := h _ _ (ray_odd d p)
  rw [h1, h2] at h3
  exact_mod_cast h3

theorem positive_normal {t : Tet K} (h : t.Positive) : ∀ f ∈ t.faces, normal f ≠ ⟨0, 0, 0⟩ := by
  unfold Tet.Positive at h
  have key : behind ⟨t.v0, t.v1, t.v2⟩ t.v3 ≠ 0 ∧ behind ⟨t.v1, t.v3, t.v2⟩ t.v0 ≠ 0 ∧ behind ⟨t.v0, t.v3, t.v1⟩ t.v2 ≠ 0 ∧ behind ⟨t.v0, t.v2, t.v3⟩ t.v1 ≠ 0 := by
    have e1 : behind ⟨t.v1, t.v3, t.v2⟩ t.v0 = behind ⟨t.v0, t.v1, t.v2⟩ t.v3 := by
      simp only [behind, det3, Vec3.cross, Vec3.dot, Vec3.sub_x, Vec3.sub_y, Vec3.sub_z]; ring
    have e2 : behind ⟨t.v0, t.v3, t.v1⟩ t.v2 = behind ⟨t.v0, t.v1, t.v2⟩ t.v3 := by
      simp only [behind, det3, Vec3.cross, Vec3.dot, Vec3.sub_x, Vec3.sub_y, Vec3.sub_z]; ring
    have e3 : behind ⟨t.v0, t.v2, t.v3⟩ t.v1 = behind ⟨t.v0, t.v1, t.v2⟩ t.v3 := by
      simp only [behind, det3, Vec3.cross, Vec3.dot, Vec3.sub_x, Vec3.sub_y, Vec3.sub_z]; ring
    rw [e1, e2, e3]
    exact ⟨h.ne', h.ne', h.ne', h.ne'⟩
  intro f hf
  simp only [Tet.faces, List.mem_cons, List.not_mem_nil, or_false] at hf
  rcases hf with rfl | rfl | rfl | rfl
  · exact normal_ne key.1
  · exact normal_ne key.2.1
  · exact normal_ne key.2.2.1
  · exact normal_ne key.2.2.2

/-- A point behind finitely many triangles can be moved off finitely many planes and stays behind the triangles. -/
theorem off_planes (P N : List (Tri K)) (p : Vec3 K) (hP : ∀ f ∈ P, 0 < behind f p) (hN : ∀ f ∈ N, normal f ≠ ⟨0, 0, 0⟩) :
    ∃ q, (∀ f ∈ P, 0 < behind f q) ∧ ∀ f ∈ N, behind f q ≠ 0 := by
  obtain ⟨d, hd⟩ := direction (N.map normal) (by simpa using hN)
  obtain ⟨s, -, -, h1, h2⟩ := step (P.map fun f => (behind f p, rate f d)) (N.map fun f => (behind f p, rate f d)) (by
      intro u hu
      obtain ⟨f, hf, rfl⟩ := List.mem_map.1 hu
      exact hP f hf) (by
      intro u hu
      obtain ⟨f, hf, rfl⟩ := List.mem_map.1 hu
      right
      rw [rate_normal]
      exact neg_ne_zero.2 (hd _ (List.mem_map.2 ⟨f, hf, rfl⟩))) (zero_lt_one (α := K))
  refine ⟨move p d s, fun f hf => ?_, fun f hf => ?_⟩
  · rw [behind_move]; exact h1 _ (List.mem_map.2 ⟨f, hf, rfl⟩)
  · rw [behind_move]; exact h2 _ (List.mem_map.2 ⟨f, hf, rfl⟩)

theorem off_iff {l : List (Tet K)} {p : Vec3 K} : Off l p ↔ ∀ f ∈ l.flatMap Tet.faces, behind f p ≠ 0 := by
  simp only [Off, List.mem_flatMap]
  constructor
  · rintro h f ⟨t, ht, hf⟩; exact h t ht f hf
  · intro h t ht f hf; exact h f ⟨t, ht, hf⟩

/-- If no point is inside two tetrahedra of the one list, then no point is inside two of the other. -/
theorem apart_same {l l' : List (Tet K)} (hl : ∀ t ∈ l, t.Positive) (hl' : ∀ t ∈ l', t.Positive) (h : SameHull l l') (ha : Apart l) : Apart l' := by
  intro p
  obtain ⟨q, h1, h2⟩ := off_planes ((l'.filter fun t => decide (t.Inside p)).flatMap Tet.faces) ((l ++ l').flatMap Tet.faces) p (by
    intro f hf
    obtain ⟨t, ht, hf⟩ := List.mem_flatMap.1 hf
    have := (List.mem_filter.1 ht).2
    exact (of_decide_eq_true this) f hf) (by
    intro f hf
    obtain ⟨t, ht, hf⟩ := List.mem_flatMap.1 hf
    refine positive_normal ?_ f hf
    rcases List.mem_append.1 ht with h1 | h1
    · exact hl t h1
    · exact hl' t h1)
  have h3 : Off (l ++ l') q := off_iff.2 h2
  have h4 := count_same hl hl' h (fun t ht => h3 t (List.mem_append_left _ ht)) (fun t ht => h3 t (List.mem_append_right _ ht))
  have h5 := ha q
  rw [h4] at h5
  refine le_trans ?_ h5
  apply List.countP_mono_left
  intro t ht hi
  refine decide_eq_true fun f hf => h1 f ?_
  exact List.mem_flatMap.2 ⟨t, List.mem_filter.2 ⟨ht, hi⟩, hf⟩

theorem inside_contains {t : Tet K} {p : Vec3 K} (h : t.Inside p) : t.Contains p := fun f hf => (h f hf).le

/-- The middle of a tetrahedron is inside. -/
theorem exists_inside {t : Tet K} (h : t.Positive) : ∃ c, t.Inside c := by
  refine ⟨⟨(t.v0.x + t.v1.x + t.v2.x + t.v3.x) / 4, (t.v0.y + t.v1.y + t.v2.y + t.v3.y) / 4, (t.v0.z + t.v1.z + t.v2.z + t.v3.z) / 4⟩, ?_⟩
  unfold Tet.Positive at h
  intro f hf
  have : behind f ⟨(t.v0.x + t.v1.x + t.v2.x + t.v3.x) / 4, (t.v0.y + t.v1.y + t.v2.y + t.v3.y) / 4, (t.v0.z + t.v1.z + t.v2.z + t.v3.z) / 4⟩ = behind ⟨t.v0, t.v1, t.v2⟩ t.v3 / 4 := by
    simp only [Tet.faces, List.mem_cons, List.not_mem_nil, or_false] at hf
    rcases hf with rfl | rfl | rfl | rfl <;>
    · simp only [behind, det3, Vec3.cross, Vec3.dot, Vec3.sub_x, Vec3.sub_y, Vec3.sub_z]; ring
  rw [this]
  linarith

/-- The triangle seen from the other side. -/
def back (f : Tri K) : Tri K := ⟨f.v1, f.v0, f.v2⟩

theorem behind_back (f : Tri K) (p : Vec3 K) : behind (back f) p = - behind f p := det3_swap _ _ _

/-- **Lists of tetrahedra with the same boundary fill the same points.** -/
theorem fill_le {l l' : List (Tet K)} (hl : ∀ t ∈ l, t.Positive) (hl' : ∀ t ∈ l', t.Positive) (h : SameHull l l') {p : Vec3 K} (hp : Fill l p) : Fill l' p := by
  classical
  obtain ⟨t, ht, hc⟩ := hp
  by_contra hno
  have hneg : ∀ t' ∈ l', ∃ f ∈ t'.faces, behind f p < 0 := by
    intro t' ht'
    by_contra hn
    push Not at hn
    exact hno ⟨t', ht', hn⟩
  obtain ⟨c, hci⟩ := exists_inside (hl t ht)
  -- a point inside `t` such that the line to it lies in no plane of a face
  let F := (l ++ l').flatMap Tet.faces
  have hF : ∀ f ∈ F, normal f ≠ ⟨0, 0, 0⟩ := by
    intro f hf
    obtain ⟨t, ht, hf⟩ := List.mem_flatMap.1 hf
    refine positive_normal ?_ f hf
    rcases List.mem_append.1 ht with h1 | h1
    · exact hl t h1
    · exact hl' t h1
  obtain ⟨w, hw⟩ := direction (F.map normal) (by simpa using hF)
  obtain ⟨r, -, -, hr1, hr2⟩ := step (t.faces.map fun f => (behind f c, rate f w)) (F.map fun f => ((normal f).dot (c - p), (normal f).dot w)) (by
      intro u hu
      obtain ⟨f, hf, rfl⟩ := List.mem_map.1 hu
      exact hci f hf) (by
      intro u hu
      obtain ⟨f, hf, rfl⟩ := List.mem_map.1 hu
      exact Or.inr (hw _ (List.mem_map.2 ⟨f, hf, rfl⟩))) (zero_lt_one (α := K))
  set c' := move c w r with hc'
  have hci' : t.Inside c' := fun f hf => by rw [hc', behind_move]; exact hr1 _ (List.mem_map.2 ⟨f, hf, rfl⟩)
  have hv : ∀ f ∈ F, (normal f).dot (c' - p) ≠ 0 := by
    intro f hf
    have := hr2 _ (List.mem_map.2 ⟨f, hf, rfl⟩)
    have e : (normal f).dot (c' - p) = (normal f).dot (c - p) + r * (normal f).dot w := by
      simp only [hc', move, Vec3.dot, Vec3.sub_x, Vec3.sub_y, Vec3.sub_z]; ring
    rw [e]; exact this
  -- a small step towards it
  haveI : Nonempty (Tri K) := ⟨⟨p, p, p⟩⟩
  choose! g hg1 hg2 using hneg
  obtain ⟨s, hs0, hs1, hs2, hs3⟩ := step (l'.map fun t' => (behind (back (g t')) p, rate (back (g t')) (c' - p))) (F.map fun f => (behind f p, rate f (c' - p))) (by
      intro u hu
      obtain ⟨t', ht', rfl⟩ := List.mem_map.1 hu
      show 0 < behind (back (g t')) p
      rw [behind_back]
      have := hg2 t' ht'
      linarith) (by
      intro u hu
      obtain ⟨f, hf, rfl⟩ := List.mem_map.1 hu
      right
      rw [rate_normal]
      exact neg_ne_zero.2 (hv f hf)) (zero_lt_one (α := K))
  set q := move p (c' - p) s with hq
  have hqo : Off (l ++ l') q := off_iff.2 (fun f hf => by rw [hq, behind_move]; exact hs3 _ (List.mem_map.2 ⟨f, hf, rfl⟩))
  have hqt : t.Inside q := by
    intro f hf
    have e : behind f q = (1 - s) * behind f p + s * behind f c' := by
      simp only [hq, move, behind, det3, Vec3.cross, Vec3.dot, Vec3.sub_x, Vec3.sub_y, Vec3.sub_z]; ring
    rw [e]
    have h1 := hc f hf
    have h2 := hci' f hf
    have h3 : 0 ≤ (1 - s) * behind f p := mul_nonneg (by linarith) h1
    have h4 : 0 < s * behind f c' := mul_pos hs0 h2
    linarith
  have h4 := count_same hl hl' h (fun t ht => hqo t (List.mem_append_left _ ht)) (fun t ht => hqo t (List.mem_append_right _ ht))
  have h5 : 0 < l.countP fun t => decide (t.Inside q) := List.countP_pos_iff.2 ⟨t, ht, decide_eq_true hqt⟩
  rw [h4] at h5
  obtain ⟨t', ht', hi⟩ := List.countP_pos_iff.1 h5
  have h6 := (of_decide_eq_true hi) (g t') (hg1 t' ht')
  have h7 := hs2 _ (List.mem_map.2 ⟨t', ht', rfl⟩)
  have h8 : 0 < behind (back (g t')) q := by rw [hq, behind_move]; exact h7
  rw [behind_back] at h8
  linarith

theorem SameHull.symm {l l' : List (Tet K)} (h : SameHull l l') : SameHull l' l := fun A _ f hf => (h A f hf).symm

theorem fill_same {l l' : List (Tet K)} (hl : ∀ t ∈ l, t.Positive) (hl' : ∀ t ∈ l', t.Positive) (h : SameHull l l') (p : Vec3 K) : Fill l p ↔ Fill l' p :=
  ⟨fill_le hl hl' h, fill_le hl' hl h.symm⟩

theorem det_odd : Odd fun t : Tri K => det3 t.v0 t.v1 t.v2 := ⟨fun a b c => det3_turn a b c, fun a b c => det3_swap a b c⟩

theorem hull_det (t : Tet K) : hull (fun f : Tri K => det3 f.v0 f.v1 f.v2) t = behind ⟨t.v0, t.v1, t.v2⟩ t.v3 := by
  simp only [hull, behind, det3, Vec3.cross, Vec3.dot, Vec3.sub_x, Vec3.sub_y, Vec3.sub_z]; ring

/-- Lists of tetrahedra with the same boundary have the same volume. -/
theorem volume_same {l l' : List (Tet K)} (h : SameHull l l') : (l.map fun t => behind ⟨t.v0, t.v1, t.v2⟩ t.v3).sum = (l'.map fun t => behind ⟨t.v0, t.v1, t.v2⟩ t.v3).sum := by
  have e : (fun t : Tet K => behind ⟨t.v0, t.v1, t.v2⟩ t.v3) = hull fun f : Tri K => det3 f.v0 f.v1 f.v2 := funext fun t => (hull_det t).symm
  rw [e]
  exact h K _ det_odd

end Space
end ENigMA
