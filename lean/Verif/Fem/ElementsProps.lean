import Verif.Fem.Elements
import Verif.Base.Norm
import Mathlib.Tactic.LinearCombination
import Mathlib.Tactic.FieldSimp
import Mathlib.Tactic.FinCases
import Mathlib.Tactic.Positivity
import Mathlib.Algebra.BigOperators.Fin

/-!
# Properties of the finite element matrices

C25 (diffusion), C26 (mass), C27 (structural stiffness), C61 (flow terms). The specifications are energies: a nodal field that samples
`c + g · p` has gradient `g`, and the matrices must reproduce the integrals of products of gradients over the element, whose measure is
the `area()`/`volume()`/length of the element.
-/

set_option linter.unusedSectionVars false

namespace ENigMA
open Matrix

variable {K : Type} [Field K] [LinearOrder K] [IsStrictOrderedRing K]

namespace Fem

/-- The nodal values of the field `c + g · p` on points `v i`. -/
def sample {n : Nat} (v : Fin n → Vec3 K) (c : K) (g : Vec3 K) : Fin n → K := fun i => c + g.dot (v i)

/-- The vertices of a triangle. -/
def triV (t : Tri K) : Fin 3 → Vec3 K := ![t.v0, t.v1, t.v2]

/-- The vertices of a tetrahedron. -/
def tetV (t : Tet K) : Fin 4 → Vec3 K := ![t.v0, t.v1, t.v2, t.v3]

theorem form_btdb {m n : Nat} (B : Matrix (Fin m) (Fin n) K) (D : Matrix (Fin m) (Fin m) K) (w u : Fin n → K) :
    w ⬝ᵥ ((Bᵀ * D * B) *ᵥ u) = (B *ᵥ w) ⬝ᵥ (D *ᵥ (B *ᵥ u)) := by
  rw [← mulVec_mulVec, ← mulVec_mulVec, dotProduct_mulVec, vecMul_transpose]

theorem form_btb {m n : Nat} (B : Matrix (Fin m) (Fin n) K) (w u : Fin n → K) :
    w ⬝ᵥ ((Bᵀ * B) *ᵥ u) = (B *ᵥ w) ⬝ᵥ (B *ᵥ u) := by
  rw [← mulVec_mulVec, dotProduct_mulVec, vecMul_transpose]

/-! ### The local frame is an isometry -/

theorem frame_gram (a b d d' : Vec3 K) (ha : a.dot a = 1) (hb : b.dot b = 1) (hab : a.dot b = 0) (hd : b.dot d = 0) :
    a.dot d * a.dot d' + (Vec3.cross b a).dot d * (Vec3.cross b a).dot d' = d.dot d' := by
  have key : (a.dot a * b.dot b - a.dot b * a.dot b) * d.dot d' =
      a.dot d * a.dot d' * b.dot b + b.dot d * b.dot d' * a.dot a - a.dot b * (a.dot d * b.dot d' + b.dot d * a.dot d')
        + (Vec3.cross b a).dot d * (Vec3.cross b a).dot d' := by
    simp only [Vec3.dot, Vec3.cross]; ring
  rw [ha, hb, hab, hd] at key
  linear_combination -key

theorem cross_frame (nrm : Vec3 K → K) (hn : IsNorm nrm) (n1 n2 n3 : Vec3 K) (h : Vec3.cross (n2 - n1) (n3 - n1) ≠ 0) :
    ∃ vz : Vec3 K, ∃ s : K, 0 < s ∧ vz = s • Vec3.cross (n2 - n1) (n3 - n1) ∧
      (planeFrame nrm n1 n2 n3).2 = Vec3.cross vz (planeFrame nrm n1 n2 n3).1 ∧
      (planeFrame nrm n1 n2 n3).1.dot (planeFrame nrm n1 n2 n3).1 = 1 ∧ vz.dot vz = 1 ∧
      (planeFrame nrm n1 n2 n3).1.dot vz = 0 := by
  set a := n2 - n1 with ha
  set b := n3 - n1 with hb
  have ha0 : a ≠ 0 := by rintro h0; apply h; rw [h0]; ext <;> simp
  have hpa := hn.pos ha0
  have hvx : (planeFrame nrm n1 n2 n3).1 = (nrm a)⁻¹ • a := rfl
  have hc : Vec3.cross ((nrm a)⁻¹ • a) b = (nrm a)⁻¹ • Vec3.cross a b := by ext <;> simp <;> ring
  have hc0 : Vec3.cross ((nrm a)⁻¹ • a) b ≠ 0 := by
    rw [hc]; intro h0
    exact h ((smul_eq_zero.1 h0).resolve_left (inv_ne_zero hpa.ne'))
  have hpc := hn.pos hc0
  set m := Vec3.cross ((nrm a)⁻¹ • a) b with hm
  have e1 : ((nrm a)⁻¹ • a).dot ((nrm a)⁻¹ • a) = 1 := by
    rw [Vec3.smul_dot, Vec3.dot_smul]
    have := hn.sq a
    unfold Vec3.normSq at this
    rw [← this]; field_simp
  have e2 : ((nrm m)⁻¹ • m).dot ((nrm m)⁻¹ • m) = 1 := by
    rw [Vec3.smul_dot, Vec3.dot_smul]
    have := hn.sq m
    unfold Vec3.normSq at this
    rw [← this]; field_simp
  have e3 : ((nrm a)⁻¹ • a).dot ((nrm m)⁻¹ • m) = 0 := by
    rw [Vec3.dot_smul, hm]
    have : ((nrm a)⁻¹ • a).dot (Vec3.cross ((nrm a)⁻¹ • a) b) = 0 := by simp only [Vec3.dot, Vec3.cross]; ring
    rw [this, mul_zero]
  refine ⟨(nrm m)⁻¹ • m, (nrm m)⁻¹ * (nrm a)⁻¹, by positivity, ?_, ?_, by rw [hvx]; exact e1, e2, by rw [hvx]; exact e3⟩
  · rw [mul_smul, ← hc]
  · have hw : nrm (Vec3.cross ((nrm m)⁻¹ • m) ((nrm a)⁻¹ • a)) = 1 := by
      apply hn.eq_of_sq zero_le_one
      have : ∀ p q : Vec3 K, (Vec3.cross p q).normSq = p.dot p * q.dot q - q.dot p * q.dot p := by
        intro p q; simp only [Vec3.normSq, Vec3.dot, Vec3.cross]; ring
      rw [this, e1, e2, e3]; ring
    show (nrm (Vec3.cross ((nrm m)⁻¹ • m) ((nrm a)⁻¹ • a)))⁻¹ • Vec3.cross ((nrm m)⁻¹ • m) ((nrm a)⁻¹ • a) = _
    rw [hw, inv_one, one_smul, hvx]

/-- Differences of local coordinates have the scalar products of the differences in space, for vectors in the plane of the element. -/
theorem localXY_dot (nrm : Vec3 K → K) (hn : IsNorm nrm) (n1 n2 n3 : Vec3 K) (h : Vec3.cross (n2 - n1) (n3 - n1) ≠ 0)
    (p q p' q' : Vec3 K) (hz : n1.z = 0 ∧ n2.z = 0 ∧ n3.z = 0 → p.z = q.z)
    (hpl : (Vec3.cross (n2 - n1) (n3 - n1)).dot (p - q) = 0) :
    let l := localXY nrm n1 n2 n3
    ((l p).1 - (l q).1) * ((l p').1 - (l q').1) + ((l p).2 - (l q).2) * ((l p').2 - (l q').2) = (p - q).dot (p' - q') := by
  intro l
  by_cases hc : n1.z ≠ 0 ∨ n2.z ≠ 0 ∨ n3.z ≠ 0
  · obtain ⟨vz, s, hs, hvz, hvy, e1, e2, e3⟩ := cross_frame nrm hn n1 n2 n3 h
    simp only [l, localXY, if_pos hc, ← Vec3.dot_sub]
    rw [hvy]
    apply frame_gram _ _ _ _ e1 e2 e3
    rw [hvz, Vec3.smul_dot, hpl, mul_zero]
  · simp only [l, localXY, if_neg hc]
    push Not at hc
    have := hz hc
    simp only [Vec3.dot, Vec3.sub_x, Vec3.sub_y, Vec3.sub_z, this]
    ring

/-- The edge opposite to a vertex of a triangle, in the sense of the boundary. -/
def opp (t : Tri K) : Fin 3 → Vec3 K := ![t.v2 - t.v1, t.v0 - t.v2, t.v1 - t.v0]

theorem triArea_sq {nrm : Vec3 K → K} (hn : IsNorm nrm) (t : Tri K) : 4 * (triArea nrm t * triArea nrm t) = t.rawNormal.normSq := by
  have := hn.sq t.rawNormal
  simp only [triArea, Tri.normalArea]
  linear_combination this

theorem rawNormal_ne {nrm : Vec3 K → K} (hn : IsNorm nrm) {t : Tri K} (ht : 0 < triArea nrm t) : t.rawNormal ≠ 0 := by
  intro h
  simp [triArea, Tri.normalArea, h, hn.zero] at ht

theorem triB_gram {nrm : Vec3 K → K} (hn : IsNorm nrm) {t : Tri K} (ht : 0 < triArea nrm t) (i j : Fin 3) :
    triB (triRebuild nrm t) 0 i * triB (triRebuild nrm t) 0 j + triB (triRebuild nrm t) 1 i * triB (triRebuild nrm t) 1 j =
      (opp t i).dot (opp t j) := by
  have h : Vec3.cross (t.v1 - t.v0) (t.v2 - t.v0) ≠ 0 := rawNormal_ne hn ht
  have key := fun p q p' q' hz hpl => localXY_dot nrm hn t.v0 t.v1 t.v2 h p q p' q' hz hpl
  have k1 := fun p' q' => key t.v2 t.v1 p' q' (by rintro ⟨a, b, c⟩; rw [b, c]) (by simp only [Vec3.dot, Vec3.cross, Vec3.sub_x, Vec3.sub_y, Vec3.sub_z]; ring)
  have k2 := fun p' q' => key t.v0 t.v2 p' q' (by rintro ⟨a, b, c⟩; rw [a, c]) (by simp only [Vec3.dot, Vec3.cross, Vec3.sub_x, Vec3.sub_y, Vec3.sub_z]; ring)
  have k3 := fun p' q' => key t.v1 t.v0 p' q' (by rintro ⟨a, b, c⟩; rw [a, b]) (by simp only [Vec3.dot, Vec3.cross, Vec3.sub_x, Vec3.sub_y, Vec3.sub_z]; ring)
  fin_cases i <;> fin_cases j <;> simp [triB, triRebuild, opp] <;>
    first
      | (rw [← k1]; ring)
      | (rw [← k2]; ring)
      | (rw [← k3]; ring)

theorem triLaplacian_form {nrm : Vec3 K → K} (hn : IsNorm nrm) {t : Tri K} (ht : 0 < triArea nrm t) (th : K) (w u : Fin 3 → K) :
    w ⬝ᵥ (triLaplacian nrm th t *ᵥ u) =
      -(th / (4 * triArea nrm t)) * (∑ i, w i • opp t i).dot (∑ j, u j • opp t j) := by
  have hA := ht.ne'
  simp only [triLaplacian, if_pos ht]
  set B := triB (triRebuild nrm t) with hB
  have : (-((1 / (2 * triArea nrm t)) • B)ᵀ * ((1 / (2 * triArea nrm t)) • B)) = (-(1 / (2 * triArea nrm t)) * (1 / (2 * triArea nrm t))) • (Bᵀ * B) := by
    rw [transpose_smul, Matrix.neg_mul, Matrix.smul_mul, Matrix.mul_smul, smul_smul, ← neg_smul]; ring_nf
  rw [this, smul_smul, smul_mulVec, dotProduct_smul, form_btb]
  have g := triB_gram hn ht
  rw [← hB] at g
  have hsum : (B *ᵥ w) ⬝ᵥ (B *ᵥ u) = (∑ i, w i • opp t i).dot (∑ j, u j • opp t j) := by
    have e : ∀ i j : Fin 3, (w i • opp t i).dot (u j • opp t j) = w i * (u j * (B 0 i * B 0 j + B 1 i * B 1 j)) := by
      intro i j; rw [Vec3.smul_dot, Vec3.dot_smul, g]
    simp only [Fin.sum_univ_three, Vec3.add_dot, Vec3.dot_add, e, mulVec, dotProduct, Fin.sum_univ_two]
    ring
  rw [hsum, smul_eq_mul]
  field_simp
  ring

theorem sum_opp (t : Tri K) (u : Fin 3 → K) :
    ∑ j, u j • opp t j = (u 2 - u 0) • (t.v1 - t.v0) - (u 1 - u 0) • (t.v2 - t.v0) := by
  simp only [Fin.sum_univ_three, opp]
  ext <;> simp <;> ring

theorem sum_opp_sample (t : Tri K) (c : K) (g : Vec3 K) :
    ∑ j, sample (triV t) c g j • opp t j = Vec3.cross g t.rawNormal := by
  rw [sum_opp]
  simp only [sample, triV, Tri.rawNormal]
  ext <;> simp [Vec3.dot] <;> ring

end Fem

open Fem

/-! ### C25 -/

/-- **C25, triangle.** For every triangle with positive area, anywhere in space, and every thickness: the diffusion matrix is symmetric,
it annihilates constants, and on the fields with gradients `g` and `h` it gives minus the exact energy
`∫ ∇_S u · ∇_S w = thickness · area · (g · h - (g · n) (h · n))` of the tangential gradients. It is negative, and zero only on
constants. -/
theorem C25_triangle {nrm : Vec3 K → K} (hn : IsNorm nrm) (t : Tri K) (ht : 0 < triArea nrm t) (thickness : K) :
    let L := triLaplacian nrm thickness t
    Lᵀ = L ∧ (∀ c : K, (L *ᵥ fun _ => c) = 0) ∧
    (∀ (c d : K) (g h : Vec3 K), sample (triV t) d h ⬝ᵥ (L *ᵥ sample (triV t) c g) =
      -(thickness * triArea nrm t * (g.dot h - g.dot (t.normal nrm) * h.dot (t.normal nrm)))) ∧
    (0 < thickness → ∀ u : Fin 3 → K, u ⬝ᵥ (L *ᵥ u) ≤ 0 ∧ (u ⬝ᵥ (L *ᵥ u) = 0 ↔ ∀ i j, u i = u j)) := by
  intro L
  have hA := ht.ne'
  have hsq := triArea_sq hn t
  refine ⟨?_, ?_, ?_, ?_⟩
  · simp only [L, triLaplacian, if_pos ht, transpose_smul, transpose_mul, transpose_neg, transpose_transpose, Matrix.neg_mul, Matrix.mul_neg]
  · intro c
    funext i
    have := triLaplacian_form hn ht thickness (Pi.single i 1) (fun _ => c)
    rw [single_one_dotProduct, sum_opp t (fun _ => c)] at this
    rw [this]; simp
  · intro c d g h
    rw [triLaplacian_form hn ht, sum_opp_sample, sum_opp_sample]
    have hnorm : (nrm t.rawNormal) = 2 * triArea nrm t := by simp only [triArea, Tri.normalArea]; ring
    have hnn : t.normal nrm = (2 * triArea nrm t)⁻¹ • t.rawNormal := by
      have hlt : 0 < nrm t.rawNormal * (1 / 2) := ht
      simp only [Tri.normal, Tri.normalArea, if_pos hlt]; rw [hnorm]
    have hl : (Vec3.cross h t.rawNormal).dot (Vec3.cross g t.rawNormal) =
        g.dot h * t.rawNormal.normSq - g.dot t.rawNormal * h.dot t.rawNormal := by
      simp only [Vec3.dot, Vec3.cross, Vec3.normSq]; ring
    rw [hl, ← hsq, hnn, Vec3.dot_smul, Vec3.dot_smul]
    field_simp
    ring
  · intro hth u
    rw [triLaplacian_form hn ht, sum_opp]
    set x := (u 2 - u 0) • (t.v1 - t.v0) - (u 1 - u 0) • (t.v2 - t.v0) with hx
    have hnx : 0 ≤ x.dot x := Vec3.normSq_nonneg x
    have hc : 0 < thickness / (4 * triArea nrm t) := by positivity
    refine ⟨by nlinarith, ?_⟩
    constructor
    · intro h0
      have hx0 : x = 0 := by
        apply Vec3.normSq_eq_zero.1
        rcases mul_eq_zero.1 h0 with h | h
        · exact absurd h (neg_ne_zero.2 hc.ne')
        · exact h
      have h1 : Vec3.cross x (t.v2 - t.v0) = (u 2 - u 0) • t.rawNormal := by
        rw [hx]; simp only [Tri.rawNormal]; ext <;> simp <;> ring
      have h2 : Vec3.cross (t.v1 - t.v0) x = -(u 1 - u 0) • t.rawNormal := by
        rw [hx]; simp only [Tri.rawNormal]; ext <;> simp <;> ring
      rw [hx0] at h1 h2
      have z1 : Vec3.cross (0 : Vec3 K) (t.v2 - t.v0) = 0 := by ext <;> simp
      have z2 : Vec3.cross (t.v1 - t.v0) (0 : Vec3 K) = 0 := by ext <;> simp
      rw [z1] at h1
      rw [z2] at h2
      have r := rawNormal_ne hn ht
      have u2 : u 2 = u 0 := sub_eq_zero.1 ((smul_eq_zero.1 h1.symm).resolve_right r)
      have u1 : u 1 = u 0 := by
        have := (smul_eq_zero.1 h2.symm).resolve_right r
        linarith
      intro i j
      fin_cases i <;> fin_cases j <;> simp [u1, u2]
    · intro hu
      have : x = 0 := by rw [hx, hu 2 0, hu 1 0]; simp
      rw [this]; simp

theorem Fem.tetB_sample (t : Tet K) (c : K) (g : Vec3 K) :
    tetB t *ᵥ sample (tetV t) c g = ![6 * t.volume * g.x, 6 * t.volume * g.y, 6 * t.volume * g.z] := by
  funext k
  fin_cases k <;> simp [tetB, mulVec, dotProduct, Fin.sum_univ_four, sample, tetV, Tet.volume, det4one, det4, det3, Vec3.dot, Vec3.cross] <;> ring

/-- Every nodal field of a tetrahedron with non-zero volume samples a linear field. -/
theorem Fem.tet_field (t : Tet K) (ht : t.volume ≠ 0) (u : Fin 4 → K) : ∃ c g, u = sample (tetV t) c g := by
  set V := t.volume with hV
  refine ⟨?_, ?_, ?_⟩
  · exact u 3 - ((6 * V)⁻¹ • (⟨(tetB t *ᵥ u) 0, (tetB t *ᵥ u) 1, (tetB t *ᵥ u) 2⟩ : Vec3 K)).dot t.v3
  · exact (6 * V)⁻¹ • ⟨(tetB t *ᵥ u) 0, (tetB t *ᵥ u) 1, (tetB t *ᵥ u) 2⟩
  · have h6 : (6 * V) ≠ 0 := by simpa using ht
    have hdet : 6 * V = det4one t.v0 t.v1 t.v2 t.v3 := by rw [hV, Tet.volume]; ring
    have hg : ∀ p : Vec3 K, ((6 * V)⁻¹ • (⟨(tetB t *ᵥ u) 0, (tetB t *ᵥ u) 1, (tetB t *ᵥ u) 2⟩ : Vec3 K)).dot p =
        ((tetB t *ᵥ u) 0 * p.x + (tetB t *ᵥ u) 1 * p.y + (tetB t *ᵥ u) 2 * p.z) / (6 * V) := by
      intro p; rw [Vec3.smul_dot]; simp only [Vec3.dot]; field_simp
    funext k
    simp only [sample, hg]
    have : u k - u 3 = ((tetB t *ᵥ u) 0 * (tetV t k - t.v3).x + (tetB t *ᵥ u) 1 * (tetV t k - t.v3).y + (tetB t *ᵥ u) 2 * (tetV t k - t.v3).z) / (6 * V) := by
      rw [eq_div_iff h6, hdet]
      fin_cases k <;> simp [tetB, mulVec, dotProduct, Fin.sum_univ_four, tetV, det4one, det4, det3, Vec3.dot, Vec3.cross] <;> ring
    simp only [Vec3.sub_x, Vec3.sub_y, Vec3.sub_z] at this
    field_simp at this ⊢
    linear_combination this

theorem Fem.sample_const {n : Nat} (v : Fin n → Vec3 K) (c : K) : sample v c 0 = fun _ => c := by
  funext i; simp [sample]

/-- **C25, tetrahedron.** For every tetrahedron with positive `volume()`: the diffusion matrix is symmetric, annihilates constants, and on
the fields with gradients `g`, `h` it is minus the exact energy `volume · (g · h)`. It is negative, and zero only on constants. -/
theorem C25_tetrahedron (t : Tet K) (ht : 0 < t.volume) :
    let L := tetLaplacian t
    Lᵀ = L ∧ (∀ c : K, (L *ᵥ fun _ => c) = 0) ∧
    (∀ (c d : K) (g h : Vec3 K), sample (tetV t) d h ⬝ᵥ (L *ᵥ sample (tetV t) c g) = -(t.volume * g.dot h)) ∧
    (∀ u : Fin 4 → K, u ⬝ᵥ (L *ᵥ u) ≤ 0 ∧ (u ⬝ᵥ (L *ᵥ u) = 0 ↔ ∀ i j, u i = u j)) := by
  intro L
  have hform : ∀ w u : Fin 4 → K, w ⬝ᵥ (L *ᵥ u) = -(t.volume / (6 * t.volume) ^ 2) * ((tetB t *ᵥ w) ⬝ᵥ (tetB t *ᵥ u)) := by
    intro w u
    simp only [L, tetLaplacian, if_pos ht]
    have : (-((1 / (6 * t.volume)) • tetB t)ᵀ * ((1 / (6 * t.volume)) • tetB t)) = (-(1 / (6 * t.volume)) * (1 / (6 * t.volume))) • ((tetB t)ᵀ * tetB t) := by
      rw [transpose_smul, Matrix.neg_mul, Matrix.smul_mul, Matrix.mul_smul, smul_smul, ← neg_smul]; ring_nf
    rw [this, smul_smul, smul_mulVec, dotProduct_smul, form_btb, smul_eq_mul]
    field_simp
  have hen : ∀ (c d : K) (g h : Vec3 K), sample (tetV t) d h ⬝ᵥ (L *ᵥ sample (tetV t) c g) = -(t.volume * g.dot h) := by
    intro c d g h
    rw [hform, tetB_sample, tetB_sample]
    simp [dotProduct, Fin.sum_univ_three, Vec3.dot]
    field_simp
  refine ⟨?_, ?_, hen, ?_⟩
  · simp only [L, tetLaplacian, if_pos ht, transpose_smul, transpose_mul, transpose_neg, transpose_transpose, Matrix.neg_mul, Matrix.mul_neg]
  · intro c
    funext i
    obtain ⟨d, h, hw⟩ := tet_field t ht.ne' (Pi.single i 1)
    have := hen c d 0 h
    rw [← hw, sample_const, single_one_dotProduct] at this
    rw [this]; simp
  · intro u
    obtain ⟨c, g, rfl⟩ := tet_field t ht.ne' u
    rw [hen]
    have hg : 0 ≤ g.dot g := Vec3.normSq_nonneg g
    refine ⟨by nlinarith, ?_⟩
    constructor
    · intro h0
      have : g = 0 := by
        apply Vec3.normSq_eq_zero.1
        rcases mul_eq_zero.1 (neg_eq_zero.1 h0) with h | h
        · exact absurd h ht.ne'
        · exact h
      intro i j; simp [sample, this]
    · intro hu
      have hB := tetB_sample t c g
      have hconst : sample (tetV t) c g = sample (tetV t) (sample (tetV t) c g 0) 0 := by
        rw [sample_const]; funext i; exact hu i 0
      rw [hconst, tetB_sample] at hB
      have h6 : (6 * t.volume) ≠ 0 := by positivity
      have x0 := congrFun hB 0
      have x1 := congrFun hB 1
      have x2 := congrFun hB 2
      simp [ht.ne'] at x0 x1 x2
      simp [Vec3.dot, x0, x1, x2]

/-- **C25 fails for the other orientation.** When `volume()` is negative the gradients are not scaled and the sign is wrong: on the field
with gradient `g` the form is `-36 volume³ |g|²`, which is positive. -/
theorem C25_tetrahedron_negative_volume (t : Tet K) (ht : t.volume < 0) (c : K) (g : Vec3 K) (hg : g ≠ 0) :
    sample (tetV t) c g ⬝ᵥ (tetLaplacian t *ᵥ sample (tetV t) c g) = -36 * t.volume ^ 3 * g.normSq ∧
    0 < sample (tetV t) c g ⬝ᵥ (tetLaplacian t *ᵥ sample (tetV t) c g) := by
  have e : sample (tetV t) c g ⬝ᵥ (tetLaplacian t *ᵥ sample (tetV t) c g) = -36 * t.volume ^ 3 * g.normSq := by
    simp only [tetLaplacian, if_neg (not_lt.2 ht.le)]
    rw [smul_mulVec, dotProduct_smul, Matrix.neg_mul, neg_mulVec, dotProduct_neg, form_btb, tetB_sample]
    simp [dotProduct, Fin.sum_univ_three, Vec3.dot, Vec3.normSq]
    ring
  refine ⟨e, ?_⟩
  rw [e]
  have h1 : 0 < g.normSq := lt_of_le_of_ne (Vec3.normSq_nonneg g) fun h => hg (Vec3.normSq_eq_zero.1 h.symm)
  have h2 : t.volume ^ 3 < 0 := Odd.pow_neg (by decide) ht
  nlinarith

/-- **C25, beam.** For every beam of positive length between points `p`, `q`: symmetric, annihilates constants, gives minus the energy
`coefficient · section · length · (derivative along the beam)²`, and is negative except on constants. -/
theorem C25_beam {nrm : Vec3 K → K} (hn : IsNorm nrm) (p q : Vec3 K) (hl : 0 < nrm (q - p)) (k s : K) :
    let L := beamLaplacian k (nrm (q - p)) s
    let dir := (nrm (q - p))⁻¹ • (q - p)
    Lᵀ = L ∧ (∀ c : K, (L *ᵥ fun _ => c) = 0) ∧
    (∀ (c d : K) (g h : Vec3 K), sample ![p, q] d h ⬝ᵥ (L *ᵥ sample ![p, q] c g) = -(k * s * nrm (q - p) * (g.dot dir * h.dot dir))) ∧
    (0 < k * s → ∀ u : Fin 2 → K, u ⬝ᵥ (L *ᵥ u) ≤ 0 ∧ (u ⬝ᵥ (L *ᵥ u) = 0 ↔ u 0 = u 1)) := by
  intro L dir
  have hform : ∀ w u : Fin 2 → K, w ⬝ᵥ (L *ᵥ u) = -(k * s / nrm (q - p)) * ((w 1 - w 0) * (u 1 - u 0)) := by
    intro w u
    simp [L, beamLaplacian, if_pos hl, dotProduct, mulVec, Fin.sum_univ_two]
    ring
  refine ⟨?_, ?_, ?_, ?_⟩
  · ext i j; fin_cases i <;> fin_cases j <;> simp [L, beamLaplacian, if_pos hl]
  · intro c; funext i
    have := hform (Pi.single i 1) (fun _ => c)
    rw [single_one_dotProduct] at this
    rw [this]; simp
  · intro c d g h
    rw [hform]
    have hs : ∀ (c : K) (g : Vec3 K), sample ![p, q] c g 1 - sample ![p, q] c g 0 = nrm (q - p) * g.dot dir := by
      intro c g
      simp only [sample, dir, Vec3.dot_smul, Matrix.cons_val_zero, Matrix.cons_val_one]
      rw [mul_inv_cancel_left₀ hl.ne', Vec3.dot_sub]; ring
    rw [hs, hs]
    field_simp
  · intro hk u
    rw [hform]
    have hc : 0 < k * s / nrm (q - p) := by positivity
    refine ⟨by nlinarith [mul_self_nonneg (u 1 - u 0)], ?_⟩
    constructor
    · intro h
      rcases mul_eq_zero.1 h with h | h
      · exact absurd h (neg_ne_zero.2 hc.ne')
      · have := mul_self_eq_zero.1 h; linarith
    · intro h; rw [h]; ring

/-! ### C26 -/

/-- What C26 asks of the mass matrix of an element with `n` nodes and measure `mu`, for the time step `dt`: symmetric, each row sums to an
equal share (so the entries sum to `mu / dt`), and positive definite. -/
def MassMatrix {n : Nat} (M : Matrix (Fin n) (Fin n) K) (mu dt : K) : Prop :=
  Mᵀ = M ∧ (∀ i, ∑ j, M i j = mu / dt / n) ∧ (∑ i, ∑ j, M i j = mu / dt) ∧ ∀ u : Fin n → K, u ≠ 0 → 0 < u ⬝ᵥ (M *ᵥ u)

/-- **C26, beam.** -/
theorem C26_beam (length section_ dt : K) (hm : 0 < length * section_) (hdt : 0 < dt) :
    MassMatrix (beamDdt length section_ dt) (length * section_) dt := by
  have hd := hdt.ne'
  refine ⟨?_, ?_, ?_, ?_⟩
  · ext i j; fin_cases i <;> fin_cases j <;> simp [beamDdt, if_pos hdt]
  · intro i; fin_cases i <;> simp [beamDdt, if_pos hdt, Fin.sum_univ_two] <;> field_simp <;> ring
  · simp [beamDdt, if_pos hdt, Fin.sum_univ_two]; field_simp; ring
  · intro u hu
    have e : u ⬝ᵥ (beamDdt length section_ dt *ᵥ u) =
        length * section_ / dt * ((u 0 * u 0 + u 1 * u 1 + (u 0 + u 1) * (u 0 + u 1)) / 6) := by
      simp [beamDdt, if_pos hdt, dotProduct, mulVec, Fin.sum_univ_two]; field_simp; ring
    rw [e]
    have : ¬ (u 0 = 0 ∧ u 1 = 0) := fun h => hu (by funext i; fin_cases i <;> simp [h.1, h.2])
    have hpos : 0 < u 0 * u 0 + u 1 * u 1 + (u 0 + u 1) * (u 0 + u 1) := by
      by_contra hn
      have a := mul_self_nonneg (u 0)
      have b := mul_self_nonneg (u 1)
      have c := mul_self_nonneg (u 0 + u 1)
      exact this ⟨mul_self_eq_zero.1 (by linarith), mul_self_eq_zero.1 (by linarith)⟩
    positivity

/-- **C26, triangle.** The measure is the area: the thickness, which scales the diffusion matrix, does not enter here. -/
theorem C26_triangle (area dt : K) (hm : 0 < area) (hdt : 0 < dt) : MassMatrix (triDdt area dt) area dt := by
  have hd := hdt.ne'
  refine ⟨?_, ?_, ?_, ?_⟩
  · ext i j; fin_cases i <;> fin_cases j <;> simp [triDdt, if_pos hdt]
  · intro i; fin_cases i <;> simp [triDdt, if_pos hdt, Fin.sum_univ_three] <;> field_simp <;> norm_num
  · simp [triDdt, if_pos hdt, Fin.sum_univ_three]; field_simp; norm_num
  · intro u hu
    have e : u ⬝ᵥ (triDdt area dt *ᵥ u) =
        area / dt * ((u 0 * u 0 + u 1 * u 1 + u 2 * u 2 + (u 0 + u 1 + u 2) * (u 0 + u 1 + u 2)) / 12) := by
      simp [triDdt, if_pos hdt, dotProduct, mulVec, Fin.sum_univ_three]; field_simp; ring
    rw [e]
    have : ¬ (u 0 = 0 ∧ u 1 = 0 ∧ u 2 = 0) := fun h => hu (by funext i; fin_cases i <;> simp [h.1, h.2.1, h.2.2])
    have hpos : 0 < u 0 * u 0 + u 1 * u 1 + u 2 * u 2 + (u 0 + u 1 + u 2) * (u 0 + u 1 + u 2) := by
      by_contra hn
      have a := mul_self_nonneg (u 0)
      have b := mul_self_nonneg (u 1)
      have c := mul_self_nonneg (u 2)
      have d := mul_self_nonneg (u 0 + u 1 + u 2)
      exact this ⟨mul_self_eq_zero.1 (by linarith), mul_self_eq_zero.1 (by linarith), mul_self_eq_zero.1 (by linarith)⟩
    positivity

/-- **C26, tetrahedron.** -/
theorem C26_tetrahedron (volume dt : K) (hm : 0 < volume) (hdt : 0 < dt) : MassMatrix (tetDdt volume dt) volume dt := by
  have hd := hdt.ne'
  refine ⟨?_, ?_, ?_, ?_⟩
  · ext i j; fin_cases i <;> fin_cases j <;> simp [tetDdt, if_pos hdt]
  · intro i; fin_cases i <;> simp [tetDdt, if_pos hdt, Fin.sum_univ_four] <;> field_simp <;> norm_num
  · simp [tetDdt, if_pos hdt, Fin.sum_univ_four]; field_simp; norm_num
  · intro u hu
    have e : u ⬝ᵥ (tetDdt volume dt *ᵥ u) =
        volume / dt * ((u 0 * u 0 + u 1 * u 1 + u 2 * u 2 + u 3 * u 3 + (u 0 + u 1 + u 2 + u 3) * (u 0 + u 1 + u 2 + u 3)) / 20) := by
      simp [tetDdt, if_pos hdt, dotProduct, mulVec, Fin.sum_univ_four]; field_simp; ring
    rw [e]
    have : ¬ (u 0 = 0 ∧ u 1 = 0 ∧ u 2 = 0 ∧ u 3 = 0) := fun h => hu (by funext i; fin_cases i <;> simp [h.1, h.2.1, h.2.2.1, h.2.2.2])
    have hpos : 0 < u 0 * u 0 + u 1 * u 1 + u 2 * u 2 + u 3 * u 3 + (u 0 + u 1 + u 2 + u 3) * (u 0 + u 1 + u 2 + u 3) := by
      by_contra hn
      have a := mul_self_nonneg (u 0)
      have b := mul_self_nonneg (u 1)
      have c := mul_self_nonneg (u 2)
      have c' := mul_self_nonneg (u 3)
      have d := mul_self_nonneg (u 0 + u 1 + u 2 + u 3)
      exact this ⟨mul_self_eq_zero.1 (by linarith), mul_self_eq_zero.1 (by linarith), mul_self_eq_zero.1 (by linarith), mul_self_eq_zero.1 (by linarith)⟩
    positivity

/-! ### C27 -/

namespace Fem

/-- A linear displacement field of the plane: `(a + gx · (x, y), b + gy · (x, y))`, sampled at the three vertices. -/
def disp2 (c : Local3 K) (a b gxx gxy gyx gyy : K) : Fin 6 → K :=
  ![a + gxx * c.x1 + gxy * c.y1, b + gyx * c.x1 + gyy * c.y1, a + gxx * c.x2 + gxy * c.y2, b + gyx * c.x2 + gyy * c.y2,
    a + gxx * c.x3 + gxy * c.y3, b + gyx * c.x3 + gyy * c.y3]

/-- Twice the signed area in local coordinates. -/
def local2A (c : Local3 K) : K := (c.x2 - c.x1) * (c.y3 - c.y1) - (c.x3 - c.x1) * (c.y2 - c.y1)

theorem triB2_disp (c : Local3 K) (a b gxx gxy gyx gyy : K) :
    triB2 c *ᵥ disp2 c a b gxx gxy gyx gyy = ![local2A c * gxx, local2A c * gyy, local2A c * (gxy + gyx)] := by
  funext k
  fin_cases k <;> simp [triB2, disp2, local2A, mulVec, dotProduct, Fin.sum_univ_six] <;> ring

theorem local2A_sq {nrm : Vec3 K → K} (hn : IsNorm nrm) {t : Tri K} (ht : 0 < triArea nrm t) :
    local2A (triRebuild nrm t) * local2A (triRebuild nrm t) = 4 * (triArea nrm t * triArea nrm t) := by
  rw [triArea_sq hn]
  have g11 := triB_gram hn ht 1 1
  have g12 := triB_gram hn ht 1 2
  have g22 := triB_gram hn ht 2 2
  have e : local2A (triRebuild nrm t) * local2A (triRebuild nrm t) =
      (triB (triRebuild nrm t) 0 1 * triB (triRebuild nrm t) 0 1 + triB (triRebuild nrm t) 1 1 * triB (triRebuild nrm t) 1 1) *
      (triB (triRebuild nrm t) 0 2 * triB (triRebuild nrm t) 0 2 + triB (triRebuild nrm t) 1 2 * triB (triRebuild nrm t) 1 2) -
      (triB (triRebuild nrm t) 0 1 * triB (triRebuild nrm t) 0 2 + triB (triRebuild nrm t) 1 1 * triB (triRebuild nrm t) 1 2) *
      (triB (triRebuild nrm t) 0 1 * triB (triRebuild nrm t) 0 2 + triB (triRebuild nrm t) 1 1 * triB (triRebuild nrm t) 1 2) := by
    simp [triB, local2A]; ring
  rw [e, g11, g12, g22]
  simp [opp, Vec3.dot, Vec3.normSq, Tri.rawNormal]
  ring

end Fem

/-- **C27, triangle.** For every triangle with positive area, anywhere in space (displacements in the local axes of the element), every
modulus, Poisson coefficient and thickness: the stiffness is symmetric; translations and infinitesimal rotations give no force; and on
linear displacement fields the form is the plane stress energy of the strains
`εx = ∂u/∂x`, `εy = ∂v/∂y`, `γ = ∂u/∂y + ∂v/∂x`. -/
theorem C27_triangle {nrm : Vec3 K → K} (hn : IsNorm nrm) (t : Tri K) (ht : 0 < triArea nrm t) (E v th : K) :
    let S := triStiffness nrm E v th t
    let c := triRebuild nrm t
    Sᵀ = S ∧ (∀ a b ω : K, S *ᵥ disp2 c a b 0 (-ω) ω 0 = 0) ∧
    (∀ a b gxx gxy gyx gyy a' b' hxx hxy hyx hyy : K,
      disp2 c a' b' hxx hxy hyx hyy ⬝ᵥ (S *ᵥ disp2 c a b gxx gxy gyx gyy) =
        triArea nrm t * th * (E / (1 - v * v) * (hxx * gxx + v * (hxx * gyy + hyy * gxx) + hyy * gyy
          + (1 - v) / 2 * ((hxy + hyx) * (gxy + gyx))))) := by
  intro S c
  have hA := ht.ne'
  have hD : (triD E v)ᵀ = triD E v := by
    ext i j; fin_cases i <;> fin_cases j <;> simp [triD]
  have hS : S = (triArea nrm t * th * (1 / (2 * triArea nrm t) * (1 / (2 * triArea nrm t)))) • ((triB2 c)ᵀ * triD E v * triB2 c) := by
    simp only [S, triStiffness, if_pos ht, transpose_smul, Matrix.smul_mul, Matrix.mul_smul, smul_smul]
    rfl
  refine ⟨?_, ?_, ?_⟩
  · rw [hS]
    simp only [transpose_smul, transpose_mul, transpose_transpose, hD, Matrix.mul_assoc]
  · intro a b ω
    rw [hS, smul_mulVec, ← mulVec_mulVec, triB2_disp]
    have : (![local2A c * 0, local2A c * 0, local2A c * (-ω + ω)] : Fin 3 → K) = 0 := by
      funext k; fin_cases k <;> simp
    rw [this]; simp
  · intro a b gxx gxy gyx gyy a' b' hxx hxy hyx hyy
    rw [hS, smul_mulVec, dotProduct_smul, form_btdb, triB2_disp, triB2_disp]
    have hsq : local2A c * local2A c = 4 * (triArea nrm t * triArea nrm t) := local2A_sq hn ht
    have : ![local2A c * hxx, local2A c * hyy, local2A c * (hxy + hyx)] ⬝ᵥ
        (triD E v *ᵥ ![local2A c * gxx, local2A c * gyy, local2A c * (gxy + gyx)]) =
        local2A c * local2A c * (E / (1 - v * v) * (hxx * gxx + v * (hxx * gyy + hyy * gxx) + hyy * gyy
          + (1 - v) / 2 * ((hxy + hyx) * (gxy + gyx)))) := by
      simp [triD, dotProduct, mulVec, Fin.sum_univ_three]; ring
    rw [this, hsq, smul_eq_mul]
    field_simp
    ring

namespace Fem

/-- A linear displacement field of space, `c + (gx · p, gy · p, gz · p)`, sampled at the four vertices. -/
def disp3 (t : Tet K) (c gx gy gz : Vec3 K) : Fin 12 → K :=
  ![c.x + gx.dot t.v0, c.y + gy.dot t.v0, c.z + gz.dot t.v0, c.x + gx.dot t.v1, c.y + gy.dot t.v1, c.z + gz.dot t.v1,
    c.x + gx.dot t.v2, c.y + gy.dot t.v2, c.z + gz.dot t.v2, c.x + gx.dot t.v3, c.y + gy.dot t.v3, c.z + gz.dot t.v3]

/-- The strains of that field: `εx, εy, εz, γyz, γxz, γxy`. -/
def strain3 (gx gy gz : Vec3 K) : Fin 6 → K := ![gx.x, gy.y, gz.z, gy.z + gz.y, gx.z + gz.x, gx.y + gy.x]

theorem tetB3_disp (t : Tet K) (ht : t.volume ≠ 0) (c gx gy gz : Vec3 K) : tetB3 t *ᵥ disp3 t c gx gy gz = strain3 gx gy gz := by
  have h6 : (6 * t.volume) ≠ 0 := by simpa using ht
  have hdet : 6 * t.volume = det4one t.v0 t.v1 t.v2 t.v3 := by rw [Tet.volume]; ring
  simp only [det4one, det4, det3, Vec3.dot, Vec3.cross] at hdet
  funext k
  fin_cases k <;> simp [tetB3, disp3, strain3, mulVec, dotProduct, Fin.sum_univ_succ, Vec3.dot] <;> field_simp
  · linear_combination (-gx.x) * hdet
  · linear_combination (-gy.y) * hdet
  · linear_combination (-gz.z) * hdet
  · linear_combination (-(gy.z + gz.y)) * hdet
  · linear_combination (-(gx.z + gz.x)) * hdet
  · linear_combination (-(gx.y + gy.x)) * hdet

end Fem

/-- **C27, tetrahedron, the part that holds.** For every tetrahedron with non-zero volume: translations and infinitesimal rotations
give no force, and on linear displacement fields the form is `volume` times the form of the elasticity matrix on the strains. Missing:
the symmetry, which fails (`C27_tetrahedron_not_symmetric`). -/
theorem C27_tetrahedron_partial (t : Tet K) (ht : t.volume ≠ 0) (E v : K) :
    (∀ c w : Vec3 K, tetStiffness E v t *ᵥ disp3 t c ⟨0, -w.z, w.y⟩ ⟨w.z, 0, -w.x⟩ ⟨-w.y, w.x, 0⟩ = 0) ∧
    (∀ c gx gy gz c' hx hy hz : Vec3 K, disp3 t c' hx hy hz ⬝ᵥ (tetStiffness E v t *ᵥ disp3 t c gx gy gz) =
      t.volume * (strain3 hx hy hz ⬝ᵥ (tetD E v *ᵥ strain3 gx gy gz))) := by
  constructor
  · intro c w
    rw [tetStiffness, smul_mulVec, ← mulVec_mulVec, tetB3_disp t ht]
    have : strain3 (⟨0, -w.z, w.y⟩ : Vec3 K) ⟨w.z, 0, -w.x⟩ ⟨-w.y, w.x, 0⟩ = 0 := by
      funext k; fin_cases k <;> simp [strain3]
    rw [this]; simp
  · intro c gx gy gz c' hx hy hz
    rw [tetStiffness, smul_mulVec, dotProduct_smul, form_btdb, tetB3_disp t ht, tetB3_disp t ht, smul_eq_mul]

/-- **C27 fails for tetrahedra.** The elasticity matrix is written with a zero where the Poisson coefficient belongs, so the stiffness is
not symmetric for any tetrahedron with non-zero volume and any material with non-zero Poisson coefficient: stretching along `x` gives
work against stretching along `z`, but not the other way round. -/
theorem C27_tetrahedron_not_symmetric (t : Tet K) (ht : t.volume ≠ 0) (E v : K) (hE : E ≠ 0) (hv : v ≠ 0) (h1 : 1 + v ≠ 0)
    (h2 : 1 - 2 * v ≠ 0) : (tetStiffness E v t)ᵀ ≠ tetStiffness E v t := by
  intro h
  obtain ⟨-, he⟩ := C27_tetrahedron_partial t ht E v
  have a := he 0 ⟨1, 0, 0⟩ 0 0 0 0 0 ⟨0, 0, 1⟩
  have b := he 0 0 0 ⟨0, 0, 1⟩ 0 ⟨1, 0, 0⟩ 0 0
  have c : disp3 t 0 0 0 ⟨0, 0, 1⟩ ⬝ᵥ (tetStiffness E v t *ᵥ disp3 t 0 ⟨1, 0, 0⟩ 0 0) =
      disp3 t 0 ⟨1, 0, 0⟩ 0 0 ⬝ᵥ (tetStiffness E v t *ᵥ disp3 t 0 0 0 ⟨0, 0, 1⟩) := by
    conv_lhs => rw [← h]
    rw [mulVec_transpose, dotProduct_comm, ← dotProduct_mulVec]
  rw [a, b] at c
  have c := mul_left_cancel₀ ht c
  simp [strain3, tetD, mulVec, dotProduct, Fin.sum_univ_succ, hE, hv, h1, h2] at c

/-! ### C61: flow terms -/

/-- **C61, triangle in the plane `z = 0`, counter-clockwise.** For every velocity sampled at the nodes and every step: the convection matrix
annihilates constants; without stabilisation (`dt = 0`) its row `i` against the field with gradient `g` is the exact
`∫ N_i (u · g)`, namely `area / 12 · ((Σ_k u_k + u_i) · g)`; the stabilisation `dt` term is symmetric and gives
`-dt · area · (ū · g) (ū · h)` with the mean velocity `ū`. -/
theorem C61_triangle_convection {nrm : Vec3 K → K} (hn : IsNorm nrm) (t : Tri K) (hz : t.v0.z = 0 ∧ t.v1.z = 0 ∧ t.v2.z = 0)
    (hccw : 0 < t.rawNormal.z) (dt : K) (u v : Fin 3 → K) :
    let A := triArea nrm t
    let M := triConvection nrm dt u v t
    let us := u 0 + u 1 + u 2
    let vs := v 0 + v 1 + v 2
    A = t.rawNormal.z / 2 ∧
    (∀ c : K, (M *ᵥ fun _ => c) = 0) ∧
    (∀ (c d : K) (g h : Vec3 K), sample (triV t) d h ⬝ᵥ (M *ᵥ sample (triV t) c g) =
      (∑ i, sample (triV t) d h i * (A / 12 * ((us + u i) * g.x + (vs + v i) * g.y)))
        - dt * (A * ((us / 3 * h.x + vs / 3 * h.y) * (us / 3 * g.x + vs / 3 * g.y)))) := by
  intro A M us vs
  have hx : t.rawNormal.x = 0 := by simp [Tri.rawNormal, hz.1, hz.2.1, hz.2.2]
  have hy : t.rawNormal.y = 0 := by simp [Tri.rawNormal, hz.1, hz.2.1, hz.2.2]
  have hA : A = t.rawNormal.z / 2 := by
    have : nrm t.rawNormal = t.rawNormal.z := hn.eq_of_sq hccw.le (by simp [Vec3.normSq, Vec3.dot, hx, hy])
    simp only [A, triArea, Tri.normalArea, this]; ring
  have hA0 : A ≠ 0 := by rw [hA]; positivity
  have hB : ∀ (c : K) (g : Vec3 K), triB (triRebuild nrm t) *ᵥ sample (triV t) c g = ![2 * A * g.x, 2 * A * g.y] := by
    intro c g
    have e : 2 * A = t.rawNormal.z := by rw [hA]; ring
    rw [e]
    funext k
    fin_cases k <;> simp [triB, triRebuild, localXY, hz.1, hz.2.1, hz.2.2, mulVec, dotProduct, Fin.sum_univ_three, sample, triV, Vec3.dot, Tri.rawNormal] <;> ring
  have hMi : ∀ (i : Fin 3) (w : Fin 3 → K), (M *ᵥ w) i =
      1 / 24 * ((us + u i) * (triB (triRebuild nrm t) *ᵥ w) 0 + (vs + v i) * (triB (triRebuild nrm t) *ᵥ w) 1)
      - dt * ((us / 3 * triB (triRebuild nrm t) 0 i + vs / 3 * triB (triRebuild nrm t) 1 i) / (12 * A) *
          (us * (triB (triRebuild nrm t) *ᵥ w) 0 + vs * (triB (triRebuild nrm t) *ᵥ w) 1)) := by
    intro i w
    simp only [M, triConvection, mulVec, dotProduct, Fin.sum_univ_three, Matrix.sub_apply, Matrix.smul_apply, Matrix.add_apply,
      Matrix.of_apply, smul_eq_mul]
    ring
  refine ⟨hA, ?_, ?_⟩
  · intro c
    funext i
    rw [← sample_const (triV t) c, hMi, hB]
    simp
  · intro c d g h
    have hw := hB d h
    have w0 := congrFun hw 0
    have w1 := congrFun hw 1
    simp only [mulVec, dotProduct, Fin.sum_univ_three, Matrix.cons_val_zero, Matrix.cons_val_one] at w0 w1
    simp only [dotProduct, Fin.sum_univ_three, hMi, hB, Matrix.cons_val_zero, Matrix.cons_val_one]
    generalize sample (triV t) d h = s at *
    have e : A / 12 = 1 / 24 * (2 * A) := by ring
    rw [e]
    have key : (us / 3 * h.x + vs / 3 * h.y) * (2 * A) =
        us / 3 * (triB (triRebuild nrm t) 0 0 * s 0 + triB (triRebuild nrm t) 0 1 * s 1 + triB (triRebuild nrm t) 0 2 * s 2)
        + vs / 3 * (triB (triRebuild nrm t) 1 0 * s 0 + triB (triRebuild nrm t) 1 1 * s 1 + triB (triRebuild nrm t) 1 2 * s 2) := by
      rw [w0, w1]; ring
    have key2 : A * ((us / 3 * h.x + vs / 3 * h.y) * (us / 3 * g.x + vs / 3 * g.y)) =
        (us / 3 * h.x + vs / 3 * h.y) * (2 * A) / (12 * A) * (us * (2 * A * g.x) + vs * (2 * A * g.y)) := by
      field_simp; ring
    rw [key2, key]
    ring

/-- **C61, gradient of the triangle.** In the plane `z = 0`, counter-clockwise, the gradient matrix times the field with gradient `g`
is `∫ N_i ∂u`: a third of the area times the component of `g`. -/
theorem C61_triangle_gradient {nrm : Vec3 K → K} (t : Tri K) (hz : t.v0.z = 0 ∧ t.v1.z = 0 ∧ t.v2.z = 0)
    (old : Matrix (Fin 3) (Fin 3) K) (c : K) (g : Vec3 K) (i : Fin 3) :
    (triGradient nrm 0 old t *ᵥ sample (triV t) c g) i = t.rawNormal.z / 2 / 3 * g.x ∧
    (triGradient nrm 1 old t *ᵥ sample (triV t) c g) i = t.rawNormal.z / 2 / 3 * g.y := by
  constructor <;>
    simp [triGradient, triB, triRebuild, localXY, hz.1, hz.2.1, hz.2.2, mulVec, dotProduct, Fin.sum_univ_three, sample, triV, Vec3.dot, Tri.rawNormal] <;> ring

/-- **C61, gradient of the tetrahedron.** For every tetrahedron, of either orientation: a quarter of the (signed) volume times the
component of the gradient. -/
theorem C61_tetrahedron_gradient (t : Tet K) (old : Matrix (Fin 4) (Fin 4) K) (c : K) (g : Vec3 K) (i : Fin 4) :
    (tetGradient 0 old t *ᵥ sample (tetV t) c g) i = t.volume / 4 * g.x ∧
    (tetGradient 1 old t *ᵥ sample (tetV t) c g) i = t.volume / 4 * g.y ∧
    (tetGradient 2 old t *ᵥ sample (tetV t) c g) i = t.volume / 4 * g.z := by
  have h := tetB_sample t c g
  have h0 := congrFun h 0
  have h1 := congrFun h 1
  have h2 := congrFun h 2
  simp only [mulVec, dotProduct, Fin.sum_univ_four] at h0 h1 h2
  refine ⟨?_, ?_, ?_⟩
  · simp [tetGradient, mulVec, dotProduct, Fin.sum_univ_four]
    simp at h0
    linear_combination h0 / 24
  · simp [tetGradient, mulVec, dotProduct, Fin.sum_univ_four]
    simp at h1
    linear_combination h1 / 24
  · simp [tetGradient, mulVec, dotProduct, Fin.sum_univ_four]
    simp at h2
    linear_combination h2 / 24

/-- **C61 fails for the convection of tetrahedra.** One entry of the last row uses the velocity of node 2 instead of node 3, so the matrix
does not annihilate constants: on the constant 1 without stabilisation the last row gives `(u₂ - u₃) b₂ / 120`, where `b₂` is the
`x` component of the area vector opposite to node 2. -/
theorem C61_tetrahedron_convection_not_constant (t : Tet K) (u v w : Fin 4 → K) :
    (tetConvection 0 u v w t *ᵥ fun _ => 1) 3 = (u 2 - u 3) * tetB t 0 2 / 120 := by
  simp [tetConvection, mulVec, dotProduct, Fin.sum_univ_four, tetB]
  ring

/-- **C61, the rows of the tetrahedron convection that are right.** For rows 0, 1, 2 and every field with gradient `g`, without
stabilisation: `∫ N_i (u · g) = volume / 20 · ((Σ_k u_k + u_i) · g)`. -/
theorem C61_tetrahedron_convection_partial (t : Tet K) (u v w : Fin 4 → K) (c : K) (g : Vec3 K) (i : Fin 4) (hi : i ≠ 3) :
    (tetConvection 0 u v w t *ᵥ sample (tetV t) c g) i =
      t.volume / 20 * (((u 0 + u 1 + u 2 + u 3) + u i) * g.x + ((v 0 + v 1 + v 2 + v 3) + v i) * g.y
        + ((w 0 + w 1 + w 2 + w 3) + w i) * g.z) := by
  have h := tetB_sample t c g
  have h0 := congrFun h 0
  have h1 := congrFun h 1
  have h2 := congrFun h 2
  simp only [mulVec, dotProduct, Fin.sum_univ_four, Matrix.cons_val_zero, Matrix.cons_val_one, Matrix.cons_val] at h0 h1 h2
  have hc : ∀ j, (tetConvection 0 u v w t) i j = 1 / 120 * (((u 0 + u 1 + u 2 + u 3) + u i) * tetB t 0 j +
      ((v 0 + v 1 + v 2 + v 3) + v i) * tetB t 1 j + ((w 0 + w 1 + w 2 + w 3) + w i) * tetB t 2 j) := by
    intro j
    simp [tetConvection, hi]
  simp only [mulVec, dotProduct, Fin.sum_univ_four, hc]
  linear_combination ((u 0 + u 1 + u 2 + u 3) + u i) / 120 * h0 + ((v 0 + v 1 + v 2 + v 3) + v i) / 120 * h1 + ((w 0 + w 1 + w 2 + w 3) + w i) / 120 * h2

/-! ### Non-vacuity -/

/-- A triangle out of the coordinate planes, with area 3. -/
def sampleTri : Tri ℝ := ⟨⟨0, 0, 1⟩, ⟨2, 2, 2⟩, ⟨0, 3, 1⟩⟩

/-- A tetrahedron with positive `volume()`. -/
def sampleTet : Tet ℚ := ⟨⟨1, 0, 0⟩, ⟨0, 2, 0⟩, ⟨0, 0, 3⟩, ⟨0, 0, 0⟩⟩

/-- The hypothesis `0 < area` of C25 and C27 holds for a triangle that is not in the plane `z = 0`, so the frame is used. -/
example : 0 < triArea realNorm sampleTri := by
  have h : sampleTri.rawNormal ≠ 0 := by
    intro h
    have := congrArg Vec3.z h
    norm_num [sampleTri, Tri.rawNormal] at this
  have := isNorm_real.pos h
  simp only [triArea, Tri.normalArea]
  linarith

example : sampleTet.volume = 1 := by decide +kernel

/-- The diffusion and stiffness matrices of the sample are not trivial. -/
example : tetLaplacian sampleTet 3 3 = -49 / 36 ∧ tetStiffness 1 (1 / 4) sampleTet 0 0 ≠ 0 := by decide +kernel

/-- With the vertices in the other order `volume()` is negative: the hypothesis of `C25_tetrahedron_negative_volume` is met. -/
example : (⟨⟨0, 0, 0⟩, ⟨1, 0, 0⟩, ⟨0, 1, 0⟩, ⟨0, 0, 1⟩⟩ : Tet ℚ).volume = -1 / 6 := by decide +kernel

/-- The defect of the convection of tetrahedra on the sample with velocity `x` at node 2 only. -/
example : (tetConvection 0 (fun i => if i = 2 then 1 else 0) 0 0 ⟨⟨1, 0, 0⟩, ⟨0, 2, 0⟩, ⟨1, 1, 3⟩, ⟨0, 0, 0⟩⟩ *ᵥ fun _ => (1 : ℚ)) 3 = 0 ∧
    (tetConvection 0 (fun i => if i = 2 then 1 else 0) 0 0 ⟨⟨1, 0, 1⟩, ⟨0, 2, 0⟩, ⟨1, 1, 3⟩, ⟨0, 0, 0⟩⟩ *ᵥ fun _ => (1 : ℚ)) 3 = -1 / 60 := by
  decide +kernel

/-- A counter-clockwise triangle in the plane. -/
example : 0 < (⟨⟨0, 0, 0⟩, ⟨2, 1, 0⟩, ⟨0, 3, 0⟩⟩ : Tri ℚ).rawNormal.z := by decide +kernel

end ENigMA
