import Verif.Pde.FemBlockBounds

/-!
# C164: blocks whose `volume()` is negative

The boxes of the example programs have their corners in the usual order, with the third edge up; then `volume()` is negative, for the block and for all tetrahedra of its mesh.
`CFemTetrahedron::setDiffusionTerm` does not scale the gradients of such a tetrahedron (FemTetrahedron_Imp.hpp:108-109) and its matrix has the wrong sign.
-/

set_option linter.unusedSectionVars false
set_option autoImplicit false

namespace ENigMA
open Matrix FemOp FemThermalOp Fem FemHeat FdmHeat BasicMesher FemBlock
open FemPlate (one_of_list iota_at clamp clamp_sq clamp_id)
variable {K : Type} [Field K] [LinearOrder K] [IsStrictOrderedRing K]

namespace FemBlock

/-- The image of a point in the mirror `z = 0`. -/
def mirror (p : Vec3 K) : Vec3 K := ⟨p.x, p.y, -p.z⟩

/-- The image of a hexahedron. -/
def mirrorHex (h : Hex K) : Hex K := ⟨mirror h.v0, mirror h.v1, mirror h.v2, mirror h.v3, mirror h.v4, mirror h.v5, mirror h.v6, mirror h.v7⟩

theorem mirror_volume (h : Hex K) : (mirrorHex h).volume = -h.volume := by
  simp [mirrorHex, mirror, Hex.volume, Vec3.dot, Vec3.cross]; ring

theorem mirror_dot (p q : Vec3 K) : (mirror p).dot (mirror q) = p.dot q := by simp [mirror, Vec3.dot]

theorem mirror_sub (p q : Vec3 K) : mirror p - mirror q = mirror (p - q) := by ext <;> simp [mirror]; ring

theorem mirror_point (h : Hex K) (nu nv nw i j k : Nat) : blockPoint (mirrorHex h) nu nv nw i j k = mirror (blockPoint h nu nv nw i j k) := by
  ext <;> simp [blockPoint, mirrorHex, mirror] <;> ring

theorem mirror_tet (a b c d : Vec3 K) : Tet.volume ⟨mirror a, mirror b, mirror c, mirror d⟩ = -Tet.volume ⟨a, b, c, d⟩ := by
  have h1 := tet_det a b c d
  have h2 := tet_det (mirror a) (mirror b) (mirror c) (mirror d)
  have : (mirror a - mirror d).dot (Vec3.cross (mirror b - mirror d) (mirror c - mirror d)) = -((a - d).dot (Vec3.cross (b - d) (c - d))) := by
    simp [mirror, Vec3.dot, Vec3.cross]; ring
  linarith

/-- The matrix of a tetrahedron with negative `volume()`, and that of its image. -/
theorem tet_reversed (a b c d : Vec3 K) (hv : Tet.volume ⟨a, b, c, d⟩ < 0) :
    tetLaplacian ⟨a, b, c, d⟩ = (-(36 * Tet.volume ⟨a, b, c, d⟩ ^ 2)) • tetLaplacian ⟨mirror a, mirror b, mirror c, mirror d⟩ := by
  have hB : (tetB (⟨mirror a, mirror b, mirror c, mirror d⟩ : Tet K)).transpose * tetB ⟨mirror a, mirror b, mirror c, mirror d⟩ = (tetB (⟨a, b, c, d⟩ : Tet K)).transpose * tetB ⟨a, b, c, d⟩ := by
    ext i j
    fin_cases i <;> fin_cases j <;> simp [tetB, mirror, mul_apply, Fin.sum_univ_three] <;> ring
  have h0 : 0 < -Tet.volume ⟨a, b, c, d⟩ := by linarith
  simp only [tetLaplacian, mirror_tet, if_neg (not_lt.2 hv.le), if_pos h0]
  rw [transpose_smul, Matrix.neg_mul, Matrix.neg_mul, Matrix.smul_mul, Matrix.mul_smul, hB, ← smul_neg, ← smul_neg, smul_smul, smul_smul, smul_smul]
  congr 1
  have := hv.ne
  field_simp
  norm_num

theorem form_smul {n : Nat} (M : Matrix (Fin n) (Fin n) K) (c : K) (v w : List K) : elementForm (.of (c • M)) v w = c * elementForm (.of M) v w := by
  simp only [elementForm, EMat.of, Finset.mul_sum]
  refine Finset.sum_congr rfl fun i hi => Finset.sum_congr rfl fun j hj => ?_
  rw [dif_pos ⟨Finset.mem_range.1 hi, Finset.mem_range.1 hj⟩, dif_pos ⟨Finset.mem_range.1 hi, Finset.mem_range.1 hj⟩, Matrix.smul_apply, smul_eq_mul]
  ring

section Grid
variable {nrm : Vec3 K → K} (hn : IsNorm nrm) (h : Hex K) (nu nv nw : Nat) (hu : 0 < nu) (hv : 0 < nv) (hw : 0 < nw)

include hn hu hv hw in
/-- The elements do not depend on the block. -/
theorem block_same (h' : Hex K) (x : Int) : (generateHex nrm h nu nv nw true).mesh.elements.get? x = (generateHex nrm h' nu nv nw true).mesh.elements.get? x := by
  ext e
  rw [generateHex_mesh hn h nu nv nw hu hv hw true, generateHex_mesh hn h' nu nv nw hu hv hw true]
  obtain ⟨-, -, -, -, -, -, hel⟩ := build3_ok h.v0 ((1 / (nu : K)) • (h.v1 - h.v0)) ((1 / (nv : K)) • (h.v3 - h.v0)) ((1 / (nw : K)) • (h.v4 - h.v0)) nu nv nw true
  obtain ⟨-, -, -, -, -, -, hel'⟩ := build3_ok h'.v0 ((1 / (nu : K)) • (h'.v1 - h'.v0)) ((1 / (nv : K)) • (h'.v3 - h'.v0)) ((1 / (nw : K)) • (h'.v4 - h'.v0)) nu nv nw true
  exact (hel x e).trans (hel' x e).symm

include hn hu hv hw in
/-- The corners of an element, in the block and in its image; the volume of the tetrahedron. -/
theorem block_corners (x : Int) (e : Elem) (he : (generateHex nrm h nu nv nw true).mesh.elements.get? x = some e) : ∃ A B C D : Vec3 K, e.elementType = .tetrahedron ∧
    e.nodeIds.mapM (generateHex nrm h nu nv nw true).mesh.nodes.get? = some [A, B, C, D] ∧
    e.nodeIds.mapM (generateHex nrm (mirrorHex h) nu nv nw true).mesh.nodes.get? = some [mirror A, mirror B, mirror C, mirror D] ∧
    6 * Tet.volume ⟨A, B, C, D⟩ = h.volume / (nu * nv * nw) := by
  have hup : (0 : K) < nu := by exact_mod_cast hu
  have hvp : (0 : K) < nv := by exact_mod_cast hv
  have hwp : (0 : K) < nw := by exact_mod_cast hw
  have hnd := (C31_nodes hn h nu nv nw hu hv hw true).2.2.2.2.2
  have hnd' := (C31_nodes hn (mirrorHex h) nu nv nw hu hv hw true).2.2.2.2.2
  have hvol : ∃ T : Tet K, e.nodeIds.mapM (generateHex nrm h nu nv nw true).mesh.nodes.get? = some [T.v0, T.v1, T.v2, T.v3] ∧ 6 * T.volume = h.volume / (nu * nv * nw) := by
    rw [generateHex_mesh hn h nu nv nw hu hv hw true] at he ⊢
    obtain ⟨T, -, h2, h3⟩ := build3_tets _ _ _ _ nu nv nw x e he
    refine ⟨T, h2, h3.trans ?_⟩
    simp only [Hex.volume, Vec3.dot, Vec3.cross, Vec3.smul_x, Vec3.smul_y, Vec3.smul_z]
    field_simp
  obtain ⟨i, hi, j, hj, k, hk, a, b, c, d, hm, rfl⟩ := block_elem hn h nu nv nw hu hv hw x e he
  have hb : ∀ os ∈ cellElem true, ∀ o ∈ os, o.1 ≤ 1 ∧ o.2.1 ≤ 1 ∧ o.2.2 ≤ 1 := by decide
  have hb := hb _ hm
  have at1 : ∀ o ∈ [a, b, c, d], (generateHex nrm h nu nv nw true).mesh.nodes.get? (cellNode nu nv i j k o) = some (blockPoint h nu nv nw (i + o.1) (j + o.2.1) (k + o.2.2)) := fun o ho =>
    hnd _ _ _ (by have := (hb o ho).1; omega) (by have := (hb o ho).2.1; omega) (by have := (hb o ho).2.2; omega)
  have at2 : ∀ o ∈ [a, b, c, d], (generateHex nrm (mirrorHex h) nu nv nw true).mesh.nodes.get? (cellNode nu nv i j k o) =
      some (mirror (blockPoint h nu nv nw (i + o.1) (j + o.2.1) (k + o.2.2))) := fun o ho => by
    rw [← mirror_point]
    exact hnd' _ _ _ (by have := (hb o ho).1; omega) (by have := (hb o ho).2.1; omega) (by have := (hb o ho).2.2; omega)
  obtain ⟨T, h1, h2⟩ := hvol
  have e1 := at1 a (by simp); have e2 := at1 b (by simp); have e3 := at1 c (by simp); have e4 := at1 d (by simp)
  have f1 := at2 a (by simp); have f2 := at2 b (by simp); have f3 := at2 c (by simp); have f4 := at2 d (by simp)
  have m1 : ([cellNode nu nv i j k a, cellNode nu nv i j k b, cellNode nu nv i j k c, cellNode nu nv i j k d]).mapM (generateHex nrm h nu nv nw true).mesh.nodes.get? =
      some [blockPoint h nu nv nw (i + a.1) (j + a.2.1) (k + a.2.2), blockPoint h nu nv nw (i + b.1) (j + b.2.1) (k + b.2.2),
        blockPoint h nu nv nw (i + c.1) (j + c.2.1) (k + c.2.2), blockPoint h nu nv nw (i + d.1) (j + d.2.1) (k + d.2.2)] := by
    simp [List.mapM_cons, e1, e2, e3, e4]
  refine ⟨_, _, _, _, rfl, m1, by simp [List.mapM_cons, f1, f2, f3, f4], ?_⟩
  rw [m1] at h1
  simp only [Option.some.injEq, List.cons.injEq, and_true] at h1
  obtain ⟨g1, g2, g3, g4⟩ := h1
  rw [g1, g2, g3, g4]
  exact h2

include hn hu hv hw in
theorem block_regular (r : K) : Regular nrm r (generateHex nrm h nu nv nw true).mesh := by
  intro e he ps hps
  obtain ⟨id, -, hid⟩ := mem_elems.1 he
  obtain ⟨A, B, C, D, h1, h2, -⟩ := block_corners hn h nu nv nw hu hv hw id e hid
  rw [hps, Option.some.injEq] at h2
  rw [h1, h2]
  exact ⟨_, rfl⟩

include hn hu hv hw in
/-- The matrices of the block and of its image. -/
theorem block_form (hvol : h.volume < 0) (r : K) (φ ψ : Int → K) :
    overElements (generateHex nrm h nu nv nw true).mesh (fun _ => elementTerm (elementLaplacian nrm r) (generateHex nrm h nu nv nw true).mesh φ ψ) =
      -(h.volume / (nu * nv * nw)) ^ 2 * overElements (generateHex nrm (mirrorHex h) nu nv nw true).mesh
        (fun _ => elementTerm (elementLaplacian nrm r) (generateHex nrm (mirrorHex h) nu nv nw true).mesh φ ψ) := by
  have hup : (0 : K) < nu := by exact_mod_cast hu
  have hvp : (0 : K) < nv := by exact_mod_cast hv
  have hwp : (0 : K) < nw := by exact_mod_cast hw
  have hneg : h.volume / (nu * nv * nw) < 0 := div_neg_of_neg_of_pos hvol (by positivity)
  unfold overElements
  rw [(C31_nodes hn h nu nv nw hu hv hw true).2.2.2.2.1, (C31_nodes hn (mirrorHex h) nu nv nw hu hv hw true).2.2.2.2.1, ← List.sum_map_mul_left]
  congr 1
  refine List.map_congr_left fun x _ => ?_
  rw [← block_same hn h nu nv nw hu hv hw (mirrorHex h) x]
  cases he : (generateHex nrm h nu nv nw true).mesh.elements.get? x with
  | none => simp
  | some e =>
    obtain ⟨A, B, C, D, h1, h2, h3, h4⟩ := block_corners hn h nu nv nw hu hv hw x e he
    simp only [Option.map_some, Option.getD_some, elementTerm, h1, h2, h3, Option.bind_some, elementLaplacian]
    rw [tet_reversed A B C D (by linarith), form_smul]
    congr 1
    rw [← h4]; ring

include hn hu hv hw in
/-- Conditions are looked for on beams and triangles only. -/
theorem block_free (pf : PdeField K) : NoConditions pf (generateHex nrm h nu nv nw true).mesh := fun x e he ht => by
  obtain ⟨_, _, _, _, _, _, _, _, _, _, _, rfl⟩ := block_elem hn h nu nv nw hu hv hw x e he
  simp at ht

include hn h hu hv hw in
theorem block_lt (i j k : Nat) (hi : i ≤ nu) (hj : j ≤ nv) (hk : k ≤ nw) : at3 nu nv i j k < (nu + 1) * (nv + 1) * (nw + 1) := by
  rw [← block_count hn h nu nv nw hu hv hw]
  exact (List.getElem?_eq_some_iff.1 ((block_index hn h nu nv nw hu hv hw _ _).2 ⟨i, j, k, hi, hj, hk, rfl, rfl⟩)).1

include hn hu hv hw in
/-- The programs on the block and on its image leave the same temperatures. -/
theorem block_reversed (hvol : h.volume < 0) (r : K) (solver : Sys K → Nat → K) (hS : Sound solver) (junk junk' : Nat → K) (pf : PdeField K)
    (f : EqField K) (hm : f.method = .fem) (hf : IndicesOk f.uFixed ((nu + 1) * (nv + 1) * (nw + 1))) (hone : ∃ n v, Equation.prescribed f n = some v) :
    ∃ f' f'', steady nrm r solver junk junk' (generateHex nrm h nu nv nw true).mesh pf f = some f' ∧
      steady nrm r solver junk junk' (generateHex nrm (mirrorHex h) nu nv nw true).mesh pf f = some f'' ∧ f'.u.size = (nu + 1) * (nv + 1) * (nw + 1) ∧
      ∀ n < (nu + 1) * (nv + 1) * (nw + 1), f'.u.at' n = f''.u.at' n := by
  have hup : (0 : K) < nu := by exact_mod_cast hu
  have hvp : (0 : K) < nv := by exact_mod_cast hv
  have hwp : (0 : K) < nw := by exact_mod_cast hw
  have hneg : h.volume / (nu * nv * nw) < 0 := div_neg_of_neg_of_pos hvol (by positivity)
  have hc : -(h.volume / (nu * nv * nw)) ^ 2 ≠ 0 := by have := hneg.ne; simp [this, hvol.ne, hup.ne', hvp.ne', hwp.ne']
  have hvol' : 0 < (mirrorHex h).volume := by rw [mirror_volume]; linarith
  obtain ⟨hwf, hrt, -, hids, -, -⟩ := C31_nodes hn h nu nv nw hu hv hw true
  obtain ⟨hwf', hrt', -, hids', -, -⟩ := C31_nodes hn (mirrorHex h) nu nv nw hu hv hw true
  have hcnt := block_count hn h nu nv nw hu hv hw
  have hcnt' := block_count hn (mirrorHex h) nu nv nw hu hv hw
  have hs' := block_simplex hn (mirrorHex h) nu nv nw hu hv hw hvol'
  have tets : ∀ (h : Hex K) (x : Int) (e : Elem), (generateHex nrm h nu nv nw true).mesh.elements.get? x = some e → e.elementType = .beam ∨ e.elementType = .triangle → ∀ k, convective pf x k = none := fun h x e he ht => by
    obtain ⟨_, _, _, _, _, _, _, _, _, _, _, rfl⟩ := block_elem hn h nu nv nw hu hv hw x e he
    simp at ht
  -- the image
  obtain ⟨s', f'', a1, a2, a3, a4, a5, a6, a7, a8⟩ := steady_run hn r solver hS junk junk' (generateHex nrm (mirrorHex h) nu nv nw true).mesh hwf' hrt' hs' pf (tets (mirrorHex h)) f hm (by rw [hcnt']; exact hf)
  -- the matrix of the block
  have hreg := block_regular hn h nu nv nw hu hv hw r
  obtain ⟨s, b1, b2, b3, b4⟩ := C115_laplacian nrm r pf (generateHex nrm h nu nv nw true).mesh hwf hrt hreg
  obtain ⟨s1, _, c1, -, -, b5, -⟩ := C115_no_conditions nrm r pf (generateHex nrm h nu nv nw true).mesh hwf hrt hreg (tets h)
  rw [b1, Option.some.injEq] at c1
  subst c1
  have hnn : s.n = s'.n := by rw [b2, a2, hcnt, hcnt']
  have hnod : ∀ φ : Int → K, nodal (generateHex nrm h nu nv nw true).mesh φ = nodal (generateHex nrm (mirrorHex h) nu nv nw true).mesh φ := fun φ => by
    funext n
    unfold nodal
    rw [show (generateHex nrm h nu nv nw true).mesh.nodes.idAt? n = (generateHex nrm (mirrorHex h) nu nv nw true).mesh.nodes.idAt? n from by
      show (generateHex nrm h nu nv nw true).mesh.nodes.ids[n]? = (generateHex nrm (mirrorHex h) nu nv nw true).mesh.nodes.ids[n]?
      rw [hids, hids']]
  have hform : ∀ v w : Nat → K, s.form v w = -(h.volume / (nu * nv * nw)) ^ 2 * s'.form v w := fun v w => by
    obtain ⟨φ, -, hφ⟩ := nodal_surj _ hwf v
    obtain ⟨ψ, -, hψ⟩ := nodal_surj _ hwf w
    have e1 := Sys.form_congr s v (nodal _ φ) w (nodal _ ψ) (fun i hi => (hφ i (b2 ▸ hi)).symm) (fun i hi => (hψ i (b2 ▸ hi)).symm)
    have e2 := Sys.form_congr s' v (nodal _ φ) w (nodal _ ψ) (fun i hi => (hφ i (by rw [← b2, hnn]; exact hi)).symm) (fun i hi => (hψ i (by rw [← b2, hnn]; exact hi)).symm)
    rw [e1, e2, (b4 φ ψ).1, hnod, hnod, a4, block_form hn h nu nv nw hu hv hw hvol r φ ψ, overElements_zero _ (exchange nrm pf _ φ ψ), add_zero]
    intro id e he
    obtain ⟨_, _, _, _, _, _, _, _, _, _, _, rfl⟩ := block_elem hn h nu nv nw hu hv hw id e he
    rfl
  have hrow : ∀ (w : Nat → K) i, i < s.n → s.row w i = -(h.volume / (nu * nv * nw)) ^ 2 * s'.row w i := fun w i hi => by
    have e1 : ∀ t : Sys K, i < t.n → t.form (fun j => if j = i then 1 else 0) w = t.row w i := fun t ht => by
      rw [Sys.form_rows, Finset.sum_eq_single i (fun j _ hj => by simp [hj]) (fun h => absurd (Finset.mem_range.2 ht) h)]
      simp
    rw [← e1 s hi, ← e1 s' (hnn ▸ hi), hform]
  have hin : ∀ n v, Equation.prescribed f n = some v → n < (nu + 1) * (nv + 1) * (nw + 1) := fun n v h' => by
    have := (hf (n : Int) v h').2
    exact_mod_cast this
  obtain ⟨f', d1, d2, -, d4, d5⟩ := Equation.eliminate_run solver hS junk junk' s f hm (by rw [b3]; decide) (by rw [b2, hcnt]; exact hf)
    ⟨f''.u.at', fun i v hv' => a7 i (by rw [a2, hcnt']; exact hin i v hv') v hv', fun i hi hp => by rw [b5 i hi, hrow _ i hi, a8 i (hnn ▸ hi) hp, mul_zero]⟩
  refine ⟨f', f'', ?_, a5, by rw [d2, b2, hcnt], fun n hlt => ?_⟩
  · unfold FemHeat.steady
    rw [b1, Option.bind_eq_bind, Option.bind_some, Sys.assignZero']
    exact d1
  -- the difference has no energy
  obtain ⟨φ, hφ1, hφ⟩ := nodal_surj _ hwf' (fun n => f'.u.at' n - f''.u.at' n)
  have hzero : s'.form (nodal (generateHex nrm (mirrorHex h) nu nv nw true).mesh φ) (nodal (generateHex nrm (mirrorHex h) nu nv nw true).mesh φ) = 0 := by
    have e2 := Sys.form_congr s' (fun n => f'.u.at' n - f''.u.at' n) (nodal (generateHex nrm (mirrorHex h) nu nv nw true).mesh φ) (fun n => f'.u.at' n - f''.u.at' n) (nodal (generateHex nrm (mirrorHex h) nu nv nw true).mesh φ) (fun i hi => (hφ i (a2 ▸ hi)).symm) (fun i hi => (hφ i (a2 ▸ hi)).symm)
    rw [← e2, Sys.form_rows]
    refine Finset.sum_eq_zero fun i hi => ?_
    have hi' : i < s'.n := Finset.mem_range.1 hi
    cases hp : Equation.prescribed f i with
    | some v => rw [a7 i hi' v hp, d4 i (hnn ▸ hi') v hp, sub_self, zero_mul]
    | none =>
      have h1 := d5 i (hnn ▸ hi') hp
      rw [b5 i (hnn ▸ hi'), hrow _ i (hnn ▸ hi')] at h1
      have h2 := (mul_eq_zero.1 h1).resolve_left hc
      have h3 := a8 i hi' hp
      have : s'.row (fun n => f'.u.at' n - f''.u.at' n) i = s'.row f'.u.at' i - s'.row f''.u.at' i := by
        simp only [Sys.row, ← Finset.sum_sub_distrib, mul_sub]
      rw [this, h2, h3, sub_zero, mul_zero]
  rw [a4] at hzero
  have hE := (total_energy hn r _ hwf' hs' φ).1
  rw [hzero, neg_zero] at hE
  have hidx : (generateHex nrm (mirrorHex h) nu nv nw true).mesh.nodes.idAt? n = some (n : Int) := by
    show (generateHex nrm (mirrorHex h) nu nv nw true).mesh.nodes.ids[n]? = _
    rw [hids', iota_at]; exact ⟨hlt, rfl⟩
  obtain ⟨n0, v0, hnv⟩ := hone
  have hz := anchored_zero _ hwf' hs' f φ hE (fun i id v hi hv' => by
    have hi' := hin i v hv'
    rw [hφ1 i id hi]
    show f'.u.at' i - f''.u.at' i = 0
    rw [a7 i (by rw [a2, hcnt']; exact hi') v hv', d4 i (by rw [b2, hcnt]; exact hi') v hv', sub_self]) (n : Int)
    (block_all hn (mirrorHex h) nu nv nw hu hv hw f hf ⟨_, _, hnv⟩ _ (List.mem_of_getElem? hidx))
  rw [hφ1 n _ hidx] at hz
  exact sub_eq_zero.1 hz

end Grid
end FemBlock

/-- **C164, linear temperatures in a block with negative `volume()`.** The signs of all matrices are wrong, by the same factor, and the steady program is right nevertheless: if all nodes on the sides have
prescribed values, and all prescribed values are those of a linear function, the result is that linear function. -/
theorem C164_linear {nrm : Vec3 K → K} (hn : IsNorm nrm) (r : K) (solver : Sys K → Nat → K) (hS : Sound solver) (junk junk' : Nat → K) (h : Hex K) (hvol : h.volume < 0)
    (nu nv nw : Nat) (hu : 0 < nu) (hv : 0 < nv) (hw : 0 < nw) (pf : PdeField K)
    (f : EqField K) (hm : f.method = .fem) (hf : IndicesOk f.uFixed ((nu + 1) * (nv + 1) * (nw + 1))) (c : K) (g : Vec3 K)
    (hskin : ∀ i j k, i ≤ nu → j ≤ nv → k ≤ nw → OnSkin nu nv nw i j k → Equation.prescribed f (at3 nu nv i j k) ≠ none)
    (hlin : ∀ i j k v, i ≤ nu → j ≤ nv → k ≤ nw → Equation.prescribed f (at3 nu nv i j k) = some v → v = c + g.dot (blockPoint h nu nv nw i j k)) :
    ∃ f', FemHeat.steady nrm r solver junk junk' (generateHex nrm h nu nv nw true).mesh pf f = some f' ∧ f'.u.size = (nu + 1) * (nv + 1) * (nw + 1) ∧
      ∀ i j k, i ≤ nu → j ≤ nv → k ≤ nw → f'.u.at' (at3 nu nv i j k) = c + g.dot (blockPoint h nu nv nw i j k) := by
  obtain ⟨v0, hv0⟩ := Option.ne_none_iff_exists'.1 (hskin 0 0 0 (by omega) (by omega) (by omega) (Or.inl rfl))
  obtain ⟨f', f'', h1, h2, h3, h4⟩ := block_reversed hn h nu nv nw hu hv hw hvol r solver hS junk junk' pf f hm hf ⟨_, _, hv0⟩
  obtain ⟨f1, g1, -, g3⟩ := C163_linear hn r solver hS junk junk' (mirrorHex h) (by rw [mirror_volume]; linarith) nu nv nw hu hv hw pf (block_free hn _ nu nv nw hu hv hw pf) f hm hf c (mirror g) hskin
    (fun i j k v hi hj hk hp => by rw [mirror_point, mirror_dot]; exact hlin i j k v hi hj hk hp)
  rw [h2, Option.some.injEq] at g1
  subst g1
  refine ⟨f', h1, h3, fun i j k hi hj hk => ?_⟩
  rw [h4 _ (block_lt hn h nu nv nw hu hv hw i j k hi hj hk), g3 i j k hi hj hk, mirror_point, mirror_dot]

/-- **C164, bounds in a box with negative `volume()`.** -/
theorem C164_bounds {nrm : Vec3 K → K} (hn : IsNorm nrm) (r : K) (solver : Sys K → Nat → K) (hS : Sound solver) (junk junk' : Nat → K) (h : Hex K) (hbox : Box h) (hvol : h.volume < 0)
    (nu nv nw : Nat) (hu : 0 < nu) (hv : 0 < nv) (hw : 0 < nw) (pf : PdeField K)
    (f : EqField K) (hm : f.method = .fem) (hf : IndicesOk f.uFixed ((nu + 1) * (nv + 1) * (nw + 1))) (hone : ∃ n v, Equation.prescribed f n = some v)
    (lo hi : K) (hb : ∀ n v, Equation.prescribed f n = some v → lo ≤ v ∧ v ≤ hi) :
    ∃ f', FemHeat.steady nrm r solver junk junk' (generateHex nrm h nu nv nw true).mesh pf f = some f' ∧ f'.u.size = (nu + 1) * (nv + 1) * (nw + 1) ∧
      (∀ n v, Equation.prescribed f n = some v → f'.u.at' n = v) ∧ ∀ n < (nu + 1) * (nv + 1) * (nw + 1), lo ≤ f'.u.at' n ∧ f'.u.at' n ≤ hi := by
  obtain ⟨f', f'', h1, h2, h3, h4⟩ := block_reversed hn h nu nv nw hu hv hw hvol r solver hS junk junk' pf f hm hf hone
  have hbox' : Box (mirrorHex h) := by
    obtain ⟨b1, b2, b3⟩ := hbox
    constructor <;> simp only [mirrorHex, mirror_sub, mirror_dot] <;> assumption
  obtain ⟨f1, g1, -, g3, g4⟩ := C163_bounds hn r solver hS junk junk' (mirrorHex h) hbox' (by rw [mirror_volume]; linarith) nu nv nw hu hv hw pf (block_free hn _ nu nv nw hu hv hw pf) f hm hf hone lo hi hb
  rw [h2, Option.some.injEq] at g1
  subst g1
  refine ⟨f', h1, h3, fun n v hp => ?_, fun n hlt => by rw [h4 n hlt]; exact g4 n hlt⟩
  have hlt : n < (nu + 1) * (nv + 1) * (nw + 1) := by
    have := (hf (n : Int) v hp).2
    exact_mod_cast this
  rw [h4 n hlt, g3 n v hp]

end ENigMA
