import Verif.Pde.FemPlateBounds

/-!
# C161: in plates that are not rectangles, temperatures can leave the range of the prescribed ones

A parallelogram with one cell, that is two triangles. One corner has no prescribed value.
The angle opposite to one of its sides is obtuse.
-/

set_option linter.unusedSectionVars false
set_option autoImplicit false

namespace ENigMA
open Matrix FemOp FemThermalOp Fem FemHeat FdmHeat BasicMesher FemPlate
variable {K : Type} [Field K] [LinearOrder K] [IsStrictOrderedRing K]

namespace FemPlate

/-- A parallelogram that is not a rectangle. -/
def steep : Quad K := ⟨⟨0, 0, 0⟩, ⟨4, 0, 0⟩, ⟨2, 1, 0⟩, ⟨-2, 1, 0⟩⟩

theorem steep_cross : Vec3.cross ((steep : Quad K).v1 - steep.v0) (steep.v3 - steep.v0) ≠ 0 := by
  simp [steep, Vec3.cross, Vec3.ext_iff]

/-- The energies of the two triangles. -/
theorem steep_le {nrm : Vec3 K → K} (hn : IsNorm nrm) (u v w E E' t : K) :
    (Energy nrm .triangle [gridPoint (steep : Quad K) 1 1 0 0, gridPoint steep 1 1 (0 + 1) 0, gridPoint steep 1 1 (0 + 1) (0 + 1)] [1, t, 0] E →
      Energy nrm .triangle [gridPoint (steep : Quad K) 1 1 0 0, gridPoint steep 1 1 (0 + 1) 0, gridPoint steep 1 1 (0 + 1) (0 + 1)] [1, -(3 / 5), 0] E' → E' ≤ E) ∧
    (Energy nrm .triangle [gridPoint (steep : Quad K) 1 1 0 0, gridPoint steep 1 1 (0 + 1) (0 + 1), gridPoint steep 1 1 0 (0 + 1)] [u, v, w] E →
      Energy nrm .triangle [gridPoint (steep : Quad K) 1 1 0 0, gridPoint steep 1 1 (0 + 1) (0 + 1), gridPoint steep 1 1 0 (0 + 1)] [u, v, w] E' → E' ≤ E) := by
  obtain ⟨s1, s2, s3⟩ := grid_steps (steep : Quad K) 1 1 0 0 one_pos one_pos
  constructor
  · rintro (⟨⟩ | ⟨_, _, _, g, _, _, _, a0, a1, a2⟩) h'
    obtain ⟨⟩ | ⟨_, _, _, g', _, _, _, b0, b1, b2⟩ := h'
    refine mul_le_mul_of_nonneg_left ?_ (by have := hn.nonneg (Vec3.cross (gridPoint (steep : Quad K) 1 1 (0 + 1) 0 - gridPoint steep 1 1 0 0) (gridPoint steep 1 1 (0 + 1) (0 + 1) - gridPoint steep 1 1 0 0)); linarith)
    rw [s1, s2] at a0 b0
    rw [s1] at a1 b1
    rw [s2] at a2 b2
    simp [steep, Vec3.dot, Vec3.cross] at a0 a1 a2 b0 b1 b2
    have hx : g.x = (t - 1) / 4 := by linarith
    have hy : g.y = -(t + 1) / 2 := by linarith
    have hx' : g'.x = -(2 / 5) := by linarith
    have hy' : g'.y = -(1 / 5) := by linarith
    simp only [Vec3.dot, a0, b0, hx, hy, hx', hy']
    nlinarith [sq_nonneg (5 * t + 3)]
  · rintro (⟨⟩ | ⟨_, _, _, g, _, _, _, a0, a1, a2⟩) h'
    obtain ⟨⟩ | ⟨_, _, _, g', _, _, _, b0, b1, b2⟩ := h'
    rw [s2, s3] at a0 b0
    rw [s2] at a1 b1
    rw [s3] at a2 b2
    simp [steep, Vec3.dot, Vec3.cross] at a0 a1 a2 b0 b1 b2
    have hx : g'.x = g.x := by linarith
    have hy : g'.y = g.y := by linarith
    simp only [Vec3.dot, a0, b0, hx, hy, le_refl]

end FemPlate

/-- **C161, bounds only in rectangles.** In the parallelogram with the corners (0, 0), (4, 0), (2, 1) and (-2, 1), divided into two triangles, with the values 1, 0 and 0 prescribed at the first, the third and
the fourth corner: the program gives the second corner the temperature -3/5, which is below all prescribed values. -/
theorem C161_plate_bounds_rectangles {nrm : Vec3 K → K} (hn : IsNorm nrm) (r : K) (solver : Sys K → Nat → K) (hS : Sound solver) (junk junk' : Nat → K) (pf : PdeField K)
    (hno : NoConditions pf (generateQuad nrm steep ((1 : Nat) : Int) ((1 : Nat) : Int) true).mesh) (f : EqField K) (hm : f.method = .fem) (hf : IndicesOk f.uFixed 4)
    (h0 : Equation.prescribed f 0 = some 1) (h1 : Equation.prescribed f 1 = none) (h2 : Equation.prescribed f 2 = some 0) (h3 : Equation.prescribed f 3 = some 0) :
    ∃ f', steady nrm r solver junk junk' (generateQuad nrm steep ((1 : Nat) : Int) ((1 : Nat) : Int) true).mesh pf f = some f' ∧ f'.u.at' 0 = 1 ∧ f'.u.at' 1 = -(3 / 5) ∧ f'.u.at' 2 = 0 ∧ f'.u.at' 3 = 0 := by
  obtain ⟨hwf, hrt, -, hids, -, hnd⟩ := C30_nodes hn (steep : Quad K) 1 1 one_pos one_pos true
  have hcnt := grid_count hn (steep : Quad K) 1 1 one_pos one_pos
  have hs := grid_simplex hn (steep : Quad K) 1 1 one_pos one_pos steep_cross
  have hix : ∀ k x, (generateQuad nrm (steep : Quad K) ((1 : Nat) : Int) ((1 : Nat) : Int) true).mesh.nodes.idAt? k = some x ↔ k < 4 ∧ x = k := fun k x => by
    show (generateQuad nrm (steep : Quad K) ((1 : Nat) : Int) ((1 : Nat) : Int) true).mesh.nodes.ids[k]? = _ ↔ _
    rw [hids, iota_at]
  obtain ⟨f', e1, e2, e3⟩ := C144_least_energy hn r solver hS junk junk' (generateQuad nrm steep ((1 : Nat) : Int) ((1 : Nat) : Int) true).mesh hwf hrt hs pf hno f hm (by rw [hcnt]; exact hf)
  obtain ⟨hmeets, E, hE, hmin⟩ := e3 (fun x => f'.u.at' x.toNat) (fun k x hk => by obtain ⟨-, rfl⟩ := (hix k x).1 hk; rfl)
  have v0 : f'.u.at' 0 = 1 := hmeets 0 0 1 ((hix 0 0).2 ⟨by norm_num, rfl⟩) h0
  have v2 : f'.u.at' 2 = 0 := hmeets 2 2 0 ((hix 2 2).2 ⟨by norm_num, rfl⟩) h2
  have v3 : f'.u.at' 3 = 0 := hmeets 3 3 0 ((hix 3 3).2 ⟨by norm_num, rfl⟩) h3
  refine ⟨f', e1, v0, ?_, v2, v3⟩
  obtain ⟨ψ, hψ⟩ : ∃ ψ : Int → K, ψ = fun x => if x = 1 then -(3 / 5) else f'.u.at' x.toNat := ⟨_, rfl⟩
  have hψm : Meets (generateQuad nrm steep ((1 : Nat) : Int) ((1 : Nat) : Int) true).mesh f ψ := fun k x v hk hv' => by
    have := hmeets k x v hk hv'
    obtain ⟨-, rfl⟩ := (hix k x).1 hk
    rw [hψ]
    simp only at this ⊢
    rw [if_neg, this]
    intro hk1
    have : k = 1 := by exact_mod_cast hk1
    rw [this, h1] at hv'
    cases hv'
  have hE2 := (total_energy hn r _ hwf hs ψ).1
  obtain ⟨-, hlt⟩ := hmin ψ _ hψm hE2
  have hle : ∀ E', TotalEnergy nrm (generateQuad nrm steep ((1 : Nat) : Int) ((1 : Nat) : Int) true).mesh ψ E' → E' ≤ E := by
    rintro E' ⟨en', g1', rfl⟩
    obtain ⟨en, g1, rfl⟩ := hE
    apply List.sum_le_sum
    intro x hx
    obtain ⟨e, ps, he, hps, hen⟩ := g1 x hx
    obtain ⟨e', ps', he', hps', hen'⟩ := g1' x hx
    rw [he] at he'
    cases he'
    rw [hps] at hps'
    cases hps'
    obtain ⟨i, j, hi', hj', rfl | rfl⟩ := grid_elem (steep : Quad K) 1 1 x e he
    · rw [(grid_corners hn (steep : Quad K) 1 1 one_pos one_pos i j hi' hj').1] at hps
      cases hps
      obtain rfl : i = 0 := by omega
      obtain rfl : j = 0 := by omega
      refine (steep_le hn 0 0 0 _ _ (f'.u.at' 1)).1 ?_ ?_
      · simpa [id2, v0, v3] using hen
      · simpa [id2, hψ, v0, v3] using hen'
    · rw [(grid_corners hn (steep : Quad K) 1 1 one_pos one_pos i j hi' hj').2] at hps
      cases hps
      obtain rfl : i = 0 := by omega
      obtain rfl : j = 0 := by omega
      refine (steep_le hn 1 0 0 _ _ 0).2 ?_ ?_
      · simpa [id2, v0, v2, v3] using hen
      · simpa [id2, hψ, v0, v2, v3] using hen'
  have hanch : ∀ x ∈ (generateQuad nrm (steep : Quad K) ((1 : Nat) : Int) ((1 : Nat) : Int) true).mesh.nodes.ids, Anchored (generateQuad nrm steep ((1 : Nat) : Int) ((1 : Nat) : Int) true).mesh f x := fun x hx => by
    obtain ⟨k', hk'⟩ := List.mem_iff_getElem?.1 hx
    obtain ⟨i, j, hi', hj', -, rfl⟩ := (grid_index hn (steep : Quad K) 1 1 one_pos one_pos k' x).1 hk'
    exact grid_anchored (steep : Quad K) 1 1 f 0 0 (by omega) (by omega) (.fixed 0 _ 1 ((grid_index hn (steep : Quad K) 1 1 one_pos one_pos _ _).2 ⟨0, 0, by omega, by omega, rfl, rfl⟩) h0) i j hi' hj' one_pos one_pos
  by_contra hne
  refine absurd (hlt hanch ⟨1, List.mem_of_getElem? ((hix 1 1).2 ⟨by norm_num, rfl⟩), ?_⟩) (not_lt.2 (hle _ hE2))
  rw [hψ]
  simp only [if_true]
  exact fun h => hne h.symm

/-- The prescribed values of the theorem. -/
example (r : ℝ) : ∃ f', steady realNorm r anySolver (fun _ => 0) (fun _ => 0) (generateQuad realNorm steep ((1 : Nat) : Int) ((1 : Nat) : Int) true).mesh plain
    ⟨.fem, ((SMap.empty.insert 0 1).insert 2 0).insert 3 0, .empty, ⟨4, fun _ => 0⟩⟩ = some f' ∧ f'.u.at' 1 = -(3 / 5) := by
  obtain ⟨f', h1, -, h2, -⟩ := C161_plate_bounds_rectangles isNorm_real r anySolver anySolver_sound (fun _ => 0) (fun _ => 0) plain (plain_ok _)
    ⟨.fem, ((SMap.empty.insert 0 1).insert 2 0).insert 3 0, .empty, ⟨4, fun _ => 0⟩⟩ rfl
    (fun i v h => by
      simp only [SMap.find?_insert] at h
      split_ifs at h
      all_goals first | (subst_vars; norm_num; done) | simp at h)
    (by simp [Equation.prescribed, SMap.find?_insert]) (by simp [Equation.prescribed, SMap.find?_insert]) (by simp [Equation.prescribed, SMap.find?_insert]) (by simp [Equation.prescribed, SMap.find?_insert])
  exact ⟨f', h1, h2⟩

end ENigMA
