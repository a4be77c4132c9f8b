import Verif.Pde.FemBlock

/-!
# C163: bounds in rectangular blocks, and blocks in time
-/

set_option linter.unusedSectionVars false
set_option autoImplicit false

namespace ENigMA
open Matrix FemOp FemThermalOp Fem FemHeat FdmHeat BasicMesher FemBlock
open FemPlate (one_of_list iota_at clamp clamp_sq clamp_id)
variable {K : Type} [Field K] [LinearOrder K] [IsStrictOrderedRing K]

namespace FemBlock

/-- The square of a vector along three perpendicular ones. -/
theorem space_square (g a b c : Vec3 K) (hab : a.dot b = 0) (hac : a.dot c = 0) (hbc : b.dot c = 0) (hv : c.dot (Vec3.cross b a) ≠ 0) :
    g.dot g * (a.dot a * b.dot b * c.dot c) = g.dot a * g.dot a * (b.dot b * c.dot c) + g.dot b * g.dot b * (a.dot a * c.dot c) + g.dot c * g.dot c * (a.dot a * b.dot b) := by
  -- Cramer's rule for `g`, dotted with itself
  have cr : ∀ x y : Vec3 K, (c.dot (Vec3.cross b a)) • x = (x.dot (Vec3.cross b a)) • c + (c.dot (Vec3.cross x a)) • b + (c.dot (Vec3.cross b x)) • a := fun x _ => by
    ext <;> simp [Vec3.dot, Vec3.cross] <;> ring
  have key : ∀ x : Vec3 K, (a.dot a * b.dot b * c.dot c) • x = (x.dot a * (b.dot b * c.dot c)) • a + (x.dot b * (a.dot a * c.dot c)) • b + (x.dot c * (a.dot a * b.dot b)) • c := fun x => by
    have e := cr x x
    have dl : ∀ t : Vec3 K, c.dot (Vec3.cross b a) * x.dot t = x.dot (Vec3.cross b a) * c.dot t + c.dot (Vec3.cross x a) * b.dot t + c.dot (Vec3.cross b x) * a.dot t := fun t => by
      have := congrArg (fun y => Vec3.dot y t) e
      simp only [Vec3.dot, Vec3.add_x, Vec3.add_y, Vec3.add_z, Vec3.smul_x, Vec3.smul_y, Vec3.smul_z] at this ⊢
      linarith
    have da := dl a
    have db := dl b
    have dc := dl c
    have sym : ∀ s t : Vec3 K, s.dot t = t.dot s := fun s t => by simp only [Vec3.dot]; ring
    rw [sym c a, hac, sym b a, hab, mul_zero, mul_zero, zero_add, zero_add] at da
    rw [sym c b, hbc, hab, mul_zero, mul_zero, zero_add, add_zero] at db
    rw [hbc, hac, mul_zero, mul_zero, add_zero, add_zero] at dc
    have hx : (c.dot (Vec3.cross b a)) • ((a.dot a * b.dot b * c.dot c) • x) =
        (c.dot (Vec3.cross b a)) • ((x.dot a * (b.dot b * c.dot c)) • a + (x.dot b * (a.dot a * c.dot c)) • b + (x.dot c * (a.dot a * b.dot b)) • c) := by
      rw [smul_comm, e]
      ext
      · simp only [Vec3.add_x, Vec3.smul_x]
        linear_combination (-(b.dot b * c.dot c) * a.x) * da + (-(a.dot a * c.dot c) * b.x) * db + (-(a.dot a * b.dot b) * c.x) * dc
      · simp only [Vec3.add_y, Vec3.smul_y]
        linear_combination (-(b.dot b * c.dot c) * a.y) * da + (-(a.dot a * c.dot c) * b.y) * db + (-(a.dot a * b.dot b) * c.y) * dc
      · simp only [Vec3.add_z, Vec3.smul_z]
        linear_combination (-(b.dot b * c.dot c) * a.z) * da + (-(a.dot a * c.dot c) * b.z) * db + (-(a.dot a * b.dot b) * c.z) * dc
    exact smul_right_injective _ hv hx
  have := congrArg (fun y => Vec3.dot g y) (key g)
  simp only [Vec3.dot, Vec3.add_x, Vec3.add_y, Vec3.add_z, Vec3.smul_x, Vec3.smul_y, Vec3.smul_z] at this ⊢
  linarith

/-- What is less steep along three perpendicular vectors has the smaller square. -/
theorem space_le (g g' a b c : Vec3 K) (hab : a.dot b = 0) (hac : a.dot c = 0) (hbc : b.dot c = 0) (hv : c.dot (Vec3.cross b a) ≠ 0) (ha : 0 < a.dot a) (hb : 0 < b.dot b) (hc : 0 < c.dot c)
    (h1 : g'.dot a * g'.dot a ≤ g.dot a * g.dot a) (h2 : g'.dot b * g'.dot b ≤ g.dot b * g.dot b) (h3 : g'.dot c * g'.dot c ≤ g.dot c * g.dot c) : g'.dot g' ≤ g.dot g := by
  have e := space_square g a b c hab hac hbc hv
  have e' := space_square g' a b c hab hac hbc hv
  have hp : 0 < a.dot a * b.dot b * c.dot c := by positivity
  refine le_of_mul_le_mul_right ?_ hp
  rw [e, e']
  have := mul_le_mul_of_nonneg_right h1 (mul_pos hb hc).le
  have := mul_le_mul_of_nonneg_right h2 (mul_pos ha hc).le
  have := mul_le_mul_of_nonneg_right h3 (mul_pos ha hb).le
  linarith

/-- Along the three edges of a cell, each tetrahedron has two corners that differ by that edge only. -/
theorem legs (a b c d : Nat × Nat × Nat) (hm : [a, b, c, d] ∈ cellElem true) :
    ∃ p q p' q' p'' q'' : Fin 4, ∀ (x y z : K) (s : Fin 4 → K),
      (((a.1 : K) - d.1) * x + ((a.2.1 : K) - d.2.1) * y + ((a.2.2 : K) - d.2.2) * z = s 0 - s 3) →
      (((b.1 : K) - d.1) * x + ((b.2.1 : K) - d.2.1) * y + ((b.2.2 : K) - d.2.2) * z = s 1 - s 3) →
      (((c.1 : K) - d.1) * x + ((c.2.1 : K) - d.2.1) * y + ((c.2.2 : K) - d.2.2) * z = s 2 - s 3) → x = s p - s q ∧ y = s p' - s q' ∧ z = s p'' - s q'' := by
  simp only [cellElem, if_true, tetPositions, cornerList, List.map_cons, List.map_nil, List.mem_cons, List.not_mem_nil, or_false,
    List.getD_cons_zero, List.getD_cons_succ, List.cons.injEq, and_true] at hm
  rcases hm with ⟨rfl, rfl, rfl, rfl⟩ | ⟨rfl, rfl, rfl, rfl⟩ | ⟨rfl, rfl, rfl, rfl⟩ | ⟨rfl, rfl, rfl, rfl⟩ | ⟨rfl, rfl, rfl, rfl⟩ | ⟨rfl, rfl, rfl, rfl⟩
  · refine ⟨2, 1, 0, 1, 3, 0, fun x y z s h1 h2 h3 => ?_⟩
    norm_num at h1 h2 h3; refine ⟨?_, ?_, ?_⟩ <;> linarith
  · refine ⟨0, 1, 3, 2, 2, 1, fun x y z s h1 h2 h3 => ?_⟩
    norm_num at h1 h2 h3; refine ⟨?_, ?_, ?_⟩ <;> linarith
  · refine ⟨0, 2, 3, 2, 0, 1, fun x y z s h1 h2 h3 => ?_⟩
    norm_num at h1 h2 h3; refine ⟨?_, ?_, ?_⟩ <;> linarith
  · refine ⟨2, 0, 2, 1, 3, 0, fun x y z s h1 h2 h3 => ?_⟩
    norm_num at h1 h2 h3; refine ⟨?_, ?_, ?_⟩ <;> linarith
  · refine ⟨2, 3, 0, 1, 2, 0, fun x y z s h1 h2 h3 => ?_⟩
    norm_num at h1 h2 h3; refine ⟨?_, ?_, ?_⟩ <;> linarith
  · refine ⟨0, 3, 0, 2, 2, 1, fun x y z s h1 h2 h3 => ?_⟩
    norm_num at h1 h2 h3; refine ⟨?_, ?_, ?_⟩ <;> linarith

/-- A box: three perpendicular edges. -/
structure Box (h : Hex K) : Prop where
  uv : (h.v1 - h.v0).dot (h.v3 - h.v0) = 0
  uw : (h.v1 - h.v0).dot (h.v4 - h.v0) = 0
  vw : (h.v3 - h.v0).dot (h.v4 - h.v0) = 0

section Grid
variable {nrm : Vec3 K → K} (hn : IsNorm nrm) (h : Hex K) (nu nv nw : Nat) (hu : 0 < nu) (hv : 0 < nv) (hw : 0 < nw)

include hn hu hv hw in
/-- Cutting off values does not raise the energy. -/
theorem block_clamp (hbox : Box h) (hvol : 0 < h.volume) (lo hi : K) (φ : Int → K) (E E' : K) (hE : TotalEnergy nrm (generateHex nrm h nu nv nw true).mesh φ E)
    (hE' : TotalEnergy nrm (generateHex nrm h nu nv nw true).mesh (fun x => clamp lo hi (φ x)) E') : E' ≤ E := by
  have hup : (0 : K) < nu := by exact_mod_cast hu
  have hvp : (0 : K) < nv := by exact_mod_cast hv
  have hwp : (0 : K) < nw := by exact_mod_cast hw
  have hnd := (C31_nodes hn h nu nv nw hu hv hw true).2.2.2.2.2
  obtain ⟨en, h1, rfl⟩ := hE
  obtain ⟨en', h1', rfl⟩ := hE'
  apply List.sum_le_sum
  intro x hx
  obtain ⟨e, ps, he, hps, hen⟩ := h1 x hx
  obtain ⟨e', ps', he', hps', hen'⟩ := h1' x hx
  rw [he] at he'
  cases he'
  rw [hps] at hps'
  cases hps'
  have hsim := block_simplex hn h nu nv nw hu hv hw hvol x e he
  obtain ⟨i, hi', j, hj', k, hk', a, b, c, d, hm, rfl⟩ := block_elem hn h nu nv nw hu hv hw x e he
  have hb : ∀ os ∈ cellElem true, ∀ o ∈ os, o.1 ≤ 1 ∧ o.2.1 ≤ 1 ∧ o.2.2 ≤ 1 := by decide
  have hb := hb _ hm
  have ga : ∀ o : Nat × Nat × Nat, o.1 ≤ 1 ∧ o.2.1 ≤ 1 ∧ o.2.2 ≤ 1 →
      (generateHex nrm h nu nv nw true).mesh.nodes.get? (cellNode nu nv i j k o) = some (blockPoint h nu nv nw (i + o.1) (j + o.2.1) (k + o.2.2)) :=
    fun o ho => hnd (i + o.1) (j + o.2.1) (k + o.2.2) (by omega) (by omega) (by omega)
  simp only [List.mapM_cons, List.mapM_nil, ga a (hb a (by simp)), ga b (hb b (by simp)), ga c (hb c (by simp)), ga d (hb d (by simp)),
    Option.bind_eq_bind, Option.bind_some, Option.pure_def, Option.some.injEq] at hps hsim
  subst hps
  obtain ⟨ps, rfl, hsim⟩ := hsim
  simp only [List.map_cons, List.map_nil] at hen hen'
  have dotP : ∀ (g : Vec3 K) (o o' : Nat × Nat × Nat), g.dot (blockPoint h nu nv nw (i + o.1) (j + o.2.1) (k + o.2.2) - blockPoint h nu nv nw (i + o'.1) (j + o'.2.1) (k + o'.2.2)) =
      ((o.1 : K) - o'.1) * (g.dot ((1 / (nu : K)) • (h.v1 - h.v0))) + ((o.2.1 : K) - o'.2.1) * (g.dot ((1 / (nv : K)) • (h.v3 - h.v0))) + ((o.2.2 : K) - o'.2.2) * (g.dot ((1 / (nw : K)) • (h.v4 - h.v0))) := fun g o o' => by
    simp only [blockPoint, Vec3.dot, Vec3.add_x, Vec3.add_y, Vec3.add_z, Vec3.sub_x, Vec3.sub_y, Vec3.sub_z, Vec3.smul_x, Vec3.smul_y, Vec3.smul_z]
    push_cast
    ring
  obtain ⟨p, q, p', q', p'', q'', hl⟩ := legs (K := K) a b c d hm
  have pos : ∀ (n : Nat) (w : Vec3 K), (0 : K) < n → w ≠ 0 → 0 < ((1 / (n : K)) • w).dot ((1 / (n : K)) • w) := fun n w hp hw => by
    refine lt_of_le_of_ne (Vec3.normSq_nonneg _) fun h0 => ?_
    exact smul_ne_zero (one_div_ne_zero hp.ne') hw (Vec3.normSq_eq_zero.1 h0.symm)
  have n1 : h.v1 - h.v0 ≠ 0 := fun h0 => by simp [Hex.volume, h0, Vec3.cross, Vec3.dot] at hvol
  have n3 : h.v3 - h.v0 ≠ 0 := fun h0 => by simp [Hex.volume, h0, Vec3.cross, Vec3.dot] at hvol
  have n4 : h.v4 - h.v0 ≠ 0 := fun h0 => by simp [Hex.volume, h0, Vec3.cross, Vec3.dot] at hvol
  have perp : ∀ (n n' : Nat) (s t : Vec3 K), s.dot t = 0 → ((1 / (n : K)) • s).dot ((1 / (n' : K)) • t) = 0 := fun n n' s t h0 => by
    have : ((1 / (n : K)) • s).dot ((1 / (n' : K)) • t) = 1 / (n : K) * (1 / n') * s.dot t := by simp only [Vec3.dot, Vec3.smul_x, Vec3.smul_y, Vec3.smul_z]; ring
    rw [this, h0, mul_zero]
  have tri : ((1 / (nw : K)) • (h.v4 - h.v0)).dot (Vec3.cross ((1 / (nv : K)) • (h.v3 - h.v0)) ((1 / (nu : K)) • (h.v1 - h.v0))) ≠ 0 := by
    have : ((1 / (nw : K)) • (h.v4 - h.v0)).dot (Vec3.cross ((1 / (nv : K)) • (h.v3 - h.v0)) ((1 / (nu : K)) • (h.v1 - h.v0))) = 1 / (nw : K) * (1 / nv) * (1 / nu) * h.volume := by
      simp only [Hex.volume, Vec3.dot, Vec3.cross, Vec3.smul_x, Vec3.smul_y, Vec3.smul_z]; ring
    rw [this]; positivity
  generalize en x = E1 at hen ⊢
  generalize en' x = E2 at hen' ⊢
  obtain ⟨⟩ | ⟨⟩ | ⟨_, _, _, _, hV⟩ := hsim
  obtain ⟨⟩ | ⟨⟩ | ⟨_, _, _, _, g, _, _, _, _, k1, k2, k3⟩ := hen
  obtain ⟨⟩ | ⟨⟩ | ⟨_, _, _, _, g', _, _, _, _, k1', k2', k3'⟩ := hen'
  refine mul_le_mul_of_nonneg_left ?_ (by linarith)
  rw [dotP] at k1 k2 k3 k1' k2' k3'
  obtain ⟨l1, l2, l3⟩ := hl _ _ _ ![φ (cellNode nu nv i j k a), φ (cellNode nu nv i j k b), φ (cellNode nu nv i j k c), φ (cellNode nu nv i j k d)] k1 k2 k3
  obtain ⟨l1', l2', l3'⟩ := hl _ _ _ (fun t => clamp lo hi (![φ (cellNode nu nv i j k a), φ (cellNode nu nv i j k b), φ (cellNode nu nv i j k c), φ (cellNode nu nv i j k d)] t)) k1' k2' k3'
  refine space_le g g' _ _ _ (perp _ _ _ _ hbox.uv) (perp _ _ _ _ hbox.uw) (perp _ _ _ _ hbox.vw) tri (pos _ _ hup n1) (pos _ _ hvp n3) (pos _ _ hwp n4) ?_ ?_ ?_
  · rw [l1, l1']; exact clamp_sq _ _ _ _
  · rw [l2, l2']; exact clamp_sq _ _ _ _
  · rw [l3, l3']; exact clamp_sq _ _ _ _

include hn hu hv hw in
theorem block_covered : Covered (generateHex nrm h nu nv nw true).mesh := fun x hx => by
  obtain ⟨n, hn'⟩ := List.mem_iff_getElem?.1 hx
  obtain ⟨i, j, k, hi, hj, hk, -, rfl⟩ := (block_index hn h nu nv nw hu hv hw n x).1 hn'
  have cell : ∀ n t, 0 < n → t ≤ n → ∃ s o, s < n ∧ o ≤ 1 ∧ t = s + o := fun n t h0 ht => by
    rcases Nat.lt_or_ge t n with h | h
    · exact ⟨t, 0, h, by omega, rfl⟩
    · exact ⟨t - 1, 1, by omega, le_rfl, by omega⟩
  obtain ⟨i, o, h1, h2, rfl⟩ := cell nu i hu hi
  obtain ⟨j, o', h1', h2', rfl⟩ := cell nv j hv hj
  obtain ⟨k, o'', h1'', h2'', rfl⟩ := cell nw k hw hk
  have common : ∀ o ∈ cornerList, ∃ t < 6, ∃ os ∈ (cellElem true)[t]?, o ∈ os := by decide
  have corner : (o, o', o'') ∈ cornerList := by interval_cases o <;> interval_cases o' <;> interval_cases o'' <;> decide
  obtain ⟨t, ht, os, hos, hmem⟩ := common _ corner
  obtain ⟨-, -, -, -, -, -, hel⟩ := build3_ok h.v0 ((1 / (nu : K)) • (h.v1 - h.v0)) ((1 / (nv : K)) • (h.v3 - h.v0)) ((1 / (nw : K)) • (h.v4 - h.v0)) nu nv nw true
  rw [generateHex_mesh hn h nu nv nw hu hv hw true]
  refine ⟨_, { elementType := .tetrahedron, nodeIds := os.map (cellNode nu nv i j k) }, (hel _ _).2 ⟨i, h1, j, h1', k, h1'', t, ht, rfl, ?_⟩, List.mem_map.2 ⟨_, hmem, rfl⟩⟩
  rw [hexCell_eq, List.getElem?_map, Option.mem_def.1 hos]; rfl

end Grid
end FemBlock

/-- **C163, bounds in a box.** In every box with perpendicular edges, divided into tetrahedra by the mesher in any way: if at least one node has a prescribed value, and all prescribed values are between
`lo` and `hi`, so are the temperatures at all nodes. -/
theorem C163_bounds {nrm : Vec3 K → K} (hn : IsNorm nrm) (r : K) (solver : Sys K → Nat → K) (hS : Sound solver) (junk junk' : Nat → K) (h : Hex K) (hbox : Box h) (hvol : 0 < h.volume)
    (nu nv nw : Nat) (hu : 0 < nu) (hv : 0 < nv) (hw : 0 < nw) (pf : PdeField K) (hno : NoConditions pf (generateHex nrm h nu nv nw true).mesh)
    (f : EqField K) (hm : f.method = .fem) (hf : IndicesOk f.uFixed ((nu + 1) * (nv + 1) * (nw + 1))) (hone : ∃ n v, Equation.prescribed f n = some v)
    (lo hi : K) (hb : ∀ n v, Equation.prescribed f n = some v → lo ≤ v ∧ v ≤ hi) :
    ∃ f', steady nrm r solver junk junk' (generateHex nrm h nu nv nw true).mesh pf f = some f' ∧ f'.u.size = (nu + 1) * (nv + 1) * (nw + 1) ∧
      (∀ n v, Equation.prescribed f n = some v → f'.u.at' n = v) ∧ ∀ n < (nu + 1) * (nv + 1) * (nw + 1), lo ≤ f'.u.at' n ∧ f'.u.at' n ≤ hi := by
  obtain ⟨hwf, hrt, -, hids, -, hnd⟩ := C31_nodes hn h nu nv nw hu hv hw true
  have hcnt := block_count hn h nu nv nw hu hv hw
  have hs := block_simplex hn h nu nv nw hu hv hw hvol
  have hidx : ∀ n, n < (nu + 1) * (nv + 1) * (nw + 1) → (generateHex nrm h nu nv nw true).mesh.nodes.idAt? n = some (n : Int) := fun n hn' => by
    show (generateHex nrm h nu nv nw true).mesh.nodes.ids[n]? = _
    rw [hids, iota_at]; exact ⟨hn', rfl⟩
  have hin : ∀ n v, Equation.prescribed f n = some v → n < (nu + 1) * (nv + 1) * (nw + 1) := fun n v h' => by
    have := (hf (n : Int) v h').2
    exact_mod_cast this
  obtain ⟨f', h1, h2, h3⟩ := C144_least_energy hn r solver hS junk junk' (generateHex nrm h nu nv nw true).mesh hwf hrt hs pf hno f hm (by rw [hcnt]; exact hf)
  have hφ : Holds (generateHex nrm h nu nv nw true).mesh f'.u.at' (fun x => f'.u.at' x.toNat) := fun n x hn' => by
    have hk2 : (Mesh.iota ((nu + 1) * (nv + 1) * (nw + 1)))[n]? = some x := by rw [← hids]; exact hn'
    obtain ⟨-, rfl⟩ := (iota_at _ _ _).1 hk2
    rfl
  obtain ⟨hmeets, E, hE, hmin⟩ := h3 _ hφ
  have hval : ∀ n v, Equation.prescribed f n = some v → f'.u.at' n = v := fun n v h' => hmeets n n v (hidx n (hin n v h')) h'
  have hclamp : Meets (generateHex nrm h nu nv nw true).mesh f (fun x => clamp lo hi (f'.u.at' x.toNat)) := fun n x v hn' hv' => by
    have := hmeets n x v hn' hv'
    simp only at this ⊢
    rw [this]
    exact clamp_id lo hi v (hb n v hv').1 (hb n v hv').2
  obtain ⟨hle, hlt⟩ := hmin _ _ hclamp (total_energy hn r _ hwf hs _).1
  have hnot := block_clamp hn h nu nv nw hu hv hw hbox hvol lo hi _ _ _ hE (total_energy hn r _ hwf hs _).1
  obtain ⟨n0, v0, hnv⟩ := hone
  have hanch := block_all hn h nu nv nw hu hv hw f hf ⟨_, _, hnv⟩
  refine ⟨f', h1, by rw [h2, hcnt], hval, fun n hn' => ?_⟩
  have hsame : clamp lo hi (f'.u.at' n) = f'.u.at' n := by
    by_contra hne
    exact absurd (hlt hanch ⟨(n : Int), List.mem_of_getElem? (hidx n hn'), by simpa using hne⟩) (not_lt.2 hnot)
  have hlohi : lo ≤ hi := (hb n0 v0 hnv).1.trans (hb n0 v0 hnv).2
  rw [← hsame]
  exact ⟨le_max_left _ _, max_le hlohi (min_le_left _ _)⟩

/-- **C163, blocks in time.** With at least one prescribed node, from whatever initial temperatures, with time steps of any length and any material, the temperatures tend to those of the steady program at every
node; the squares of the differences fall like the powers of a number below one, which depends on neither the initial temperatures nor the node. -/
theorem C163_settles {nrm : Vec3 K → K} (hn : IsNorm nrm) (r : K) (solver : Sys K → Nat → K) (hS : Sound solver) (junk junk' : Nat → K) (h : Hex K) (hvol : 0 < h.volume)
    (nu nv nw : Nat) (hu : 0 < nu) (hv : 0 < nv) (hw : 0 < nw) (pf : PdeField K) (hno : NoConditions pf (generateHex nrm h nu nv nw true).mesh)
    (P : Par K) (hrc : 0 < P.rc) (hdt : 0 < P.dt) (hk : 0 < P.k) (fixed : SMap Int K) (hf : IndicesOk fixed ((nu + 1) * (nv + 1) * (nw + 1))) (hone : ∃ i v, fixed.find? i = some v) :
    ∃ p, 0 ≤ p ∧ p < 1 ∧ ∀ f : EqField K, f.method = .fem → f.uFixed = fixed →
      ∃ fs, steady nrm r solver junk junk' (generateHex nrm h nu nv nw true).mesh pf f = some fs ∧ ∀ n < (nu + 1) * (nv + 1) * (nw + 1), ∃ C, ∀ t,
        ∃ f', steps nrm r solver junk junk' (generateHex nrm h nu nv nw true).mesh pf P t f = some f' ∧ (f'.u.at' n - fs.u.at' n) * (f'.u.at' n - fs.u.at' n) ≤ C * p ^ t := by
  have hids := (C31_nodes hn h nu nv nw hu hv hw true).2.2.2.1
  have hcnt := block_count hn h nu nv nw hu hv hw
  have hidx : ∀ n x, (generateHex nrm h nu nv nw true).mesh.nodes.idAt? n = some x ↔ n < (nu + 1) * (nv + 1) * (nw + 1) ∧ x = n := fun n x => by
    show (generateHex nrm h nu nv nw true).mesh.nodes.ids[n]? = _ ↔ _
    rw [hids, iota_at]
  obtain ⟨p, p0, p1, h'⟩ := C145_limit hn r solver hS junk junk' _ (block_good hn h nu nv nw hu hv hw hvol) (block_covered hn h nu nv nw hu hv hw) pf hno P hrc hdt hk ⟨.fem, fixed, .empty, ⟨0, fun _ => 0⟩⟩
    (by rw [hcnt]; exact hf) (block_all hn h nu nv nw hu hv hw _ hf hone)
  refine ⟨p, p0, p1, fun f hm hfix => ?_⟩
  obtain ⟨fs, h1, h2⟩ := h' f hm hfix
  refine ⟨fs, h1, fun n hn' => ?_⟩
  obtain ⟨C, hC⟩ := h2 (n : Int) (List.mem_of_getElem? ((hidx n n).2 ⟨hn', rfl⟩))
  refine ⟨C, fun t => ?_⟩
  obtain ⟨f', h3, h4⟩ := hC t
  refine ⟨f', h3, ?_⟩
  have := h4 (fun x => fs.u.at' x.toNat) (fun x => f'.u.at' x.toNat) (fun k x hx => by obtain ⟨-, rfl⟩ := (hidx k x).1 hx; rfl) (fun k x hx => by obtain ⟨-, rfl⟩ := (hidx k x).1 hx; rfl)
  simpa using this

/-! ### The hypotheses are met -/

namespace FemBlock

/-- A box of three by two by one. Its volume is positive in the sense of `volume()`, so its third edge points down. -/
noncomputable def brick : Hex ℝ := ⟨⟨0, 0, 0⟩, ⟨3, 0, 0⟩, ⟨3, 2, 0⟩, ⟨0, 2, 0⟩, ⟨0, 0, -1⟩, ⟨3, 0, -1⟩, ⟨3, 2, -1⟩, ⟨0, 2, -1⟩⟩

theorem brick_volume : 0 < brick.volume := by norm_num [brick, Hex.volume, Vec3.dot, Vec3.cross]

theorem brick_box : Box brick := by constructor <;> norm_num [brick, Vec3.dot]

/-- Node 0 at minus one, node 5 at four. -/
def twoNodes : SMap Int ℝ := (SMap.empty.insert 0 (-1)).insert 5 4

theorem twoNodes_ok (n : Nat) (h : 6 ≤ n) : IndicesOk twoNodes n := fun i v hv => by
  simp only [twoNodes, SMap.find?_insert, SMap.find?_empty] at hv
  split_ifs at hv <;> omega

/-- Linear temperatures at all nodes but the inner one of two by two by two cells. -/
noncomputable def skin : SMap Int ℝ := (List.range 27).foldl (fun s (n : Nat) => if n = 13 then s else s.insert (n : Int)
  (1 + Vec3.dot ⟨2, 3, 4⟩ (blockPoint brick 2 2 2 (n % 3) (n / 3 % 3) (n / 9)))) .empty

theorem skin_find (N : Nat) (i : Int) : ((List.range N).foldl (fun s (n : Nat) => if n = 13 then s else s.insert (n : Int)
    (1 + Vec3.dot ⟨2, 3, 4⟩ (blockPoint brick 2 2 2 (n % 3) (n / 3 % 3) (n / 9)))) (SMap.empty : SMap Int ℝ)).find? i =
      if 0 ≤ i ∧ i < N ∧ i ≠ 13 then some (1 + Vec3.dot ⟨2, 3, 4⟩ (blockPoint brick 2 2 2 (i.toNat % 3) (i.toNat / 3 % 3) (i.toNat / 9))) else none := by
  induction N with
  | zero => rw [if_neg (by omega)]; rfl
  | succ N ih =>
    rw [List.range_succ, List.foldl_append, List.foldl_cons, List.foldl_nil]
    by_cases h13 : N = 13
    · rw [if_pos h13, ih]
      split_ifs <;> first | rfl | omega
    · rw [if_neg h13, SMap.find?_insert, ih]
      by_cases hi : i = N
      · subst hi
        rw [if_pos rfl, if_pos (by omega), Int.toNat_natCast]
      · rw [if_neg hi]
        split_ifs <;> first | rfl | omega

theorem skin_at (i j k : Nat) (hi : i ≤ 2) (hj : j ≤ 2) (hk : k ≤ 2) : skin.find? ((at3 2 2 i j k : Nat) : Int) =
    if i = 1 ∧ j = 1 ∧ k = 1 then none else some (1 + Vec3.dot ⟨2, 3, 4⟩ (blockPoint brick 2 2 2 i j k)) := by
  unfold skin
  rw [skin_find, Int.toNat_natCast]
  have e1 : at3 2 2 i j k % 3 = i := by unfold at3; omega
  have e2 : at3 2 2 i j k / 3 % 3 = j := by unfold at3; omega
  have e3 : at3 2 2 i j k / 9 = k := by unfold at3; omega
  have e4 : at3 2 2 i j k < 27 := by unfold at3; omega
  have e5 : at3 2 2 i j k = 13 ↔ i = 1 ∧ j = 1 ∧ k = 1 := by unfold at3; omega
  rw [e1, e2, e3]
  by_cases h : i = 1 ∧ j = 1 ∧ k = 1
  · rw [if_pos h, if_neg]
    have := e5.2 h
    omega
  · rw [if_neg h, if_pos]
    have := mt e5.1 h
    omega

end FemBlock

/-- The middle of a brick has the temperature of the linear function there. -/
example (r : ℝ) : ∃ f', steady realNorm r anySolver (fun _ => 0) (fun _ => 0) (generateHex realNorm brick ((2 : Nat) : Int) ((2 : Nat) : Int) ((2 : Nat) : Int) true).mesh plain ⟨.fem, skin, .empty, ⟨27, fun _ => 0⟩⟩ = some f' ∧
    f'.u.at' 13 = 5 := by
  have hpre : ∀ i j k, i ≤ 2 → j ≤ 2 → k ≤ 2 → Equation.prescribed ⟨.fem, skin, .empty, ⟨27, fun _ => 0⟩⟩ (at3 2 2 i j k) =
      if i = 1 ∧ j = 1 ∧ k = 1 then none else some (1 + Vec3.dot ⟨2, 3, 4⟩ (blockPoint brick 2 2 2 i j k)) := fun i j k hi hj hk => skin_at i j k hi hj hk
  obtain ⟨f', h1, -, h2⟩ := C163_linear isNorm_real r anySolver anySolver_sound (fun _ => 0) (fun _ => 0) brick brick_volume 2 2 2 (by norm_num) (by norm_num) (by norm_num) plain (plain_ok _)
    ⟨.fem, skin, .empty, ⟨27, fun _ => 0⟩⟩ rfl (fun i v hv => by
      have hv' : skin.find? i = some v := hv
      unfold skin at hv'
      rw [skin_find] at hv'
      split_ifs at hv' with h
      omega) 1 ⟨2, 3, 4⟩
    (fun i j k hi hj hk hs => by
      rw [hpre i j k hi hj hk, if_neg (by unfold OnSkin at hs; omega)]
      simp)
    (fun i j k v hi hj hk hv => by
      rw [hpre i j k hi hj hk] at hv
      split_ifs at hv
      exact (Option.some.inj hv).symm)
  refine ⟨f', h1, (h2 1 1 1 (by norm_num) (by norm_num) (by norm_num)).trans ?_⟩
  norm_num [blockPoint, brick, Vec3.dot]

/-- A brick with two prescribed nodes is nowhere colder than minus one or hotter than four. -/
example (r : ℝ) : ∃ f', steady realNorm r anySolver (fun _ => 0) (fun _ => 0) (generateHex realNorm brick ((7 : Nat) : Int) ((3 : Nat) : Int) ((2 : Nat) : Int) true).mesh plain ⟨.fem, twoNodes, .empty, ⟨96, fun _ => 0⟩⟩ = some f' ∧
    f'.u.at' 5 = 4 ∧ -1 ≤ f'.u.at' 40 ∧ f'.u.at' 40 ≤ 4 := by
  have hpre : ∀ n : Nat, Equation.prescribed ⟨.fem, twoNodes, .empty, ⟨96, fun _ => 0⟩⟩ n = if n = 5 then some 4 else if n = 0 then some (-1) else none := fun n => by
    simp only [Equation.prescribed, twoNodes, SMap.find?_insert, SMap.find?_empty]
    norm_cast
  obtain ⟨f', h1, -, h2, h3⟩ := C163_bounds isNorm_real r anySolver anySolver_sound (fun _ => 0) (fun _ => 0) brick brick_box brick_volume 7 3 2 (by norm_num) (by norm_num) (by norm_num) plain (plain_ok _)
    ⟨.fem, twoNodes, .empty, ⟨96, fun _ => 0⟩⟩ rfl (twoNodes_ok _ (by norm_num)) ⟨5, 4, by rw [hpre, if_pos rfl]⟩ (-1) 4 (fun n v h => by
      rw [hpre] at h
      split_ifs at h <;> rw [← Option.some.inj h] <;> norm_num)
  exact ⟨f', h1, h2 5 4 (by rw [hpre, if_pos rfl]), h3 40 (by norm_num)⟩

noncomputable example (r : ℝ) := C163_settles isNorm_real r anySolver anySolver_sound (fun _ => 0) (fun _ => 0) brick brick_volume 7 3 2 (by norm_num) (by norm_num) (by norm_num) plain (plain_ok _)
  ⟨1, 1, 1 / 100⟩ (by norm_num) (by norm_num) (by norm_num) twoNodes (twoNodes_ok _ (by norm_num)) ⟨5, 4, by simp [twoNodes, SMap.find?_insert]⟩

end ENigMA
