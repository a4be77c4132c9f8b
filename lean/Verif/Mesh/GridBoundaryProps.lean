import Verif.Mesh.GridBoundary

/-!
# The boundary of a generated block (C159)
-/

set_option linter.unusedSectionVars false
set_option autoImplicit false

namespace ENigMA
open BasicMesher Mesh HexMesh

variable {K : Type} [Field K] [LinearOrder K] [IsStrictOrderedRing K] [FloorRing K] {nrm : Vec3 K → K}

/-- **C159, conforming.** The mesh of a hexahedron has no hanging face: of all faces of its elements at most two coincide, and two that coincide run through their sides in opposite directions. -/
theorem C159_hexahedron (hn : IsNorm nrm) (h : Hex K) (nu nv nw : Nat) (hu : 0 < nu) (hv : 0 < nv) (hw : 0 < nw) (d : Bool) : Conforming (generateHex nrm h nu nv nw d).mesh := by
  rw [generateHex_mesh hn h nu nv nw hu hv hw d]
  exact build3_good _ _ _ _ nu nv nw d

/-- **C159, boxes.** The same for the mesh of a box with a given element size. -/
theorem C159_box (hn : IsNorm nrm) (b : BBox K) (size : K) (hx : b.min.x ≤ b.max.x) (hy : b.min.y ≤ b.max.y) (hz : b.min.z ≤ b.max.z) (hs : 0 < size) (d : Bool) (g : Gen K) (hg : generateBox nrm b size d = some g) :
    Conforming g.mesh := by
  obtain ⟨nu, nv, nw, -, -, -, u, v, w, hg', -⟩ := generateBox_mesh hn b size hx hy hz hs d
  rw [hg] at hg'
  obtain rfl := Option.some.inj hg'
  exact build3_good _ _ _ _ nu nv nw d

/-- The search for coinciding faces is defined on the mesh of a hexahedron that is not flat. -/
theorem generateHex_good (hn : IsNorm nrm) (h : Hex K) (nu nv nw : Nat) (hu : 0 < nu) (hv : 0 < nv) (hw : 0 < nw) (d : Bool) (mc : HashGrid.Machine K) (he : 0 < mc.eps) (hb : 0 < mc.big)
    (hfin : ∀ n v, (generateHex nrm h nu nv nw d).mesh.nodes.get? n = some v → v.Bounded mc.big) (hvol : h.volume ≠ 0) : GoodFaces mc (generateHex nrm h nu nv nw d).mesh := by
  refine ⟨he, hb, hfin, .inr (.inr ?_)⟩
  rw [generateHex_mesh hn h nu nv nw hu hv hw d]
  refine build3_spread _ _ _ _ nu nv nw d hu hv hw fun h0 => hvol ?_
  have hu0 : (nu : K) ≠ 0 := by exact_mod_cast hu.ne'
  have hv0 : (nv : K) ≠ 0 := by exact_mod_cast hv.ne'
  have hw0 : (nw : K) ≠ 0 := by exact_mod_cast hw.ne'
  have key : ((nu : K) * nv * nw) * ((1 / (nw : K)) • (h.v4 - h.v0)).dot
      (Vec3.cross ((1 / (nv : K)) • (h.v3 - h.v0)) ((1 / (nu : K)) • (h.v1 - h.v0))) = h.volume := by
    simp [Hex.volume, Vec3.dot, Vec3.cross]; field_simp
  rw [← key, h0, mul_zero]

/-- **C159, watertight.** Generating the mesh of a hexahedron and extracting its boundary gives a surface without an open side, whatever the numbers of divisions. -/
theorem C159_watertight (hn : IsNorm nrm) (h : Hex K) (nu nv nw : Nat) (hu : 0 < nu) (hv : 0 < nv) (hw : 0 < nw) (d : Bool) (mc : HashGrid.Machine K) (he : 0 < mc.eps) (hb : 0 < mc.big)
    (hfin : ∀ n v, (generateHex nrm h nu nv nw d).mesh.nodes.get? n = some v → v.Bounded mc.big) (hvol : h.volume ≠ 0) (tol : K) (htol : 0 ≤ tol) :
    ∃ b m', extractBoundary mc (generateHex nrm h nu nv nw d).mesh tol = some (b, m') ∧ (∀ p q, (sidesOf b).count (p, q) = (sidesOf b).count (q, p)) ∧
      (GoodFaces mc b → ∃ b', generateFaces mc b tol = some b' ∧ b'.nbBoundary = 0 ∧ checkOpen b' = some false) := by
  have hg := generateHex_good hn h nu nv nw hu hv hw d mc he hb hfin hvol
  have hwf := (C31_nodes hn h nu nv nw hu hv hw d).1
  have hc := C159_hexahedron hn h nu nv nw hu hv hw d
  obtain ⟨b, m', hb, h1⟩ := C158_closed mc _ hwf hc hg tol htol
  refine ⟨b, m', hb, h1, fun gb => ?_⟩
  obtain ⟨b', k1, k2, -, k4⟩ := C158_watertight mc _ hwf hc hg tol tol htol htol b m' hb gb
  exact ⟨b', k1, k2, k4⟩

/-- **C159, volume.** The surface of the mesh of tetrahedra encloses, sign included, what `volume()` says of the given hexahedron: six times the volume is the sum over the triangles of six times the volume of the tetrahedron each makes with the origin. -/
theorem C159_volume (hn : IsNorm nrm) (h : Hex K) (nu nv nw : Nat) (hu : 0 < nu) (hv : 0 < nv) (hw : 0 < nw) (mc : HashGrid.Machine K) (he : 0 < mc.eps) (hb : 0 < mc.big)
    (hfin : ∀ n v, (generateHex nrm h nu nv nw true).mesh.nodes.get? n = some v → v.Bounded mc.big) (hvol : h.volume ≠ 0) (tol : K) (htol : 0 ≤ tol) :
    ∃ b m', extractBoundary mc (generateHex nrm h nu nv nw true).mesh tol = some (b, m') ∧ sumOf b (cone6 b) = 6 * h.volume := by
  have hg := generateHex_good hn h nu nv nw hu hv hw true mc he hb hfin hvol
  clear hfin
  obtain ⟨hwf, -, -, -, hids, -⟩ := C31_nodes hn h nu nv nw hu hv hw true
  have hc := C159_hexahedron hn h nu nv nw hu hv hw true
  have hvols := C31_volumes hn h nu nv nw hu hv hw true
  have hT : ∀ id e, (generateHex nrm h nu nv nw true).mesh.elements.get? id = some e → e.elementType = .tetrahedron := by
    rw [generateHex_mesh hn h nu nv nw hu hv hw true]
    intro id e he
    obtain ⟨-, ht, -⟩ := build3_tets _ _ _ _ nu nv nw id e he
    exact ht
  obtain ⟨b, m', hb, hsum⟩ := C158_volume mc _ hwf hc hT hg tol htol
  refine ⟨b, m', hb, ?_⟩
  rw [hsum]
  generalize (generateHex nrm h nu nv nw true).mesh = m at *
  have hcnt : m.elements.count = m.elements.ids.length := rfl
  have hpos : 0 < m.elements.ids.length := by
    rw [hids]
    simp only [iota, List.length_map, List.length_range, if_true]
    positivity
  have hk : (m.elements.count : K) ≠ 0 := by rw [hcnt]; exact_mod_cast hpos.ne'
  have hterm : ∀ x ∈ m.elements.ids, ((m.elements.get? x).map fun e => tet6 m e.nodeIds).getD 0 = - (6 * (h.volume / (m.elements.count : K))) := by
    intro x hx
    obtain ⟨e, he⟩ := (hwf.elements.2 x).1 hx
    obtain ⟨V, h1, h2⟩ := hvols x e he
    rw [he, Option.map_some, Option.getD_some, ← h2, mul_div_cancel_left₀ _ hk]
    have ht := hT x e he
    have hl := (hc.solid x e he).2.1
    obtain ⟨ty, ids, fids⟩ := e
    dsimp only at ht hl h1 ⊢
    subst ht
    simp only [ElementType.nbNodes] at hl
    match ids, hl with
    | [p, q, r, s], _ =>
      simp only [Mesh.volumeOf, List.mapM_cons, List.mapM_nil, Option.bind_eq_bind, Option.pure_def] at h1
      cases hp : m.nodes.get? p with
      | none => rw [hp] at h1; simp at h1
      | some P =>
        cases hq : m.nodes.get? q with
        | none => rw [hp, hq] at h1; simp at h1
        | some Q =>
          cases hr : m.nodes.get? r with
          | none => rw [hp, hq, hr] at h1; simp at h1
          | some R =>
            cases hs : m.nodes.get? s with
            | none => rw [hp, hq, hr, hs] at h1; simp at h1
            | some S =>
              rw [hp, hq, hr, hs] at h1
              simp only [Option.bind_some, Option.some.injEq] at h1
              subst h1
              simp only [tet6, Mesh.posOf, hp, hq, hr, hs, Option.getD_some, Tet.volume, det4one, det4, det3, Vec3.dot, Vec3.cross_x, Vec3.cross_y, Vec3.cross_z, Vec3.sub_x, Vec3.sub_y, Vec3.sub_z]
              ring
  unfold sumOf
  rw [List.map_congr_left hterm, List.map_const', List.sum_replicate, nsmul_eq_mul, ← hcnt]
  field_simp

/-- A skew block, cut into 2 × 3 × 4 cells, meets the hypotheses. -/
noncomputable def skewBlock : Hex ℝ := ⟨⟨0, 0, 0⟩, ⟨2, 0, 0⟩, ⟨3, 3, 0⟩, ⟨1, 3, 0⟩, ⟨0, 1, 4⟩, ⟨2, 1, 4⟩, ⟨3, 4, 4⟩, ⟨1, 4, 4⟩⟩

theorem skewBlock_volume : skewBlock.volume = -24 := by
  simp [skewBlock, Hex.volume, Vec3.dot, Vec3.cross]
  norm_num

theorem skewBlock_bounded (d : Bool) (n : Int) (v : Vec3 ℝ) (h : (generateHex realNorm skewBlock 2 3 4 d).mesh.nodes.get? n = some v) : v.Bounded 100 := by
  obtain ⟨hwf, -, -, hids, -, hget⟩ := C31_nodes isNorm_real skewBlock 2 3 4 (by norm_num) (by norm_num) (by norm_num) d
  obtain ⟨i, j, k, hi, hj, hk, rfl⟩ := grid_point 2 3 4 n (hids ▸ (hwf.nodes.2 n).2 ⟨v, h⟩)
  have := hget i j k hi hj hk
  have e := Option.some.inj (h.symm.trans this)
  subst e
  have a1 : (i : ℝ) ≤ 2 := by exact_mod_cast hi
  have a2 : (j : ℝ) ≤ 3 := by exact_mod_cast hj
  have a3 : (k : ℝ) ≤ 4 := by exact_mod_cast hk
  have b1 : (0 : ℝ) ≤ i := Nat.cast_nonneg i
  have b2 : (0 : ℝ) ≤ j := Nat.cast_nonneg j
  have b3 : (0 : ℝ) ≤ k := Nat.cast_nonneg k
  refine ⟨⟨?_, ?_⟩, ⟨?_, ?_⟩, ⟨?_, ?_⟩⟩ <;> simp [skewBlock] <;> linarith

example (c : Nat → Nat) : ∃ b m', extractBoundary ⟨1, 100, c, none⟩ (generateHex realNorm skewBlock 2 3 4 true).mesh 0 = some (b, m') ∧ sumOf b (cone6 b) = -144 := by
  obtain ⟨b, m', h1, h2⟩ := C159_volume isNorm_real skewBlock 2 3 4 (by norm_num) (by norm_num) (by norm_num) ⟨1, 100, c, none⟩ one_pos (by norm_num) (skewBlock_bounded true)
    (by rw [skewBlock_volume]; norm_num) 0 le_rfl
  exact ⟨b, m', h1, by rw [h2, skewBlock_volume]; norm_num⟩

example (c : Nat → Nat) : ∃ b m', extractBoundary ⟨1, 100, c, none⟩ (generateHex realNorm skewBlock 2 3 4 false).mesh 0 = some (b, m') ∧ ∀ p q, (sidesOf b).count (p, q) = (sidesOf b).count (q, p) := by
  obtain ⟨b, m', h1, h2, -⟩ := C159_watertight isNorm_real skewBlock 2 3 4 (by norm_num) (by norm_num) (by norm_num) false ⟨1, 100, c, none⟩ one_pos (by norm_num) (skewBlock_bounded false)
    (by rw [skewBlock_volume]; norm_num) 0 le_rfl
  exact ⟨b, m', h1, h2⟩

end ENigMA
