import Verif.Pde.FemPlateBounds
import Verif.Pde.FemHeatPatch
import Verif.Pde.FemHeatTimeLimit
import Verif.Pde.FemHeatExamples
import Verif.Mesh.HexMesherProps

/-!
# C163: generated blocks of tetrahedra

The mesher of hexahedra (C31) and the programs for conduction (C144, C145), one after the other.
-/

set_option linter.unusedSectionVars false
set_option autoImplicit false

namespace ENigMA
open Matrix FemOp FemThermalOp Fem FemHeat FdmHeat BasicMesher
open FemPlate (one_of_list iota_at clamp clamp_sq clamp_id)
variable {K : Type} [Field K] [LinearOrder K] [IsStrictOrderedRing K]

namespace FemBlock

/-! ### Specification -/

/-- The index of the node `(i, j, k)` of the grid. -/
def at3 (nu nv i j k : Nat) : Nat := (nu + 1) * (nv + 1) * k + (nu + 1) * j + i

/-- The node `(i, j, k)` of the grid. -/
def blockPoint (h : Hex K) (nu nv nw i j k : Nat) : Vec3 K := h.v0 + ((i : K) / nu) • (h.v1 - h.v0) + ((j : K) / nv) • (h.v3 - h.v0) + ((k : K) / nw) • (h.v4 - h.v0)

/-- The grid node is on a side of the block. -/
def OnSkin (nu nv nw i j k : Nat) : Prop := i = 0 ∨ i = nu ∨ j = 0 ∨ j = nv ∨ k = 0 ∨ k = nw

/-! ### Tetrahedra around a node -/

theorem rot3 (p q r x y z : Int) : [p, q, r] ~r [x, y, z] ↔ (p = x ∧ q = y ∧ r = z) ∨ (q = x ∧ r = y ∧ p = z) ∨ (r = x ∧ p = y ∧ q = z) := by
  constructor
  · rintro ⟨n, hn⟩
    rw [← List.rotate_mod] at hn
    have h3 : n % [p, q, r].length < 3 := Nat.mod_lt _ (by simp)
    generalize n % [p, q, r].length = t at hn h3
    interval_cases t <;> simp [List.rotate_cons_succ] at hn <;> tauto
  · rintro (⟨rfl, rfl, rfl⟩ | ⟨rfl, rfl, rfl⟩ | ⟨rfl, rfl, rfl⟩)
    · exact ⟨0, rfl⟩
    · exact ⟨1, rfl⟩
    · exact ⟨2, rfl⟩

/-- The oriented face belongs to the element. -/
def FaceOf (m : Mesh K) (x y z : Int) (id : Int) : Prop := ∃ e, m.elements.get? id = some e ∧ ∃ F ∈ e.facesOf, F.nodeIds ~r [x, y, z]

theorem tet_faces (e : Elem) (a b c d x y z : Int) (ht : e.elementType = .tetrahedron) (he : e.nodeIds = [a, b, c, d]) :
    (∃ F ∈ e.facesOf, F.nodeIds ~r [x, y, z]) ↔ [a, b, c] ~r [x, y, z] ∨ [b, d, c] ~r [x, y, z] ∨ [a, d, b] ~r [x, y, z] ∨ [a, c, d] ~r [x, y, z] := by
  have h0 : e.idAt 0 = a := by simp [Elem.idAt, he]
  have h1 : e.idAt 1 = b := by simp [Elem.idAt, he]
  have h2 : e.idAt 2 = c := by simp [Elem.idAt, he]
  have h3 : e.idAt 3 = d := by simp [Elem.idAt, he]
  have : e.facesOf = [{ faceType := .triangle, nodeIds := [a, b, c] }, { faceType := .triangle, nodeIds := [b, d, c] }, { faceType := .triangle, nodeIds := [a, d, b] }, { faceType := .triangle, nodeIds := [a, c, d] }] := by
    unfold Elem.facesOf
    rw [ht]
    simp [Elem.faceTemplate, h0, h1, h2, h3]
  rw [this]
  simp

theorem tet_link (a b c d x y z : Int) (hnd : [a, b, c, d].Nodup) :
    (tetLink [a, b, c, d] x).count (y, z) = if [a, b, c] ~r [x, y, z] ∨ [b, d, c] ~r [x, y, z] ∨ [a, d, b] ~r [x, y, z] ∨ [a, c, d] ~r [x, y, z] then 1 else 0 := by
  have h : a ≠ b ∧ a ≠ c ∧ a ≠ d ∧ b ≠ c ∧ b ≠ d ∧ c ≠ d := by simp at hnd; tauto
  obtain ⟨h1, h2, h3, h4, h5, h6⟩ := h
  simp only [rot3, tetLink]
  by_cases ha : a = x
  · subst ha
    simp [h1, h2, h3, h1.symm, h2.symm, h3.symm, List.count_cons]
    split_ifs <;> omega
  · by_cases hb : b = x
    · subst hb
      simp [h1, h4, h5, h1.symm, h4.symm, h5.symm, List.count_cons]
      split_ifs <;> omega
    · by_cases hc : c = x
      · subst hc
        simp [h2, h4, h6, h2.symm, h4.symm, h6.symm, List.count_cons]
        split_ifs <;> omega
      · by_cases hd : d = x
        · subst hd
          simp [h3, h5, h6, h3.symm, h5.symm, h6.symm, List.count_cons]
          split_ifs <;> omega
        · simp [ha, hb, hc, hd]

theorem count_swap (l : List (Int × Int)) (y z : Int) : (l.map Prod.swap).count (y, z) = l.count (z, y) := by
  have : (y, z) = Prod.swap (z, y) := rfl
  rw [this, List.count_map_of_injective _ _ Prod.swap_injective]

theorem count_flat3 {α : Type} [BEq α] [LawfulBEq α] (l : List Int) (f : Int → List α) (y : α) : (l.flatMap f).count y = (l.map fun a => (f a).count y).sum := by
  induction l with
  | nil => rfl
  | cons a t ih => rw [List.flatMap_cons, List.count_append, ih, List.map_cons, List.sum_cons]

open Classical in
/-- In a mesh of tetrahedra whose oriented faces belong to one tetrahedron each, a node is surrounded when every face at it has its reverse. -/
theorem surrounded (m : Mesh K) (hwf : m.WF) (htet : ∀ id e, m.elements.get? id = some e → e.elementType = .tetrahedron ∧ ∃ a b c d, e.nodeIds = [a, b, c, d] ∧ [a, b, c, d].Nodup)
    (huniq : ∀ x y z i j, FaceOf m x y z i → FaceOf m x y z j → i = j) (x : Int) (hrev : ∀ y z, (∃ i, FaceOf m x y z i) → ∃ i, FaceOf m x z y i) : Surrounded m x := by
  have key : ∀ y z, (around m tetLink x).count (y, z) = if ∃ id, FaceOf m x y z id then 1 else 0 := fun y z => by
    unfold around
    rw [count_flat3]
    have e1 : (m.elements.ids.map fun id => (((m.elements.get? id).map fun e => tetLink e.nodeIds x).getD []).count (y, z)) = m.elements.ids.map fun id => if FaceOf m x y z id then 1 else 0 := by
      apply List.map_congr_left
      intro id hid
      obtain ⟨e, he⟩ := (hwf.elements.2 id).1 hid
      obtain ⟨ht, a, b, c, d, h1, h2⟩ := htet id e he
      rw [he, Option.map_some, Option.getD_some, h1, tet_link a b c d x y z h2]
      have : FaceOf m x y z id ↔ ([a, b, c] ~r [x, y, z] ∨ [b, d, c] ~r [x, y, z] ∨ [a, d, b] ~r [x, y, z] ∨ [a, c, d] ~r [x, y, z]) := by
        rw [← tet_faces e a b c d x y z ht h1]
        exact ⟨fun ⟨e', h3, h4⟩ => by rw [he] at h3; cases h3; exact h4, fun h => ⟨e, he, h⟩⟩
      simp only [this]
    rw [e1, one_of_list (FaceOf m x y z) _ hwf.elements.1 fun i _ j _ h1 h2 => huniq x y z i j h1 h2]
    have : (∃ id ∈ m.elements.ids, FaceOf m x y z id) ↔ ∃ id, FaceOf m x y z id :=
      ⟨fun ⟨i, _, h⟩ => ⟨i, h⟩, fun ⟨i, e, h⟩ => ⟨i, (hwf.elements.2 i).2 ⟨e, h.1⟩, e, h⟩⟩
    simp only [this]
  unfold Surrounded
  rw [List.perm_iff_count]
  rintro ⟨y, z⟩
  rw [count_swap, key, key]
  have : (∃ id, FaceOf m x y z id) ↔ ∃ id, FaceOf m x z y id := ⟨hrev y z, hrev z y⟩
  simp only [this]

/-! ### The grid -/

section Grid
variable {nrm : Vec3 K → K} (hn : IsNorm nrm) (h : Hex K) (nu nv nw : Nat) (hu : 0 < nu) (hv : 0 < nv) (hw : 0 < nw)

include hn hu hv hw in
theorem block_index (n : Nat) (x : Int) : (generateHex nrm h nu nv nw true).mesh.nodes.idAt? n = some x ↔ ∃ i j k, i ≤ nu ∧ j ≤ nv ∧ k ≤ nw ∧ n = at3 nu nv i j k ∧ x = id3 nu nv i j k := by
  show (generateHex nrm h nu nv nw true).mesh.nodes.ids[n]? = _ ↔ _
  rw [(C31_nodes hn h nu nv nw hu hv hw true).2.2.2.1, iota_at]
  have cast : ∀ i j k, ((at3 nu nv i j k : Nat) : Int) = id3 nu nv i j k := fun i j k => by unfold at3 id3; push_cast; ring
  constructor
  · rintro ⟨h1, rfl⟩
    have hk : n / ((nu + 1) * (nv + 1)) < nw + 1 := Nat.div_lt_of_lt_mul h1
    have hm : n % ((nu + 1) * (nv + 1)) < (nu + 1) * (nv + 1) := Nat.mod_lt _ (by positivity)
    have hj : n % ((nu + 1) * (nv + 1)) / (nu + 1) < nv + 1 := Nat.div_lt_of_lt_mul hm
    have e : n = at3 nu nv (n % ((nu + 1) * (nv + 1)) % (nu + 1)) (n % ((nu + 1) * (nv + 1)) / (nu + 1)) (n / ((nu + 1) * (nv + 1))) := by
      unfold at3
      rw [Nat.add_assoc, Nat.div_add_mod, Nat.div_add_mod]
    refine ⟨_, _, _, Nat.lt_succ_iff.1 (Nat.mod_lt _ (by omega)), Nat.lt_succ_iff.1 hj, Nat.lt_succ_iff.1 hk, e, ?_⟩
    rw [← cast, ← e]
  · rintro ⟨i, j, k, hi, hj, hk, rfl, rfl⟩
    refine ⟨?_, (cast i j k).symm⟩
    have h1 : (nu + 1) * j + i < (nu + 1) * (nv + 1) := by
      have : (nu + 1) * j ≤ (nu + 1) * nv := Nat.mul_le_mul_left _ hj
      rw [Nat.mul_add]; omega
    have h2 : (nu + 1) * (nv + 1) * k ≤ (nu + 1) * (nv + 1) * nw := Nat.mul_le_mul_left _ hk
    unfold at3
    rw [Nat.mul_add ((nu + 1) * (nv + 1)) nw 1]; omega

include hn hu hv hw in
theorem block_count : (generateHex nrm h nu nv nw true).mesh.nodes.count = (nu + 1) * (nv + 1) * (nw + 1) := by
  show (generateHex nrm h nu nv nw true).mesh.nodes.ids.length = _
  rw [(C31_nodes hn h nu nv nw hu hv hw true).2.2.2.1]; simp [Mesh.iota]

include hn hu hv hw in
theorem block_elem (x : Int) (e : Elem) (he : (generateHex nrm h nu nv nw true).mesh.elements.get? x = some e) :
    ∃ i < nu, ∃ j < nv, ∃ k < nw, ∃ a b c d : Nat × Nat × Nat, [a, b, c, d] ∈ cellElem true ∧
      e = { elementType := .tetrahedron, nodeIds := [cellNode nu nv i j k a, cellNode nu nv i j k b, cellNode nu nv i j k c, cellNode nu nv i j k d] } := by
  rw [generateHex_mesh hn h nu nv nw hu hv hw true] at he
  obtain ⟨-, -, -, -, -, -, hel⟩ := build3_ok h.v0 ((1 / (nu : K)) • (h.v1 - h.v0)) ((1 / (nv : K)) • (h.v3 - h.v0)) ((1 / (nw : K)) • (h.v4 - h.v0)) nu nv nw true
  obtain ⟨i, hi, j, hj, k, hk, t, -, -, hc⟩ := (hel x e).1 he
  exact ⟨i, hi, j, hj, k, hk, hexCell_tets nu nv i j k t e hc⟩

theorem tet_det (a b c d : Vec3 K) : (a - d).dot (Vec3.cross (b - d) (c - d)) = 6 * Tet.volume ⟨a, b, c, d⟩ := by
  simp only [Tet.volume, det4one, det4, det3, Vec3.dot, Vec3.cross, Vec3.sub_x, Vec3.sub_y, Vec3.sub_z]
  ring

include hn hu hv hw in
theorem block_simplex (hvol : 0 < h.volume) : SimplexMesh nrm (generateHex nrm h nu nv nw true).mesh := by
  have hup : (0 : K) < nu := by exact_mod_cast hu
  have hvp : (0 : K) < nv := by exact_mod_cast hv
  have hwp : (0 : K) < nw := by exact_mod_cast hw
  intro x e he
  rw [generateHex_mesh hn h nu nv nw hu hv hw true] at he ⊢
  obtain ⟨T, h1, h2, h3⟩ := build3_tets _ _ _ _ nu nv nw x e he
  refine ⟨_, h2, ?_⟩
  rw [h1]
  refine Simplex.tetrahedron _ _ _ _ ?_
  rw [tet_det, h3]
  have : 0 < 1 / ((nu : K) * nv * nw) * h.volume := by positivity
  refine lt_of_lt_of_eq this ?_
  simp only [Hex.volume, Vec3.dot, Vec3.cross, Vec3.smul_x, Vec3.smul_y, Vec3.smul_z]
  field_simp

include hn hu hv hw in
theorem block_surrounded (i j k : Nat) (hi : i ≤ nu) (hj : j ≤ nv) (hk : k ≤ nw) (hskin : ¬ OnSkin nu nv nw i j k) : Surrounded (generateHex nrm h nu nv nw true).mesh (id3 nu nv i j k) := by
  obtain ⟨c1, c2, c3⟩ := C31_conforming hn h nu nv nw hu hv hw true
  refine surrounded _ (C31_nodes hn h nu nv nw hu hv hw true).1 (fun x e he => ?_) (fun x y z s t ⟨e, h1, F, h2, h3⟩ ⟨f, h4, G, h5, h6⟩ => c2 s t e f h1 h4 F h2 G h5 (h3.trans h6.symm)) _ fun y z => ?_
  · have := c1 x e he
    obtain ⟨i, -, j, -, k, -, a, b, c, d, -, rfl⟩ := block_elem hn h nu nv nw hu hv hw x e he
    exact ⟨rfl, _, _, _, _, rfl, this⟩
  · rintro ⟨s, e, h1, F, h2, h3⟩
    rcases c3 s e h1 F h2 with ⟨t, f, h4, G, h5, h6⟩ | ⟨P, h7, h8⟩
    · refine ⟨t, f, h4, G, h5, h6.trans (h3.reverse.trans ?_)⟩
      show [z, y, id3 nu nv i j k] ~r _
      rw [rot3]
      exact Or.inr (Or.inr ⟨rfl, rfl, rfl⟩)
    · exfalso
      obtain ⟨i', j', k', e1, b1, b2, b3, hP⟩ := h7 (id3 nu nv i j k) (h3.mem_iff.2 (by simp))
      obtain ⟨rfl, rfl, rfl⟩ := id3_inj hi b1 hj b2 e1
      apply hskin
      unfold OnSkin
      rcases h8 with h8 | h8 | h8 | h8 | h8 | h8 <;> have := (h8 _ _ _).1 hP <;> tauto

include hn hu hv hw in
/-- The corners of a cell hang together. -/
theorem cell_anchored (f : EqField K) (i j k : Nat) (hi : i < nu) (hj : j < nv) (hk : k < nw) (o o' : Nat × Nat × Nat) (ho : o.1 ≤ 1 ∧ o.2.1 ≤ 1 ∧ o.2.2 ≤ 1) (ho' : o'.1 ≤ 1 ∧ o'.2.1 ≤ 1 ∧ o'.2.2 ≤ 1)
    (hA : Anchored (generateHex nrm h nu nv nw true).mesh f (cellNode nu nv i j k o)) : Anchored (generateHex nrm h nu nv nw true).mesh f (cellNode nu nv i j k o') := by
  have common : ∀ o ∈ cornerList, ∃ t < 6, ∃ os ∈ (cellElem true)[t]?, o ∈ os ∧ (0, 1, 1) ∈ os := by decide
  have corner : ∀ o : Nat × Nat × Nat, o.1 ≤ 1 ∧ o.2.1 ≤ 1 ∧ o.2.2 ≤ 1 → o ∈ cornerList := by
    rintro ⟨a, b, c⟩ ⟨h1, h2, h3⟩
    simp only at h1 h2 h3
    interval_cases a <;> interval_cases b <;> interval_cases c <;> decide
  have elem : ∀ o : Nat × Nat × Nat, o.1 ≤ 1 ∧ o.2.1 ≤ 1 ∧ o.2.2 ≤ 1 →
      ∃ x e, (generateHex nrm h nu nv nw true).mesh.elements.get? x = some e ∧ cellNode nu nv i j k o ∈ e.nodeIds ∧ cellNode nu nv i j k (0, 1, 1) ∈ e.nodeIds := fun o ho => by
    obtain ⟨t, ht, os, hos, h1, h2⟩ := common o (corner o ho)
    obtain ⟨-, -, -, -, -, -, hel⟩ := build3_ok h.v0 ((1 / (nu : K)) • (h.v1 - h.v0)) ((1 / (nv : K)) • (h.v3 - h.v0)) ((1 / (nw : K)) • (h.v4 - h.v0)) nu nv nw true
    rw [generateHex_mesh hn h nu nv nw hu hv hw true]
    refine ⟨_, { elementType := .tetrahedron, nodeIds := os.map (cellNode nu nv i j k) }, (hel _ _).2 ⟨i, hi, j, hj, k, hk, t, ht, rfl, ?_⟩, List.mem_map.2 ⟨o, h1, rfl⟩, List.mem_map.2 ⟨_, h2, rfl⟩⟩
    rw [hexCell_eq, List.getElem?_map, Option.mem_def.1 hos]; rfl
  obtain ⟨x, e, h1, h2, h3⟩ := elem o ho
  obtain ⟨x', e', h1', h2', h3'⟩ := elem o' ho'
  exact .element x' e' _ _ h1' h3' h2' (.element x e _ _ h1 h2 h3 hA)

include hn hu hv hw in
/-- The block hangs together. -/
theorem block_anchored (f : EqField K) (a b c : Nat) (ha : a ≤ nu) (hb : b ≤ nv) (hc : c ≤ nw) (hA : Anchored (generateHex nrm h nu nv nw true).mesh f (id3 nu nv a b c))
    (i j k : Nat) (hi : i ≤ nu) (hj : j ≤ nv) (hk : k ≤ nw) : Anchored (generateHex nrm h nu nv nw true).mesh f (id3 nu nv i j k) := by
  -- a cell for every node
  have cell : ∀ n t, 0 < n → t ≤ n → ∃ s o, s < n ∧ o ≤ 1 ∧ t = s + o := fun n t h0 ht => by
    rcases Nat.lt_or_ge t n with h | h
    · exact ⟨t, 0, h, by omega, rfl⟩
    · exact ⟨t - 1, 1, by omega, le_rfl, by omega⟩
  -- neighbours
  have near : ∀ i j k i' j' k', i ≤ nu → j ≤ nv → k ≤ nw → i' ≤ nu → j' ≤ nv → k' ≤ nw → ((i' = i + 1 ∧ j' = j ∧ k' = k) ∨ (i' = i ∧ j' = j + 1 ∧ k' = k) ∨ (i' = i ∧ j' = j ∧ k' = k + 1)) →
      (Anchored (generateHex nrm h nu nv nw true).mesh f (id3 nu nv i j k) ↔ Anchored (generateHex nrm h nu nv nw true).mesh f (id3 nu nv i' j' k')) := by
    intro i j k i' j' k' hi hj hk hi' hj' hk' hor
    rcases hor with ⟨rfl, rfl, rfl⟩ | ⟨rfl, rfl, rfl⟩ | ⟨rfl, rfl, rfl⟩
    · obtain ⟨s, o, h1, h2, rfl⟩ := cell nv j' hv hj
      obtain ⟨s', o', h1', h2', rfl⟩ := cell nw k' hw hk
      exact ⟨fun A => cell_anchored hn h nu nv nw hu hv hw f i s s' (by omega) h1 h1' (0, o, o') (1, o, o') ⟨by simp, h2, h2'⟩ ⟨by simp, h2, h2'⟩ A,
        fun A => cell_anchored hn h nu nv nw hu hv hw f i s s' (by omega) h1 h1' (1, o, o') (0, o, o') ⟨by simp, h2, h2'⟩ ⟨by simp, h2, h2'⟩ A⟩
    · obtain ⟨s, o, h1, h2, rfl⟩ := cell nu i' hu hi
      obtain ⟨s', o', h1', h2', rfl⟩ := cell nw k' hw hk
      exact ⟨fun A => cell_anchored hn h nu nv nw hu hv hw f s j s' h1 (by omega) h1' (o, 0, o') (o, 1, o') ⟨h2, by simp, h2'⟩ ⟨h2, by simp, h2'⟩ A,
        fun A => cell_anchored hn h nu nv nw hu hv hw f s j s' h1 (by omega) h1' (o, 1, o') (o, 0, o') ⟨h2, by simp, h2'⟩ ⟨h2, by simp, h2'⟩ A⟩
    · obtain ⟨s, o, h1, h2, rfl⟩ := cell nu i' hu hi
      obtain ⟨s', o', h1', h2', rfl⟩ := cell nv j' hv hj
      exact ⟨fun A => cell_anchored hn h nu nv nw hu hv hw f s s' k h1 h1' (by omega) (o, o', 0) (o, o', 1) ⟨h2, h2', by simp⟩ ⟨h2, h2', by simp⟩ A,
        fun A => cell_anchored hn h nu nv nw hu hv hw f s s' k h1 h1' (by omega) (o, o', 1) (o, o', 0) ⟨h2, h2', by simp⟩ ⟨h2, h2', by simp⟩ A⟩
  have origin : ∀ i j k, i ≤ nu → j ≤ nv → k ≤ nw → (Anchored (generateHex nrm h nu nv nw true).mesh f (id3 nu nv 0 0 0) ↔ Anchored (generateHex nrm h nu nv nw true).mesh f (id3 nu nv i j k)) := by
    intro i j k hi hj hk
    have e1 : ∀ i, i ≤ nu → (Anchored (generateHex nrm h nu nv nw true).mesh f (id3 nu nv 0 0 0) ↔ Anchored (generateHex nrm h nu nv nw true).mesh f (id3 nu nv i 0 0)) := fun i => by
      induction i with
      | zero => intro _; exact Iff.rfl
      | succ i ih => intro hi; exact (ih (by omega)).trans (near i 0 0 (i + 1) 0 0 (by omega) (by omega) (by omega) hi (by omega) (by omega) (Or.inl ⟨rfl, rfl, rfl⟩))
    have e2 : ∀ j, j ≤ nv → (Anchored (generateHex nrm h nu nv nw true).mesh f (id3 nu nv i 0 0) ↔ Anchored (generateHex nrm h nu nv nw true).mesh f (id3 nu nv i j 0)) := fun j => by
      induction j with
      | zero => intro _; exact Iff.rfl
      | succ j ih => intro hj; exact (ih (by omega)).trans (near i j 0 i (j + 1) 0 (by omega) (by omega) (by omega) hi hj (by omega) (Or.inr (Or.inl ⟨rfl, rfl, rfl⟩)))
    have e3 : ∀ k, k ≤ nw → (Anchored (generateHex nrm h nu nv nw true).mesh f (id3 nu nv i j 0) ↔ Anchored (generateHex nrm h nu nv nw true).mesh f (id3 nu nv i j k)) := fun k => by
      induction k with
      | zero => intro _; exact Iff.rfl
      | succ k ih => intro hk; exact (ih (by omega)).trans (near i j k i j (k + 1) hi hj (by omega) hi hj hk (Or.inr (Or.inr ⟨rfl, rfl, rfl⟩)))
    exact ((e1 i hi).trans (e2 j hj)).trans (e3 k hk)
  exact (origin i j k hi hj hk).1 ((origin a b c ha hb hc).2 hA)

include hn hu hv hw in
/-- One prescribed node is enough. -/
theorem block_all (f : EqField K) (hf : IndicesOk f.uFixed ((nu + 1) * (nv + 1) * (nw + 1))) (hone : ∃ i v, f.uFixed.find? i = some v) :
    ∀ x ∈ (generateHex nrm h nu nv nw true).mesh.nodes.ids, Anchored (generateHex nrm h nu nv nw true).mesh f x := fun x hx => by
  have hids := (C31_nodes hn h nu nv nw hu hv hw true).2.2.2.1
  obtain ⟨n, v, hnv⟩ := hone
  obtain ⟨hn0, hn1⟩ := hf n v hnv
  obtain ⟨n, rfl⟩ := Int.eq_ofNat_of_zero_le hn0
  have hna : (generateHex nrm h nu nv nw true).mesh.nodes.idAt? n = some (n : Int) := by
    show (generateHex nrm h nu nv nw true).mesh.nodes.ids[n]? = _
    rw [hids, iota_at]; exact ⟨by omega, rfl⟩
  obtain ⟨a, b, c, ha, hb, hc, -, hab⟩ := (block_index hn h nu nv nw hu hv hw n n).1 hna
  obtain ⟨n', hn'⟩ := List.mem_iff_getElem?.1 hx
  obtain ⟨i, j, k, hi, hj, hk, -, rfl⟩ := (block_index hn h nu nv nw hu hv hw n' x).1 hn'
  refine block_anchored hn h nu nv nw hu hv hw f a b c ha hb hc ?_ i j k hi hj hk
  rw [← hab]
  exact .fixed n _ v hna hnv

include hn hu hv hw in
theorem block_good (hvol : 0 < h.volume) : Good nrm (generateHex nrm h nu nv nw true).mesh := by
  obtain ⟨hwf, hrt, -, hids, heids, -⟩ := C31_nodes hn h nu nv nw hu hv hw true
  refine ⟨hwf, hrt, block_simplex hn h nu nv nw hu hv hw hvol, ?_, fun x hx => ?_⟩
  · have hc : (generateHex nrm h nu nv nw true).mesh.elements.count = nu * nv * nw * if true then 6 else 1 := by
      show (generateHex nrm h nu nv nw true).mesh.elements.ids.length = _
      rw [heids]; simp [Mesh.iota]
    unfold Contiguous
    rw [hc, heids]; rfl
  · rw [hids] at hx
    obtain ⟨i, hi⟩ := List.mem_iff_getElem?.1 hx
    obtain ⟨h1, rfl⟩ := (iota_at _ _ _).1 hi
    rw [block_count hn h nu nv nw hu hv hw]; omega

end Grid
end FemBlock

open FemBlock

/-- **C163, linear temperatures in a block.** In every parallelepiped, divided into tetrahedra by the mesher in any way: if all nodes on the sides have prescribed values, and all prescribed values are those of
a linear function, the result is that linear function, exactly. -/
theorem C163_linear {nrm : Vec3 K → K} (hn : IsNorm nrm) (r : K) (solver : Sys K → Nat → K) (hS : Sound solver) (junk junk' : Nat → K) (h : Hex K) (hvol : 0 < h.volume)
    (nu nv nw : Nat) (hu : 0 < nu) (hv : 0 < nv) (hw : 0 < nw) (pf : PdeField K) (hno : NoConditions pf (generateHex nrm h nu nv nw true).mesh)
    (f : EqField K) (hm : f.method = .fem) (hf : IndicesOk f.uFixed ((nu + 1) * (nv + 1) * (nw + 1))) (c : K) (g : Vec3 K)
    (hskin : ∀ i j k, i ≤ nu → j ≤ nv → k ≤ nw → OnSkin nu nv nw i j k → Equation.prescribed f (at3 nu nv i j k) ≠ none)
    (hlin : ∀ i j k v, i ≤ nu → j ≤ nv → k ≤ nw → Equation.prescribed f (at3 nu nv i j k) = some v → v = c + g.dot (blockPoint h nu nv nw i j k)) :
    ∃ f', steady nrm r solver junk junk' (generateHex nrm h nu nv nw true).mesh pf f = some f' ∧ f'.u.size = (nu + 1) * (nv + 1) * (nw + 1) ∧
      ∀ i j k, i ≤ nu → j ≤ nv → k ≤ nw → f'.u.at' (at3 nu nv i j k) = c + g.dot (blockPoint h nu nv nw i j k) := by
  obtain ⟨hwf, hrt, -, hids, -, hnd⟩ := C31_nodes hn h nu nv nw hu hv hw true
  obtain ⟨v0, hv0⟩ := Option.ne_none_iff_exists'.1 (hskin 0 0 0 (by omega) (by omega) (by omega) (Or.inl rfl))
  obtain ⟨f', h1, h2, h3⟩ := C144_patch_tetrahedra hn r solver hS junk junk' (generateHex nrm h nu nv nw true).mesh hwf hrt (block_simplex hn h nu nv nw hu hv hw hvol)
    (fun x e he => by obtain ⟨_, _, _, _, _, _, _, _, _, _, _, rfl⟩ := block_elem hn h nu nv nw hu hv hw x e he; rfl) pf hno f hm
    (by rw [block_count hn h nu nv nw hu hv hw]; exact hf) (block_all hn h nu nv nw hu hv hw f hf ⟨_, _, hv0⟩) c g
    (fun n x p v hn1 hp hpv => by
      obtain ⟨i, j, k, hi, hj, hk, rfl, rfl⟩ := (block_index hn h nu nv nw hu hv hw n x).1 hn1
      rw [hnd i j k hi hj hk] at hp
      cases hp
      exact hlin i j k v hi hj hk hpv)
    (fun n x hn1 hp => by
      obtain ⟨i, j, k, hi, hj, hk, rfl, rfl⟩ := (block_index hn h nu nv nw hu hv hw n x).1 hn1
      exact block_surrounded hn h nu nv nw hu hv hw i j k hi hj hk fun hs => hskin i j k hi hj hk hs hp)
  exact ⟨f', h1, by rw [h2, block_count hn h nu nv nw hu hv hw], fun i j k hi hj hk => h3 _ _ _ ((block_index hn h nu nv nw hu hv hw _ _).2 ⟨i, j, k, hi, hj, hk, rfl, rfl⟩) (hnd i j k hi hj hk)⟩

end ENigMA
