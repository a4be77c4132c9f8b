import Verif.Pde.FemPlateProps

/-!
# C161: plates of triangles
-/

set_option linter.unusedSectionVars false
set_option autoImplicit false

namespace ENigMA
open Matrix FemOp FemThermalOp Fem FemHeat FdmHeat BasicMesher FemPlate
variable {K : Type} [Field K] [LinearOrder K] [IsStrictOrderedRing K]

namespace FemPlate

/-! ### Triangles around a node -/

open Classical in
/-- At most one of a list: the number of them is one or zero. -/
theorem one_of_list (P : Int → Prop) : ∀ l : List Int, l.Nodup → (∀ a ∈ l, ∀ b ∈ l, P a → P b → a = b) →
    (l.map fun a => if P a then 1 else 0).sum = if ∃ a ∈ l, P a then 1 else 0
  | [], _, _ => by simp
  | a :: t, hnd, hu => by
    rw [List.map_cons, List.sum_cons, one_of_list P t (List.nodup_cons.1 hnd).2 fun x hx y hy => hu x (by simp [hx]) y (by simp [hy])]
    by_cases ha : P a
    · have hnone : ¬ ∃ b ∈ t, P b := fun ⟨b, hb, hPb⟩ => (List.nodup_cons.1 hnd).1 (hu a (by simp) b (by simp [hb]) ha hPb ▸ hb)
      rw [if_pos ha, if_neg hnone, if_pos ⟨a, by simp, ha⟩]
    · rw [if_neg ha]
      by_cases ht : ∃ b ∈ t, P b
      · rw [if_pos ht, if_pos (by obtain ⟨b, h1, h2⟩ := ht; exact ⟨b, by simp [h1], h2⟩)]
      · rw [if_neg ht, if_neg]
        rintro ⟨b, hb, hPb⟩
        rcases List.mem_cons.1 hb with rfl | hb
        · exact ha hPb
        · exact ht ⟨b, hb, hPb⟩

theorem count_flat {α : Type} (l : List Int) (f : Int → List α) (g : α → Int) (y : Int) :
    ((l.flatMap f).map g).count y = (l.map fun a => ((f a).map g).count y).sum := by
  induction l with
  | nil => rfl
  | cons a t ih => rw [List.flatMap_cons, List.map_append, List.count_append, ih, List.map_cons, List.sum_cons]

theorem link_first (a b c x y : Int) (hnd : [a, b, c].Nodup) : ((triLink [a, b, c] x).map Prod.fst).count y = if (x, y) ∈ cycleEdges [a, b, c] then 1 else 0 := by
  have h : a ≠ b ∧ a ≠ c ∧ b ≠ c := by simp at hnd; tauto
  obtain ⟨h1, h2, h3⟩ := h
  simp only [triLink, cycleEdges, List.rotate_cons_succ, List.rotate_zero, List.cons_append, List.nil_append, List.zip_cons_cons, List.zip_nil_right, List.mem_cons, List.not_mem_nil, or_false, Prod.mk.injEq]
  by_cases ha : a = x
  · subst ha
    simp [h1.symm, h2.symm, h1, h2, List.count_cons]
    split_ifs <;> omega
  · by_cases hb : b = x
    · subst hb
      simp [h1, h3.symm, h3, h1.symm, List.count_cons]
      split_ifs <;> omega
    · by_cases hc : c = x
      · subst hc
        simp [h2, h3, h3.symm, h2.symm, List.count_cons]
        split_ifs <;> omega
      · simp [ha, hb, hc, Ne.symm ha, Ne.symm hb, Ne.symm hc]

theorem link_second (a b c x y : Int) (hnd : [a, b, c].Nodup) : ((triLink [a, b, c] x).map Prod.snd).count y = if (y, x) ∈ cycleEdges [a, b, c] then 1 else 0 := by
  have h : a ≠ b ∧ a ≠ c ∧ b ≠ c := by simp at hnd; tauto
  obtain ⟨h1, h2, h3⟩ := h
  simp only [triLink, cycleEdges, List.rotate_cons_succ, List.rotate_zero, List.cons_append, List.nil_append, List.zip_cons_cons, List.zip_nil_right, List.mem_cons, List.not_mem_nil, or_false, Prod.mk.injEq]
  by_cases ha : a = x
  · subst ha
    simp [h1.symm, h2.symm, h1, h2, List.count_cons]
    split_ifs <;> omega
  · by_cases hb : b = x
    · subst hb
      simp [h1, h3.symm, h3, h1.symm, List.count_cons]
      split_ifs <;> omega
    · by_cases hc : c = x
      · subst hc
        simp [h2, h3, h3.symm, h2.symm, List.count_cons]
        split_ifs <;> omega
      · simp [ha, hb, hc, Ne.symm ha, Ne.symm hb, Ne.symm hc]

/-- The directed edge belongs to the element. -/
def EdgeOf (m : Mesh K) (a b : Int) (id : Int) : Prop := ∃ e, m.elements.get? id = some e ∧ (a, b) ∈ cycleEdges e.nodeIds

open Classical in
/-- In a mesh of triangles whose directed edges belong to one triangle each, a node is encircled when every edge at it has its reverse. -/
theorem encircled (m : Mesh K) (hwf : m.WF) (htri : ∀ id e, m.elements.get? id = some e → ∃ a b c, e.nodeIds = [a, b, c] ∧ [a, b, c].Nodup)
    (huniq : ∀ a b i j, EdgeOf m a b i → EdgeOf m a b j → i = j) (x : Int) (hrev : ∀ y, (∃ i, EdgeOf m x y i) ↔ ∃ i, EdgeOf m y x i) : Encircled m x := by
  unfold Encircled
  rw [List.perm_iff_count]
  intro y
  unfold around
  have hmem : ∀ id ∈ m.elements.ids, ∃ e, m.elements.get? id = some e := fun id h => (hwf.elements.2 id).1 h
  have key : ∀ a b, (m.elements.ids.map fun id => if EdgeOf m a b id then 1 else 0).sum = if ∃ id, EdgeOf m a b id then 1 else 0 := fun a b => by
    rw [one_of_list (EdgeOf m a b) _ hwf.elements.1 fun i _ j _ h1 h2 => huniq a b i j h1 h2]
    have : (∃ id ∈ m.elements.ids, EdgeOf m a b id) ↔ ∃ id, EdgeOf m a b id :=
      ⟨fun ⟨i, _, h⟩ => ⟨i, h⟩, fun ⟨i, e, h⟩ => ⟨i, (hwf.elements.2 i).2 ⟨e, h.1⟩, e, h⟩⟩
    simp only [this]
  rw [count_flat, count_flat]
  have e1 : (m.elements.ids.map fun id => ((((m.elements.get? id).map fun e => triLink e.nodeIds x).getD []).map Prod.fst).count y) =
      m.elements.ids.map fun id => if EdgeOf m x y id then 1 else 0 := by
    apply List.map_congr_left
    intro id hid
    obtain ⟨e, he⟩ := hmem id hid
    obtain ⟨a, b, c, h1, h2⟩ := htri id e he
    rw [he, Option.map_some, Option.getD_some, h1, link_first a b c x y h2]
    have : EdgeOf m x y id ↔ (x, y) ∈ cycleEdges [a, b, c] := ⟨fun ⟨e', h3, h4⟩ => by rw [he] at h3; cases h3; rwa [h1] at h4, fun h => ⟨e, he, by rwa [h1]⟩⟩
    simp only [this]
  have e2 : (m.elements.ids.map fun id => ((((m.elements.get? id).map fun e => triLink e.nodeIds x).getD []).map Prod.snd).count y) =
      m.elements.ids.map fun id => if EdgeOf m y x id then 1 else 0 := by
    apply List.map_congr_left
    intro id hid
    obtain ⟨e, he⟩ := hmem id hid
    obtain ⟨a, b, c, h1, h2⟩ := htri id e he
    rw [he, Option.map_some, Option.getD_some, h1, link_second a b c x y h2]
    have : EdgeOf m y x id ↔ (y, x) ∈ cycleEdges [a, b, c] := ⟨fun ⟨e', h3, h4⟩ => by rw [he] at h3; cases h3; rwa [h1] at h4, fun h => ⟨e, he, by rwa [h1]⟩⟩
    simp only [this]
  rw [e1, e2, key, key]
  simp only [hrev y]

/-! ### The grid -/

section Grid
variable {nrm : Vec3 K → K} (hn : IsNorm nrm) (q : Quad K) (nu nv : Nat) (hu : 0 < nu) (hv : 0 < nv)

/-- A grid node. -/
def gridPoint (q : Quad K) (nu nv i j : Nat) : Vec3 K := q.v0 + ((i : K) / nu) • (q.v1 - q.v0) + ((j : K) / nv) • (q.v3 - q.v0)

theorem grid_elem (x : Int) (e : Elem) (he : (generateQuad nrm q nu nv true).mesh.elements.get? x = some e) :
    ∃ i j, i < nu ∧ j < nv ∧ (e = { elementType := .triangle, nodeIds := [id2 nu i j, id2 nu (i + 1) j, id2 nu (i + 1) (j + 1)] } ∨
      e = { elementType := .triangle, nodeIds := [id2 nu i j, id2 nu (i + 1) (j + 1), id2 nu i (j + 1)] }) := by
  obtain ⟨i, hi, j, hj, t, ht, -, hc⟩ := (quad_elem_iff q nu nv true x e).1 he
  refine ⟨i, j, hi, hj, ?_⟩
  rw [quadCell_eq, if_pos rfl] at hc
  match t, hc with
  | 0, hc => exact Or.inl (Option.some.inj hc).symm
  | 1, hc => exact Or.inr (Option.some.inj hc).symm
  | t + 2, hc => simp at hc

include hn hu hv in
theorem grid_index (k : Nat) (x : Int) : (generateQuad nrm q nu nv true).mesh.nodes.idAt? k = some x ↔ ∃ i j, i ≤ nu ∧ j ≤ nv ∧ k = at2 nu i j ∧ x = id2 nu i j := by
  show (generateQuad nrm q nu nv true).mesh.nodes.ids[k]? = _ ↔ _
  rw [(C30_nodes hn q nu nv hu hv true).2.2.2.1, iota_at]
  constructor
  · rintro ⟨h1, rfl⟩
    have hdiv : k / (nu + 1) < nv + 1 := Nat.div_lt_of_lt_mul h1
    refine ⟨k % (nu + 1), k / (nu + 1), Nat.lt_succ_iff.1 (Nat.mod_lt _ (by omega)), by omega, (Nat.div_add_mod k (nu + 1)).symm, ?_⟩
    unfold id2
    exact_mod_cast (Nat.div_add_mod k (nu + 1)).symm
  · rintro ⟨i, j, hi, hj, rfl, rfl⟩
    refine ⟨?_, by unfold id2 at2; push_cast; ring⟩
    rw [Nat.mul_comm]
    exact id2_lt hi hj

include hn hu hv in
theorem grid_count : (generateQuad nrm q nu nv true).mesh.nodes.count = (nu + 1) * (nv + 1) := by
  show (generateQuad nrm q nu nv true).mesh.nodes.ids.length = _
  rw [(C30_nodes hn q nu nv hu hv true).2.2.2.1]; simp [Mesh.iota]

include hn hu hv in
theorem grid_corners (i j : Nat) (hi : i < nu) (hj : j < nv) :
    [id2 nu i j, id2 nu (i + 1) j, id2 nu (i + 1) (j + 1)].mapM (generateQuad nrm q nu nv true).mesh.nodes.get? =
      some [gridPoint q nu nv i j, gridPoint q nu nv (i + 1) j, gridPoint q nu nv (i + 1) (j + 1)] ∧
    [id2 nu i j, id2 nu (i + 1) (j + 1), id2 nu i (j + 1)].mapM (generateQuad nrm q nu nv true).mesh.nodes.get? =
      some [gridPoint q nu nv i j, gridPoint q nu nv (i + 1) (j + 1), gridPoint q nu nv i (j + 1)] := by
  have h := (C30_nodes hn q nu nv hu hv true).2.2.2.2.2
  have h1 := h i j (by omega) (by omega)
  have h2 := h (i + 1) j (by omega) (by omega)
  have h3 := h (i + 1) (j + 1) (by omega) (by omega)
  have h4 := h i (j + 1) (by omega) (by omega)
  constructor
  · simp only [List.mapM_cons, List.mapM_nil, h1, h2, h3, Option.bind_eq_bind, Option.bind_some, Option.pure_def]; rfl
  · simp only [List.mapM_cons, List.mapM_nil, h1, h3, h4, Option.bind_eq_bind, Option.bind_some, Option.pure_def]; rfl

/-- The sides of a cell. -/
theorem grid_steps (i j : Nat) (hu : 0 < nu) (hv : 0 < nv) :
    gridPoint q nu nv (i + 1) j - gridPoint q nu nv i j = (1 / (nu : K)) • (q.v1 - q.v0) ∧
    gridPoint q nu nv (i + 1) (j + 1) - gridPoint q nu nv i j = (1 / (nu : K)) • (q.v1 - q.v0) + (1 / (nv : K)) • (q.v3 - q.v0) ∧
    gridPoint q nu nv i (j + 1) - gridPoint q nu nv i j = (1 / (nv : K)) • (q.v3 - q.v0) := by
  have hu0 : (nu : K) ≠ 0 := by exact_mod_cast hu.ne'
  have hv0 : (nv : K) ≠ 0 := by exact_mod_cast hv.ne'
  refine ⟨?_, ?_, ?_⟩ <;> unfold gridPoint <;> ext <;> simp <;> field_simp <;> ring

theorem grid_cross (i j : Nat) (hu : 0 < nu) (hv : 0 < nv) :
    Vec3.cross (gridPoint q nu nv (i + 1) j - gridPoint q nu nv i j) (gridPoint q nu nv (i + 1) (j + 1) - gridPoint q nu nv i j) =
      (1 / ((nu : K) * nv)) • Vec3.cross (q.v1 - q.v0) (q.v3 - q.v0) ∧
    Vec3.cross (gridPoint q nu nv (i + 1) (j + 1) - gridPoint q nu nv i j) (gridPoint q nu nv i (j + 1) - gridPoint q nu nv i j) =
      (1 / ((nu : K) * nv)) • Vec3.cross (q.v1 - q.v0) (q.v3 - q.v0) := by
  have hu0 : (nu : K) ≠ 0 := by exact_mod_cast hu.ne'
  have hv0 : (nv : K) ≠ 0 := by exact_mod_cast hv.ne'
  obtain ⟨h1, h2, h3⟩ := grid_steps q nu nv i j hu hv
  rw [h1, h2, h3]
  constructor <;> ext <;> simp [Vec3.cross] <;> field_simp <;> ring

theorem norm_pos {nrm : Vec3 K → K} (hn : IsNorm nrm) {v : Vec3 K} (h : v ≠ 0) : 0 < nrm v := by
  refine lt_of_le_of_ne (hn.nonneg _) fun h0 => h ?_
  have h2 := hn.sq v
  rw [← h0] at h2
  exact Vec3.normSq_eq_zero.1 (by rw [← h2]; ring)

include hn hu hv in
theorem grid_simplex (hq : Vec3.cross (q.v1 - q.v0) (q.v3 - q.v0) ≠ 0) : SimplexMesh nrm (generateQuad nrm q nu nv true).mesh := by
  intro x e he
  have hp : (0 : K) < 1 / ((nu : K) * nv) := by
    have : (0 : K) < nu := by exact_mod_cast hu
    have : (0 : K) < nv := by exact_mod_cast hv
    positivity
  obtain ⟨i, j, hi, hj, rfl | rfl⟩ := grid_elem q nu nv x e he
  · refine ⟨_, (grid_corners hn q nu nv hu hv i j hi hj).1, Simplex.triangle _ _ _ ?_⟩
    rw [(grid_cross q nu nv i j hu hv).1, hn.smul, abs_of_pos hp]
    exact mul_pos hp (norm_pos hn hq)
  · refine ⟨_, (grid_corners hn q nu nv hu hv i j hi hj).2, Simplex.triangle _ _ _ ?_⟩
    rw [(grid_cross q nu nv i j hu hv).2, hn.smul, abs_of_pos hp]
    exact mul_pos hp (norm_pos hn hq)

include hn hu hv in
theorem grid_flat (hq : Vec3.cross (q.v1 - q.v0) (q.v3 - q.v0) ≠ 0) : AllFlat nrm (generateQuad nrm q nu nv true).mesh
    ((1 / nrm (Vec3.cross (q.v1 - q.v0) (q.v3 - q.v0))) • Vec3.cross (q.v1 - q.v0) (q.v3 - q.v0)) := by
  intro x e he
  have hp : (0 : K) < 1 / ((nu : K) * nv) := by
    have : (0 : K) < nu := by exact_mod_cast hu
    have : (0 : K) < nv := by exact_mod_cast hv
    positivity
  have hnp := (norm_pos hn hq).ne'
  have key : ∀ w : Vec3 K, w = (1 / ((nu : K) * nv)) • Vec3.cross (q.v1 - q.v0) (q.v3 - q.v0) →
      w = nrm w • ((1 / nrm (Vec3.cross (q.v1 - q.v0) (q.v3 - q.v0))) • Vec3.cross (q.v1 - q.v0) (q.v3 - q.v0)) := by
    rintro w rfl
    rw [hn.smul, abs_of_pos hp, ← mul_smul]
    congr 1
    field_simp
  obtain ⟨i, j, hi, hj, rfl | rfl⟩ := grid_elem q nu nv x e he
  · refine ⟨rfl, fun a b c h => ?_⟩
    rw [(grid_corners hn q nu nv hu hv i j hi hj).1] at h
    cases h
    exact key _ (grid_cross q nu nv i j hu hv).1
  · refine ⟨rfl, fun a b c h => ?_⟩
    rw [(grid_corners hn q nu nv hu hv i j hi hj).2] at h
    cases h
    exact key _ (grid_cross q nu nv i j hu hv).2

include hn hu hv in
theorem grid_encircled (i j : Nat) (hi : i ≤ nu) (hj : j ≤ nv) (hrim : ¬ OnRim nu nv i j) : Encircled (generateQuad nrm q nu nv true).mesh (id2 nu i j) := by
  obtain ⟨c1, c2, c3⟩ := C30_conforming (nrm := nrm) q nu nv true
  have noside : ∀ a b, a = id2 nu i j ∨ b = id2 nu i j → ¬ OnSide nu nv a b := by
    rintro a b h ⟨i1, j1, i2, j2, b1, b2, b3, b4, rfl, rfl, h'⟩
    apply hrim
    unfold OnRim
    rcases h with h | h
    · obtain ⟨rfl, rfl⟩ := id2_inj b1 hi h
      tauto
    · obtain ⟨rfl, rfl⟩ := id2_inj b3 hi h
      tauto
  refine encircled _ (C30_nodes hn q nu nv hu hv true).1 (fun id e he => ?_) (fun a b x y ⟨e, h1, h2⟩ ⟨f, h3, h4⟩ => c2 x y e f h1 h3 (a, b) h2 h4) _ fun y => ⟨?_, ?_⟩
  · have := c1 id e he
    obtain ⟨i, j, -, -, rfl | rfl⟩ := grid_elem q nu nv id e he
    · exact ⟨_, _, _, rfl, this⟩
    · exact ⟨_, _, _, rfl, this⟩
  · rintro ⟨x, e, h1, h2⟩
    rcases c3 x e h1 _ _ h2 with ⟨z, f, h3, h4⟩ | h
    · exact ⟨z, f, h3, h4⟩
    · exact absurd h (noside _ _ (Or.inl rfl))
  · rintro ⟨x, e, h1, h2⟩
    rcases c3 x e h1 _ _ h2 with ⟨z, f, h3, h4⟩ | h
    · exact ⟨z, f, h3, h4⟩
    · exact absurd h (noside _ _ (Or.inr rfl))

/-- The grid hangs together. -/
theorem grid_anchored (f : EqField K) (a b : Nat) (ha : a ≤ nu) (hb : b ≤ nv) (hab : Anchored (generateQuad nrm q nu nv true).mesh f (id2 nu a b))
    (i j : Nat) (hi : i ≤ nu) (hj : j ≤ nv) (hu : 0 < nu) (hv : 0 < nv) : Anchored (generateQuad nrm q nu nv true).mesh f (id2 nu i j) := by
  -- one step to the right, and one up, in both directions
  have right : ∀ i j, i < nu → j ≤ nv → (Anchored (generateQuad nrm q nu nv true).mesh f (id2 nu i j) ↔ Anchored (generateQuad nrm q nu nv true).mesh f (id2 nu (i + 1) j)) := by
    intro i j hi hj
    rcases Nat.lt_or_ge j nv with h | h
    · have he := (C30_elements (nrm := nrm) q nu nv i j hi h).2.1
      exact ⟨fun h => .element _ _ _ _ he (by simp) (by simp) h, fun h => .element _ _ _ _ he (by simp) (by simp) h⟩
    · obtain ⟨j', rfl⟩ : ∃ j', j = j' + 1 := ⟨j - 1, by omega⟩
      have he := (C30_elements (nrm := nrm) q nu nv i j' hi (by omega)).2.2
      exact ⟨fun h => .element _ _ _ _ he (by simp) (by simp) h, fun h => .element _ _ _ _ he (by simp) (by simp) h⟩
  have up : ∀ i j, i ≤ nu → j < nv → (Anchored (generateQuad nrm q nu nv true).mesh f (id2 nu i j) ↔ Anchored (generateQuad nrm q nu nv true).mesh f (id2 nu i (j + 1))) := by
    intro i j hi hj
    rcases Nat.lt_or_ge i nu with h | h
    · have he := (C30_elements (nrm := nrm) q nu nv i j h hj).2.2
      exact ⟨fun h => .element _ _ _ _ he (by simp) (by simp) h, fun h => .element _ _ _ _ he (by simp) (by simp) h⟩
    · obtain ⟨i', rfl⟩ : ∃ i', i = i' + 1 := ⟨i - 1, by omega⟩
      have he := (C30_elements (nrm := nrm) q nu nv i' j (by omega) hj).2.1
      exact ⟨fun h => .element _ _ _ _ he (by simp) (by simp) h, fun h => .element _ _ _ _ he (by simp) (by simp) h⟩
  have row : ∀ j, j ≤ nv → ∀ i, i ≤ nu → (Anchored (generateQuad nrm q nu nv true).mesh f (id2 nu 0 j) ↔ Anchored (generateQuad nrm q nu nv true).mesh f (id2 nu i j)) := by
    intro j hj i
    induction i with
    | zero => intro _; exact Iff.rfl
    | succ i ih => intro hi; exact (ih (by omega)).trans (right i j (by omega) hj)
  have col : ∀ j, j ≤ nv → (Anchored (generateQuad nrm q nu nv true).mesh f (id2 nu 0 0) ↔ Anchored (generateQuad nrm q nu nv true).mesh f (id2 nu 0 j)) := by
    intro j
    induction j with
    | zero => intro _; exact Iff.rfl
    | succ j ih => intro hj; exact (ih (by omega)).trans (up 0 j (by omega) (by omega))
  exact (row j hj i hi).1 ((col j hj).1 ((col b hb).2 ((row b hb a ha).2 hab)))

end Grid
end FemPlate

/-- **C161, linear temperatures in a plate.** In every parallelogram, divided into triangles by the mesher in any way: if all nodes on the sides have prescribed values, and all prescribed values are those of
a linear function, the result is that linear function, exactly. -/
theorem C161_plate_linear {nrm : Vec3 K → K} (hn : IsNorm nrm) (r : K) (solver : Sys K → Nat → K) (hS : Sound solver) (junk junk' : Nat → K) (q : Quad K)
    (hq : Vec3.cross (q.v1 - q.v0) (q.v3 - q.v0) ≠ 0) (nu nv : Nat) (hu : 0 < nu) (hv : 0 < nv) (pf : PdeField K) (hno : NoConditions pf (generateQuad nrm q nu nv true).mesh)
    (f : EqField K) (hm : f.method = .fem) (hf : IndicesOk f.uFixed ((nu + 1) * (nv + 1))) (c : K) (g : Vec3 K)
    (hrim : ∀ i j, i ≤ nu → j ≤ nv → OnRim nu nv i j → Equation.prescribed f (at2 nu i j) ≠ none)
    (hlin : ∀ i j v, i ≤ nu → j ≤ nv → Equation.prescribed f (at2 nu i j) = some v → v = c + g.dot (q.v0 + ((i : K) / nu) • (q.v1 - q.v0) + ((j : K) / nv) • (q.v3 - q.v0))) :
    ∃ f', steady nrm r solver junk junk' (generateQuad nrm q nu nv true).mesh pf f = some f' ∧ f'.u.size = (nu + 1) * (nv + 1) ∧
      ∀ i j, i ≤ nu → j ≤ nv → f'.u.at' (at2 nu i j) = c + g.dot (q.v0 + ((i : K) / nu) • (q.v1 - q.v0) + ((j : K) / nv) • (q.v3 - q.v0)) := by
  obtain ⟨hwf, hrt, -, hids, -, hnd⟩ := C30_nodes hn q nu nv hu hv true
  obtain ⟨v0, hv0⟩ := Option.ne_none_iff_exists'.1 (hrim 0 0 (by omega) (by omega) (Or.inl rfl))
  have h00 : Anchored (generateQuad nrm q nu nv true).mesh f (id2 nu 0 0) :=
    .fixed (at2 nu 0 0) _ v0 ((grid_index hn q nu nv hu hv _ _).2 ⟨0, 0, by omega, by omega, rfl, rfl⟩) hv0
  obtain ⟨f', h1, h2, h3⟩ := C144_patch_triangles hn r solver hS junk junk' (generateQuad nrm q nu nv true).mesh hwf hrt (grid_simplex hn q nu nv hu hv hq) _ (grid_flat hn q nu nv hu hv hq) pf hno f hm
    (by rw [grid_count hn q nu nv hu hv]; exact hf)
    (fun x hx => by
      obtain ⟨k, hk⟩ := List.mem_iff_getElem?.1 hx
      obtain ⟨i, j, hi, hj, -, rfl⟩ := (grid_index hn q nu nv hu hv k x).1 hk
      exact grid_anchored q nu nv f 0 0 (by omega) (by omega) h00 i j hi hj hu hv)
    c g
    (fun k x p v hk hp hpv => by
      obtain ⟨i, j, hi, hj, rfl, rfl⟩ := (grid_index hn q nu nv hu hv k x).1 hk
      rw [hnd i j hi hj] at hp
      cases hp
      exact hlin i j v hi hj hpv)
    (fun k x hk hp => by
      obtain ⟨i, j, hi, hj, rfl, rfl⟩ := (grid_index hn q nu nv hu hv k x).1 hk
      exact grid_encircled hn q nu nv hu hv i j hi hj fun h => hrim i j hi hj h hp)
  exact ⟨f', h1, by rw [h2, grid_count hn q nu nv hu hv], fun i j hi hj => h3 _ _ _ ((grid_index hn q nu nv hu hv _ _).2 ⟨i, j, hi, hj, rfl, rfl⟩) (hnd i j hi hj)⟩

end ENigMA
