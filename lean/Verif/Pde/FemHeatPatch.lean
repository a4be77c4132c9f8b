import Verif.Pde.FemHeatProps

/-!
# C144: linear temperatures are found exactly
-/

set_option linter.unusedSectionVars false
set_option autoImplicit false

namespace ENigMA
open Matrix FemOp FemThermalOp Fem FemHeat FdmHeat
variable {K : Type} [Field K] [LinearOrder K] [IsStrictOrderedRing K]

namespace FemHeat

/-! ### Specification -/

/-- The boundary, as directed edges seen from `x`, of the side opposite to `x` of a tetrahedron. -/
def tetLink : List Int → Int → List (Int × Int)
  | [a, b, c, d], x => (if a = x then [(b, c), (c, d), (d, b)] else []) ++ ((if b = x then [(c, a), (a, d), (d, c)] else []) ++
      ((if c = x then [(a, b), (b, d), (d, a)] else []) ++ (if d = x then [(a, c), (c, b), (b, a)] else [])))
  | _, _ => []

/-- The side opposite to `x` of a triangle, directed. -/
def triLink : List Int → Int → List (Int × Int)
  | [a, b, c], x => (if a = x then [(b, c)] else []) ++ ((if b = x then [(c, a)] else []) ++ (if c = x then [(a, b)] else []))
  | _, _ => []

/-- A list over all the elements of the mesh. -/
def around {α : Type} (m : Mesh K) (link : List Int → Int → List α) (x : Int) : List α :=
  m.elements.ids.flatMap fun id => ((m.elements.get? id).map fun e => link e.nodeIds x).getD []

/-- The tetrahedra around a node surround it: their opposite sides form a closed surface, every edge occurs as often in one direction as in the other. -/
def Surrounded (m : Mesh K) (x : Int) : Prop := (around m tetLink x).Perm ((around m tetLink x).map Prod.swap)

/-- The triangles around a node surround it: their opposite sides form closed lines, every node is as often a start as an end. -/
def Encircled (m : Mesh K) (x : Int) : Prop := ((around m triLink x).map Prod.fst).Perm ((around m triLink x).map Prod.snd)

/-- As many beams begin at a node as end there. -/
def Between (m : Mesh K) (x : Int) : Prop :=
  (m.elements.ids.flatMap fun id => ((m.elements.get? id).map fun e => e.nodeIds.take 1).getD []).count x =
    (m.elements.ids.flatMap fun id => ((m.elements.get? id).map fun e => e.nodeIds.drop 1).getD []).count x

/-- All elements are tetrahedra. -/
def AllTets (m : Mesh K) : Prop := ∀ id e, m.elements.get? id = some e → e.elementType = .tetrahedron

/-- All elements are triangles in planes with the normal `ν`, with the same orientation. -/
def AllFlat (nrm : Vec3 K → K) (m : Mesh K) (ν : Vec3 K) : Prop :=
  ∀ id e, m.elements.get? id = some e → e.elementType = .triangle ∧ ∀ a b c, e.nodeIds.mapM m.nodes.get? = some [a, b, c] →
    Vec3.cross (b - a) (c - a) = nrm (Vec3.cross (b - a) (c - a)) • ν

/-- All elements are beams in the direction `δ`. -/
def AllStraight (nrm : Vec3 K → K) (m : Mesh K) (δ : Vec3 K) : Prop :=
  ∀ id e, m.elements.get? id = some e → e.elementType = .beam ∧ ∀ p q, e.nodeIds.mapM m.nodes.get? = some [p, q] → q - p = nrm (q - p) • δ

/-! ### Proofs -/

/-- One at a node. -/
def one (x : Int) (z : Int) : K := if z = x then 1 else 0

/-- Where a node is. -/
def pos (m : Mesh K) (x : Int) : Vec3 K := (m.nodes.get? x).getD 0

/-- A field that balances every free node is the result. -/
theorem patch_core {nrm : Vec3 K → K} (hn : IsNorm nrm) (r : K) (solver : Sys K → Nat → K) (hS : Sound solver) (junk junk' : Nat → K) (m : Mesh K) (hwf : m.WF)
    (hrt : m.nodes.RoundTrip) (hs : SimplexMesh nrm m) (pf : PdeField K) (hno : NoConditions pf m) (f : EqField K) (hm : f.method = .fem)
    (hf : IndicesOk f.uFixed m.nodes.count) (hanch : ∀ id ∈ m.nodes.ids, Anchored m f id) (φ : Int → K) (hφ : Meets m f φ)
    (hrow : ∀ i x, m.nodes.idAt? i = some x → Equation.prescribed f i = none → overElements m (fun _ => elementTerm (elementLaplacian nrm r) m (one x) φ) = 0) :
    ∃ f', steady nrm r solver junk junk' m pf f = some f' ∧ f'.u.size = m.nodes.count ∧ ∀ i x, m.nodes.idAt? i = some x → f'.u.at' i = φ x := by
  obtain ⟨s, f', h1, h2, h3, h4, h5, h6, h7, h8⟩ := steady_run hn r solver hS junk junk' m hwf hrt hs pf hno f hm hf
  obtain ⟨f'', g1, -, g3⟩ := C144_least_energy hn r solver hS junk junk' m hwf hrt hs pf hno f hm hf
  rw [h5, Option.some.injEq] at g1
  subst g1
  obtain ⟨χ, c1, c2⟩ := nodal_surj m hwf f'.u.at'
  obtain ⟨hχ, E, hE, hmin⟩ := g3 χ c1
  refine ⟨f', h5, h6, fun i x hi => ?_⟩
  by_contra hne
  obtain ⟨-, hstrict⟩ := hmin φ _ hφ (total_energy hn r m hwf hs φ).1
  have hx : x ∈ m.nodes.ids := List.mem_of_getElem? hi
  have hlt := hstrict hanch ⟨x, hx, fun h => hne (by rw [h, c1 i x hi])⟩
  have hrows : ∀ i < s.n, Equation.prescribed f i = none → s.row (nodal m φ) i = 0 := fun i hi hp => by
    obtain ⟨x, hx⟩ := idAt_of_lt m i (h2 ▸ hi)
    rw [← hrow i x hx hp, ← h4, ← Sys.form_row s i hi]
    exact Sys.form_congr s _ _ _ _ (fun k hk => (nodal_single m hwf i x hx k (h2 ▸ hk)).symm) (fun _ _ => rfl)
  have hsame : ∀ i < s.n, Equation.prescribed f i ≠ none → nodal m χ i = nodal m φ i := fun i hi hp => by
    obtain ⟨v, hv⟩ := Option.ne_none_iff_exists'.1 hp
    obtain ⟨x, hx⟩ := idAt_of_lt m i (h2 ▸ hi)
    simp only [nodal, hx, Option.map_some, Option.getD_some]
    rw [hφ i x v hx hv, hχ i x v hx hv]
  have hsp := energy_split s h3 _ _ _ hrows hsame
  have hd : (fun i => nodal m χ i - nodal m φ i) = nodal m fun id => χ id - φ id := by
    funext i
    simp only [nodal]
    cases m.nodes.idAt? i <;> simp
  rw [hd, h4, h4, h4] at hsp
  have hd0 := total_nonneg m hs _ _ (total_energy hn r m hwf hs (fun id => χ id - φ id)).1
  have hEe := (total_energy hn r m hwf hs χ).2 E hE
  linarith

/-- The positions of the nodes of an element. -/
theorem positions (m : Mesh K) : ∀ (ids : List Int) (ps : List (Vec3 K)), ids.mapM m.nodes.get? = some ps → ps = ids.map (pos m) := by
  intro ids
  induction ids with
  | nil => intro ps h; simp at h; subst h; rfl
  | cons a t ih =>
    intro ps h
    rw [List.mapM_cons] at h
    obtain ⟨b, hb, h⟩ := Option.bind_eq_some_iff.1 h
    obtain ⟨bs, hbs, h⟩ := Option.bind_eq_some_iff.1 h
    cases h
    rw [List.map_cons, ← ih bs hbs, pos, hb]; rfl

theorem ids4 {m : Mesh K} {ids : List Int} {p q v w : Vec3 K} (h : ids.mapM m.nodes.get? = some [p, q, v, w]) : ∃ a b c d, ids = [a, b, c, d] := by
  have := mapM_length _ _ _ h
  match ids, this with
  | [a, b, c, d], _ => exact ⟨a, b, c, d, rfl⟩

theorem ids3 {m : Mesh K} {ids : List Int} {p q v : Vec3 K} (h : ids.mapM m.nodes.get? = some [p, q, v]) : ∃ a b c, ids = [a, b, c] := by
  have := mapM_length _ _ _ h
  match ids, this with
  | [a, b, c], _ => exact ⟨a, b, c, rfl⟩

theorem ids2 {m : Mesh K} {ids : List Int} {p q : Vec3 K} (h : ids.mapM m.nodes.get? = some [p, q]) : ∃ a b, ids = [a, b] := by
  have := mapM_length _ _ _ h
  match ids, this with
  | [a, b], _ => exact ⟨a, b, rfl⟩

/-- Linear fields. -/
def Linear (m : Mesh K) (c : K) (g : Vec3 K) (φ : Int → K) : Prop := ∀ id p, m.nodes.get? id = some p → φ id = c + g.dot p

/-- The sum of a quantity over a list of edges. -/
def edgeSum (F : Int × Int → Vec3 K) (l : List (Int × Int)) : Vec3 K := (l.map F).sum

/-- Summed over the elements. -/
theorem over_around (m : Mesh K) (hwf : m.WF) {α : Type} (link : List Int → Int → List α) (x : Int) (F : α → Vec3 K) (k : K) (g : Vec3 K) (t : Elem → K)
    (h : ∀ id e, m.elements.get? id = some e → t e = k * g.dot ((link e.nodeIds x).map F).sum) :
    overElements m (fun _ => t) = k * g.dot (((around m link x).map F).sum) := by
  have hall : ∀ id ∈ m.elements.ids, ∃ e, m.elements.get? id = some e := fun id hid => (hwf.elements.2 id).1 hid
  unfold overElements around
  generalize m.elements.ids = l at hall
  induction l with
  | nil => simp [Vec3.dot_zero]
  | cons a t' ih =>
    obtain ⟨e, he⟩ := hall a (List.mem_cons_self ..)
    rw [List.map_cons, List.sum_cons, ih fun id hid => hall id (List.mem_cons_of_mem _ hid), List.flatMap_cons, List.map_append, List.sum_append, Vec3.dot_add, he,
      Option.map_some, Option.getD_some, Option.map_some, Option.getD_some]
    show t e + _ = _
    rw [h a e he]
    ring

theorem tet_term {nrm : Vec3 K → K} (hn : IsNorm nrm) (r : K) (m : Mesh K) (hs : SimplexMesh nrm m) (ht : AllTets m) (c : K) (g : Vec3 K) (φ : Int → K) (hφ : Linear m c g φ) (x : Int)
    (id : Int) (e : Elem) (he : m.elements.get? id = some e) :
    elementTerm (elementLaplacian nrm r) m (one x) φ e = -(1 / 6) * g.dot ((tetLink e.nodeIds x).map fun p => Vec3.cross (pos m p.1) (pos m p.2)).sum := by
  obtain ⟨ps, h1, h2⟩ := hs id e he
  rw [ht id e he] at h2
  cases h2 with | tetrahedron a b cc d h => ?_
  obtain ⟨i, j, k, l, hids⟩ := ids4 h1
  have hpos := positions m _ _ h1
  have hsamp := sample_list m φ c g hφ _ _ h1
  unfold elementTerm
  rw [h1, Option.bind_some, ht id e he]
  show elementForm (.of (Fem.tetLaplacian ⟨a, b, cc, d⟩)) _ _ = _
  rw [hsamp, hids] at *
  simp only [List.map_cons, List.map_nil, List.cons.injEq, and_true] at hpos ⊢
  obtain ⟨rfl, rfl, rfl, rfl⟩ := hpos
  have hv : 0 < (⟨pos m i, pos m j, pos m k, pos m l⟩ : Tet K).volume := by rw [tet_volume]; linarith
  obtain ⟨u, hu⟩ : ∃ u : K, u = one x i := ⟨_, rfl⟩
  obtain ⟨v, hvv⟩ : ∃ u : K, u = one x j := ⟨_, rfl⟩
  obtain ⟨w, hw⟩ : ∃ u : K, u = one x k := ⟨_, rfl⟩
  obtain ⟨z, hz⟩ : ∃ u : K, u = one x l := ⟨_, rfl⟩
  have hdet := h.ne'
  have hform := (C25_tetrahedron ⟨pos m i, pos m j, pos m k, pos m l⟩ hv).2.2.1 c (z - (((pos m i - pos m l).dot (Vec3.cross (pos m j - pos m l) (pos m k - pos m l)))⁻¹ •
        ((u - z) • Vec3.cross (pos m j - pos m l) (pos m k - pos m l) + (v - z) • Vec3.cross (pos m k - pos m l) (pos m i - pos m l) +
          (w - z) • Vec3.cross (pos m i - pos m l) (pos m j - pos m l))).dot (pos m l)) g
      (((pos m i - pos m l).dot (Vec3.cross (pos m j - pos m l) (pos m k - pos m l)))⁻¹ •
        ((u - z) • Vec3.cross (pos m j - pos m l) (pos m k - pos m l) + (v - z) • Vec3.cross (pos m k - pos m l) (pos m i - pos m l) +
          (w - z) • Vec3.cross (pos m i - pos m l) (pos m j - pos m l)))
  rw [tet_sample (pos m i) (pos m j) (pos m k) (pos m l) _ u v w z
    (by rw [Vec3.smul_dot, inv_mul_eq_div, div_eq_iff hdet, Vec3.add_dot, Vec3.add_dot, Vec3.smul_dot, Vec3.smul_dot, Vec3.smul_dot]
        simp only [Vec3.dot, Vec3.cross, Vec3.sub_x, Vec3.sub_y, Vec3.sub_z]
        ring)
    (by rw [Vec3.smul_dot, inv_mul_eq_div, div_eq_iff hdet, Vec3.add_dot, Vec3.add_dot, Vec3.smul_dot, Vec3.smul_dot, Vec3.smul_dot]
        simp only [Vec3.dot, Vec3.cross, Vec3.sub_x, Vec3.sub_y, Vec3.sub_z]
        ring)
    (by rw [Vec3.smul_dot, inv_mul_eq_div, div_eq_iff hdet, Vec3.add_dot, Vec3.add_dot, Vec3.smul_dot, Vec3.smul_dot, Vec3.smul_dot]
        simp only [Vec3.dot, Vec3.cross, Vec3.sub_x, Vec3.sub_y, Vec3.sub_z]
        ring)] at hform
  have hsum : ((tetLink [i, j, k, l] x).map fun p => Vec3.cross (pos m p.1) (pos m p.2)).sum =
      (u - z) • Vec3.cross (pos m j - pos m l) (pos m k - pos m l) + (v - z) • Vec3.cross (pos m k - pos m l) (pos m i - pos m l) +
          (w - z) • Vec3.cross (pos m i - pos m l) (pos m j - pos m l) := by
    have e1 : ∀ (y : Int) (L : List (Int × Int)), (((if y = x then L else []).map fun p => Vec3.cross (pos m p.1) (pos m p.2)).sum : Vec3 K) =
        (one x y : K) • (L.map fun p => Vec3.cross (pos m p.1) (pos m p.2)).sum := fun y L => by
      unfold one
      split <;> simp
    simp only [tetLink, List.map_append, List.sum_append, e1, ← hu, ← hvv, ← hw, ← hz, List.map_cons, List.map_nil, List.sum_cons, List.sum_nil, add_zero]
    ext <;> simp [Vec3.cross] <;> ring
  rw [hsum, elementForm_of, vec4, vec4, ← hu, ← hvv, ← hw, ← hz]
  rw [show (![c + g.dot (pos m i), c + g.dot (pos m j), c + g.dot (pos m k), c + g.dot (pos m l)] : Fin 4 → K) = sample (tetV ⟨pos m i, pos m j, pos m k, pos m l⟩) c g by
    funext q; fin_cases q <;> rfl, hform, tet_volume, Vec3.dot_smul]
  field_simp

theorem sum_swap (P : Int → Vec3 K) (l : List (Int × Int)) (h : l.Perm (l.map Prod.swap)) : (l.map fun p => Vec3.cross (P p.1) (P p.2)).sum = 0 := by
  have h1 := (h.map fun p => Vec3.cross (P p.1) (P p.2)).sum_eq
  have h2 : ∀ l : List (Int × Int), ((l.map Prod.swap).map fun p => Vec3.cross (P p.1) (P p.2)).sum = -(l.map fun p => Vec3.cross (P p.1) (P p.2)).sum := by
    intro l
    induction l with
    | nil => simp
    | cons a t ih =>
      simp only [List.map_cons, List.sum_cons, ih, Prod.fst_swap, Prod.snd_swap]
      ext <;> simp [Vec3.cross] <;> ring
  rw [h2] at h1
  have hx := congrArg Vec3.x h1
  have hy := congrArg Vec3.y h1
  have hz := congrArg Vec3.z h1
  simp only [Vec3.neg_x, Vec3.neg_y, Vec3.neg_z] at hx hy hz
  ext
  · show _ = (0 : K); linarith
  · show _ = (0 : K); linarith
  · show _ = (0 : K); linarith

end FemHeat

/-- **C144, patch test with tetrahedra.** If the prescribed values are those of a linear function, and the nodes without prescribed values are surrounded by elements, the result is that linear
function, exactly. -/
theorem C144_patch_tetrahedra {nrm : Vec3 K → K} (hn : IsNorm nrm) (r : K) (solver : Sys K → Nat → K) (hS : Sound solver) (junk junk' : Nat → K) (m : Mesh K) (hwf : m.WF)
    (hrt : m.nodes.RoundTrip) (hs : SimplexMesh nrm m) (ht : AllTets m) (pf : PdeField K) (hno : NoConditions pf m) (f : EqField K) (hm : f.method = .fem)
    (hf : IndicesOk f.uFixed m.nodes.count) (hanch : ∀ id ∈ m.nodes.ids, Anchored m f id) (c : K) (g : Vec3 K)
    (hlin : ∀ i id p v, m.nodes.idAt? i = some id → m.nodes.get? id = some p → Equation.prescribed f i = some v → v = c + g.dot p)
    (hin : ∀ i id, m.nodes.idAt? i = some id → Equation.prescribed f i = none → Surrounded m id) :
    ∃ f', steady nrm r solver junk junk' m pf f = some f' ∧ f'.u.size = m.nodes.count ∧
      ∀ i id p, m.nodes.idAt? i = some id → m.nodes.get? id = some p → f'.u.at' i = c + g.dot p := by
  have hφ : Linear m c g (fun id => c + g.dot (pos m id)) := fun id p h => by show c + g.dot (pos m id) = _; rw [pos, h]; rfl
  obtain ⟨f', h1, h2, h3⟩ := patch_core hn r solver hS junk junk' m hwf hrt hs pf hno f hm hf hanch (fun id => c + g.dot (pos m id)) (fun i id v hi hv => by
    obtain ⟨p, hp⟩ := (hwf.nodes.2 id).1 (List.mem_of_getElem? hi)
    rw [hlin i id p v hi hp hv]; exact hφ id p hp) (fun i x hi hp => by
    rw [over_around m hwf tetLink x (fun p => Vec3.cross (pos m p.1) (pos m p.2)) (-(1 / 6)) g _ (fun id e he => tet_term hn r m hs ht c g _ hφ x id e he),
      sum_swap (pos m) _ (hin i x hi hp), Vec3.dot_zero, mul_zero])
  exact ⟨f', h1, h2, fun i id p hi hp => by rw [h3 i id hi]; exact hφ id p hp⟩

end ENigMA
