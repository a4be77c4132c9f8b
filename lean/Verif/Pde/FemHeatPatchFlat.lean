import Verif.Pde.FemHeatPatch

/-!
# C144: linear temperatures are found exactly, with triangles in a plane and with beams in a line
-/

set_option linter.unusedSectionVars false
set_option autoImplicit false

namespace ENigMA
open Matrix FemOp FemThermalOp Fem FemHeat FdmHeat
variable {K : Type} [Field K] [LinearOrder K] [IsStrictOrderedRing K]

namespace FemHeat

theorem tri_term {nrm : Vec3 K → K} (hn : IsNorm nrm) (r : K) (m : Mesh K) (hs : SimplexMesh nrm m) (ν : Vec3 K) (ht : AllFlat nrm m ν) (c : K) (g : Vec3 K) (φ : Int → K)
    (hφ : Linear m c g φ) (x : Int) (id : Int) (e : Elem) (he : m.elements.get? id = some e) :
    elementTerm (elementLaplacian nrm r) m (one x) φ e = -(1 / 2) * g.dot ((triLink e.nodeIds x).map fun p => Vec3.cross ν (pos m p.2 - pos m p.1)).sum := by
  obtain ⟨ps, h1, h2⟩ := hs id e he
  obtain ⟨hty, hpl⟩ := ht id e he
  rw [hty] at h2
  cases h2 with | triangle a b cc h => ?_
  have hν := hpl a b cc h1
  obtain ⟨i, j, k, hids⟩ := ids3 h1
  have hpos := positions m _ _ h1
  have hsamp := sample_list m φ c g hφ _ _ h1
  unfold elementTerm
  rw [h1, Option.bind_some, hty]
  show elementForm (.of (Fem.triLaplacian nrm 1 ⟨a, b, cc⟩)) _ _ = _
  rw [hsamp, hids] at *
  simp only [List.map_cons, List.map_nil, List.cons.injEq, and_true] at hpos ⊢
  obtain ⟨rfl, rfl, rfl⟩ := hpos
  have hA : 0 < triArea nrm ⟨pos m i, pos m j, pos m k⟩ := by rw [tri_area]; linarith
  obtain ⟨u, hu⟩ : ∃ u : K, u = one x i := ⟨_, rfl⟩
  obtain ⟨v, hv⟩ : ∃ u : K, u = one x j := ⟨_, rfl⟩
  obtain ⟨w, hw⟩ : ∃ u : K, u = one x k := ⟨_, rfl⟩
  have hsum : ((triLink [i, j, k] x).map fun p => Vec3.cross ν (pos m p.2 - pos m p.1)).sum =
      Vec3.cross ν ((w - u) • (pos m j - pos m i) - (v - u) • (pos m k - pos m i)) := by
    have e1 : ∀ (y : Int) (L : List (Int × Int)), (((if y = x then L else []).map fun p => Vec3.cross ν (pos m p.2 - pos m p.1)).sum : Vec3 K) =
        (one x y : K) • (L.map fun p => Vec3.cross ν (pos m p.2 - pos m p.1)).sum := fun y L => by
      unfold one
      split <;> simp
    simp only [triLink, List.map_append, List.sum_append, e1, ← hu, ← hv, ← hw, List.map_cons, List.map_nil, List.sum_cons, List.sum_nil, add_zero]
    ext <;> simp [Vec3.cross] <;> ring
  rw [hsum, elementForm_of, vec3, vec3, ← hu, ← hv, ← hw]
  rw [show (![c + g.dot (pos m i), c + g.dot (pos m j), c + g.dot (pos m k)] : Fin 3 → K) = sample (triV ⟨pos m i, pos m j, pos m k⟩) c g by
    funext q; fin_cases q <;> rfl, triLaplacian_form hn hA, sum_opp_sample, sum_opp, tri_area]
  have hraw : (⟨pos m i, pos m j, pos m k⟩ : Tri K).rawNormal = nrm (Vec3.cross (pos m j - pos m i) (pos m k - pos m i)) • ν := hν
  rw [hraw]
  show -(1 / (4 * (nrm _ / 2))) * ((w - u) • (pos m j - pos m i) - (v - u) • (pos m k - pos m i)).dot _ = _
  generalize nrm (Vec3.cross (pos m j - pos m i) (pos m k - pos m i)) = A at h
  generalize (w - u) • (pos m j - pos m i) - (v - u) • (pos m k - pos m i) = E
  have : E.dot (Vec3.cross g (A • ν)) = A * g.dot (Vec3.cross ν E) := by
    simp only [Vec3.dot, Vec3.cross, Vec3.smul_x, Vec3.smul_y, Vec3.smul_z]
    ring
  rw [this]
  field_simp
  ring

theorem sum_round (P : Int → Vec3 K) (ν : Vec3 K) (l : List (Int × Int)) (h : (l.map Prod.fst).Perm (l.map Prod.snd)) : (l.map fun p => Vec3.cross ν (P p.2 - P p.1)).sum = 0 := by
  have h1 := (h.map P).sum_eq
  have h2 : ∀ l : List (Int × Int), (l.map fun p => Vec3.cross ν (P p.2 - P p.1)).sum = Vec3.cross ν (((l.map Prod.snd).map P).sum - ((l.map Prod.fst).map P).sum) := by
    intro l
    induction l with
    | nil => simp; ext <;> simp [Vec3.cross]
    | cons a t ih =>
      simp only [List.map_cons, List.sum_cons, ih]
      ext <;> simp [Vec3.cross] <;> ring
  rw [h2, h1, sub_self]
  ext <;> simp [Vec3.cross]

/-- How often a node is an end, less how often it is a start. -/
def net (ids : List Int) (x : Int) : K := ((ids.drop 1).count x : K) - (ids.take 1).count x

theorem beam_term {nrm : Vec3 K → K} (hn : IsNorm nrm) (r : K) (m : Mesh K) (hs : SimplexMesh nrm m) (δ : Vec3 K) (ht : AllStraight nrm m δ) (c : K) (g : Vec3 K) (φ : Int → K)
    (hφ : Linear m c g φ) (x : Int) (id : Int) (e : Elem) (he : m.elements.get? id = some e) :
    elementTerm (elementLaplacian nrm r) m (one x) φ e = -(g.dot δ) * net e.nodeIds x := by
  obtain ⟨ps, h1, h2⟩ := hs id e he
  obtain ⟨hty, hpl⟩ := ht id e he
  rw [hty] at h2
  cases h2 with | beam a b h => ?_
  have hδ := hpl a b h1
  obtain ⟨i, j, hids⟩ := ids2 h1
  have hsamp := sample_list m φ c g hφ _ _ h1
  unfold elementTerm
  rw [h1, Option.bind_some, hty]
  show elementForm (.of (Fem.beamLaplacian 1 (nrm (b - a)) 1)) _ _ = _
  rw [hsamp, hids]
  simp only [List.map_cons, List.map_nil]
  rw [elementForm_of, vec2, vec2]
  have hg : g.dot b - g.dot a = nrm (b - a) * g.dot δ := by rw [← Vec3.dot_sub, ← Vec3.dot_smul, ← hδ]
  have hnet : (net [i, j] x : K) = one x j - one x i := by
    simp only [net, one, List.drop_succ_cons, List.drop_zero, List.take_succ_cons, List.take_zero, List.count_cons, List.count_nil, beq_iff_eq, zero_add]
    split_ifs <;> simp
  rw [hnet]
  simp only [beamLaplacian, if_pos h, dotProduct, mulVec, Fin.sum_univ_two]
  simp
  generalize (one x j : K) = v
  generalize (one x i : K) = u
  have h0 := h.ne'
  have hb : g.dot b = g.dot a + nrm (b - a) * g.dot δ := by linear_combination hg
  rw [hb]
  field_simp
  ring

/-- Summed over the elements. -/
theorem over_between (m : Mesh K) (hwf : m.WF) (x : Int) (k : K) (t : Elem → K) (h : ∀ id e, m.elements.get? id = some e → t e = k * net e.nodeIds x) (hb : Between m x) :
    overElements m (fun _ => t) = 0 := by
  have hall : ∀ id ∈ m.elements.ids, ∃ e, m.elements.get? id = some e := fun id hid => (hwf.elements.2 id).1 hid
  have key : ∀ l : List Int, (∀ id ∈ l, ∃ e, m.elements.get? id = some e) → (l.map fun id => ((m.elements.get? id).map t).getD 0).sum =
      k * (((l.flatMap fun id => ((m.elements.get? id).map fun e => e.nodeIds.drop 1).getD []).count x : K) -
        (l.flatMap fun id => ((m.elements.get? id).map fun e => e.nodeIds.take 1).getD []).count x) := by
    intro l
    induction l with
    | nil => simp
    | cons a t' ih =>
      intro hl
      obtain ⟨e, he⟩ := hl a (List.mem_cons_self ..)
      rw [List.map_cons, List.sum_cons, ih fun id hid => hl id (List.mem_cons_of_mem _ hid), List.flatMap_cons, List.flatMap_cons, List.count_append, List.count_append, he]
      simp only [Option.map_some, Option.getD_some]
      rw [h a e he, net]
      push_cast
      ring
  unfold Between at hb
  have := key _ hall
  rw [hb, sub_self, mul_zero] at this
  exact this

end FemHeat

/-- **C144, patch test with triangles.** In a plane mesh of triangles with the same orientation: if the prescribed values are those of a linear function and the nodes without prescribed values
are surrounded by elements, the result is that linear function, exactly. -/
theorem C144_patch_triangles {nrm : Vec3 K → K} (hn : IsNorm nrm) (r : K) (solver : Sys K → Nat → K) (hS : Sound solver) (junk junk' : Nat → K) (m : Mesh K) (hwf : m.WF)
    (hrt : m.nodes.RoundTrip) (hs : SimplexMesh nrm m) (ν : Vec3 K) (ht : AllFlat nrm m ν) (pf : PdeField K) (hno : NoConditions pf m) (f : EqField K) (hm : f.method = .fem)
    (hf : IndicesOk f.uFixed m.nodes.count) (hanch : ∀ id ∈ m.nodes.ids, Anchored m f id) (c : K) (g : Vec3 K)
    (hlin : ∀ i id p v, m.nodes.idAt? i = some id → m.nodes.get? id = some p → Equation.prescribed f i = some v → v = c + g.dot p)
    (hin : ∀ i id, m.nodes.idAt? i = some id → Equation.prescribed f i = none → Encircled m id) :
    ∃ f', steady nrm r solver junk junk' m pf f = some f' ∧ f'.u.size = m.nodes.count ∧
      ∀ i id p, m.nodes.idAt? i = some id → m.nodes.get? id = some p → f'.u.at' i = c + g.dot p := by
  have hφ : Linear m c g (fun id => c + g.dot (pos m id)) := fun id p h => by show c + g.dot (pos m id) = _; rw [pos, h]; rfl
  obtain ⟨f', h1, h2, h3⟩ := patch_core hn r solver hS junk junk' m hwf hrt hs pf hno f hm hf hanch (fun id => c + g.dot (pos m id)) (fun i id v hi hv => by
    obtain ⟨p, hp⟩ := (hwf.nodes.2 id).1 (List.mem_of_getElem? hi)
    rw [hlin i id p v hi hp hv]; exact hφ id p hp) (fun i x hi hp => by
    rw [over_around m hwf triLink x (fun p => Vec3.cross ν (pos m p.2 - pos m p.1)) (-(1 / 2)) g _ (fun id e he => tri_term hn r m hs ν ht c g _ hφ x id e he),
      sum_round (pos m) ν _ (hin i x hi hp), Vec3.dot_zero, mul_zero])
  exact ⟨f', h1, h2, fun i id p hi hp => by rw [h3 i id hi]; exact hφ id p hp⟩

/-- **C144, patch test with beams.** In a rod of beams in one direction, of any lengths: if the prescribed values are those of a linear function and as many beams begin as end at every node
without a prescribed value, the result is that linear function, exactly. -/
theorem C144_patch_beams {nrm : Vec3 K → K} (hn : IsNorm nrm) (r : K) (solver : Sys K → Nat → K) (hS : Sound solver) (junk junk' : Nat → K) (m : Mesh K) (hwf : m.WF)
    (hrt : m.nodes.RoundTrip) (hs : SimplexMesh nrm m) (δ : Vec3 K) (ht : AllStraight nrm m δ) (pf : PdeField K) (hno : NoConditions pf m) (f : EqField K) (hm : f.method = .fem)
    (hf : IndicesOk f.uFixed m.nodes.count) (hanch : ∀ id ∈ m.nodes.ids, Anchored m f id) (c : K) (g : Vec3 K)
    (hlin : ∀ i id p v, m.nodes.idAt? i = some id → m.nodes.get? id = some p → Equation.prescribed f i = some v → v = c + g.dot p)
    (hin : ∀ i id, m.nodes.idAt? i = some id → Equation.prescribed f i = none → Between m id) :
    ∃ f', steady nrm r solver junk junk' m pf f = some f' ∧ f'.u.size = m.nodes.count ∧
      ∀ i id p, m.nodes.idAt? i = some id → m.nodes.get? id = some p → f'.u.at' i = c + g.dot p := by
  have hφ : Linear m c g (fun id => c + g.dot (pos m id)) := fun id p h => by show c + g.dot (pos m id) = _; rw [pos, h]; rfl
  obtain ⟨f', h1, h2, h3⟩ := patch_core hn r solver hS junk junk' m hwf hrt hs pf hno f hm hf hanch (fun id => c + g.dot (pos m id)) (fun i id v hi hv => by
    obtain ⟨p, hp⟩ := (hwf.nodes.2 id).1 (List.mem_of_getElem? hi)
    rw [hlin i id p v hi hp hv]; exact hφ id p hp) (fun i x hi hp =>
    over_between m hwf x (-(g.dot δ)) _ (fun id e he => beam_term hn r m hs δ ht c g _ hφ x id e he) (hin i x hi hp))
  exact ⟨f', h1, h2, fun i id p hi hp => by rw [h3 i id hi]; exact hφ id p hp⟩

end ENigMA
