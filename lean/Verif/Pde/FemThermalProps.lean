import Verif.Pde.FemThermalLemmas

/-!
# Properties of the finite element operators of thermal problems: C115

The Robin problem on a region with convective edges, in its weak form: for every test function `φ`,
`-∫ ∇φ · ∇T = ∑ over convective edges of h ∫ φ (T - Tinf)`.
`FemOp.elementTerm (elementLaplacian …)` is the left side on one element (C25, C28). `exchange` and `supply` below are `∑ h ∫ φ T` and
`∑ h Tinf ∫ φ` on the convective edges of an element.
-/

set_option linter.unusedSectionVars false
set_option autoImplicit false

namespace ENigMA
open Matrix FemOp FemThermalOp

variable {K : Type} [Field K] [LinearOrder K] [IsStrictOrderedRing K]

namespace FemThermalOp

/-- The place of a node. -/
def place (m : Mesh K) (id : Int) : Vec3 K := (m.nodes.get? id).getD 0

/-- The distance of two nodes. -/
def span (nrm : Vec3 K → K) (m : Mesh K) (x y : Int) : K := nrm (place m y - place m x)

/-- `h ∫ φ ψ` along the edge `k` of the triangle `id` with the nodes `x`, `y`, if the edge is convective. -/
def edgeExchange (nrm : Vec3 K → K) (f : PdeField K) (m : Mesh K) (φ ψ : Int → K) (id : Int) (k : Nat) (x y : Int) : K :=
  match convective f id k with
  | some (h, _) => h * edgeProduct (span nrm m x y) (φ x) (φ y) (ψ x) (ψ y)
  | none => 0

/-- `h Tinf ∫ φ` along the edge. -/
def edgeSupply (nrm : Vec3 K → K) (f : PdeField K) (m : Mesh K) (φ : Int → K) (id : Int) (k : Nat) (x y : Int) : K :=
  match convective f id k with
  | some (h, tInf) => h * tInf * (span nrm m x y * ((φ x + φ y) / 2))
  | none => 0

/-- The convective terms of one element in the form. A beam carries the weight of its whole surface at each of its two nodes. -/
def exchange (nrm : Vec3 K → K) (f : PdeField K) (m : Mesh K) (φ ψ : Int → K) (id : Int) (e : Elem) : K :=
  match e.elementType, e.nodeIds with
  | .beam, [x, y] => match convective f id 0 with
    | some (h, _) => h * (span nrm m x y * (φ x * ψ x + φ y * ψ y))
    | none => 0
  | .triangle, [x, y, z] =>
    edgeExchange nrm f m φ ψ id 0 x y + edgeExchange nrm f m φ ψ id 1 y z + edgeExchange nrm f m φ ψ id 2 z x
  | _, _ => 0

/-- The convective terms of one element in the right-hand side. -/
def supply (nrm : Vec3 K → K) (f : PdeField K) (m : Mesh K) (φ : Int → K) (id : Int) (e : Elem) : K :=
  match e.elementType, e.nodeIds with
  | .beam, [x, y] => match convective f id 0 with
    | some (h, tInf) => h * tInf * (span nrm m x y * (φ x + φ y))
    | none => 0
  | .triangle, [x, y, z] => edgeSupply nrm f m φ id 0 x y + edgeSupply nrm f m φ id 1 y z + edgeSupply nrm f m φ id 2 z x
  | _, _ => 0

/-- Sum over the elements of a mesh, with their ids. -/
def overElements (m : Mesh K) (g : Int → Elem → K) : K := (m.elements.ids.map fun id => ((m.elements.get? id).map (g id)).getD 0).sum

theorem elementLocal_n (nrm : Vec3 K → K) (r : K) (f : PdeField K) (id : Int) (t : ElementType) (ps : List (Vec3 K)) (M : EMat K)
    (hM : elementLaplacian nrm r t ps = some (some M)) (ids : List Int) (φ ψ : Int → K) (m : Mesh K)
    (hps : ids.map (place m) = ps) (fs : List Int) :
    ∃ s, elementLocal nrm r f id t ps = some (some s) ∧ s.mat.n = ps.length ∧
      elementForm s.mat (ids.map φ) (ids.map ψ) = elementForm M (ids.map φ) (ids.map ψ) + exchange nrm f m φ ψ id ⟨t, ids, fs⟩ ∧
      s.load (ids.map φ) = supply nrm f m φ id ⟨t, ids, fs⟩ := by
  have hn := laplacian_sized nrm r t ps M hM
  have h0 : ∀ v, (⟨M, fun _ => 0⟩ : Local K).load v = 0 := by intro v; simp [Local.load]
  unfold elementLocal
  rw [hM]
  simp only [Option.bind_eq_bind, Option.bind_some]
  split
  · rename_i p q
    rcases ids with _ | ⟨x, _ | ⟨y, _ | ⟨z, l⟩⟩⟩ <;> simp only [List.map_cons, List.map_nil, List.cons.injEq, reduceCtorEq, and_false] at hps
    obtain ⟨rfl, rfl, -⟩ := hps
    simp only [exchange, supply]
    cases hc : convective f id 0 with
    | none => exact ⟨_, rfl, hn, by simp, h0 _⟩
    | some c =>
      obtain ⟨h, tInf⟩ := c
      obtain ⟨a1, a2, a3⟩ := convectBeam_spec (nrm (place m y - place m x)) h tInf ⟨M, fun _ => 0⟩ hn ([x, y].map φ) ([x, y].map ψ)
      refine ⟨_, rfl, a1, ?_, ?_⟩
      · simp only [List.map_cons, List.map_nil] at a2 ⊢
        rw [a2]
        simp [span]
      · simp only [List.map_cons, List.map_nil] at a3 ⊢
        rw [a3, h0]
        simp [span]
  · rename_i a b c
    rcases ids with _ | ⟨x, _ | ⟨y, _ | ⟨z, _ | ⟨u, l⟩⟩⟩⟩ <;> simp only [List.map_cons, List.map_nil, List.cons.injEq, reduceCtorEq, and_false] at hps
    obtain ⟨rfl, rfl, rfl, -⟩ := hps
    have step : ∀ (k : Nat) (x' y' : Int) (s : Local K), s.mat.n = 3 →
        [place m x, place m y, place m z].getD (k % 3) 0 = place m x' → [place m x, place m y, place m z].getD ((k + 1) % 3) 0 = place m y' →
        ([x, y, z].map φ).getD (k % 3) 0 = φ x' → ([x, y, z].map φ).getD ((k + 1) % 3) 0 = φ y' →
        ([x, y, z].map ψ).getD (k % 3) 0 = ψ x' → ([x, y, z].map ψ).getD ((k + 1) % 3) 0 = ψ y' →
        ∃ s', (match convective f id k with
          | some (h, tInf) => convectTriangle nrm (fun i => [place m x, place m y, place m z].getD i 0) k h tInf s
          | none => s) = s' ∧ s'.mat.n = 3 ∧
          elementForm s'.mat ([x, y, z].map φ) ([x, y, z].map ψ) = elementForm s.mat ([x, y, z].map φ) ([x, y, z].map ψ) +
            edgeExchange nrm f m φ ψ id k x' y' ∧
          s'.load ([x, y, z].map φ) = s.load ([x, y, z].map φ) + edgeSupply nrm f m φ id k x' y' := by
      intro k x' y' s hs p1 p2 q1 q2 r1 r2
      refine ⟨_, rfl, ?_⟩
      unfold edgeExchange edgeSupply
      cases hc : convective f id k with
      | none => exact ⟨hs, by simp, by simp⟩
      | some c =>
        obtain ⟨h, tInf⟩ := c
        obtain ⟨a1, a2, a3⟩ := convectTriangle_spec nrm (fun i => [place m x, place m y, place m z].getD i 0) k h tInf s hs ([x, y, z].map φ)
          ([x, y, z].map ψ)
        rw [p1, p2, q1, q2, r1, r2] at a2
        rw [p1, p2, q1, q2] at a3
        exact ⟨a1, a2, a3⟩
    obtain ⟨s1, e1, n1, f1, l1⟩ := step 0 x y ⟨M, fun _ => 0⟩ hn rfl rfl rfl rfl rfl rfl
    obtain ⟨s2, e2, n2, f2, l2⟩ := step 1 y z s1 n1 rfl rfl rfl rfl rfl rfl
    obtain ⟨s3, e3, n3, f3, l3⟩ := step 2 z x s2 n2 rfl rfl rfl rfl rfl rfl
    refine ⟨s3, ?_, n3, ?_, ?_⟩
    · subst e1 e2 e3; rfl
    · rw [f3, f2, f1]; simp only [exchange]; ring
    · rw [l3, l2, l1, h0]; simp only [supply]; ring
  · rename_i hb ht
    have hex : exchange nrm f m φ ψ id ⟨t, ids, fs⟩ = 0 := by
      unfold exchange
      split
      · rename_i x y h1 h2
        exact absurd (by subst h2; simpa using hps.symm) (hb (place m x) (place m y) h1)
      · rename_i x y z h1 h2
        exact absurd (by subst h2; simpa using hps.symm) (ht (place m x) (place m y) (place m z) h1)
      · rfl
    have hsu : supply nrm f m φ id ⟨t, ids, fs⟩ = 0 := by
      unfold supply
      split
      · rename_i x y h1 h2
        exact absurd (by subst h2; simpa using hps.symm) (hb (place m x) (place m y) h1)
      · rename_i x y z h1 h2
        exact absurd (by subst h2; simpa using hps.symm) (ht (place m x) (place m y) (place m z) h1)
      · rfl
    exact ⟨_, rfl, hn, by rw [hex, add_zero], by rw [hsu, h0]⟩

/-- The statements of one element, and their effect. -/
theorem elementStamps_spec (nrm : Vec3 K → K) (r : K) (f : PdeField K) (m : Mesh K) (hwf : m.WF) (hrt : m.nodes.RoundTrip)
    (hreg : Regular nrm r m) (id : Int) (e : Elem) (he : m.elements.get? id = some e) :
    ∃ l, elementStamps nrm r f 1 m id = some l ∧ (∀ st ∈ l, st.IsAdd ∧ st.Ok m.nodes.count) ∧ ∀ φ ψ : Int → K,
      (l.map (Stamp.val (nodal m φ) (nodal m ψ))).sum =
        elementTerm (elementLaplacian nrm r) m φ ψ e + exchange nrm f m φ ψ id e ∧
      (l.map (Stamp.valB (nodal m φ))).sum = supply nrm f m φ id e := by
  have hn : ∀ x ∈ e.nodeIds, x ∈ m.nodes.ids := hwf.elemNodes id e he
  have hmem : e ∈ elems m := mem_elems.2 ⟨id, (hwf.elements.2 id).2 ⟨e, he⟩, he⟩
  obtain ⟨ps, hps, eps⟩ := mapM_some m.nodes.get? e.nodeIds fun x hx => (hwf.nodes.2 x).1 (hn x hx)
  obtain ⟨idx, hidx, eidx⟩ := mapM_some m.nodes.indexOf? e.nodeIds fun x hx => by
    obtain ⟨i, hi, -⟩ := hrt.2 x (hn x hx); exact ⟨i, hi⟩
  have hpl : e.nodeIds.map (place m) = ps := by
    have : e.nodeIds.map (place m) = (e.nodeIds.map m.nodes.get?).map (fun o => o.getD 0) := by rw [List.map_map]; rfl
    rw [this, eps, List.map_map]
    simp
  obtain ⟨o, ho⟩ := hreg e hmem ps hps
  have hterm : ∀ φ ψ : Int → K, elementTerm (elementLaplacian nrm r) m φ ψ e = match (some o : Option (Option (EMat K))) with
      | some (some M) => elementForm M (e.nodeIds.map φ) (e.nodeIds.map ψ)
      | _ => 0 := by
    intro φ ψ
    unfold elementTerm
    rw [hps, Option.bind_some, ho]
    cases o <;> rfl
  cases o with
  | none =>
    refine ⟨[], ?_, by simp, ?_⟩
    · simp only [elementStamps, he, hps, elementLocal, ho, Option.bind_eq_bind, Option.bind_some]
      rfl
    · intro φ ψ
      rw [hterm]
      have hb : ∀ x y, e.elementType = .beam → e.nodeIds = [x, y] → False := by
        intro x y h1 h2
        rw [h2] at hpl
        rw [← hpl, h1] at ho
        simp [elementLaplacian] at ho
      have ht : ∀ x y z, e.elementType = .triangle → e.nodeIds = [x, y, z] → False := by
        intro x y z h1 h2
        rw [h2] at hpl
        rw [← hpl, h1] at ho
        simp [elementLaplacian] at ho
      have hx : exchange nrm f m φ ψ id e = 0 := by
        unfold exchange
        split
        · rename_i x y h1 h2; exact (hb x y h1 h2).elim
        · rename_i x y z h1 h2; exact (ht x y z h1 h2).elim
        · rfl
      constructor
      · rw [hx]; simp
      · unfold supply
        split
        · rename_i x y h1 h2; exact (hb x y h1 h2).elim
        · rename_i x y z h1 h2; exact (ht x y z h1 h2).elim
        · simp
  | some M =>
    have l1 : ps.length = e.nodeIds.length := by simpa using (congrArg List.length eps).symm
    have l2 : idx.length = e.nodeIds.length := by simpa using (congrArg List.length eidx).symm
    have hin : ∀ I ∈ idx, Equation.InRange I m.nodes.count := by
      intro I hI
      have : some I ∈ e.nodeIds.map m.nodes.indexOf? := by rw [eidx]; exact List.mem_map_of_mem hI
      obtain ⟨x, hx, hxI⟩ := List.mem_map.1 this
      obtain ⟨i, hi, hid⟩ := hrt.2 x (hn x hx)
      rw [hi] at hxI
      cases hxI
      have : i < m.nodes.ids.length := (List.getElem?_eq_some_iff.1 hid).1
      exact ⟨by omega, by simpa [Cont.count] using this⟩
    have key : ∀ φ : Int → K, (idx.map fun I => nodal m φ I.toNat) = e.nodeIds.map φ := by
      intro φ
      have h1 : (e.nodeIds.map fun id => nodal m φ ((m.nodes.indexOf? id).getD 0).toNat) = e.nodeIds.map φ := by
        apply List.map_congr_left
        intro id hid
        obtain ⟨i, hi, hid'⟩ := hrt.2 id (hn id hid)
        rw [hi]
        simp [nodal, hid']
      rw [← h1]
      have : (e.nodeIds.map fun id => nodal m φ ((m.nodes.indexOf? id).getD 0).toNat) =
          (e.nodeIds.map m.nodes.indexOf?).map fun o => nodal m φ (o.getD 0).toNat := by rw [List.map_map]; rfl
      rw [this, eidx, List.map_map]
      rfl
    obtain ⟨s, hs, hsn, -⟩ := elementLocal_n nrm r f id e.elementType ps M ho e.nodeIds (fun _ => 0) (fun _ => 0) m hpl e.faceIds
    refine ⟨pureScatter idx s, ?_, fun st hst => ⟨pureScatter_isAdd _ _ st hst, pureScatter_ok _ _ _ hin st hst⟩, ?_⟩
    · simp only [elementStamps, he, hps, hs, hidx, Option.bind_eq_bind, Option.bind_some]
      exact scatter_one idx s (by omega)
    · intro φ ψ
      obtain ⟨s', hs', -, h1, h2⟩ := elementLocal_n nrm r f id e.elementType ps M ho e.nodeIds φ ψ m hpl e.faceIds
      rw [hs] at hs'
      cases hs'
      rw [pureScatter_val _ _ (by omega), pureScatter_valB _ _ (by omega), key, key, h1, h2, hterm]
      exact ⟨rfl, rfl⟩

end FemThermalOp

/-- **C115.** On every consistent mesh whose elements have their matrices, for every set of conditions: `laplacian` yields one row per node,
and for all fields `φ`, `ψ` on the nodes `φᵀ A ψ` is the diffusion form *plus* the convective exchange, `φᵀ b` the convective supply. -/
theorem C115_laplacian (nrm : Vec3 K → K) (r : K) (f : PdeField K) (m : Mesh K) (hwf : m.WF) (hrt : m.nodes.RoundTrip) (hreg : Regular nrm r m) :
    ∃ s, FemThermalOp.laplacian nrm r f 1 m = some s ∧ s.n = m.nodes.count ∧ s.kind = .sparseSymmetric ∧ ∀ φ ψ : Int → K,
      s.form (nodal m φ) (nodal m ψ) =
        overElements m (fun _ => elementTerm (elementLaplacian nrm r) m φ ψ) + overElements m (exchange nrm f m φ ψ) ∧
      s.load (nodal m φ) = overElements m (supply nrm f m φ) := by
  have hel : ∀ id ∈ m.elements.ids, ∃ e, m.elements.get? id = some e := fun id hid => (hwf.elements.2 id).1 hid
  have hst : ∀ id ∈ m.elements.ids, elementStamps nrm r f 1 m id = some ((elementStamps nrm r f 1 m id).getD []) := by
    intro id hid
    obtain ⟨e, he⟩ := hel id hid
    obtain ⟨l, hl, -⟩ := elementStamps_spec nrm r f m hwf hrt hreg id e he
    rw [hl]; rfl
  have hcol : (collect <| (List.range m.elements.count).map fun el => do
      let id ← m.elements.idAt? el
      elementStamps nrm r f 1 m id) = some (m.elements.ids.flatMap fun id => (elementStamps nrm r f 1 m id).getD []) := by
    have : ((List.range m.elements.count).map fun el => do
        let id ← m.elements.idAt? el
        elementStamps nrm r f 1 m id) = m.elements.ids.map fun id => elementStamps nrm r f 1 m id := by
      apply List.ext_getElem (by simp [Cont.count])
      intro i h1 h2
      have hi : i < m.elements.ids.length := by simpa using h2
      simp [Cont.idAt?, hi]
    rw [this]
    exact collect_map _ _ _ hst
  have hok : ∀ st ∈ m.elements.ids.flatMap (fun id => (elementStamps nrm r f 1 m id).getD []), st.IsAdd ∧ st.Ok m.nodes.count := by
    intro st h
    obtain ⟨id, hid, h⟩ := List.mem_flatMap.1 h
    obtain ⟨e, he⟩ := hel id hid
    obtain ⟨l, hl, hl2, -⟩ := elementStamps_spec nrm r f m hwf hrt hreg id e he
    rw [hl] at h
    exact hl2 st h
  obtain ⟨s, hs, hn, hk, -⟩ := Sys.assemble_spec _ (Sys.zero .sparseSymmetric m.nodes.count) fun st h => (hok st h).2
  refine ⟨s, ?_, hn, hk, ?_⟩
  · unfold FemThermalOp.laplacian
    rw [hcol]
    exact hs
  · intro φ ψ
    obtain ⟨-, -, a3, a4⟩ := Sys.assemble_form _ _ _ hs (fun st h => (hok st h).1) (nodal m φ) (nodal m ψ)
    rw [a3, a4, Sys.zero_form, Sys.zero_load, zero_add, zero_add, List.map_flatMap, List.map_flatMap, List.flatMap_def, List.flatMap_def,
      List.sum_flatten, List.sum_flatten, List.map_map, List.map_map]
    unfold overElements
    rw [← List.sum_map_add]
    constructor <;>
    · congr 1
      apply List.map_congr_left
      intro id hid
      obtain ⟨e, he⟩ := hel id hid
      obtain ⟨l, hl, -, hl3⟩ := elementStamps_spec nrm r f m hwf hrt hreg id e he
      simp only [Function.comp, hl, he, Option.getD_some, Option.map_some]
      first | exact (hl3 φ ψ).1 | exact (hl3 φ ψ).2

theorem FemThermalOp.overElements_add (m : Mesh K) (g g' : Int → Elem → K) :
    overElements m (fun id e => g id e + g' id e) = overElements m g + overElements m g' := by
  unfold overElements
  rw [← List.sum_map_add]
  congr 1
  apply List.map_congr_left
  intro id _
  cases m.elements.get? id <;> simp

theorem FemThermalOp.overElements_zero (m : Mesh K) (g : Int → Elem → K) (h : ∀ id e, m.elements.get? id = some e → g id e = 0) :
    overElements m g = 0 := by
  apply List.sum_eq_zero
  intro x hx
  obtain ⟨id, hid, rfl⟩ := List.mem_map.1 hx
  cases he : m.elements.get? id with
  | none => rfl
  | some e => simpa using h id e he

theorem FemThermalOp.overElements_congr (m : Mesh K) (g g' : Int → Elem → K) (h : ∀ id e, m.elements.get? id = some e → g id e = g' id e) :
    overElements m g = overElements m g' := by
  unfold overElements
  congr 1
  apply List.map_congr_left
  intro id _
  cases he : m.elements.get? id with
  | none => rfl
  | some e => simp [h id e he]

/-- The diffusion form of an element is symmetric and vanishes on constants. -/
theorem FemThermalOp.diffusion_facts (nrm : Vec3 K → K) (r : K) (m : Mesh K) (hwf : m.WF) (id : Int) (e : Elem) (he : m.elements.get? id = some e)
    (φ ψ : Int → K) : elementTerm (elementLaplacian nrm r) m φ ψ e = elementTerm (elementLaplacian nrm r) m ψ φ e ∧
      ∀ c : K, elementTerm (elementLaplacian nrm r) m φ (fun _ => c) e = 0 := by
  obtain ⟨ps, hps, eps⟩ := mapM_some m.nodes.get? e.nodeIds fun x hx => (hwf.nodes.2 x).1 (hwf.elemNodes id e he x hx)
  have l1 : ps.length = e.nodeIds.length := by simpa using (congrArg List.length eps).symm
  unfold elementTerm
  rw [hps, Option.bind_some]
  cases ho : elementLaplacian nrm r e.elementType ps with
  | none => exact ⟨rfl, fun _ => rfl⟩
  | some o =>
    cases o with
    | none => exact ⟨rfl, fun _ => rfl⟩
    | some M =>
      obtain ⟨n, A, rfl, hl, hA, hc⟩ := elementLaplacian_cases nrm r _ _ M ho
      simp only
      refine ⟨?_, fun c => ?_⟩
      · rw [elementForm_of, elementForm_of]
        conv_lhs => rw [← hA, mulVec_transpose, dotProduct_comm, ← dotProduct_mulVec]
      · rw [elementForm_of]
        have : (fun i : Fin n => (e.nodeIds.map fun _ => c).getD i 0) = fun _ => c := by
          funext i
          have hi : (i : Nat) < e.nodeIds.length := by rw [← l1, hl]; exact i.2
          simp [List.getD_eq_getElem?_getD, hi]
        rw [this, hc c]
        simp

/-- **C115, one row.** The residual of the row of node `x` at the temperatures `ψ`. -/
theorem C115_row (nrm : Vec3 K → K) (r : K) (f : PdeField K) (m : Mesh K) (hwf : m.WF) (hrt : m.nodes.RoundTrip) (hreg : Regular nrm r m)
    (s : Sys K) (hs : FemThermalOp.laplacian nrm r f 1 m = some s) (i : Nat) (x : Int) (hi : m.nodes.idAt? i = some x) (ψ : Int → K) :
    s.row (nodal m ψ) i - s.b i =
      overElements m (fun _ => elementTerm (elementLaplacian nrm r) m (fun z => if z = x then 1 else 0) ψ) +
      overElements m (exchange nrm f m (fun z => if z = x then 1 else 0) ψ) -
      overElements m (supply nrm f m (fun z => if z = x then 1 else 0)) := by
  obtain ⟨s', hs', hn, -, hF⟩ := C115_laplacian nrm r f m hwf hrt hreg
  rw [hs] at hs'
  cases hs'
  have hi' : i < s.n := by rw [hn]; exact (List.getElem?_eq_some_iff.1 hi).1
  have hv : ∀ k < s.n, nodal m (fun z => if z = x then (1 : K) else 0) k = if k = i then 1 else 0 :=
    fun k hk => nodal_single m hwf i x hi k (hn ▸ hk)
  rw [← (hF _ _).1, ← (hF _ (fun _ => 0)).2, Sys.form_congr s _ (fun k => if k = i then 1 else 0) _ _ hv (fun _ _ => rfl), Sys.form_row s i hi']
  congr 1
  rw [← Sys.load_single s i hi']
  exact Finset.sum_congr rfl fun k hk => by rw [hv k (Finset.mem_range.1 hk)]

/-- **C115, the weak form that is solved.** Temperatures `ψ` solve the system exactly if for every test function `φ` the diffusion form is
*minus* `∑ h ∫ φ (ψ - Tinf)`; in the Robin problem it is plus. -/
theorem C115_weak_partial (nrm : Vec3 K → K) (r : K) (f : PdeField K) (m : Mesh K) (hwf : m.WF) (hrt : m.nodes.RoundTrip) (hreg : Regular nrm r m)
    (s : Sys K) (hs : FemThermalOp.laplacian nrm r f 1 m = some s) (ψ : Int → K) :
    s.Solves (nodal m ψ) ↔ ∀ φ : Int → K, overElements m (fun _ => elementTerm (elementLaplacian nrm r) m φ ψ) =
      -(overElements m (exchange nrm f m φ ψ) - overElements m (supply nrm f m φ)) := by
  obtain ⟨s', hs', hn, -, hF⟩ := C115_laplacian nrm r f m hwf hrt hreg
  rw [hs] at hs'
  cases hs'
  constructor
  · intro h φ
    have : s.form (nodal m φ) (nodal m ψ) = s.load (nodal m φ) := by
      unfold Sys.form Sys.load
      apply Finset.sum_congr rfl
      intro i hi
      rw [← h i (Finset.mem_range.1 hi), Sys.row, Finset.mul_sum]
      exact Finset.sum_congr rfl fun j _ => by ring
    rw [(hF φ ψ).1, (hF φ ψ).2] at this
    linear_combination this
  · intro h i hi
    obtain ⟨x, hx⟩ := idAt_of_lt m i (hn ▸ hi)
    have := C115_row nrm r f m hwf hrt hreg s hs i x hx ψ
    rw [h] at this
    linear_combination this

/-- **C115, balance.** The matrix is symmetric; and at every solution the heat exchanged through the convective edges sums to zero. -/
theorem C115_balance (nrm : Vec3 K → K) (r : K) (f : PdeField K) (m : Mesh K) (hwf : m.WF) (hrt : m.nodes.RoundTrip) (hreg : Regular nrm r m)
    (s : Sys K) (hs : FemThermalOp.laplacian nrm r f 1 m = some s) :
    (∀ i < s.n, ∀ j < s.n, s.A i j = s.A j i) ∧
    ∀ ψ : Int → K, s.Solves (nodal m ψ) → overElements m (exchange nrm f m (fun _ => 1) ψ) = overElements m (supply nrm f m fun _ => 1) := by
  constructor
  · obtain ⟨s', hs', hn, -, hF⟩ := C115_laplacian nrm r f m hwf hrt hreg
    rw [hs] at hs'
    cases hs'
    intro i hi j hj
    obtain ⟨x, hx⟩ := idAt_of_lt m i (hn ▸ hi)
    obtain ⟨y, hy⟩ := idAt_of_lt m j (hn ▸ hj)
    rw [entry_eq m hwf s hn _ (fun φ ψ => (hF φ ψ).1) i j x y hx hy, entry_eq m hwf s hn _ (fun φ ψ => (hF φ ψ).1) j i y x hy hx]
    congr 1
    · exact overElements_congr m _ _ fun id e he => (diffusion_facts nrm r m hwf id e he _ _).1
    · apply overElements_congr
      intro id e he
      have side : ∀ φ ψ : Int → K, ∀ k u v, edgeExchange nrm f m φ ψ id k u v = edgeExchange nrm f m ψ φ id k u v := by
        intro φ ψ k u v
        unfold edgeExchange edgeProduct
        split
        · ring
        · rfl
      unfold exchange
      split
      · split
        · ring
        · rfl
      · rw [side, side _ _ 1, side _ _ 2]
      · rfl
  · intro ψ h
    have := (C115_weak_partial nrm r f m hwf hrt hreg s hs ψ).1 h (fun _ => 1)
    rw [overElements_zero m _ fun id e he => by
      rw [(diffusion_facts nrm r m hwf id e he _ _).1]
      exact (diffusion_facts nrm r m hwf id e he ψ (fun _ => 0)).2 1] at this
    linear_combination this

/-- **C115, without convective conditions** (or with conditions on quadrilaterals and solids only, which are not looked at) the system is that of
the generic operator. -/
theorem C115_no_conditions (nrm : Vec3 K → K) (r : K) (f : PdeField K) (m : Mesh K) (hwf : m.WF) (hrt : m.nodes.RoundTrip) (hreg : Regular nrm r m)
    (hno : ∀ id e, m.elements.get? id = some e → e.elementType = .beam ∨ e.elementType = .triangle → ∀ k, convective f id k = none) :
    ∃ s s', FemThermalOp.laplacian nrm r f 1 m = some s ∧ FemOp.laplacian nrm r 1 m = some s' ∧ s.n = s'.n ∧
      (∀ i < s.n, s.b i = 0) ∧ ∀ i < s.n, ∀ j < s.n, s.A i j = s'.A i j := by
  obtain ⟨s, hs, hn, -, hF⟩ := C115_laplacian nrm r f m hwf hrt hreg
  obtain ⟨s', hs', hn', -, -, hF'⟩ := C28_laplacian nrm r m hwf hrt hreg
  have hex : ∀ φ ψ, overElements m (exchange nrm f m φ ψ) = 0 := by
    intro φ ψ
    apply overElements_zero
    intro id e he
    unfold exchange
    split
    · rename_i h1 h2; rw [hno id e he (Or.inl h1)]
    · rename_i h1 h2; simp [edgeExchange, hno id e he (Or.inr h1)]
    · rfl
  have hsu : ∀ φ, overElements m (supply nrm f m φ) = 0 := by
    intro φ
    apply overElements_zero
    intro id e he
    unfold supply
    split
    · rename_i h1 h2; rw [hno id e he (Or.inl h1)]
    · rename_i h1 h2; simp [edgeSupply, hno id e he (Or.inr h1)]
    · rfl
  have hsum : ∀ φ ψ : Int → K, overElements m (fun _ => elementTerm (elementLaplacian nrm r) m φ ψ) =
      ((elems m).map (elementTerm (elementLaplacian nrm r) m φ ψ)).sum := by
    intro φ ψ
    unfold overElements elems
    generalize m.elements.ids = l
    induction l with
    | nil => rfl
    | cons a t ih =>
      rw [List.map_cons, List.sum_cons, ih, List.filterMap_cons]
      cases m.elements.get? a <;> simp
  refine ⟨s, s', hs, hs', hn.trans hn'.symm, ?_, ?_⟩
  · intro i hi
    obtain ⟨x, hx⟩ := idAt_of_lt m i (hn ▸ hi)
    have := C115_row nrm r f m hwf hrt hreg s hs i x hx (fun _ => 0)
    rw [hex, hsu, overElements_zero m _ fun id e he => (diffusion_facts nrm r m hwf id e he _ (fun _ => 0)).2 0] at this
    have h0 : s.row (nodal m fun _ => (0 : K)) i = 0 := by
      unfold Sys.row
      apply Finset.sum_eq_zero
      intro j _
      have : nodal m (fun _ => (0 : K)) j = 0 := by unfold nodal; cases m.nodes.idAt? j <;> rfl
      rw [this, mul_zero]
    rw [h0] at this
    linear_combination -this
  · intro i hi j hj
    obtain ⟨x, hx⟩ := idAt_of_lt m i (hn ▸ hi)
    obtain ⟨y, hy⟩ := idAt_of_lt m j (hn ▸ hj)
    rw [entry_eq m hwf s hn _ (fun φ ψ => (hF φ ψ).1) i j x y hx hy, entry_eq m hwf s' hn' _ hF' i j x y hx hy, hex, add_zero, hsum]

/-! ### The sign -/

/-- A beam from the origin to `(l, 0, 0)`. -/
def hotFin (l : K) : Mesh K :=
  { nodes := (Cont.empty.add 0 ⟨0, 0, 0⟩).add 1 ⟨l, 0, 0⟩
    faces := Cont.empty
    elements := Cont.empty.add 0 ⟨.beam, [0, 1], []⟩
    nbBoundary := 0 }

/-- Convection along the beam with the coefficient `h` into surroundings at temperature `tInf`. -/
def hotFinField (h tInf : K) : PdeField K :=
  (PdeField.new 1).addBCElement 0 0 (((⟨.heatConvective, SMap.empty⟩ : BoundaryCondition K).addCondition 2 h).addCondition 3 tInf)

theorem hotFin_ok (l : K) : (hotFin l).WF ∧ (hotFin l).nodes.RoundTrip := by
  refine ⟨⟨Cont.add_ok (Cont.add_ok Cont.empty_ok _ (by show (0 : Int) ∉ []; simp)) _ (by show (1 : Int) ∉ [(0 : Int)]; simp), Cont.empty_ok, Cont.add_ok Cont.empty_ok _ (by decide), ?_, ?_⟩, ?_, ?_⟩
  · intro id e h
    simp [hotFin, Cont.empty, Cont.get?] at h
  · intro id e h n hn
    simp only [hotFin, Cont.get?_add] at h
    split_ifs at h
    · simp only [Option.some.injEq] at h
      subst h
      simp only [List.mem_cons, List.not_mem_nil, or_false] at hn
      rcases hn with rfl | rfl <;> (show _ ∈ [(0 : Int), 1]; simp)
    · simp [Cont.empty, Cont.get?] at h
  · intro i id h
    have hi : i < 2 := (List.getElem?_eq_some_iff.1 h).1
    have h2 : i = 0 ∨ i = 1 := by omega
    rcases h2 with rfl | rfl <;> (cases h; rfl)
  · intro id h
    have h2 : id = 0 ∨ id = 1 := by
      change id ∈ [(0 : Int), 1] at h
      simpa using h
    rcases h2 with rfl | rfl
    · exact ⟨0, rfl, rfl⟩
    · exact ⟨1, rfl, rfl⟩

theorem hotFin_convective (h tInf : K) : convective (hotFinField h tInf) 0 0 = some (h, tInf) := by
  have e : (hotFinField h tInf).bcElement.find? (toLex (0, 0)) =
      some (((⟨.heatConvective, SMap.empty⟩ : BoundaryCondition K).addCondition 2 h).addCondition 3 tInf) := by
    simp [hotFinField, PdeField.addBCElement, SMap.find?_insert]
  have h2 : (((⟨.heatConvective, SMap.empty⟩ : BoundaryCondition K).addCondition 2 h).addCondition 3 tInf).condition.find? 2 = some h := by
    simp [BoundaryCondition.addCondition, SMap.find?_insert]
  have h3 : (((⟨.heatConvective, SMap.empty⟩ : BoundaryCondition K).addCondition 2 h).addCondition 3 tInf).condition.find? 3 = some tInf := by
    simp [BoundaryCondition.addCondition, SMap.find?_insert]
  simp only [convective, PdeField.elementHasBC, PdeField.elementBC, Nat.cast_zero, e, Option.isSome_some, if_true, BoundaryCondition.conditionValue, h2,
    h3]
  rfl

/-- **C115 fails: the sign.** For a beam of any length `l` in convection with any coefficient `h`, the row of its tip is satisfied exactly when
`(T₁ - T₀) / l = h l (T₁ - Tinf)`: the tip draws heat from surroundings colder than itself. -/
theorem C115_fin (nrm : Vec3 K → K) (r l h tInf : K) (hl : 0 < l) (hn : nrm ⟨l, 0, 0⟩ = l) :
    ∃ s, FemThermalOp.laplacian nrm r (hotFinField h tInf) 1 (hotFin l) = some s ∧ s.n = 2 ∧ ∀ T : Int → K,
      (s.row (nodal (hotFin l) T) 1 = s.b 1 ↔ (T 1 - T 0) / l = h * l * (T 1 - tInf)) := by
  have hreg : Regular nrm r (hotFin l) := by
    intro e he ps hps
    obtain ⟨id, -, hid⟩ := mem_elems.1 he
    simp only [hotFin, Cont.get?_add] at hid
    split_ifs at hid
    · simp only [Option.some.injEq] at hid
      subst hid
      cases hps
      exact ⟨_, rfl⟩
    · simp [Cont.empty, Cont.get?] at hid
  obtain ⟨s, hs, hsn, -⟩ := C115_laplacian nrm r (hotFinField h tInf) (hotFin l) (hotFin_ok l).1 (hotFin_ok l).2 hreg
  refine ⟨s, hs, hsn, fun T => ?_⟩
  have key := C115_row nrm r (hotFinField h tInf) (hotFin l) (hotFin_ok l).1 (hotFin_ok l).2 hreg s hs 1 1 rfl T
  have hex : ∀ φ ψ : Int → K, overElements (hotFin l) (exchange nrm (hotFinField h tInf) (hotFin l) φ ψ) = h * (l * (φ 0 * ψ 0 + φ 1 * ψ 1)) := by
    intro φ ψ
    show (List.sum [exchange nrm (hotFinField h tInf) (hotFin l) φ ψ 0 ⟨.beam, [0, 1], []⟩]) = _
    have : span nrm (hotFin l) 0 1 = l := by
      show nrm (⟨l, 0, 0⟩ - ⟨0, 0, 0⟩) = l
      rw [show (⟨l, 0, 0⟩ - ⟨0, 0, 0⟩ : Vec3 K) = ⟨l, 0, 0⟩ by ext <;> simp, hn]
    simp [exchange, hotFin_convective, this]
  have hsu : ∀ φ : Int → K, overElements (hotFin l) (supply nrm (hotFinField h tInf) (hotFin l) φ) = h * tInf * (l * (φ 0 + φ 1)) := by
    intro φ
    show (List.sum [supply nrm (hotFinField h tInf) (hotFin l) φ 0 ⟨.beam, [0, 1], []⟩]) = _
    have : span nrm (hotFin l) 0 1 = l := by
      show nrm (⟨l, 0, 0⟩ - ⟨0, 0, 0⟩) = l
      rw [show (⟨l, 0, 0⟩ - ⟨0, 0, 0⟩ : Vec3 K) = ⟨l, 0, 0⟩ by ext <;> simp, hn]
    simp [supply, hotFin_convective, this]
  have hdi : ∀ φ ψ : Int → K, overElements (hotFin l) (fun _ => elementTerm (elementLaplacian nrm r) (hotFin l) φ ψ) =
      (φ 1 - φ 0) * (ψ 0 - ψ 1) / l := by
    intro φ ψ
    show (List.sum [elementTerm (elementLaplacian nrm r) (hotFin l) φ ψ ⟨.beam, [0, 1], []⟩]) = _
    have : elementTerm (elementLaplacian nrm r) (hotFin l) φ ψ ⟨.beam, [0, 1], []⟩ =
        elementForm (.of (Fem.beamLaplacian 1 (nrm (⟨l, 0, 0⟩ - ⟨0, 0, 0⟩)) 1)) [φ 0, φ 1] [ψ 0, ψ 1] := rfl
    rw [this, show (⟨l, 0, 0⟩ - ⟨0, 0, 0⟩ : Vec3 K) = ⟨l, 0, 0⟩ by ext <;> simp, hn, elementForm_of]
    simp only [Fem.beamLaplacian, if_pos hl, dotProduct, mulVec, Fin.sum_univ_two, Matrix.smul_apply, Matrix.of_apply, Matrix.cons_val', Matrix.cons_val_zero,
      Matrix.cons_val_one, smul_eq_mul, List.sum_cons, List.sum_nil, Fin.val_zero, Fin.val_one, List.getD_cons_zero, List.getD_cons_succ]
    field_simp
    ring
  rw [hex, hsu, hdi] at key
  simp only [if_true, show ¬ ((0 : Int) = 1) by decide, if_false] at key
  rw [← sub_eq_zero (a := s.row _ 1), key, ← sub_eq_zero (a := (T 1 - T 0) / l)]
  have e : (1 - 0 : K) * (T 0 - T 1) / l + h * (l * (0 * T 0 + 1 * T 1)) - h * tInf * (l * (0 + 1)) = -((T 1 - T 0) / l - h * l * (T 1 - tInf)) := by
    field_simp
    ring
  rw [e, neg_eq_zero]

/-- **C115 fails: a fin hotter than its base.** With the base held at `T₀ > 0` in surroundings at `0`, and `h l² < 1`, the temperature of the tip
is above `T₀`; for `h l² > 1` it is below the surroundings; for `h l² = 1` there is none. -/
theorem C115_fin_hot (nrm : Vec3 K → K) (r l h : K) (hl : 0 < l) (hh : 0 < h) (hn : nrm ⟨l, 0, 0⟩ = l) :
    ∃ s, FemThermalOp.laplacian nrm r (hotFinField h 0) 1 (hotFin l) = some s ∧ ∀ T : Int → K, 0 < T 0 → s.row (nodal (hotFin l) T) 1 = s.b 1 →
      (h * l ^ 2 < 1 → T 0 < T 1) ∧ (1 < h * l ^ 2 → T 1 < 0) ∧ h * l ^ 2 ≠ 1 := by
  obtain ⟨s, hs, -, hrow⟩ := C115_fin nrm r l h 0 hl hn
  refine ⟨s, hs, fun T h0 hT => ?_⟩
  have e := (hrow T).1 hT
  rw [div_eq_iff (ne_of_gt hl)] at e
  have e' : T 1 * (1 - h * l ^ 2) = T 0 := by linear_combination e
  have hpos : 0 < h * l ^ 2 := by positivity
  refine ⟨fun hlt => ?_, fun hlt => ?_, fun heq => ?_⟩
  · have h1 : 0 < T 1 := by
      by_contra hc
      push Not at hc
      nlinarith [mul_nonneg (neg_nonneg.2 hc) (by linarith : (0 : K) ≤ 1 - h * l ^ 2)]
    nlinarith [mul_pos h1 hpos]
  · by_contra hc
    push Not at hc
    nlinarith [mul_nonneg hc (by linarith : (0 : K) ≤ h * l ^ 2 - 1)]
  · rw [heq] at e'
    simp at e'
    linarith

/-- The hypotheses are met: a beam of length 2 and the coefficient 1/8; the temperatures 1 and 2 satisfy the row of the tip. -/
example : ∃ s, FemThermalOp.laplacian (fun v : Vec3 ℚ => |v.x|) 0 (hotFinField (1 / 8) 0) 1 (hotFin 2) = some s ∧
    s.row (nodal (hotFin 2) fun x => if x = 0 then 1 else 2) 1 = s.b 1 := by
  obtain ⟨s, hs, -, hrow⟩ := C115_fin (fun v : Vec3 ℚ => |v.x|) 0 2 (1 / 8) 0 (by norm_num) (by norm_num)
  exact ⟨s, hs, (hrow _).2 (by norm_num)⟩

/-- A triangle with the corners `(0, 0)`, `(1, 0)`, `(0, 1)`. -/
def hotPlate : Mesh ℚ :=
  { nodes := ((Cont.empty.add 0 ⟨0, 0, 0⟩).add 1 ⟨1, 0, 0⟩).add 2 ⟨0, 1, 0⟩
    faces := Cont.empty
    elements := Cont.empty.add 0 ⟨.triangle, [0, 1, 2], []⟩
    nbBoundary := 0 }

theorem hotPlate_ok : hotPlate.WF ∧ hotPlate.nodes.RoundTrip := by
  refine ⟨⟨Cont.add_ok (Cont.add_ok (Cont.add_ok Cont.empty_ok _ (by decide)) _ (by decide)) _ (by decide), Cont.empty_ok,
    Cont.add_ok Cont.empty_ok _ (by decide), ?_, ?_⟩, ?_, ?_⟩
  · intro id e h
    simp [hotPlate, Cont.empty, Cont.get?] at h
  · intro id e h n hn
    simp only [hotPlate, Cont.get?_add] at h
    split_ifs at h
    · simp only [Option.some.injEq] at h
      subst h
      simp only [List.mem_cons, List.not_mem_nil, or_false] at hn
      rcases hn with rfl | rfl | rfl <;> (show _ ∈ [(0 : Int), 1, 2]; simp)
    · simp [Cont.empty, Cont.get?] at h
  · intro i id h
    have hi : i < 3 := (List.getElem?_eq_some_iff.1 h).1
    have h2 : i = 0 ∨ i = 1 ∨ i = 2 := by omega
    rcases h2 with rfl | rfl | rfl <;> (cases h; rfl)
  · intro id h
    have h2 : id = 0 ∨ id = 1 ∨ id = 2 := by
      change id ∈ [(0 : Int), 1, 2] at h
      simpa using h
    rcases h2 with rfl | rfl | rfl
    · exact ⟨0, rfl, rfl⟩
    · exact ⟨1, rfl, rfl⟩
    · exact ⟨2, rfl, rfl⟩

/-- **C115 fails for triangles.** The edge from `(0, 0)` to `(1, 0)` is convective with coefficient 1 and surroundings at 0, the third corner is
held at 1: the rows of the other two corners give them the temperatures -1/4 and -1. -/
theorem C115_plate_cold (nrm : Vec3 ℚ → ℚ) (r : ℚ) (hx : nrm ⟨1, 0, 0⟩ = 1) (hz : nrm ⟨0, 0, 1⟩ = 1) :
    ∃ s, FemThermalOp.laplacian nrm r (hotFinField 1 0) 1 hotPlate = some s ∧ ∀ T : Int → ℚ, T 2 = 1 →
      s.row (nodal hotPlate T) 0 = s.b 0 → s.row (nodal hotPlate T) 1 = s.b 1 → T 0 = -1 / 4 ∧ T 1 = -1 := by
  have hreg : Regular nrm r hotPlate := by
    intro e he ps hps
    obtain ⟨id, -, hid⟩ := mem_elems.1 he
    simp only [hotPlate, Cont.get?_add] at hid
    split_ifs at hid
    · simp only [Option.some.injEq] at hid
      subst hid
      cases hps
      exact ⟨_, rfl⟩
    · simp [Cont.empty, Cont.get?] at hid
  obtain ⟨s, hs, hsn, -⟩ := C115_laplacian nrm r (hotFinField 1 0) hotPlate hotPlate_ok.1 hotPlate_ok.2 hreg
  refine ⟨s, hs, fun T h2 r0 r1 => ?_⟩
  have k0 := C115_row nrm r (hotFinField 1 0) hotPlate hotPlate_ok.1 hotPlate_ok.2 hreg s hs 0 0 rfl T
  have k1 := C115_row nrm r (hotFinField 1 0) hotPlate hotPlate_ok.1 hotPlate_ok.2 hreg s hs 1 1 rfl T
  have hsp : span nrm hotPlate 0 1 = 1 := by
    show nrm (⟨1, 0, 0⟩ - ⟨0, 0, 0⟩) = 1
    rw [show (⟨1, 0, 0⟩ - ⟨0, 0, 0⟩ : Vec3 ℚ) = ⟨1, 0, 0⟩ by ext <;> simp, hx]
  have c1 : convective (hotFinField (1 : ℚ) 0) 0 1 = none := by decide +kernel
  have c2 : convective (hotFinField (1 : ℚ) 0) 0 2 = none := by decide +kernel
  have hex : ∀ φ ψ : Int → ℚ, overElements hotPlate (exchange nrm (hotFinField 1 0) hotPlate φ ψ) = edgeProduct 1 (φ 0) (φ 1) (ψ 0) (ψ 1) := by
    intro φ ψ
    show (List.sum [exchange nrm (hotFinField 1 0) hotPlate φ ψ 0 ⟨.triangle, [0, 1, 2], []⟩]) = _
    simp [exchange, edgeExchange, hotFin_convective, c1, c2, hsp]
  have hsu : ∀ φ : Int → ℚ, overElements hotPlate (supply nrm (hotFinField 1 0) hotPlate φ) = 0 := by
    intro φ
    show (List.sum [supply nrm (hotFinField 1 0) hotPlate φ 0 ⟨.triangle, [0, 1, 2], []⟩]) = _
    simp [supply, edgeSupply, hotFin_convective, c1, c2]
  have hM : Fem.triLaplacian nrm 1 ⟨⟨0, 0, 0⟩, ⟨1, 0, 0⟩, ⟨0, 1, 0⟩⟩ = !![-1, 1 / 2, 1 / 2; 1 / 2, -1 / 2, 0; 1 / 2, 0, -1 / 2] := by
    have ha : Fem.triArea nrm ⟨⟨0, 0, 0⟩, ⟨1, 0, 0⟩, ⟨0, 1, 0⟩⟩ = 1 / 2 := by
      have : (⟨⟨0, 0, 0⟩, ⟨1, 0, 0⟩, ⟨0, 1, 0⟩⟩ : Tri ℚ).rawNormal = ⟨0, 0, 1⟩ := by ext <;> simp [Tri.rawNormal, Vec3.cross]
      simp [Fem.triArea, Tri.normalArea, this, hz]
    ext i j
    simp only [Fem.triLaplacian, ha]
    fin_cases i <;> fin_cases j <;>
      simp [Fem.triB, Fem.triRebuild, Fem.localXY, Matrix.mul_apply, Fin.sum_univ_two] <;> norm_num
  have hdi : ∀ φ ψ : Int → ℚ, overElements hotPlate (fun _ => elementTerm (elementLaplacian nrm r) hotPlate φ ψ) =
      φ 0 * (-ψ 0 + ψ 1 / 2 + ψ 2 / 2) + φ 1 * (ψ 0 / 2 - ψ 1 / 2) + φ 2 * (ψ 0 / 2 - ψ 2 / 2) := by
    intro φ ψ
    show (List.sum [elementForm (.of (Fem.triLaplacian nrm 1 ⟨⟨0, 0, 0⟩, ⟨1, 0, 0⟩, ⟨0, 1, 0⟩⟩)) [φ 0, φ 1, φ 2] [ψ 0, ψ 1, ψ 2]]) = _
    rw [hM, elementForm_of]
    simp [dotProduct, mulVec, Fin.sum_univ_three]
    ring
  rw [hex, hsu, hdi] at k0 k1
  rw [r0, sub_self] at k0
  rw [r1, sub_self] at k1
  simp [edgeProduct, h2] at k0 k1
  constructor <;> linarith

end ENigMA
