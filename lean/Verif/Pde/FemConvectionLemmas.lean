import Verif.Pde.FemConvection

/-! # Lemmas on heat convection with finite elements -/

set_option linter.unusedSectionVars false
set_option autoImplicit false

namespace ENigMA
namespace FemConvection
open FdmConvection (Flow)
open FdmHeat (Sound)
open FvmHeat (Plain plain_ok plain_none)
open FemOp FemHeat Matrix
variable {K : Type} [Field K] [LinearOrder K] [IsStrictOrderedRing K]

/-! ### Rows -/

/-- Node by node in place of beam by beam. -/
theorem by_nodes (n : Nat) (φ A B : Nat → K) :
    ∑ e ∈ Finset.range n, (φ e * A e + φ (e + 1) * B e) = ∑ i ∈ Finset.range (n + 1), φ i * ((if i < n then A i else 0) + if 0 < i then B (i - 1) else 0) := by
  simp only [mul_add, Finset.sum_add_distrib]
  congr 1
  · rw [Finset.sum_range_succ, if_neg (lt_irrefl _), mul_zero, add_zero]
    exact Finset.sum_congr rfl fun i hi => by rw [if_pos (Finset.mem_range.1 hi)]
  · rw [Finset.sum_range_succ']
    simp

/-- What a beam gives to its first node. -/
def first (h : Nat → K) (P : Flow K) (o x : Nat → K) (e : Nat) : K := P.rc / P.dt * (h e / 6 * (2 * (x e - o e) + (x (e + 1) - o (e + 1)))) + P.v * ((x (e + 1) - x e) / 2)

/-- What a beam gives to its second node. -/
def second (h : Nat → K) (P : Flow K) (o x : Nat → K) (e : Nat) : K := P.rc / P.dt * (h e / 6 * ((x e - o e) + 2 * (x (e + 1) - o (e + 1)))) + P.v * ((x (e + 1) - x e) / 2)

/-- The equation of a node. -/
def node (n : Nat) (h : Nat → K) (P : Flow K) (o x : Nat → K) (i : Nat) : K := (if i < n then first h P o x i else 0) + if 0 < i then second h P o x (i - 1) else 0

theorem sum_node (n : Nat) (h : Nat → K) (P : Flow K) (o x φ : Nat → K) :
    ∑ e ∈ Finset.range n, (P.rc * product (h e) (φ e) (φ (e + 1)) (x e - o e) (x (e + 1) - o (e + 1)) / P.dt + P.v * ((φ e + φ (e + 1)) / 2 * (x (e + 1) - x e))) =
      ∑ i ∈ Finset.range (n + 1), φ i * node n h P o x i := by
  rw [show (∑ i ∈ Finset.range (n + 1), φ i * node n h P o x i) = _ from (by_nodes n φ (first h P o x) (second h P o x)).symm]
  refine Finset.sum_congr rfl fun e _ => ?_
  unfold product first second
  ring

theorem carried_iff (n : Nat) (h : Nat → K) (P : Flow K) (o x : Nat → K) : Carried n h P o x ↔ ∀ i < n + 1, node n h P o x i = 0 := by
  unfold Carried
  simp only [sum_node]
  constructor
  · intro H i hi
    have := H fun j => if j = i then 1 else 0
    rwa [Finset.sum_eq_single i (fun j _ hj => by simp [hj]) (fun hn => absurd (Finset.mem_range.2 hi) hn), if_pos rfl, one_mul] at this
  · intro H φ
    exact Finset.sum_eq_zero fun i hi => by rw [H i (Finset.mem_range.1 hi), mul_zero]

/-! ### The system -/

theorem divergence_sized (nrm : Vec3 K → K) : Sized (elementDivergence nrm) := by
  intro t ps M h
  unfold elementDivergence at h
  split at h <;> cases h <;> rfl

/-- The matrix of `divergence`, for all meshes. -/
theorem divergence_spec (nrm : Vec3 K → K) (m : Mesh K) (hwf : m.WF) (hrt : m.nodes.RoundTrip) :
    ∃ s, FemThermalOp.divergence nrm 1 m = some s ∧ s.n = m.nodes.count ∧ s.kind = .sparse ∧ (∀ i < s.n, s.b i = 0) ∧
      ∀ φ ψ : Int → K, s.form (nodal m φ) (nodal m ψ) = ((elems m).map (elementTerm (elementDivergence nrm) m φ ψ)).sum := by
  obtain ⟨s, hs⟩ := assembled_defined _ (divergence_sized nrm) true m hwf hrt (elems m) (elems_nodes hwf) .sparse (fun h => by cases h)
    (fun e _ ps _ => by unfold elementDivergence; split <;> exact ⟨_, rfl⟩)
  have key := assembled _ (divergence_sized nrm) true m hrt (elems m) (elems_nodes hwf) .sparse s hs
  obtain ⟨h1, h2, -, h4⟩ := key (fun _ => 0) (fun _ => 0)
  refine ⟨s, ?_, h1, h2, fun i hi => ?_, fun φ ψ => (key φ ψ).2.2.1⟩
  · unfold FemThermalOp.divergence FemOp.divergence
    rw [loop_elems m hwf.elements]
    exact hs
  · rw [← Sys.load_single s i hi, h4]

theorem Line.elems {nrm : Vec3 K → K} {m : Mesh K} {n : Nat} {h : Nat → K} (L : Line nrm m n h) :
    elems m = (List.range n).map fun i : Nat => { elementType := .beam, nodeIds := [(i : Int), i + 1] } := by
  unfold FemOp.elems
  rw [L.elements, Mesh.iota]
  have : ∀ l : List Nat, (∀ i ∈ l, i < n) → (l.map fun i : Nat => (i : Int)).filterMap m.elements.get? = l.map fun i : Nat => ({ elementType := .beam, nodeIds := [(i : Int), i + 1] } : Elem) := by
    intro l hl
    induction l with
    | nil => rfl
    | cons a t ih => rw [List.map_cons, List.map_cons, List.filterMap_cons_some (L.beam a (hl a (by simp))), ih fun i hi => hl i (by simp [hi])]
  exact this _ fun i hi => List.mem_range.1 hi

theorem Line.count {nrm : Vec3 K → K} {m : Mesh K} {n : Nat} {h : Nat → K} (L : Line nrm m n h) : m.nodes.count = n + 1 := by
  rw [Cont.count, L.nodes]; simp [Mesh.iota]

theorem Line.nodal {nrm : Vec3 K → K} {m : Mesh K} {n : Nat} {h : Nat → K} (L : Line nrm m n h) (φ : Nat → K) (i : Nat) (hi : i < n + 1) :
    nodal m (fun id => φ id.toNat) i = φ i := by
  have : m.nodes.idAt? i = some (i : Int) := by
    unfold Cont.idAt?
    rw [L.nodes]; simp [Mesh.iota, hi]
  rw [FemOp.nodal, this]
  simp

theorem Line.sum {nrm : Vec3 K → K} {m : Mesh K} {n : Nat} {h : Nat → K} (L : Line nrm m n h) (g : Elem → K) :
    ((FemOp.elems m).map g).sum = ∑ e ∈ Finset.range n, g { elementType := .beam, nodeIds := [(e : Int), e + 1] } := by
  rw [L.elems, List.map_map, ← List.sum_toFinset _ List.nodup_range, List.toFinset_range]
  rfl

theorem Line.places {nrm : Vec3 K → K} {m : Mesh K} {n : Nat} {h : Nat → K} (L : Line nrm m n h) (e : Nat) (he : e < n) :
    ∃ p q, [(e : Int), e + 1].mapM m.nodes.get? = some [p, q] ∧ nrm (q - p) = h e := by
  obtain ⟨p, q, h1, h2, h3⟩ := L.length e he
  refine ⟨p, q, ?_, h3⟩
  simp [List.mapM_cons, h1, h2]

theorem Line.mass {nrm : Vec3 K → K} {m : Mesh K} {n : Nat} {h : Nat → K} (L : Line nrm m n h) (φ ψ : Nat → K) (e : Nat) (he : e < n) :
    elementTerm (elementDdt nrm) m (fun id => φ id.toNat) (fun id => ψ id.toNat) { elementType := .beam, nodeIds := [(e : Int), e + 1] } = product (h e) (φ e) (φ (e + 1)) (ψ e) (ψ (e + 1)) := by
  obtain ⟨p, q, h1, h2⟩ := L.places e he
  unfold elementTerm
  simp only [h1, Option.bind_some]
  show elementForm (.of _) _ _ = _
  simp only [List.map_cons, List.map_nil, Int.toNat_natCast, show ((e : Int) + 1).toNat = e + 1 by omega]
  rw [elementForm_of, vec2, vec2]
  simp [Fem.beamDdt, dotProduct, mulVec, Fin.sum_univ_two, product, h2]
  ring

theorem Line.slope {nrm : Vec3 K → K} {m : Mesh K} {n : Nat} {h : Nat → K} (L : Line nrm m n h) (φ ψ : Nat → K) (e : Nat) (he : e < n) :
    elementTerm (elementDivergence nrm) m (fun id => φ id.toNat) (fun id => ψ id.toNat) { elementType := .beam, nodeIds := [(e : Int), e + 1] } = (φ e + φ (e + 1)) / 2 * (ψ (e + 1) - ψ e) := by
  obtain ⟨p, q, h1, h2⟩ := L.places e he
  unfold elementTerm
  simp only [h1, Option.bind_some]
  show elementForm (.of _) _ _ = _
  simp only [List.map_cons, List.map_nil, Int.toNat_natCast, show ((e : Int) + 1).toNat = e + 1 by omega]
  rw [elementForm_of, vec2, vec2]
  simp [Fem.beamDivergence, dotProduct, mulVec, Fin.sum_univ_two]
  ring

theorem Line.row {nrm : Vec3 K → K} {m : Mesh K} {n : Nat} {h : Nat → K} (L : Line nrm m n h) (d : Sys K) (hn : d.n = n + 1) (t : (Int → K) → (Int → K) → Elem → K)
    (H : ∀ φ ψ : Int → K, d.form (FemOp.nodal m φ) (FemOp.nodal m ψ) = ((FemOp.elems m).map (t φ ψ)).sum) (y : Nat → K) (i : Nat) (hi : i < n + 1) :
    d.row y i = ∑ e ∈ Finset.range n, t (fun id => if id.toNat = i then 1 else 0) (fun id => y id.toNat) { elementType := .beam, nodeIds := [(e : Int), e + 1] } := by
  rw [← Sys.form_row d i (by omega), ← L.sum (t (fun id => if id.toNat = i then 1 else 0) (fun id => y id.toNat)), ← H]
  exact Sys.form_congr d _ _ _ _ (fun k hk => (L.nodal (fun r => if r = i then 1 else 0) k (by omega)).symm) (fun k hk => (L.nodal y k (by omega)).symm)

/-- The system of a step: its residuals are the equations of the nodes. -/
theorem system {nrm : Vec3 K → K} {m : Mesh K} {n : Nat} {h : Nat → K} (L : Line nrm m n h) (P : Flow K) (o : Nat → K) :
    ∃ d g s, FemThermalOp.ddt nrm m o = some d ∧ FemThermalOp.divergence nrm 1 m = some g ∧ (Sys.smul (P.rc / P.dt) d).add (Sys.smul P.v g) = some s ∧ s.n = n + 1 ∧ s.kind ≠ .unknown ∧
      ∀ x, ∀ i < n + 1, s.residual x i = node n h P o x i := by
  have hc : Contiguous m := by
    unfold Contiguous Cont.count
    rw [L.elements]
    simp only [Mesh.iota, List.length_map, List.length_range]
    exact List.Perm.refl _
  obtain ⟨d, d1, d2, d3, d4, d5⟩ := C28_ddt_partial nrm m L.wf L.trips hc (by
    intro id hid
    rw [L.nodes, Mesh.mem_iota] at hid
    rw [L.count]
    exact ⟨hid.1, by have := hid.2; push_cast at this ⊢; omega⟩) o
  obtain ⟨g, g1, g2, g3, g4, g5⟩ := divergence_spec nrm m L.wf L.trips
  have hn : (Sys.smul (P.rc / P.dt) d).n = (Sys.smul P.v g).n := show d.n = g.n by rw [d2, g2]
  obtain ⟨s, e1, e2, -⟩ := (C18_residuals (Sys.smul (P.rc / P.dt) d) (Sys.smul P.v g) hn 0 (fun _ => 0) (fun _ => 0)).1
  have r1 := fun x i => (C18_residuals d g (show d.n = g.n by rw [d2, g2]) (P.rc / P.dt) (fun _ => 0) x).2.2.1.2 i
  have r2 := fun x i => (C18_residuals g g rfl P.v (fun _ => 0) x).2.2.1.2 i
  have dn : d.n = n + 1 := d2.trans L.count
  have gn : g.n = n + 1 := g2.trans L.count
  refine ⟨d, g, s, d1, g1, e1, e2.trans dn, ?_, fun x i hi => ?_⟩
  · unfold Sys.add at e1
    rw [if_pos hn, Option.some.injEq] at e1
    rw [← e1]
    simp only [Sys.smul, d3, g3]
    decide
  · have hres : s.residual x i = P.rc / P.dt * d.residual x i + P.v * g.residual x i := by
      obtain ⟨s', a1, -, a3⟩ := (C18_residuals (Sys.smul (P.rc / P.dt) d) (Sys.smul P.v g) hn 0 (fun _ => 0) x).1
      rw [e1, Option.some.injEq] at a1
      subst a1
      rw [a3 i, r1, r2]
    have hd : ∀ y : Nat → K, d.row y i = ∑ e ∈ Finset.range n, product (h e) (if e = i then 1 else 0) (if e + 1 = i then 1 else 0) (y e) (y (e + 1)) := fun y => by
      rw [L.row d dn _ d5 y i hi]
      exact Finset.sum_congr rfl fun e he => L.mass (fun r => if r = i then 1 else 0) y e (Finset.mem_range.1 he)
    have hg : g.row x i = ∑ e ∈ Finset.range n, ((if e = i then 1 else 0) + (if e + 1 = i then 1 else 0)) / 2 * (x (e + 1) - x e) := by
      rw [L.row g gn _ g5 x i hi]
      exact Finset.sum_congr rfl fun e he => L.slope (fun r => if r = i then 1 else 0) x e (Finset.mem_range.1 he)
    have key := sum_node n h P o x fun j => if j = i then 1 else 0
    rw [Finset.sum_eq_single i (fun j _ hj => by simp [hj]) (fun hn => absurd (Finset.mem_range.2 hi) hn), if_pos rfl, one_mul] at key
    rw [hres, Sys.residual, Sys.residual, d4 i (by omega), g4 i (by omega), hd, hd, hg, ← key, sub_zero, ← Finset.sum_sub_distrib, Finset.mul_sum, Finset.mul_sum, ← Finset.sum_add_distrib]
    refine Finset.sum_congr rfl fun e _ => ?_
    unfold product
    ring

end FemConvection
end ENigMA
