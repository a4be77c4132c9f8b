import Verif.Pde.FemThermal
import Verif.Pde.FemAssemblyProps

/-! # Lemmas on the finite element operators of thermal problems -/

set_option linter.unusedSectionVars false
set_option autoImplicit false

namespace ENigMA
open Matrix FemOp

variable {K : Type} [Field K] [LinearOrder K] [IsStrictOrderedRing K]

theorem FemOp.elementForm_addAt (M : EMat K) (i j : Nat) (x : K) (hi : i < M.n) (hj : j < M.n) (v w : List K) :
    elementForm (M.addAt i j x) v w = elementForm M v w + v.getD i 0 * x * w.getD j 0 := by
  simp only [elementForm, EMat.addAt]
  have e : ∀ r c, v.getD r 0 * (if r = i ∧ c = j then M.at_ r c + x else M.at_ r c) * w.getD c 0 =
      v.getD r 0 * M.at_ r c * w.getD c 0 + if r = i then (if c = j then v.getD r 0 * x * w.getD c 0 else 0) else 0 := by
    intro r c
    by_cases h1 : r = i <;> by_cases h2 : c = j <;> simp [h1, h2]; ring
  simp only [e, Finset.sum_add_distrib]
  congr 1
  rw [Finset.sum_eq_single i (fun r _ hr => by simp [hr]) (fun h => absurd (Finset.mem_range.2 hi) h)]
  simp [hj]

namespace FemThermalOp

/-- What the source of an element contributes to `vᵀ b`. -/
def Local.load (s : Local K) (v : List K) : K := ∑ a ∈ Finset.range s.mat.n, v.getD a 0 * s.src a

theorem Local.load_addSource (s : Local K) (i : Nat) (x : K) (hi : i < s.mat.n) (v : List K) :
    (s.addSource i x).load v = s.load v + v.getD i 0 * x := by
  simp only [Local.load, Local.addSource]
  have e : ∀ r, v.getD r 0 * (if r = i then s.src r + x else s.src r) = v.getD r 0 * s.src r + if r = i then v.getD r 0 * x else 0 := by
    intro r
    by_cases h1 : r = i <;> simp [h1]; ring
  simp only [e, Finset.sum_add_distrib]
  congr 1
  simp [hi]

theorem Local.load_addMatrix (s : Local K) (i j : Nat) (x : K) (v : List K) : (s.addMatrix i j x).load v = s.load v := rfl

theorem Local.n_addSource (s : Local K) (i : Nat) (x : K) : (s.addSource i x).mat = s.mat := rfl
theorem Local.n_addMatrix (s : Local K) (i j : Nat) (x : K) : (s.addMatrix i j x).mat = s.mat.addAt i j x := rfl
theorem addAt_n (M : EMat K) (i j : Nat) (x : K) : (M.addAt i j x).n = M.n := rfl

/-- The product of two linear functions along a segment of length `l`, integrated with Simpson's rule, which is exact for it: `a`, `b` are
the values of the one at the ends, `c`, `d` those of the other. -/
def edgeProduct (l a b c d : K) : K := l / 6 * (a * c + 4 * ((a + b) / 2 * ((c + d) / 2)) + b * d)

theorem convectTriangle_spec (nrm : Vec3 K → K) (p : Nat → Vec3 K) (k : Nat) (h tInf : K) (s : Local K) (hn : s.mat.n = 3) (v w : List K) :
    (convectTriangle nrm p k h tInf s).mat.n = 3 ∧
    elementForm (convectTriangle nrm p k h tInf s).mat v w = elementForm s.mat v w +
      h * edgeProduct (nrm (p ((k + 1) % 3) - p (k % 3))) (v.getD (k % 3) 0) (v.getD ((k + 1) % 3) 0) (w.getD (k % 3) 0) (w.getD ((k + 1) % 3) 0) ∧
    (convectTriangle nrm p k h tInf s).load v = s.load v +
      h * tInf * (nrm (p ((k + 1) % 3) - p (k % 3)) * ((v.getD (k % 3) 0 + v.getD ((k + 1) % 3) 0) / 2)) := by
  have hi : k % 3 < 3 := by omega
  have hj : (k + 1) % 3 < 3 := by omega
  refine ⟨hn, ?_, ?_⟩
  · simp only [convectTriangle, Nat.add_zero, Local.n_addMatrix, Local.n_addSource]
    repeat rw [elementForm_addAt _ _ _ _ (by simpa only [addAt_n, hn]) (by simpa only [addAt_n, hn])]
    unfold edgeProduct
    ring
  · simp only [convectTriangle, Nat.add_zero, Local.load_addMatrix]
    repeat rw [Local.load_addSource _ _ _ (by simpa only [Local.n_addSource, hn])]
    ring

theorem convectBeam_spec (l h tInf : K) (s : Local K) (hn : s.mat.n = 2) (v w : List K) :
    (convectBeam l h tInf s).mat.n = 2 ∧
    elementForm (convectBeam l h tInf s).mat v w = elementForm s.mat v w + h * (l * (v.getD 0 0 * w.getD 0 0 + v.getD 1 0 * w.getD 1 0)) ∧
    (convectBeam l h tInf s).load v = s.load v + h * tInf * (l * (v.getD 0 0 + v.getD 1 0)) := by
  refine ⟨hn, ?_, ?_⟩
  · simp only [convectBeam, Local.n_addMatrix, Local.n_addSource]
    repeat rw [elementForm_addAt _ _ _ _ (by simp only [addAt_n, hn]; omega) (by simp only [addAt_n, hn]; omega)]
    ring
  · simp only [convectBeam, Local.load_addMatrix]
    repeat rw [Local.load_addSource _ _ _ (by simp only [Local.n_addSource, hn]; omega)]
    ring

/-! ### Scatter -/

/-- The statements of one element with one degree of freedom per node. -/
def pureScatter (idx : List Int) (s : Local K) : List (Stamp K) :=
  idx.zipIdx.flatMap fun p => idx.zipIdx.map (fun q => Stamp.addA p.1 q.1 (s.mat.at_ p.2 q.2)) ++ [Stamp.addB p.1 (s.src p.2)]

theorem scatter_one (idx : List Int) (s : Local K) (h1 : idx.length = s.mat.n) : scatter 1 idx s = some (pureScatter idx s) := by
  unfold scatter pureScatter
  apply collect_map
  rintro ⟨I, i⟩ hi
  have hil := zipIdx_lt hi
  have e : ∀ (J : Int) (j : Nat), (J, j) ∈ idx.zipIdx → (collect <| (List.range 1).map fun l => do
      let v ← s.mat.get? (i * 1 + 0) (j * 1 + l)
      return [Stamp.addA (I * (1 : Nat) + (0 : Nat)) (J * (1 : Nat) + (l : Nat)) v]) = some [Stamp.addA I J (s.mat.at_ i j)] := by
    intro J j hj
    have hjl := zipIdx_lt hj
    have hg : s.mat.get? (i * 1 + 0) (j * 1 + 0) = some (s.mat.at_ i j) := by
      rw [EMat.get?, Nat.mul_one, Nat.add_zero, Nat.mul_one, Nat.add_zero, if_pos ⟨by omega, by omega⟩]
    simp only [List.range_one, List.map_cons, List.map_nil, collect, hg, Option.bind_eq_bind, Option.bind_some]
    simp
  have e2 : (collect <| (List.range 1).map fun k => collect <| idx.zipIdx.map fun (J, j) =>
        collect <| (List.range 1).map fun l => do
          let v ← s.mat.get? (i * 1 + k) (j * 1 + l)
          return [Stamp.addA (I * (1 : Nat) + (k : Nat)) (J * (1 : Nat) + (l : Nat)) v]) =
      some (idx.zipIdx.map (fun q => Stamp.addA I q.1 (s.mat.at_ i q.2))) := by
    rw [List.range_one, List.map_cons, List.map_nil, collect]
    have : (collect <| idx.zipIdx.map fun (J, j) => collect <| (List.range 1).map fun l => do
          let v ← s.mat.get? (i * 1 + 0) (j * 1 + l)
          return [Stamp.addA (I * (1 : Nat) + (0 : Nat)) (J * (1 : Nat) + (l : Nat)) v]) =
        some (idx.zipIdx.flatMap fun q => [Stamp.addA I q.1 (s.mat.at_ i q.2)]) :=
      collect_map _ _ _ fun q hq => e q.1 q.2 hq
    rw [List.range_one] at this
    rw [this]
    simp [collect, List.flatMap_singleton']
    rw [← List.map_eq_flatMap]
  show Option.bind _ _ = _
  rw [e2, Option.bind_some]
  rfl

theorem pureScatter_isAdd (idx : List Int) (s : Local K) : ∀ st ∈ pureScatter idx s, st.IsAdd := by
  intro st hst
  obtain ⟨p, hp, hst⟩ := List.mem_flatMap.1 hst
  rcases List.mem_append.1 hst with h | h
  · obtain ⟨q, hq, rfl⟩ := List.mem_map.1 h; trivial
  · rw [List.mem_singleton] at h; subst h; trivial

theorem pureScatter_ok (idx : List Int) (s : Local K) (n : Nat) (h1 : ∀ I ∈ idx, Equation.InRange I n) : ∀ st ∈ pureScatter idx s, st.Ok n := by
  intro st hst
  obtain ⟨⟨I, i⟩, hp, hst⟩ := List.mem_flatMap.1 hst
  rcases List.mem_append.1 hst with h | h
  · obtain ⟨⟨J, j⟩, hq, rfl⟩ := List.mem_map.1 h
    exact ⟨h1 _ (List.mem_of_getElem? (zipIdx_get hp)), h1 _ (List.mem_of_getElem? (zipIdx_get hq))⟩
  · rw [List.mem_singleton] at h; subst h
    exact h1 _ (List.mem_of_getElem? (zipIdx_get hp))

theorem pureScatter_val (idx : List Int) (s : Local K) (h1 : idx.length = s.mat.n) (v w : Nat → K) :
    ((pureScatter idx s).map (Stamp.val v w)).sum = elementForm s.mat (idx.map fun I => v I.toNat) (idx.map fun I => w I.toNat) := by
  rw [← FemOp.pureScatter_val idx idx s.mat h1 v w]
  unfold pureScatter FemOp.pureScatter
  rw [List.map_flatMap, List.map_flatMap, List.flatMap_def, List.flatMap_def, List.sum_flatten, List.sum_flatten, List.map_map, List.map_map]
  congr 1
  apply List.map_congr_left
  intro p _
  simp [Stamp.val]

theorem pureScatter_valB (idx : List Int) (s : Local K) (h1 : idx.length = s.mat.n) (v : Nat → K) :
    ((pureScatter idx s).map (Stamp.valB v)).sum = s.load (idx.map fun I => v I.toNat) := by
  unfold pureScatter Local.load
  rw [List.map_flatMap, List.flatMap_def, List.sum_flatten, List.map_map]
  have e : ∀ p : Int × Nat, (List.sum ∘ fun a : Int × Nat => List.map (Stamp.valB v) (idx.zipIdx.map (fun q => Stamp.addA a.1 q.1 (s.mat.at_ a.2 q.2)) ++
      [Stamp.addB a.1 (s.src a.2)])) p = v p.1.toNat * s.src p.2 := by
    intro p
    simp only [Function.comp, List.map_append, List.sum_append, List.map_map]
    rw [List.sum_eq_zero (by
      intro x hx
      obtain ⟨q, -, rfl⟩ := List.mem_map.1 hx
      rfl)]
    simp [Stamp.valB]
  rw [List.map_congr_left (fun p _ => e p), sum_zipIdx, h1]
  apply Finset.sum_congr rfl
  intro i hi
  have hi' : i < idx.length := by rw [h1]; exact Finset.mem_range.1 hi
  simp [List.getD_eq_getElem?_getD, List.getElem?_eq_getElem hi']

end FemThermalOp
end ENigMA
