import Verif.Geometry.Polygon
import Mathlib.Algebra.BigOperators.Ring.Finset
import Mathlib.Data.List.GetD

/-!
# Vector area of polygons

The specification side (`openArea2`, `Planar`) and the lemmas behind C37 and C40.
-/

set_option linter.unusedSectionVars false

namespace ENigMA

section Spec
variable {K : Type} [CommRing K]

/-- Sum of the cross products of consecutive points of a path: for a closed path (first = last point) this is
twice its vector area (the shoelace formula in each coordinate plane). -/
def openArea2 : List (Vec3 K) → Vec3 K
  | a :: b :: l => Vec3.cross a b + openArea2 (b :: l)
  | _ => 0

/-- Twice the vector area of the polygon with corners `c`: the path that returns to the first corner. -/
def vecArea2 : List (Vec3 K) → Vec3 K
  | [] => 0
  | a :: l => openArea2 (a :: l ++ [a])

end Spec

section Lemmas
variable {K : Type} [CommRing K]

namespace Vec3
theorem cross_self (a : Vec3 K) : cross a a = 0 := by ext <;> simp <;> ring
theorem cross_swap (a b : Vec3 K) : cross a b = -cross b a := by ext <;> simp <;> ring
theorem cross_sub_left (a b c : Vec3 K) : cross (a - b) c = cross a c - cross b c := by ext <;> simp <;> ring
theorem cross_sub_right (a b c : Vec3 K) : cross a (b - c) = cross a b - cross a c := by ext <;> simp <;> ring
theorem cross_add_left (a b c : Vec3 K) : cross (a + b) c = cross a c + cross b c := by ext <;> simp <;> ring
theorem cross_add_right (a b c : Vec3 K) : cross a (b + c) = cross a b + cross a c := by ext <;> simp <;> ring
theorem cross_smul_left (k : K) (a b : Vec3 K) : cross (k • a) b = k • cross a b := by ext <;> simp <;> ring
theorem cross_smul_right (k : K) (a b : Vec3 K) : cross a (k • b) = k • cross a b := by ext <;> simp <;> ring
theorem dot_cross_self_left (a b : Vec3 K) : dot a (cross a b) = 0 := by simp [dot]; ring
theorem dot_cross_self_right (a b : Vec3 K) : dot b (cross a b) = 0 := by simp [dot]; ring
end Vec3

@[simp] theorem openArea2_nil : openArea2 ([] : List (Vec3 K)) = 0 := rfl
@[simp] theorem openArea2_single (a : Vec3 K) : openArea2 [a] = 0 := rfl
@[simp] theorem openArea2_cons_cons (a b : Vec3 K) (l : List (Vec3 K)) :
    openArea2 (a :: b :: l) = Vec3.cross a b + openArea2 (b :: l) := rfl

/-- Cutting a path at a vertex. -/
theorem openArea2_cut (l : List (Vec3 K)) (a : Vec3 K) (r : List (Vec3 K)) :
    openArea2 (l ++ a :: r) = openArea2 (l ++ [a]) + openArea2 (a :: r) := by
  induction l with
  | nil => simp
  | cons b l ih =>
    cases l with
    | nil => simp
    | cons c l =>
      simp only [List.cons_append, openArea2_cons_cons] at ih ⊢
      rw [ih, add_assoc]

theorem openArea2_reverse (l : List (Vec3 K)) : openArea2 l.reverse = -openArea2 l := by
  induction l with
  | nil => simp
  | cons a l ih =>
    cases l with
    | nil => simp
    | cons b l =>
      rw [List.reverse_cons, List.reverse_cons, List.append_assoc]
      simp only [List.cons_append, List.nil_append]
      rw [openArea2_cut, ← List.reverse_cons, ih, openArea2_cons_cons, openArea2_cons_cons,
        openArea2_single, Vec3.cross_swap b a, neg_add, add_zero, add_comm]

/-- Translating a path by `-o` changes the sum only by the end points. -/
theorem openArea2_translate (o a : Vec3 K) (l : List (Vec3 K)) :
    openArea2 ((a :: l).map (· - o)) =
      openArea2 (a :: l) - Vec3.cross o ((a :: l).getLast (by simp) - a) := by
  induction l generalizing a with
  | nil => simp [show Vec3.cross o 0 = 0 by ext <;> simp]
  | cons b l ih =>
    have := ih b
    simp only [List.map_cons] at this ⊢
    rw [openArea2_cons_cons, this, openArea2_cons_cons]
    simp only [List.getLast_cons_cons]
    simp only [Vec3.cross_sub_left, Vec3.cross_sub_right, Vec3.cross_self]
    rw [Vec3.cross_swap a o]
    abel

/-- Closing an already closed path again adds nothing. -/
theorem vecArea2_closed (a : Vec3 K) (l : List (Vec3 K)) :
    vecArea2 (a :: l ++ [a]) = vecArea2 (a :: l) := by
  simp only [vecArea2, List.cons_append]
  have := openArea2_cut (a :: l) a [a]
  simp only [List.cons_append, List.append_assoc, List.nil_append] at this ⊢
  rw [this]; simp [Vec3.cross_self]

theorem openArea2_eq_sum (l : List (Vec3 K)) :
    openArea2 l = ∑ k ∈ Finset.range (l.length - 1), Vec3.cross (l.getD k ⟨0, 0, 0⟩) (l.getD (k + 1) ⟨0, 0, 0⟩) := by
  induction l with
  | nil => simp
  | cons a l ih =>
    cases l with
    | nil => simp
    | cons b l =>
      rw [openArea2_cons_cons, ih]
      simp only [List.length_cons, Nat.add_sub_cancel]
      rw [Finset.sum_range_succ', add_comm]
      simp

theorem vtx_lt (vs : List (Vec3 K)) {i : Nat} (h : i < vs.length) : vtx vs i = vs.getD i ⟨0, 0, 0⟩ := by
  unfold vtx; rw [Nat.mod_eq_of_lt h]

theorem vtx_add (vs : List (Vec3 K)) (i : Nat) : vtx vs (i + vs.length) = vtx vs i := by
  unfold vtx; rw [Nat.add_mod_right]

theorem vtx_eq (vs : List (Vec3 K)) (h : vs ≠ []) (i : Nat) :
    VertexList.vertex vs i = some (vtx vs i) := by
  have : i % vs.length < vs.length := Nat.mod_lt _ (List.length_pos_iff.2 h)
  simp [VertexList.vertex, vtx, this]

/-- A sum over one period does not depend on the phase. -/
theorem sum_shift {M : Type} [AddCommGroup M] (n : Nat) (f : Nat → M) (h : ∀ i, f (i + n) = f i) :
    ∑ k ∈ Finset.range n, f (k + 1) = ∑ k ∈ Finset.range n, f k := by
  have h1 := Finset.sum_range_succ f n
  have h2 := Finset.sum_range_succ' f n
  have h0 := h 0
  rw [Nat.zero_add] at h0
  rw [h1, h0] at h2
  exact (add_right_cancel h2).symm

/-- The index form of the vector area. -/
theorem vecArea2_eq_sum (vs : List (Vec3 K)) :
    vecArea2 vs = ∑ k ∈ Finset.range vs.length, Vec3.cross (vtx vs k) (vtx vs (k + 1)) := by
  cases vs with
  | nil => simp [vecArea2]
  | cons a l =>
    simp only [vecArea2]
    rw [openArea2_eq_sum]
    have hl : (a :: l ++ [a]).length - 1 = (a :: l).length := by simp
    rw [hl]
    apply Finset.sum_congr rfl
    intro k hk
    rw [Finset.mem_range] at hk
    have e1 : (a :: l ++ [a]).getD k ⟨0, 0, 0⟩ = vtx (a :: l) k := by
      rw [vtx_lt _ hk, List.getD_append _ _ _ _ hk]
    have e2 : (a :: l ++ [a]).getD (k + 1) ⟨0, 0, 0⟩ = vtx (a :: l) (k + 1) := by
      by_cases h : k + 1 < (a :: l).length
      · rw [vtx_lt _ h, List.getD_append _ _ _ _ h]
      · have he : k + 1 = (a :: l).length := by omega
        rw [List.getD_append_right _ _ _ _ (by omega), he]
        simp [vtx]
    rw [e1, e2]

theorem sum_x {ι : Type} (s : Finset ι) (f : ι → Vec3 K) : (∑ i ∈ s, f i).x = ∑ i ∈ s, (f i).x := by
  classical
  induction s using Finset.induction_on with
  | empty => simp
  | insert a s ha ih => rw [Finset.sum_insert ha, Finset.sum_insert ha, Vec3.add_x, ih]
theorem sum_y {ι : Type} (s : Finset ι) (f : ι → Vec3 K) : (∑ i ∈ s, f i).y = ∑ i ∈ s, (f i).y := by
  classical
  induction s using Finset.induction_on with
  | empty => simp
  | insert a s ha ih => rw [Finset.sum_insert ha, Finset.sum_insert ha, Vec3.add_y, ih]
theorem sum_z {ι : Type} (s : Finset ι) (f : ι → Vec3 K) : (∑ i ∈ s, f i).z = ∑ i ∈ s, (f i).z := by
  classical
  induction s using Finset.induction_on with
  | empty => simp
  | insert a s ha ih => rw [Finset.sum_insert ha, Finset.sum_insert ha, Vec3.add_z, ih]

end Lemmas

section
variable {K : Type} [CommRing K]

/-- `Σ pᵢ₊₁ (qᵢ₊₂ - qᵢ)` over one period is `Σ pᵢ qᵢ₊₁ - pᵢ₊₁ qᵢ`. -/
theorem shoelace_shift (n : Nat) (p q : Nat → K) (hp : ∀ i, p (i + n) = p i) (hq : ∀ i, q (i + n) = q i) :
    ∑ k ∈ Finset.range n, p (k + 1) * (q (k + 2) - q k) =
      ∑ k ∈ Finset.range n, (p k * q (k + 1) - p (k + 1) * q k) := by
  have h := sum_shift n (fun k => p k * q (k + 1)) (fun i => by
    show p (i + n) * q (i + n + 1) = p i * q (i + 1)
    rw [hp, show i + n + 1 = i + 1 + n by omega, hq])
  simp only [mul_sub, Finset.sum_sub_distrib]
  rw [← h]

theorem shoelace_x (vs : List (Vec3 K)) :
    ∑ k ∈ Finset.range vs.length, (vtx vs (k + 1)).y * ((vtx vs (k + 2)).z - (vtx vs k).z) = (vecArea2 vs).x := by
  rw [vecArea2_eq_sum, sum_x, shoelace_shift vs.length (fun i => (vtx vs i).y) (fun i => (vtx vs i).z)
    (fun i => by simp only [vtx_add]) (fun i => by simp only [vtx_add])]
  apply Finset.sum_congr rfl
  intro k _
  simp only [Vec3.cross_x]; ring

theorem shoelace_y (vs : List (Vec3 K)) :
    ∑ k ∈ Finset.range vs.length, (vtx vs (k + 1)).z * ((vtx vs (k + 2)).x - (vtx vs k).x) = (vecArea2 vs).y := by
  rw [vecArea2_eq_sum, sum_y, shoelace_shift vs.length (fun i => (vtx vs i).z) (fun i => (vtx vs i).x)
    (fun i => by simp only [vtx_add]) (fun i => by simp only [vtx_add])]
  apply Finset.sum_congr rfl
  intro k _
  simp only [Vec3.cross_y]; ring

theorem shoelace_z (vs : List (Vec3 K)) :
    ∑ k ∈ Finset.range vs.length, (vtx vs (k + 1)).x * ((vtx vs (k + 2)).y - (vtx vs k).y) = (vecArea2 vs).z := by
  rw [vecArea2_eq_sum, sum_z, shoelace_shift vs.length (fun i => (vtx vs i).x) (fun i => (vtx vs i).y)
    (fun i => by simp only [vtx_add]) (fun i => by simp only [vtx_add])]
  apply Finset.sum_congr rfl
  intro k _
  simp only [Vec3.cross_z]; ring

end
end ENigMA
