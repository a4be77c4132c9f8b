import Verif.Pde.FemHeatPatchFlat
import Verif.Pde.FdmHeatExamples
import Verif.Mesh.BasicMesherLemmas

/-!
# C144: cases that meet the hypotheses
-/

set_option linter.unusedSectionVars false
set_option autoImplicit false

namespace ENigMA
open FemOp FemThermalOp FemHeat FdmHeat BasicMesher Mesh
variable {K : Type} [Field K] [LinearOrder K] [IsStrictOrderedRing K]

namespace FemHeat

/-- A field without thermal conditions. -/
def plain : PdeField K := PdeField.new 1

theorem plain_ok (m : Mesh K) : NoConditions plain m := fun _ _ _ _ _ => rfl

theorem built_element {ns : List (Vec3 K)} {es : List Elem} {id : Int} {e : Elem} (h : (build ns es).elements.get? id = some e) : e ∈ es := by
  obtain ⟨-, h2⟩ := build_filled ns es
  rcases lt_or_ge id 0 with hneg | hpos
  · rw [h2.neg id hneg] at h; cases h
  · obtain ⟨k, rfl⟩ := Int.eq_ofNat_of_zero_le hpos
    rw [h2.get] at h
    exact List.mem_of_getElem? h

theorem built_index {ns : List (Vec3 K)} {es : List Elem} {i : Nat} {id : Int} (h : (build ns es).nodes.idAt? i = some id) : id = i ∧ i < ns.length := by
  obtain ⟨h1, -⟩ := build_filled ns es
  have : (iota ns.length)[i]? = some id := by rw [← h1.ids]; exact h
  obtain ⟨h2, h3⟩ := List.getElem?_eq_some_iff.1 this
  refine ⟨?_, by simpa [iota] using h2⟩
  rw [← h3]
  simp [iota]

theorem norm_axis (t : ℝ) (ht : 0 ≤ t) : realNorm ⟨t, 0, 0⟩ = t := by
  simp [realNorm, Vec3.normSq, Vec3.dot, Real.sqrt_mul_self ht]

theorem norm_up (t : ℝ) (ht : 0 ≤ t) : realNorm ⟨0, 0, t⟩ = t := by
  simp [realNorm, Vec3.normSq, Vec3.dot, Real.sqrt_mul_self ht]

/-- A rod of three beams of the lengths 1, 2 and 3. -/
noncomputable def unevenRod : Mesh ℝ := build [⟨0, 0, 0⟩, ⟨1, 0, 0⟩, ⟨3, 0, 0⟩, ⟨6, 0, 0⟩] [⟨.beam, [0, 1], []⟩, ⟨.beam, [1, 2], []⟩, ⟨.beam, [2, 3], []⟩]

/-- The first end is held at 1, the last at 13. -/
noncomputable def unevenEnds : EqField ℝ := ⟨.fem, (SMap.empty.insert 0 1).insert 3 13, .empty, ⟨4, fun _ => 0⟩⟩

theorem unevenRod_ok : unevenRod.WF ∧ unevenRod.nodes.RoundTrip ∧ SimplexMesh realNorm unevenRod ∧ AllStraight realNorm unevenRod ⟨1, 0, 0⟩ := by
  obtain ⟨h1, h2, -⟩ := build_ok ([⟨0, 0, 0⟩, ⟨1, 0, 0⟩, ⟨3, 0, 0⟩, ⟨6, 0, 0⟩] : List (Vec3 ℝ)) [⟨.beam, [0, 1], []⟩, ⟨.beam, [1, 2], []⟩, ⟨.beam, [2, 3], []⟩] (by decide)
  have n1 : ((⟨1, 0, 0⟩ : Vec3 ℝ) - ⟨0, 0, 0⟩) = ⟨1, 0, 0⟩ := by ext <;> simp
  have n2 : ((⟨3, 0, 0⟩ : Vec3 ℝ) - ⟨1, 0, 0⟩) = ⟨2, 0, 0⟩ := by ext <;> norm_num
  have n3 : ((⟨6, 0, 0⟩ : Vec3 ℝ) - ⟨3, 0, 0⟩) = ⟨3, 0, 0⟩ := by ext <;> norm_num
  refine ⟨h1, h2, fun id e he => ?_, fun id e he => ?_⟩
  · have := built_element he
    simp only [List.mem_cons, List.not_mem_nil, or_false] at this
    rcases this with rfl | rfl | rfl
    · exact ⟨[⟨0, 0, 0⟩, ⟨1, 0, 0⟩], rfl, .beam _ _ (by rw [n1, norm_axis] <;> norm_num)⟩
    · exact ⟨[⟨1, 0, 0⟩, ⟨3, 0, 0⟩], rfl, .beam _ _ (by rw [n2, norm_axis] <;> norm_num)⟩
    · exact ⟨[⟨3, 0, 0⟩, ⟨6, 0, 0⟩], rfl, .beam _ _ (by rw [n3, norm_axis] <;> norm_num)⟩
  · have := built_element he
    simp only [List.mem_cons, List.not_mem_nil, or_false] at this
    rcases this with rfl | rfl | rfl <;> refine ⟨rfl, fun p q h => ?_⟩ <;> cases h
    · rw [n1, norm_axis _ (by norm_num)]; ext <;> simp
    · rw [n2, norm_axis _ (by norm_num)]; ext <;> simp
    · rw [n3, norm_axis _ (by norm_num)]; ext <;> simp

theorem unevenEnds_prescribed (i : Nat) : Equation.prescribed unevenEnds i = if i = 3 then some 13 else if i = 0 then some 1 else none := by
  simp only [Equation.prescribed, unevenEnds, SMap.find?_insert, SMap.find?_empty]
  norm_cast

theorem unevenEnds_ok : IndicesOk unevenEnds.uFixed unevenRod.nodes.count ∧ ∀ id ∈ unevenRod.nodes.ids, Anchored unevenRod unevenEnds id := by
  constructor
  · intro i v h
    have hc : unevenRod.nodes.count = 4 := rfl
    simp only [unevenEnds, SMap.find?_insert, SMap.find?_empty] at h
    rw [hc]
    split_ifs at h <;> omega
  · have a0 : Anchored unevenRod unevenEnds 0 := .fixed 0 0 1 rfl (by rw [unevenEnds_prescribed]; simp)
    have a1 : Anchored unevenRod unevenEnds 1 := .element 0 _ 0 1 rfl (by simp) (by simp) a0
    have a2 : Anchored unevenRod unevenEnds 2 := .element 1 _ 1 2 rfl (by simp) (by simp) a1
    have a3 : Anchored unevenRod unevenEnds 3 := .element 2 _ 2 3 rfl (by simp) (by simp) a2
    intro id h
    have h' : id ∈ [(0 : Int), 1, 2, 3] := h
    simp only [List.mem_cons, List.not_mem_nil, or_false] at h'
    rcases h' with rfl | rfl | rfl | rfl <;> assumption

end FemHeat

/-- The rod from 1 to 13: the result is 1 + 2x at the nodes. -/
example (r : ℝ) : ∃ f', steady realNorm r anySolver (fun _ => 0) (fun _ => 0) unevenRod plain unevenEnds = some f' ∧ f'.u.at' 1 = 3 ∧ f'.u.at' 2 = 7 := by
  obtain ⟨h1, h2, h3, h4⟩ := unevenRod_ok
  obtain ⟨h5, h6⟩ := unevenEnds_ok
  obtain ⟨f', e1, -, e2⟩ := C144_patch_beams isNorm_real r anySolver anySolver_sound (fun _ => 0) (fun _ => 0) unevenRod h1 h2 h3 ⟨1, 0, 0⟩ h4 plain (plain_ok _) unevenEnds rfl h5 h6 1 ⟨2, 0, 0⟩
    (fun i id p v hi hp hv => by
      obtain ⟨rfl, -⟩ := built_index hi
      rw [unevenEnds_prescribed] at hv
      split_ifs at hv with h h'
      · subst h; cases hv; cases hp; norm_num [Vec3.dot]
      · subst h'; cases hv; cases hp; norm_num [Vec3.dot])
    (fun i id hi hp => by
      obtain ⟨rfl, hlt⟩ := built_index hi
      rw [unevenEnds_prescribed] at hp
      split_ifs at hp with h h'
      have : i = 1 ∨ i = 2 := by simp at hlt; omega
      rcases this with rfl | rfl <;> rfl)
  refine ⟨f', e1, ?_, ?_⟩
  · rw [e2 1 1 ⟨1, 0, 0⟩ rfl rfl]; norm_num [Vec3.dot]
  · rw [e2 2 2 ⟨3, 0, 0⟩ rfl rfl]; norm_num [Vec3.dot]

/-- It also has the least energy. -/
example (r : ℝ) := C144_least_energy isNorm_real r anySolver anySolver_sound (fun _ => 0) (fun _ => 0) unevenRod unevenRod_ok.1 unevenRod_ok.2.1 unevenRod_ok.2.2.1 plain (plain_ok _) unevenEnds rfl
  unevenEnds_ok.1

namespace FemHeat

/-- A square with a node inside, not in the middle, and four triangles around it. -/
noncomputable def fan : Mesh ℝ := build [⟨0, 0, 0⟩, ⟨4, 0, 0⟩, ⟨4, 4, 0⟩, ⟨0, 4, 0⟩, ⟨1, 2, 0⟩]
  [⟨.triangle, [0, 1, 4], []⟩, ⟨.triangle, [1, 2, 4], []⟩, ⟨.triangle, [2, 3, 4], []⟩, ⟨.triangle, [3, 0, 4], []⟩]

/-- The corners have the values of 1 + 2x + 3y. -/
noncomputable def fanCorners : EqField ℝ := ⟨.fem, (((SMap.empty.insert 0 1).insert 1 9).insert 2 21).insert 3 13, .empty, ⟨5, fun _ => 0⟩⟩

theorem fan_cross (a b c : Vec3 ℝ) (t : ℝ) (ht : 0 < t) (h : Vec3.cross (b - a) (c - a) = ⟨0, 0, t⟩) :
    0 < realNorm (Vec3.cross (b - a) (c - a)) ∧ Vec3.cross (b - a) (c - a) = realNorm (Vec3.cross (b - a) (c - a)) • ⟨0, 0, 1⟩ := by
  rw [h, norm_up t ht.le]
  refine ⟨ht, ?_⟩
  ext <;> simp

theorem fan_ok : fan.WF ∧ fan.nodes.RoundTrip ∧ SimplexMesh realNorm fan ∧ AllFlat realNorm fan ⟨0, 0, 1⟩ := by
  obtain ⟨h1, h2, -⟩ := build_ok ([⟨0, 0, 0⟩, ⟨4, 0, 0⟩, ⟨4, 4, 0⟩, ⟨0, 4, 0⟩, ⟨1, 2, 0⟩] : List (Vec3 ℝ))
    [⟨.triangle, [0, 1, 4], []⟩, ⟨.triangle, [1, 2, 4], []⟩, ⟨.triangle, [2, 3, 4], []⟩, ⟨.triangle, [3, 0, 4], []⟩] (by decide)
  have n1 := fan_cross ⟨0, 0, 0⟩ ⟨4, 0, 0⟩ ⟨1, 2, 0⟩ 8 (by norm_num) (by ext <;> norm_num [Vec3.cross])
  have n2 := fan_cross ⟨4, 0, 0⟩ ⟨4, 4, 0⟩ ⟨1, 2, 0⟩ 12 (by norm_num) (by ext <;> norm_num [Vec3.cross])
  have n3 := fan_cross ⟨4, 4, 0⟩ ⟨0, 4, 0⟩ ⟨1, 2, 0⟩ 8 (by norm_num) (by ext <;> norm_num [Vec3.cross])
  have n4 := fan_cross ⟨0, 4, 0⟩ ⟨0, 0, 0⟩ ⟨1, 2, 0⟩ 4 (by norm_num) (by ext <;> norm_num [Vec3.cross])
  refine ⟨h1, h2, fun id e he => ?_, fun id e he => ?_⟩
  · have := built_element he
    simp only [List.mem_cons, List.not_mem_nil, or_false] at this
    rcases this with rfl | rfl | rfl | rfl
    · exact ⟨_, rfl, .triangle _ _ _ n1.1⟩
    · exact ⟨_, rfl, .triangle _ _ _ n2.1⟩
    · exact ⟨_, rfl, .triangle _ _ _ n3.1⟩
    · exact ⟨_, rfl, .triangle _ _ _ n4.1⟩
  · have := built_element he
    simp only [List.mem_cons, List.not_mem_nil, or_false] at this
    rcases this with rfl | rfl | rfl | rfl <;> refine ⟨rfl, fun p q r h => ?_⟩ <;> cases h
    · exact n1.2
    · exact n2.2
    · exact n3.2
    · exact n4.2

theorem fanCorners_prescribed (i : Nat) : Equation.prescribed fanCorners i = if i = 3 then some 13 else if i = 2 then some 21 else if i = 1 then some 9 else if i = 0 then some 1 else none := by
  simp only [Equation.prescribed, fanCorners, SMap.find?_insert, SMap.find?_empty]
  norm_cast

theorem fanCorners_ok : IndicesOk fanCorners.uFixed fan.nodes.count ∧ ∀ id ∈ fan.nodes.ids, Anchored fan fanCorners id := by
  constructor
  · intro i v h
    have hc : fan.nodes.count = 5 := rfl
    simp only [fanCorners, SMap.find?_insert, SMap.find?_empty] at h
    rw [hc]
    split_ifs at h <;> omega
  · have a0 : Anchored fan fanCorners 0 := .fixed 0 0 1 rfl (by rw [fanCorners_prescribed]; simp)
    have a1 : Anchored fan fanCorners 1 := .fixed 1 1 9 rfl (by rw [fanCorners_prescribed]; simp)
    have a2 : Anchored fan fanCorners 2 := .fixed 2 2 21 rfl (by rw [fanCorners_prescribed]; simp)
    have a3 : Anchored fan fanCorners 3 := .fixed 3 3 13 rfl (by rw [fanCorners_prescribed]; simp)
    have a4 : Anchored fan fanCorners 4 := .element 0 _ 0 4 rfl (by simp) (by simp) a0
    intro id h
    have h' : id ∈ [(0 : Int), 1, 2, 3, 4] := h
    simp only [List.mem_cons, List.not_mem_nil, or_false] at h'
    rcases h' with rfl | rfl | rfl | rfl | rfl <;> assumption

end FemHeat

/-- The node inside, at (1, 2), gets 1 + 2 · 1 + 3 · 2. -/
example (r : ℝ) : ∃ f', steady realNorm r anySolver (fun _ => 0) (fun _ => 0) fan plain fanCorners = some f' ∧ f'.u.at' 4 = 9 := by
  obtain ⟨h1, h2, h3, h4⟩ := fan_ok
  obtain ⟨h5, h6⟩ := fanCorners_ok
  obtain ⟨f', e1, -, e2⟩ := C144_patch_triangles isNorm_real r anySolver anySolver_sound (fun _ => 0) (fun _ => 0) fan h1 h2 h3 ⟨0, 0, 1⟩ h4 plain (plain_ok _) fanCorners rfl h5 h6 1 ⟨2, 3, 0⟩
    (fun i id p v hi hp hv => by
      obtain ⟨rfl, -⟩ := built_index hi
      rw [fanCorners_prescribed] at hv
      split_ifs at hv with h h h h <;> (subst h; cases hv; cases hp; norm_num [Vec3.dot]))
    (fun i id hi hp => by
      obtain ⟨rfl, hlt⟩ := built_index hi
      rw [fanCorners_prescribed] at hp
      split_ifs at hp with h h' h'' h'''
      have : i = 4 := by simp at hlt; omega
      subst this
      show List.Perm [(0 : Int), 1, 2, 3] [1, 2, 3, 0]
      decide)
  refine ⟨f', e1, ?_⟩
  rw [e2 4 4 ⟨1, 2, 0⟩ rfl rfl]; norm_num [Vec3.dot]

namespace FemHeat

/-- A tetrahedron with a node inside, and four tetrahedra around it. -/
noncomputable def star : Mesh ℝ := build [⟨0, 0, 0⟩, ⟨6, 0, 0⟩, ⟨0, 6, 0⟩, ⟨0, 0, 6⟩, ⟨1, 1, 2⟩]
  [⟨.tetrahedron, [1, 2, 3, 4], []⟩, ⟨.tetrahedron, [0, 3, 2, 4], []⟩, ⟨.tetrahedron, [0, 1, 3, 4], []⟩, ⟨.tetrahedron, [0, 2, 1, 4], []⟩]

/-- The corners have the values of 1 + x + 2y + 3z. -/
noncomputable def starCorners : EqField ℝ := ⟨.fem, (((SMap.empty.insert 0 1).insert 1 7).insert 2 13).insert 3 19, .empty, ⟨5, fun _ => 0⟩⟩

theorem star_ok : star.WF ∧ star.nodes.RoundTrip ∧ SimplexMesh realNorm star ∧ AllTets star := by
  obtain ⟨h1, h2, -⟩ := build_ok ([⟨0, 0, 0⟩, ⟨6, 0, 0⟩, ⟨0, 6, 0⟩, ⟨0, 0, 6⟩, ⟨1, 1, 2⟩] : List (Vec3 ℝ))
    [⟨.tetrahedron, [1, 2, 3, 4], []⟩, ⟨.tetrahedron, [0, 3, 2, 4], []⟩, ⟨.tetrahedron, [0, 1, 3, 4], []⟩, ⟨.tetrahedron, [0, 2, 1, 4], []⟩] (by decide)
  refine ⟨h1, h2, fun id e he => ?_, fun id e he => ?_⟩
  · have := built_element he
    simp only [List.mem_cons, List.not_mem_nil, or_false] at this
    rcases this with rfl | rfl | rfl | rfl
    all_goals exact ⟨_, rfl, .tetrahedron _ _ _ _ (by norm_num [Vec3.dot, Vec3.cross])⟩
  · have := built_element he
    simp only [List.mem_cons, List.not_mem_nil, or_false] at this
    rcases this with rfl | rfl | rfl | rfl <;> rfl

theorem starCorners_prescribed (i : Nat) : Equation.prescribed starCorners i = if i = 3 then some 19 else if i = 2 then some 13 else if i = 1 then some 7 else if i = 0 then some 1 else none := by
  simp only [Equation.prescribed, starCorners, SMap.find?_insert, SMap.find?_empty]
  norm_cast

theorem starCorners_ok : IndicesOk starCorners.uFixed star.nodes.count ∧ ∀ id ∈ star.nodes.ids, Anchored star starCorners id := by
  constructor
  · intro i v h
    have hc : star.nodes.count = 5 := rfl
    simp only [starCorners, SMap.find?_insert, SMap.find?_empty] at h
    rw [hc]
    split_ifs at h <;> omega
  · have a0 : Anchored star starCorners 0 := .fixed 0 0 1 rfl (by rw [starCorners_prescribed]; simp)
    have a1 : Anchored star starCorners 1 := .fixed 1 1 7 rfl (by rw [starCorners_prescribed]; simp)
    have a2 : Anchored star starCorners 2 := .fixed 2 2 13 rfl (by rw [starCorners_prescribed]; simp)
    have a3 : Anchored star starCorners 3 := .fixed 3 3 19 rfl (by rw [starCorners_prescribed]; simp)
    have a4 : Anchored star starCorners 4 := .element 1 _ 0 4 rfl (by simp) (by simp) a0
    intro id h
    have h' : id ∈ [(0 : Int), 1, 2, 3, 4] := h
    simp only [List.mem_cons, List.not_mem_nil, or_false] at h'
    rcases h' with rfl | rfl | rfl | rfl | rfl <;> assumption

end FemHeat

/-- The node inside, at (1, 1, 2), gets 1 + 1 + 2 + 6. -/
example (r : ℝ) : ∃ f', steady realNorm r anySolver (fun _ => 0) (fun _ => 0) star plain starCorners = some f' ∧ f'.u.at' 4 = 10 := by
  obtain ⟨h1, h2, h3, h4⟩ := star_ok
  obtain ⟨h5, h6⟩ := starCorners_ok
  obtain ⟨f', e1, -, e2⟩ := C144_patch_tetrahedra isNorm_real r anySolver anySolver_sound (fun _ => 0) (fun _ => 0) star h1 h2 h3 h4 plain (plain_ok _) starCorners rfl h5 h6 1 ⟨1, 2, 3⟩
    (fun i id p v hi hp hv => by
      obtain ⟨rfl, -⟩ := built_index hi
      rw [starCorners_prescribed] at hv
      split_ifs at hv with h h h h <;> (subst h; cases hv; cases hp; norm_num [Vec3.dot]))
    (fun i id hi hp => by
      obtain ⟨rfl, hlt⟩ := built_index hi
      rw [starCorners_prescribed] at hp
      split_ifs at hp with h h' h'' h'''
      have : i = 4 := by simp at hlt; omega
      subst this
      show List.Perm [((1 : Int), (3 : Int)), (3, 2), (2, 1), (0, 2), (2, 3), (3, 0), (0, 3), (3, 1), (1, 0), (0, 1), (1, 2), (2, 0)]
        [(3, 1), (2, 3), (1, 2), (2, 0), (3, 2), (0, 3), (3, 0), (1, 3), (0, 1), (1, 0), (2, 1), (0, 2)]
      decide)
  refine ⟨f', e1, ?_⟩
  rw [e2 4 4 ⟨1, 1, 2⟩ rfl rfl]; norm_num [Vec3.dot]

end ENigMA
