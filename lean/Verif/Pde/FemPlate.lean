import Verif.Pde.FemHeatPatchFlat
import Verif.Mesh.BasicMesherProps

/-!
# The programs for rods and plates: generated mesh, conditions at the ends and sides, steady temperatures

The mesher of lines and quadrilaterals (C29, C30), the loop that prescribes values at the nodes whose coordinates are near given ones, and the steady equation (C144), one after the other.
-/

set_option linter.unusedSectionVars false
set_option autoImplicit false

namespace ENigMA
open Matrix FemOp FemThermalOp Fem FemHeat FdmHeat BasicMesher
variable {K : Type} [Field K] [LinearOrder K] [IsStrictOrderedRing K]

namespace FemPlate

/-- Where the node at index `i` is: trunk/examples/femheat/main.cpp:61-62, 375-376. -/
def nodeAt (m : Mesh K) (i : Nat) : Vec3 K := ((m.nodes.idAt? i).bind m.nodes.get?).getD 0

/-- The loop over the nodes that sets fixed values, `conds p` being the values set at a node at `p`, in the order of the `if`s: trunk/examples/femheat/main.cpp:58-70, 372-391; PdeField_Imp.hpp:146-150. -/
def setConditions (m : Mesh K) (conds : Vec3 K → List K) : SMap Int K :=
  (List.range m.nodes.count).foldl (fun s i => (conds (nodeAt m i)).foldl (fun s v => s.insert (i : Int) v) s) .empty

/-- The conditions of the rod: trunk/examples/femheat/main.cpp:64-68, with the tolerance `1E-6` and the values as arguments. -/
def rodEnds (eps T0 T1 : K) (p : Vec3 K) : List K := (if |p.x - 0| < eps then [T0] else []) ++ (if |p.x - 1| < eps then [T1] else [])

/-- The conditions of the plate: trunk/examples/femheat/main.cpp:378-388. -/
def plateSides (eps : K) (p : Vec3 K) : List K :=
  (if |p.x - 0| < eps then [0] else []) ++ ((if |p.x - 1| < eps then [0] else []) ++ ((if |p.y - 0| < eps then [0] else []) ++ (if |p.y - 1| < eps then [1] else [])))

/-- The condition of the cooling rod: trunk/examples/femheat/main.cpp:160-161. -/
def coldEnd (eps : K) (p : Vec3 K) : List K := if |p.x - 1| < eps then [0] else []

/-- A program: conditions, equation, result. The field starts with any vector `u`. -/
def program (nrm : Vec3 K → K) (r : K) (solver : Sys K → Nat → K) (junk junk' : Nat → K) (m : Mesh K) (conds : Vec3 K → List K) (pf : PdeField K) (u : EVec K) : Option (EqField K) :=
  steady nrm r solver junk junk' m pf ⟨.fem, setConditions m conds, .empty, u⟩

/-- The line from 0 to 1: trunk/examples/femheat/main.cpp:35-38. -/
def unitLine : GLine K := GLine.mk2 ⟨0, 0, 0⟩ ⟨1, 0, 0⟩

/-- The unit square: trunk/examples/femheat/main.cpp:341-351. -/
def unitSquare : Quad K := ⟨⟨0, 0, 0⟩, ⟨1, 0, 0⟩, ⟨1, 1, 0⟩, ⟨0, 1, 0⟩⟩

/-- Steady temperatures in a rod: trunk/examples/femheat/main.cpp:35-77. -/
def rod (nrm : Vec3 K → K) (r : K) (solver : Sys K → Nat → K) (junk junk' : Nat → K) (nu : Nat) (eps T0 T1 : K) (pf : PdeField K) (u : EVec K) : Option (EqField K) :=
  program nrm r solver junk junk' (generateLine nrm unitLine nu).mesh (rodEnds eps T0 T1) pf u

/-- The rod that cools from the temperatures `u`: trunk/examples/femheat/main.cpp:129-187. -/
def cooling (nrm : Vec3 K → K) (r : K) (solver : Sys K → Nat → K) (junk junk' : Nat → K) (nu : Nat) (eps : K) (P : FdmHeat.Par K) (pf : PdeField K) (n : Nat) (u : EVec K) : Option (EqField K) :=
  steps nrm r solver junk junk' (generateLine nrm unitLine nu).mesh pf P n ⟨.fem, setConditions (generateLine nrm unitLine nu).mesh (coldEnd eps), .empty, u⟩

/-- Steady temperatures in a plate of triangles: trunk/examples/femheat/main.cpp:341-397. -/
def plate (nrm : Vec3 K → K) (r : K) (solver : Sys K → Nat → K) (junk junk' : Nat → K) (nu nv : Nat) (eps : K) (pf : PdeField K) (u : EVec K) : Option (EqField K) :=
  program nrm r solver junk junk' (generateQuad nrm unitSquare nu nv true).mesh (plateSides eps) pf u

/-! ### Specification -/

/-- The index of the grid node `(i, j)`, row after row. -/
def at2 (nu i j : Nat) : Nat := (nu + 1) * j + i

/-- The grid node `(i, j)` is on a side. -/
def OnRim (nu nv i j : Nat) : Prop := i = 0 ∨ i = nu ∨ j = 0 ∨ j = nv

/-! ### The conditions -/

theorem insert_all (i : Int) (l : List K) (s : SMap Int K) (k : Int) :
    (l.foldl (fun s v => s.insert i v) s).find? k = if k = i then (l.getLast?).or (s.find? k) else s.find? k := by
  induction l generalizing s with
  | nil => simp
  | cons a t ih =>
    rw [List.foldl_cons, ih, SMap.find?_insert]
    by_cases h : k = i
    · subst h
      rw [if_pos rfl, if_pos rfl, if_pos rfl, List.getLast?_cons]
      cases t.getLast? <;> simp
    · rw [if_neg h, if_neg h, if_neg h]

theorem find_conditions (m : Mesh K) (conds : Vec3 K → List K) (k : Int) :
    (setConditions m conds).find? k = if 0 ≤ k ∧ k < m.nodes.count then (conds (nodeAt m k.toNat)).getLast? else none := by
  unfold setConditions
  generalize m.nodes.count = n
  induction n with
  | zero =>
    rw [if_neg (by push_cast; omega)]
    exact SMap.find?_empty _
  | succ n ih =>
    rw [List.range_succ, List.foldl_append, List.foldl_cons, List.foldl_nil, insert_all, ih]
    by_cases h : k = (n : Int)
    · subst h
      rw [if_pos rfl, if_neg (by omega), if_pos (by push_cast; omega)]
      simp
    · rw [if_neg h]
      by_cases h2 : 0 ≤ k ∧ k < (n : Int)
      · rw [if_pos h2, if_pos (by push_cast; omega)]
      · rw [if_neg h2, if_neg (by push_cast; omega)]

theorem prescribed_conditions (m : Mesh K) (conds : Vec3 K → List K) (u : EVec K) (i : Nat) (hi : i < m.nodes.count) :
    Equation.prescribed ⟨.fem, setConditions m conds, .empty, u⟩ i = (conds (nodeAt m i)).getLast? := by
  show (setConditions m conds).find? (i : Int) = _
  rw [find_conditions, if_pos (by omega)]
  rfl

theorem conditions_ok (m : Mesh K) (conds : Vec3 K → List K) : IndicesOk (setConditions m conds) m.nodes.count := by
  intro i v h
  rw [find_conditions] at h
  split_ifs at h with h2
  exact h2

/-! ### The rod -/

theorem iota_at (n i : Nat) (x : Int) : (Mesh.iota n)[i]? = some x ↔ i < n ∧ x = i := by
  unfold Mesh.iota
  rw [List.getElem?_map]
  by_cases h : i < n
  · rw [List.getElem?_range h]
    simp [h, eq_comm]
  · rw [List.getElem?_eq_none (by simpa using h)]
    simp [h]

section Rod
variable {nrm : Vec3 K → K} (hn : IsNorm nrm) (l : GLine K) (hl : l.Ok) (nu : Nat) (hu : 0 < nu)

include hn hl hu in
theorem line_elem (x : Int) (e : Elem) (he : (generateLine nrm l nu).mesh.elements.get? x = some e) :
    ∃ i : Nat, i < nu ∧ x = i ∧ e = { elementType := .beam, nodeIds := [(i : Int), i + 1] } := by
  obtain ⟨hwf, -, -, -, hids, -, -, -, hel, -⟩ := C29_line hn l hl nu hu
  have hx : x ∈ (generateLine nrm l nu).mesh.elements.ids := (hwf.elements.2 x).2 ⟨e, he⟩
  rw [hids] at hx
  obtain ⟨i, hi⟩ := List.mem_iff_getElem?.1 hx
  obtain ⟨h1, rfl⟩ := (iota_at _ _ _).1 hi
  refine ⟨i, h1, rfl, ?_⟩
  rw [(hel i h1).1] at he
  exact (Option.some.inj he).symm

end Rod

end FemPlate
end ENigMA
