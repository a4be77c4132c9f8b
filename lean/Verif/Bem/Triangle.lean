import Verif.Mesh.Quality
import Verif.Base.SMap
import Verif.Integration.Gauss
import Mathlib.Analysis.SpecialFunctions.Pow.Real

/-!
# Boundary elements

trunk/src/bem/BemTriangle_Imp.hpp and trunk/src/pde/bem/thermal/BemThermalOperators_Imp.hpp, over the real numbers. `eps` is `numeric_limits<Real>::epsilon()`. The constructor chooses
20 integration points (BemTriangle_Imp.hpp:20-25); nothing changes that number.
-/

set_option linter.unusedSectionVars false
set_option autoImplicit false

namespace ENigMA
namespace Bem

/-- One of the three summands of `g_sum`: `1 / e.norm() * log(tan((teta + alpha) / 2) / tan(alpha / 2))`: BemTriangle_Imp.hpp:97. -/
noncomputable def logTerm (e : Vec3 ℝ) (teta alpha : ℝ) : ℝ := 1 / realNorm e * Real.log (Real.tan ((teta + alpha) / 2) / Real.tan (alpha / 2))

/-- `g_sum` of a triangle with itself: BemTriangle_Imp.hpp:70-98. -/
noncomputable def selfSum (eps : ℝ) (t : Tri ℝ) : ℝ :=
  let c := t.centroid
  let r21 := t.v1 - t.v0
  let r32 := t.v2 - t.v1
  let r13 := t.v0 - t.v2
  let r1 := c - t.v0
  let r2 := c - t.v1
  let r3 := c - t.v2
  let teta1 := Quality.angle eps r2 r3
  let teta2 := Quality.angle eps r3 r1
  let teta3 := Quality.angle eps r1 r2
  let alpha1 := Quality.angle eps r1 r21
  let alpha2 := Quality.angle eps r2 r32
  let alpha3 := Quality.angle eps r3 r13
  2 / 3 * (t.normalArea realNorm).2 * (logTerm r32 teta1 alpha2 + logTerm r13 teta2 alpha3 + logTerm r21 teta3 alpha1)

/-- A summand of `h_sum`: BemTriangle_Imp.hpp:123. -/
noncomputable def hTerm (x n : Vec3 ℝ) (area : ℝ) (p : Vec3 ℝ × ℝ) : ℝ := 2 * area * p.2 * (p.1 - x).dot n / (p.1 - x).normSq ^ (3 / 2 : ℝ)

/-- A summand of `g_sum`: BemTriangle_Imp.hpp:124. -/
noncomputable def gTerm (x : Vec3 ℝ) (area : ℝ) (p : Vec3 ℝ × ℝ) : ℝ := 2 * area * p.2 / realNorm (p.1 - x)

/-- The two sums: BemTriangle_Imp.hpp:68-126. -/
noncomputable def sums (eps : ℝ) (i j : Int) (ti tj : Tri ℝ) : ℝ × ℝ :=
  if i = j then (0, selfSum eps tj)
  else
    let ps := Gauss.bemPoints 20 tj.v0 tj.v1 tj.v2
    ((ps.map (hTerm ti.centroid (tj.normal realNorm) (tj.normalArea realNorm).2)).sum, (ps.map (gTerm ti.centroid (tj.normalArea realNorm).2)).sum)

/-- `laplacianCoeff`: BemTriangle_Imp.hpp:53-132: `h` and `g`. -/
noncomputable def coeffs (eps : ℝ) (i j : Int) (ti tj : Tri ℝ) : ℝ × ℝ :=
  (-1 / (4 * Real.pi) * (sums eps i j ti tj).1, 1 / (4 * Real.pi) * (sums eps i j ti tj).2)

/-! ### The system -/

/-- The triangle of an element, from its first three nodes, or `none` inside for an element of another type: BemThermalOperators_Imp.hpp:58-69. The position is used as an id. Outer `none`: an exception of
`at`, or fewer than three vertices. -/
def triangleOf (m : Mesh ℝ) (el : Nat) : Option (Option (Tri ℝ)) := do
  let e ← m.elements.get? (el : Int)
  if e.elementType = .triangle then do
    let vs ← e.nodeIds.mapM m.nodes.get?
    match vs with
    | a :: b :: c :: _ => return some ⟨a, b, c⟩
    | _ => none
  else return none

/-- What a pair of triangles adds to the matrix: BemThermalOperators_Imp.hpp:85-99. -/
noncomputable def entry (eps : ℝ) (uFixed : SMap Int ℝ) (i j : Nat) (ti tj : Tri ℝ) : ℝ :=
  let hg := coeffs eps i j ti tj
  let delta := (tj.normalArea realNorm).2
  (if i = j then hg.1 - 0.5 else hg.1) + (if (uFixed.find? (j : Int)).isSome then -hg.2 / delta else 0)

/-- What a pair of triangles adds to the right hand side: BemThermalOperators_Imp.hpp:101. -/
noncomputable def rhsEntry (eps : ℝ) (uFixed : SMap Int ℝ) (i j : Nat) (ti tj : Tri ℝ) : ℝ :=
  match uFixed.find? (j : Int) with
  | some v => -(coeffs eps i j ti tj).2 / (tj.normalArea realNorm).2 * v
  | none => 0

/-- `laplacian`: BemThermalOperators_Imp.hpp:32-103: the matrix and the right hand side, as functions of the positions. Both start at zero and every pair of positions is visited once, so the sums of `+=` are given
directly. `none`: an exception, or a fixed value outside `isFixed`. -/
noncomputable def laplacian (eps : ℝ) (m : Mesh ℝ) (uFixed : SMap Int ℝ) : Option ((Nat → Nat → ℝ) × (Nat → ℝ)) :=
  if uFixed.entries.all fun p => decide (0 ≤ p.1) && decide (p.1 < m.elements.count) then do
    let ts ← (List.range m.elements.count).mapM (triangleOf m)
    return (fun i j =>
        match ts[i]?.join, ts[j]?.join with
        | some ti, some tj => entry eps uFixed i j ti tj
        | _, _ => 0,
      fun i => ((List.range m.elements.count).map fun j =>
        match ts[i]?.join, ts[j]?.join with
        | some ti, some tj => rhsEntry eps uFixed i j ti tj
        | _, _ => 0).sum)
  else none

end Bem
end ENigMA
