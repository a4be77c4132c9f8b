import Verif.Geometry.Solids
import Mathlib.LinearAlgebra.Matrix.Notation
import Mathlib.Data.Matrix.Mul

/-!
# Finite element matrices

Models `trunk/src/fem/FemBeam_Imp.hpp`, `FemTriangle_Imp.hpp`, `FemTetrahedron_Imp.hpp`,
`structural/FemConstantStrainTriangle_Imp.hpp`, `structural/FemConstantStrainTetrahedron_Imp.hpp`,
`flow/FemFlowTriangle_Imp.hpp` and `flow/FemFlowTetrahedron_Imp.hpp`.

The element objects are records filled by setters; here each matrix is a function of the values it reads. Eigen's fixed-size matrices
are Mathlib's `Matrix`. The decimal literals `0.10`, `0.05` are the exact rationals.
-/

set_option linter.unusedSectionVars false

namespace ENigMA
namespace Fem

variable {K : Type} [Field K] [LinearOrder K] [IsStrictOrderedRing K]

/-! ### Beam -/

/-- FemBeam_Imp.hpp 37-47 `setTransientTerm`. -/
def beamDdt (length section_ dt : K) : Matrix (Fin 2) (Fin 2) K :=
  let m : Matrix (Fin 2) (Fin 2) K := (length * section_) • !![1 / 3, 1 / 6; 1 / 6, 1 / 3]
  if 0 < dt then dt⁻¹ • m else m

/-- FemBeam_Imp.hpp 49-57 `setDiffusionTerm`. -/
def beamLaplacian (coeff length section_ : K) : Matrix (Fin 2) (Fin 2) K :=
  let m : Matrix (Fin 2) (Fin 2) K := !![-1, 1; 1, -1]
  if 0 < length then (coeff * section_ / length) • m else m

/-- FemBeam_Imp.hpp 59-66 `setConvectiveTerm`. -/
def beamDivergence (coeff : K) : Matrix (Fin 2) (Fin 2) K := (coeff * (1 / 2)) • !![-1, 1; -1, 1]

/-! ### Local coordinates of a planar element -/

/-- Local coordinates `m_x1 .. m_y3` of a triangle (FemTriangle.hpp 50-51). -/
structure Local3 (K : Type) where
  x1 : K
  y1 : K
  x2 : K
  y2 : K
  x3 : K
  y3 : K

/-- `vx`, `vy` of the frame built from three points, FemTriangle_Imp.hpp 40-50 (and FemQuadrilateral_Imp.hpp 43-53). Eigen's
`normalize()` leaves the zero vector alone, as does `(nrm 0)⁻¹ • 0`. -/
def planeFrame (nrm : Vec3 K → K) (n1 n2 n3 : Vec3 K) : Vec3 K × Vec3 K :=
  let normalize := fun v : Vec3 K => (nrm v)⁻¹ • v
  let vx := normalize (n2 - n1)
  let vz := normalize (Vec3.cross vx (n3 - n1))
  let vy := normalize (Vec3.cross vz vx)
  (vx, vy)

/-- The coordinates that `rebuild` gives to the point `p` of an element whose first three vertices are `n1`, `n2`, `n3`:
FemTriangle_Imp.hpp 39-70 (and FemQuadrilateral_Imp.hpp 41-71). The rows of the transposed `aTransform` are the frame vectors. -/
def localXY (nrm : Vec3 K → K) (n1 n2 n3 p : Vec3 K) : K × K :=
  if n1.z ≠ 0 ∨ n2.z ≠ 0 ∨ n3.z ≠ 0 then
    let f := planeFrame nrm n1 n2 n3
    (f.1.dot p, f.2.dot p)
  else (p.x, p.y)

/-! ### Triangle -/

/-- FemTriangle_Imp.hpp 32-81 `rebuild`. -/
def triRebuild (nrm : Vec3 K → K) (t : Tri K) : Local3 K :=
  let q := localXY nrm t.v0 t.v1 t.v2
  ⟨(q t.v0).1, (q t.v0).2, (q t.v1).1, (q t.v1).2, (q t.v2).1, (q t.v2).2⟩

/-- `CGeoTriangle::area()` after `calculateArea()` (GeoTriangle_Imp.hpp 60-81). -/
def triArea (nrm : Vec3 K → K) (t : Tri K) : K := (t.normalArea nrm).2

/-- FemTriangle_Imp.hpp 83-96 `setTransientTerm`. -/
def triDdt (area dt : K) : Matrix (Fin 3) (Fin 3) K :=
  let m : Matrix (Fin 3) (Fin 3) K :=
    area • !![1 / 6, 1 / 12, 1 / 12; 1 / 12, 1 / 6, 1 / 12; 1 / 12, 1 / 12, 1 / 6]
  if 0 < dt then dt⁻¹ • m else m

/-- FemTriangle_Imp.hpp 98-103 `calculateB`, one degree of freedom. -/
def triB (c : Local3 K) : Matrix (Fin 2) (Fin 3) K :=
  !![-(c.y3 - c.y2), -(c.y1 - c.y3), -(c.y2 - c.y1); c.x3 - c.x2, c.x1 - c.x3, c.x2 - c.x1]

/-- FemTriangle_Imp.hpp 105-119 `setDiffusionTerm`. -/
def triLaplacian (nrm : Vec3 K → K) (thickness : K) (t : Tri K) : Matrix (Fin 3) (Fin 3) K :=
  let area := triArea nrm t
  let B := triB (triRebuild nrm t)
  let B := if 0 < area then (1 / (2 * area)) • B else B
  (area * thickness) • (-B.transpose * B)

/-- FemTriangle_Imp.hpp 153-166 `calculateB`, two degrees of freedom. -/
def triB2 (c : Local3 K) : Matrix (Fin 3) (Fin 6) K :=
  let x21 := c.x2 - c.x1
  let x32 := c.x3 - c.x2
  let x13 := c.x1 - c.x3
  let y21 := c.y2 - c.y1
  let y32 := c.y3 - c.y2
  let y13 := c.y1 - c.y3
  !![-y32, 0, -y13, 0, -y21, 0;
     0, x32, 0, x13, 0, x21;
     x32, -y32, x13, -y13, x21, -y21]

/-- FemConstantStrainTriangle_Imp.hpp 52-60: the plane stress matrix. -/
def triD (E v : K) : Matrix (Fin 3) (Fin 3) K :=
  (E / (1 - v * v)) • !![1, v, 0; v, 1, 0; 0, 0, (1 - v) * (1 / 2)]

/-- FemConstantStrainTriangle_Imp.hpp 38-64 `setDiffusionTerm`. -/
def triStiffness (nrm : Vec3 K → K) (E v thickness : K) (t : Tri K) : Matrix (Fin 6) (Fin 6) K :=
  let area := triArea nrm t
  let B := triB2 (triRebuild nrm t)
  let B := if 0 < area then (1 / (2 * area)) • B else B
  (area * thickness) • (B.transpose * triD E v * B)

/-- FemFlowTriangle_Imp.hpp 36-92 `setConvectiveTerm`; `m_dt` is `dt`. -/
def triConvection (nrm : Vec3 K → K) (dt : K) (u v : Fin 3 → K) (t : Tri K) : Matrix (Fin 3) (Fin 3) K :=
  let area := triArea nrm t
  let B := triB (triRebuild nrm t)
  let b := fun j => B 0 j
  let c := fun j => B 1 j
  let us := u 0 + u 1 + u 2
  let vs := v 0 + v 1 + v 2
  let C : Matrix (Fin 3) (Fin 3) K := (1 / 24 : K) • Matrix.of fun i j => (us + u i) * b j + (vs + v i) * c j
  let ua := us / 3
  let va := vs / 3
  let Ks1 : Matrix (Fin 3) (Fin 3) K := (ua * us / (12 * area)) • Matrix.of fun i j => b i * b j
  let Ks2 : Matrix (Fin 3) (Fin 3) K := (ua * vs / (12 * area)) • Matrix.of fun i j => b i * c j
  let Ks3 : Matrix (Fin 3) (Fin 3) K := (va * us / (12 * area)) • Matrix.of fun i j => c i * b j
  let Ks4 : Matrix (Fin 3) (Fin 3) K := (va * vs / (12 * area)) • Matrix.of fun i j => c i * c j
  C - dt • (Ks1 + Ks2 + Ks3 + Ks4)

/-- FemFlowTriangle_Imp.hpp 94-133 `setGradientTerm`; other components leave the matrix as it was (`old`). -/
def triGradient (nrm : Vec3 K → K) (component : Int) (old : Matrix (Fin 3) (Fin 3) K) (t : Tri K) : Matrix (Fin 3) (Fin 3) K :=
  let B := triB (triRebuild nrm t)
  if component = 0 then (1 / 6 : K) • Matrix.of fun _ j => B 0 j
  else if component = 1 then (1 / 6 : K) • Matrix.of fun _ j => B 1 j
  else old

/-! ### Tetrahedron -/

/-- FemTetrahedron_Imp.hpp 30-64 `rebuild` and 153-174 `calculateB` (the same formulas as 87-106 in `setDiffusionTerm`), one degree of
freedom. -/
def tetB (t : Tet K) : Matrix (Fin 3) (Fin 4) K :=
  let x14 := t.v0.x - t.v3.x
  let y14 := t.v0.y - t.v3.y
  let z14 := t.v0.z - t.v3.z
  let x24 := t.v1.x - t.v3.x
  let y24 := t.v1.y - t.v3.y
  let z24 := t.v1.z - t.v3.z
  let x34 := t.v2.x - t.v3.x
  let y34 := t.v2.y - t.v3.y
  let z34 := t.v2.z - t.v3.z
  let bi := y24 * z34 - y34 * z24
  let bj := y34 * z14 - y14 * z34
  let bk := y14 * z24 - y24 * z14
  let bl := -(bi + bj + bk)
  let ci := z24 * x34 - z34 * x24
  let cj := z34 * x14 - z14 * x34
  let ck := z14 * x24 - z24 * x14
  let cl := -(ci + cj + ck)
  let di := x24 * y34 - x34 * y24
  let dj := x34 * y14 - x14 * y34
  let dk := x14 * y24 - x24 * y14
  let dl := -(di + dj + dk)
  !![bi, bj, bk, bl; ci, cj, ck, cl; di, dj, dk, dl]

/-- FemTetrahedron_Imp.hpp 66-80 `setTransientTerm`. -/
def tetDdt (volume dt : K) : Matrix (Fin 4) (Fin 4) K :=
  let m : Matrix (Fin 4) (Fin 4) K := volume • !![1 / 10, 1 / 20, 1 / 20, 1 / 20; 1 / 20, 1 / 10, 1 / 20, 1 / 20;
    1 / 20, 1 / 20, 1 / 10, 1 / 20; 1 / 20, 1 / 20, 1 / 20, 1 / 10]
  if 0 < dt then dt⁻¹ • m else m

/-- FemTetrahedron_Imp.hpp 82-114 `setDiffusionTerm`; `m_volume` is the value of `calculateVolume()`. -/
def tetLaplacian (t : Tet K) : Matrix (Fin 4) (Fin 4) K :=
  let B := tetB t
  let B := if 0 < t.volume then (1 / (6 * t.volume)) • B else B
  t.volume • (-B.transpose * B)

/-- FemTetrahedron_Imp.hpp 176-221 `calculateB`, three degrees of freedom. -/
def tetB3 (t : Tet K) : Matrix (Fin 6) (Fin 12) K :=
  let x14 := t.v0.x - t.v3.x
  let y14 := t.v0.y - t.v3.y
  let z14 := t.v0.z - t.v3.z
  let x24 := t.v1.x - t.v3.x
  let y24 := t.v1.y - t.v3.y
  let z24 := t.v1.z - t.v3.z
  let x34 := t.v2.x - t.v3.x
  let y34 := t.v2.y - t.v3.y
  let z34 := t.v2.z - t.v3.z
  let w := 6 * t.volume
  let A11 := (y24 * z34 - y34 * z24) / w
  let A12 := (y34 * z14 - y14 * z34) / w
  let A13 := (y14 * z24 - y24 * z14) / w
  let A21 := (z24 * x34 - z34 * x24) / w
  let A22 := (z34 * x14 - z14 * x34) / w
  let A23 := (z14 * x24 - z24 * x14) / w
  let A31 := (x24 * y34 - x34 * y24) / w
  let A32 := (x34 * y14 - x14 * y34) / w
  let A33 := (x14 * y24 - x24 * y14) / w
  let A1t := A11 + A12 + A13
  let A2t := A21 + A22 + A23
  let A3t := A31 + A32 + A33
  !![A11, 0, 0, A12, 0, 0, A13, 0, 0, -A1t, 0, 0;
     0, A21, 0, 0, A22, 0, 0, A23, 0, 0, -A2t, 0;
     0, 0, A31, 0, 0, A32, 0, 0, A33, 0, 0, -A3t;
     0, A31, A21, 0, A32, A22, 0, A33, A23, 0, -A3t, -A2t;
     A31, 0, A11, A32, 0, A12, A33, 0, A13, -A3t, 0, -A1t;
     A21, A11, 0, A22, A12, 0, A23, A13, 0, -A2t, -A1t, 0]

/-- FemConstantStrainTetrahedron_Imp.hpp 46-59: the elasticity matrix, as written. -/
def tetD (E v : K) : Matrix (Fin 6) (Fin 6) K :=
  (E / ((1 + v) * (1 - 2 * v))) • !![1 - v, v, 0, 0, 0, 0;
    v, 1 - v, v, 0, 0, 0;
    v, v, 1 - v, 0, 0, 0;
    0, 0, 0, 1 / 2 - v, 0, 0;
    0, 0, 0, 0, 1 / 2 - v, 0;
    0, 0, 0, 0, 0, 1 / 2 - v]

/-- FemConstantStrainTetrahedron_Imp.hpp 36-63 `setDiffusionTerm`. -/
def tetStiffness (E v : K) (t : Tet K) : Matrix (Fin 12) (Fin 12) K :=
  t.volume • ((tetB3 t).transpose * tetD E v * tetB3 t)

/-- FemFlowTetrahedron_Imp.hpp 36-141 `setConvectiveTerm`. The entry of row 3, column 2 is written with `u[2]` in its first factor (line
67), as here. -/
def tetConvection (dt : K) (u v w : Fin 4 → K) (t : Tet K) : Matrix (Fin 4) (Fin 4) K :=
  let B := tetB t
  let b := fun j => B 0 j
  let c := fun j => B 1 j
  let d := fun j => B 2 j
  let us := u 0 + u 1 + u 2 + u 3
  let vs := v 0 + v 1 + v 2 + v 3
  let ws := w 0 + w 1 + w 2 + w 3
  let C : Matrix (Fin 4) (Fin 4) K := (1 / 120 : K) • Matrix.of fun i j =>
    if i = 3 ∧ j = 2 then (us + u 2) * b 2 + (vs + v 3) * c 2 + (ws + w 3) * d 2
    else (us + u i) * b j + (vs + v i) * c j + (ws + w i) * d j
  let ua := us / 4
  let va := vs / 4
  let wa := ws / 4
  let outer := fun (k : K) (f g : Fin 4 → K) => (k / (144 * t.volume)) • (Matrix.of fun i j => f i * g j : Matrix (Fin 4) (Fin 4) K)
  C - dt • (outer (ua * us) b b + outer (ua * vs) b c + outer (ua * ws) b d + outer (va * us) c b + outer (va * vs) c c
    + outer (va * ws) c d + outer (wa * us) d b + outer (wa * vs) d c + outer (wa * ws) d d)

/-- FemFlowTetrahedron_Imp.hpp 143-204 `setGradientTerm`. -/
def tetGradient (component : Int) (old : Matrix (Fin 4) (Fin 4) K) (t : Tet K) : Matrix (Fin 4) (Fin 4) K :=
  let B := tetB t
  if component = 0 then (1 / 24 : K) • Matrix.of fun _ j => B 0 j
  else if component = 1 then (1 / 24 : K) • Matrix.of fun _ j => B 1 j
  else if component = 2 then (1 / 24 : K) • Matrix.of fun _ j => B 2 j
  else old

end Fem
end ENigMA
