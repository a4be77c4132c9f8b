import Verif.Fem.Elements
import Mathlib.LinearAlgebra.Matrix.Adjugate

/-!
# Isoparametric finite elements

Models `trunk/src/fem/FemQuadrilateral_Imp.hpp`, `FemTriangularPrism_Imp.hpp`, `FemHexahedron_Imp.hpp` and the integration points
they use (`trunk/src/integration/IntQuadrilateral_Imp.hpp`, `IntTriangularPrism_Imp.hpp`, `IntHexahedron_Imp.hpp`, the cases selected by the
constructors).

The three classes run the same loop over the points; it is written once here (`isoLaplacian`, `isoMass`) and instantiated with the
shape values `N`, the matrix `G` and the weights of each class. In the C++ text every entry of `J` is written out; term by term it is the
product of `G` with the coordinates of the vertices, which is how it is written here.
-/

set_option linter.unusedSectionVars false

namespace ENigMA
namespace Fem
open Matrix

variable {K : Type} [Field K] [LinearOrder K] [IsStrictOrderedRing K]

/-- One integration point of an element with `n` nodes in dimension `d`: the product of the weights, the values `N[i]`, and `G`. -/
structure GaussPoint (K : Type) (d n : Nat) where
  w : K
  N : Fin n → K
  G : Matrix (Fin d) (Fin n) K

variable {d n : Nat}

/-- `J` at a point, for the vertex coordinates `X`. -/
def GaussPoint.J (p : GaussPoint K d n) (X : Matrix (Fin n) (Fin d) K) : Matrix (Fin d) (Fin d) K := p.G * X

/-- `B = J.inverse() * G`. Eigen's inverse of a small matrix is the adjugate divided by the determinant. -/
def GaussPoint.B (p : GaussPoint K d n) (X : Matrix (Fin n) (Fin d) K) : Matrix (Fin d) (Fin n) K :=
  ((p.J X).det⁻¹ • (p.J X).adjugate) * p.G

/-- The loop of `setDiffusionTerm`, FemQuadrilateral_Imp.hpp 161-197, FemTriangularPrism_Imp.hpp 135-177,
FemHexahedron_Imp.hpp 155-200. `none` when the code divides by a zero determinant. The order of the additions is not kept. -/
def isoLaplacian : List (GaussPoint K d n) → Matrix (Fin n) (Fin d) K → Option (Matrix (Fin n) (Fin n) K)
  | [], _ => some 0
  | p :: l, X =>
    if (p.J X).det = 0 then none
    else (isoLaplacian l X).map fun r => (p.w * |(p.J X).det|) • (-(p.B X)ᵀ * p.B X) + r

/-- The loop of `setTransientTerm`, FemQuadrilateral_Imp.hpp 103-143, FemTriangularPrism_Imp.hpp 75-119, FemHexahedron_Imp.hpp 83-138. -/
def isoMass : List (GaussPoint K d n) → Matrix (Fin n) (Fin d) K → Matrix (Fin n) (Fin n) K
  | [], _ => 0
  | p :: l, X => (p.w * |(p.J X).det|) • (Matrix.of fun i j => p.N i * p.N j : Matrix (Fin n) (Fin n) K) + isoMass l X

/-- The division by the time step at the end of the three `setTransientTerm`. -/
def overDt (dt : K) (m : Matrix (Fin n) (Fin n) K) : Matrix (Fin n) (Fin n) K := if 0 < dt then dt⁻¹ • m else m

/-! ### Quadrilateral -/

/-- FemQuadrilateral_Imp.hpp 103-136, 161-189: the values at a point. The first row of `G` is written with `xi` and the second with
`eta`, as here. -/
def quadPoint (xi eta w : K) : GaussPoint K 2 4 :=
  ⟨w, ![1 / 4 * (1 - xi) * (1 - eta), 1 / 4 * (1 + xi) * (1 - eta), 1 / 4 * (1 + xi) * (1 + eta), 1 / 4 * (1 - xi) * (1 + eta)],
    (1 / 4 : K) • !![-(1 - xi), 1 - xi, 1 + xi, -(1 + xi); -(1 - eta), -(1 + eta), 1 + eta, 1 - eta]⟩

/-- The decimal `0.5773502692`. -/
def gp : K := 5773502692 / 10000000000

/-- IntQuadrilateral_Imp.hpp 46-64: the four points (the constructor of CFemQuadrilateral sets `m_integPoints = 4`). -/
def quadPoints : List (GaussPoint K 2 4) :=
  [quadPoint (-gp) (-gp) (1 * 1), quadPoint gp (-gp) (1 * 1), quadPoint (-gp) gp (1 * 1), quadPoint gp gp (1 * 1)]

/-- FemQuadrilateral_Imp.hpp 34-90 `rebuild`: the local coordinates. -/
def quadRebuild (nrm : Vec3 K → K) (q : Quad K) : Matrix (Fin 4) (Fin 2) K :=
  let l := localXY nrm q.v0 q.v1 q.v2
  !![(l q.v0).1, (l q.v0).2; (l q.v1).1, (l q.v1).2; (l q.v2).1, (l q.v2).2; (l q.v3).1, (l q.v3).2]

/-- FemQuadrilateral_Imp.hpp 151-200 `setDiffusionTerm`. -/
def quadLaplacian (nrm : Vec3 K → K) (thickness : K) (q : Quad K) : Option (Matrix (Fin 4) (Fin 4) K) :=
  (isoLaplacian quadPoints (quadRebuild nrm q)).map fun m => thickness • m

/-- FemQuadrilateral_Imp.hpp 92-149 `setTransientTerm`. -/
def quadDdt (nrm : Vec3 K → K) (thickness dt : K) (q : Quad K) : Matrix (Fin 4) (Fin 4) K :=
  overDt dt (thickness • isoMass quadPoints (quadRebuild nrm q))

/-! ### Triangular prism -/

/-- FemTriangularPrism_Imp.hpp 75-107, 135-168: the values at a point. -/
def prismPoint (xi eta zeta w : K) : GaussPoint K 3 6 :=
  let xieta := -xi - eta + 1
  let zetam := 1 - zeta
  let zetap := 1 + zeta
  ⟨w, ![1 / 2 * (1 - xi - eta) * (1 - zeta), 1 / 2 * xi * (1 - zeta), 1 / 2 * eta * (1 - zeta), 1 / 2 * (1 - xi - eta) * (1 + zeta),
      1 / 2 * xi * (1 + zeta), 1 / 2 * eta * (1 + zeta)],
    (1 / 2 : K) • !![-zetam, zetam, 0, -zetap, zetap, 0; -zetam, 0, zetam, -zetap, 0, zetap; -xieta, -xi, -eta, xieta, xi, eta]⟩

/-- IntTriangularPrism_Imp.hpp 51-90: the six points (the constructor of CFemTriangularPrism sets `m_integPoints = 6`). `r` is
`1.0 / sqrt(3.0)`. -/
def prismPoints (r : K) : List (GaussPoint K 3 6) :=
  let w := 1 / 2 * (1 / 2) * (1 / 2)
  [prismPoint (1 / 6) (1 / 6) (-r) w, prismPoint (1 / 3) (1 / 6) (-r) w, prismPoint (1 / 6) (1 / 3) (-r) w,
    prismPoint (1 / 6) (1 / 6) r w, prismPoint (1 / 3) (1 / 6) r w, prismPoint (1 / 6) (1 / 3) r w]

/-- FemTriangularPrism_Imp.hpp 32-62 `rebuild`. -/
def prismX (p : Prism K) : Matrix (Fin 6) (Fin 3) K :=
  !![p.v0.x, p.v0.y, p.v0.z; p.v1.x, p.v1.y, p.v1.z; p.v2.x, p.v2.y, p.v2.z;
     p.v3.x, p.v3.y, p.v3.z; p.v4.x, p.v4.y, p.v4.z; p.v5.x, p.v5.y, p.v5.z]

/-- FemTriangularPrism_Imp.hpp 125-178 `setDiffusionTerm`. -/
def prismLaplacian (r : K) (p : Prism K) : Option (Matrix (Fin 6) (Fin 6) K) := isoLaplacian (prismPoints r) (prismX p)

/-- FemTriangularPrism_Imp.hpp 64-123 `setTransientTerm`. -/
def prismDdt (r dt : K) (p : Prism K) : Matrix (Fin 6) (Fin 6) K := overDt dt (isoMass (prismPoints r) (prismX p))

/-! ### Hexahedron -/

/-- FemHexahedron_Imp.hpp 83-124, 155-194: the values at a point. Node 2 is given the corner `(-1, 1, -1)` and node 3 the corner
`(1, 1, -1)`, as here. -/
def hexPoint (xi eta zeta w : K) : GaussPoint K 3 8 :=
  let xim := 1 - xi
  let xip := 1 + xi
  let etam := 1 - eta
  let etap := 1 + eta
  let zetam := 1 - zeta
  let zetap := 1 + zeta
  ⟨w, ![1 / 8 * xim * etam * zetam, 1 / 8 * xip * etam * zetam, 1 / 8 * xim * etap * zetam, 1 / 8 * xip * etap * zetam,
      1 / 8 * xim * etam * zetap, 1 / 8 * xip * etam * zetap, 1 / 8 * xim * etap * zetap, 1 / 8 * xip * etap * zetap],
    (1 / 8 : K) • !![-etam * zetam, etam * zetam, -etap * zetam, etap * zetam, -etam * zetap, etam * zetap, -etap * zetap, etap * zetap;
      -xim * zetam, -xip * zetam, xim * zetam, xip * zetam, -xim * zetap, -xip * zetap, xim * zetap, xip * zetap;
      -etam * xim, -etam * xip, -etap * xim, -etap * xip, etam * xim, etam * xip, etap * xim, etap * xip]⟩

/-- IntHexahedron_Imp.hpp 54-105: the eight points (the constructor of CFemHexahedron sets `m_integPoints = 8`). -/
def hexPoints : List (GaussPoint K 3 8) :=
  [hexPoint (-gp) (-gp) (-gp) (1 * 1 * 1), hexPoint gp (-gp) (-gp) (1 * 1 * 1), hexPoint (-gp) gp (-gp) (1 * 1 * 1), hexPoint gp gp (-gp) (1 * 1 * 1),
    hexPoint (-gp) (-gp) gp (1 * 1 * 1), hexPoint gp (-gp) gp (1 * 1 * 1), hexPoint (-gp) gp gp (1 * 1 * 1), hexPoint gp gp gp (1 * 1 * 1)]

/-- FemHexahedron_Imp.hpp 32-70 `rebuild`. -/
def hexX (h : Hex K) : Matrix (Fin 8) (Fin 3) K :=
  !![h.v0.x, h.v0.y, h.v0.z; h.v1.x, h.v1.y, h.v1.z; h.v2.x, h.v2.y, h.v2.z; h.v3.x, h.v3.y, h.v3.z;
     h.v4.x, h.v4.y, h.v4.z; h.v5.x, h.v5.y, h.v5.z; h.v6.x, h.v6.y, h.v6.z; h.v7.x, h.v7.y, h.v7.z]

/-- FemHexahedron_Imp.hpp 144-202 `setDiffusionTerm`. -/
def hexLaplacian (h : Hex K) : Option (Matrix (Fin 8) (Fin 8) K) := isoLaplacian hexPoints (hexX h)

/-- FemHexahedron_Imp.hpp 72-142 `setTransientTerm`. -/
def hexDdt (dt : K) (h : Hex K) : Matrix (Fin 8) (Fin 8) K := overDt dt (isoMass hexPoints (hexX h))

end Fem
end ENigMA
