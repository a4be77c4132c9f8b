import Verif.Base.Vec3

/-!
# `CGeoBoundingBox`: trunk/src/geometry/GeoBoundingBox.hpp, GeoBoundingBox_Imp.hpp

The private member `m_center` is never read by any method, so it is not modelled.
-/

namespace ENigMA

/-- `m_min`, `m_max` of `CGeoBoundingBox`. -/
@[ext] structure BBox (K : Type*) where
  min : Vec3 K
  max : Vec3 K
  deriving DecidableEq

namespace BBox
variable {K : Type*} [Field K] [LinearOrder K]

/-- `reset()`: GeoBoundingBox_Imp.hpp:42-54. `big` stands for `std::numeric_limits<Real>::max()`. -/
def reset (big : K) : BBox K := ⟨⟨big, big, big⟩, ⟨-big, -big, -big⟩⟩

/-- `addCoordinate`: GeoBoundingBox_Imp.hpp:56-69. -/
def addCoordinate (b : BBox K) (p : Vec3 K) : BBox K :=
  ⟨⟨Min.min b.min.x p.x, Min.min b.min.y p.y, Min.min b.min.z p.z⟩,
   ⟨Max.max b.max.x p.x, Max.max b.max.y p.y, Max.max b.max.z p.z⟩⟩

/-- The usual way of building a box: reset, then add the points one by one. -/
def ofPoints (big : K) (ps : List (Vec3 K)) : BBox K := ps.foldl addCoordinate (reset big)

/-- `intersects`: GeoBoundingBox_Imp.hpp:83-89. `b` is `*this`, `c` the argument. -/
def intersects (b c : BBox K) (tol : K) : Bool :=
  decide (c.max.x ≥ b.min.x - tol) && decide (c.min.x ≤ b.max.x + tol) &&
  decide (c.max.y ≥ b.min.y - tol) && decide (c.min.y ≤ b.max.y + tol) &&
  decide (c.max.z ≥ b.min.z - tol) && decide (c.min.z ≤ b.max.z + tol)

/-- `contains(coordinate)`: GeoBoundingBox_Imp.hpp:91-95. -/
def containsPt (b : BBox K) (p : Vec3 K) (tol : K) : Bool :=
  decide (p.x ≥ b.min.x - tol) && decide (p.x ≤ b.max.x + tol) &&
  decide (p.y ≥ b.min.y - tol) && decide (p.y ≤ b.max.y + tol) &&
  decide (p.z ≥ b.min.z - tol) && decide (p.z ≤ b.max.z + tol)

/-- `contains(box)`: GeoBoundingBox_Imp.hpp:97-101. -/
def containsBox (b c : BBox K) (tol : K) : Bool :=
  decide (b.min.x - tol ≤ c.min.x) && decide (b.max.x + tol ≥ c.max.x) &&
  decide (b.min.y - tol ≤ c.min.y) && decide (b.max.y + tol ≥ c.max.y) &&
  decide (b.min.z - tol ≤ c.min.z) && decide (b.max.z + tol ≥ c.max.z)

/-- `grow(amount)`: GeoBoundingBox_Imp.hpp:103-108. -/
def grow (b : BBox K) (a : K) : BBox K :=
  ⟨⟨b.min.x - a, b.min.y - a, b.min.z - a⟩, ⟨b.max.x + a, b.max.y + a, b.max.z + a⟩⟩

/-- `grow(x, y, z)`: GeoBoundingBox_Imp.hpp:110-121. -/
def grow3 (b : BBox K) (ax ay az : K) : BBox K :=
  ⟨⟨b.min.x - ax, b.min.y - ay, b.min.z - az⟩, ⟨b.max.x + ax, b.max.y + ay, b.max.z + az⟩⟩

/-- `shrink(amount)`: GeoBoundingBox_Imp.hpp:123-128. -/
def shrink (b : BBox K) (a : K) : BBox K :=
  ⟨⟨b.min.x + a, b.min.y + a, b.min.z + a⟩, ⟨b.max.x - a, b.max.y - a, b.max.z - a⟩⟩

end BBox

/-! ### Specification -/

/-- `p` lies in the closed axis-parallel box with corners `lo`, `hi`. -/
def InBox {K : Type*} [LE K] (lo hi p : Vec3 K) : Prop :=
  (lo.x ≤ p.x ∧ p.x ≤ hi.x) ∧ (lo.y ≤ p.y ∧ p.y ≤ hi.y) ∧ (lo.z ≤ p.z ∧ p.z ≤ hi.z)

/-- The box has at least one point. -/
def BBox.NonEmpty {K : Type*} [LE K] (b : BBox K) : Prop :=
  b.min.x ≤ b.max.x ∧ b.min.y ≤ b.max.y ∧ b.min.z ≤ b.max.z

/-- All coordinates are finite machine numbers. -/
def Vec3.Bounded {K : Type*} [LE K] [Neg K] (big : K) (p : Vec3 K) : Prop :=
  (-big ≤ p.x ∧ p.x ≤ big) ∧ (-big ≤ p.y ∧ p.y ≤ big) ∧ (-big ≤ p.z ∧ p.z ≤ big)

end ENigMA
