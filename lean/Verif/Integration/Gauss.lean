import Verif.Base.Vec3
import Mathlib.Algebra.Order.Ring.Rat
import Mathlib.Data.Rat.Cast.Defs

/-!
# The Gauss rules: trunk/src/integration

Each `setGaussPoints()` fills vectors of coordinates and of weights for the number of points `m_integPoints`. A rule is the list of its points, each with
its weight, in the order of the vectors. The weight of a point is the product of the weights of the directions, the way every user of the rules
multiplies them (for example FemQuadrilateral_Imp.hpp, FemHexahedron_Imp.hpp, FemTriangularPrism_Imp.hpp). Decimal literals are the rationals they
denote. `resize` fills new entries with zero, so a number of points without a `case` gives points and weights zero.
-/

namespace ENigMA
namespace Gauss

/-- A decimal literal: `m` over ten to the `k`. -/
def dec (m : Int) (k : Nat) : ℚ := m / 10 ^ k

/-- `CIntBeam::setGaussPoints()`: IntBeam_Imp.hpp lines 26-88. In `case 3` the weight of the first point is assigned twice and that of the third never. -/
def beam : Nat → List (ℚ × ℚ)
  | 1 => [(0, 2)]
  | 2 => [(dec (-5773502692) 10, 1), (dec 5773502692 10, 1)]
  | 3 => [(0, dec 5555555555 10), (dec (-7745966692) 10, dec 5555555555 10), (dec 7745966692 10, 0)]
  | 4 => [(dec (-3399810436) 10, dec 6521451549 10), (dec 3399810436 10, dec 6521451549 10), (dec (-8611363116) 10, dec 3478548451 10), (dec 8611363116 10, dec 3478548451 10)]
  | 6 => [(dec (-6612093865) 10, dec 3607615731 10), (dec 6612093865 10, dec 3607615731 10), (dec (-2386191861) 10, dec 4679139346 10), (dec 2386191861 10, dec 4679139346 10), (dec (-9324695142) 10, dec 1713244924 10), (dec 9324695142 10, dec 1713244924 10)]
  | n => List.replicate n (0, 0)

/-- `CIntQuadrilateral::setGaussPoints()`: IntQuadrilateral_Imp.hpp lines 26-103: `xi`, `eta`, weight. -/
def quadrilateral : Nat → List (ℚ × ℚ × ℚ)
  | 1 => [
      (0, 0, 2 * 2)]
  | 4 => [
      (dec (-5773502692) 10, dec (-5773502692) 10, 1 * 1),
      (dec 5773502692 10, dec (-5773502692) 10, 1 * 1),
      (dec (-5773502692) 10, dec 5773502692 10, 1 * 1),
      (dec 5773502692 10, dec 5773502692 10, 1 * 1)]
  | 8 => [
      (dec (-7745966692) 10, dec (-7745966692) 10, (dec 5555555556 10) * (dec 5555555556 10)),
      (dec 7745966692 10, dec (-7745966692) 10, (dec 5555555556 10) * (dec 5555555556 10)),
      (dec (-7745966692) 10, dec 7745966692 10, (dec 5555555556 10) * (dec 5555555556 10)),
      (dec 7745966692 10, dec 7745966692 10, (dec 5555555556 10) * (dec 5555555556 10)),
      (dec (-7745966692) 10, 0, (dec 5555555556 10) * (dec 8888888889 10)),
      (dec 7745966692 10, 0, (dec 5555555556 10) * (dec 8888888889 10)),
      (0, dec (-7745966692) 10, (dec 8888888889 10) * (dec 5555555556 10)),
      (0, dec (-7745966692) 10, (dec 8888888889 10) * (dec 5555555556 10))]
  | n => List.replicate n (0, 0, 0)

/-- `CIntHexahedron::setGaussPoints()`: IntHexahedron_Imp.hpp lines 26-268: `xi`, `eta`, `zeta`, weight. -/
def hexahedron : Nat → List (ℚ × ℚ × ℚ × ℚ)
  | 1 => [
      (0, 0, 0, 2 * 2 * 2)]
  | 8 => [
      (dec (-5773502692) 10, dec (-5773502692) 10, dec (-5773502692) 10, 1 * 1 * 1),
      (dec 5773502692 10, dec (-5773502692) 10, dec (-5773502692) 10, 1 * 1 * 1),
      (dec (-5773502692) 10, dec 5773502692 10, dec (-5773502692) 10, 1 * 1 * 1),
      (dec 5773502692 10, dec 5773502692 10, dec (-5773502692) 10, 1 * 1 * 1),
      (dec (-5773502692) 10, dec (-5773502692) 10, dec 5773502692 10, 1 * 1 * 1),
      (dec 5773502692 10, dec (-5773502692) 10, dec 5773502692 10, 1 * 1 * 1),
      (dec (-5773502692) 10, dec 5773502692 10, dec 5773502692 10, 1 * 1 * 1),
      (dec 5773502692 10, dec 5773502692 10, dec 5773502692 10, 1 * 1 * 1)]
  | 27 => [
      (dec (-7745966692) 10, dec (-7745966692) 10, dec (-7745966692) 10, (dec 5555555556 10) * (dec 5555555556 10) * (dec 5555555556 10)),
      (dec 7745966692 10, dec (-7745966692) 10, dec (-7745966692) 10, (dec 5555555556 10) * (dec 5555555556 10) * (dec 5555555556 10)),
      (dec (-7745966692) 10, dec 7745966692 10, dec (-7745966692) 10, (dec 5555555556 10) * (dec 5555555556 10) * (dec 5555555556 10)),
      (dec 7745966692 10, dec 7745966692 10, dec (-7745966692) 10, (dec 5555555556 10) * (dec 5555555556 10) * (dec 5555555556 10)),
      (dec (-7745966692) 10, 0, dec (-7745966692) 10, (dec 5555555556 10) * (dec 8888888889 10) * (dec 5555555556 10)),
      (dec 7745966692 10, 0, dec (-7745966692) 10, (dec 5555555556 10) * (dec 8888888889 10) * (dec 5555555556 10)),
      (0, dec (-7745966692) 10, dec (-7745966692) 10, (dec 8888888889 10) * (dec 5555555556 10) * (dec 5555555556 10)),
      (0, dec (-7745966692) 10, dec (-7745966692) 10, (dec 8888888889 10) * (dec 5555555556 10) * (dec 5555555556 10)),
      (0, 0, dec (-7745966692) 10, (dec 8888888889 10) * (dec 8888888889 10) * (dec 5555555556 10)),
      (dec (-7745966692) 10, dec (-7745966692) 10, dec 7745966692 10, (dec 5555555556 10) * (dec 5555555556 10) * (dec 5555555556 10)),
      (dec 7745966692 10, dec (-7745966692) 10, dec 7745966692 10, (dec 5555555556 10) * (dec 5555555556 10) * (dec 5555555556 10)),
      (dec (-7745966692) 10, dec 7745966692 10, dec 7745966692 10, (dec 5555555556 10) * (dec 5555555556 10) * (dec 5555555556 10)),
      (dec 7745966692 10, dec 7745966692 10, dec 7745966692 10, (dec 5555555556 10) * (dec 5555555556 10) * (dec 5555555556 10)),
      (dec (-7745966692) 10, 0, dec 7745966692 10, (dec 5555555556 10) * (dec 8888888889 10) * (dec 5555555556 10)),
      (dec 7745966692 10, 0, dec 7745966692 10, (dec 5555555556 10) * (dec 8888888889 10) * (dec 5555555556 10)),
      (0, dec (-7745966692) 10, dec 7745966692 10, (dec 8888888889 10) * (dec 5555555556 10) * (dec 5555555556 10)),
      (0, dec (-7745966692) 10, dec 7745966692 10, (dec 8888888889 10) * (dec 5555555556 10) * (dec 5555555556 10)),
      (0, 0, dec 7745966692 10, (dec 8888888889 10) * (dec 8888888889 10) * (dec 5555555556 10)),
      (dec (-7745966692) 10, dec (-7745966692) 10, 0, (dec 5555555556 10) * (dec 5555555556 10) * (dec 8888888889 10)),
      (dec 7745966692 10, dec (-7745966692) 10, 0, (dec 5555555556 10) * (dec 5555555556 10) * (dec 8888888889 10)),
      (dec (-7745966692) 10, dec 7745966692 10, 0, (dec 5555555556 10) * (dec 5555555556 10) * (dec 8888888889 10)),
      (dec 7745966692 10, dec 7745966692 10, 0, (dec 5555555556 10) * (dec 5555555556 10) * (dec 8888888889 10)),
      (dec (-7745966692) 10, 0, 0, (dec 5555555556 10) * (dec 8888888889 10) * (dec 8888888889 10)),
      (dec 7745966692 10, 0, 0, (dec 5555555556 10) * (dec 8888888889 10) * (dec 8888888889 10)),
      (0, dec (-7745966692) 10, 0, (dec 8888888889 10) * (dec 5555555556 10) * (dec 8888888889 10)),
      (0, dec (-7745966692) 10, 0, (dec 8888888889 10) * (dec 5555555556 10) * (dec 8888888889 10)),
      (0, 0, 0, (dec 8888888889 10) * (dec 8888888889 10) * (dec 8888888889 10))]
  | n => List.replicate n (0, 0, 0, 0)

/-- The arrays of `case 1` of `setBarycentricGaussPoints()`. -/
def triangle1 : List (ℚ × ℚ × ℚ × ℚ) := [
  (dec 333333333333333 15, dec 333333333333333 15, dec 333333333333333 15, 1)]

/-- The arrays of `case 3` of `setBarycentricGaussPoints()`. -/
def triangle3 : List (ℚ × ℚ × ℚ × ℚ) := [
  (dec 5 1, 0, dec 5 1, 1),
  (0, dec 5 1, dec 5 1, 1),
  (dec 5 1, dec 5 1, 0, 1)]

/-- The arrays of `case 6` of `setBarycentricGaussPoints()`. -/
def triangle6 : List (ℚ × ℚ × ℚ × ℚ) := [
  (dec 9157621350977 14, dec 91576213509771 15, dec 816847572980459 15, dec 54975871827661 15),
  (dec 915762135097701 16, dec 816847572980459 15, dec 91576213509771 15, dec 54975871827661 15),
  (dec 816847572980458 15, dec 91576213509771 15, dec 91576213509771 15, dec 54975871827661 15),
  (dec 445948490915965 15, dec 445948490915965 15, dec 10810301816807 14, dec 111690794839 12),
  (dec 445948490915965 15, dec 10810301816807 14, dec 445948490915965 15, dec 111690794839 12),
  (dec 10810301816807 14, dec 445948490915965 15, dec 445948490915965 15, dec 111690794839 12)]

/-- The arrays of `case 7` of `setBarycentricGaussPoints()`. -/
def triangle7 : List (ℚ × ℚ × ℚ × ℚ) := [
  (dec 333333333333333 15, dec 333333333333333 15, dec 333333333333333 15, dec 11251500015 11),
  (dec 101286507323457 15, dec 101286507323456 15, dec 797426985353087 15, dec 629695902724135 16),
  (dec 101286507323457 15, dec 797426985353087 15, dec 101286507323456 15, dec 629695902724135 16),
  (dec 797426985353088 15, dec 101286507323456 15, dec 101286507323456 15, dec 629695902724135 16),
  (dec 470142064105115 15, dec 5971587178977 14, dec 470142064105115 15, dec 66197076394253 15),
  (dec 470142064105115 15, dec 470142064105115 15, dec 5971587178977 14, dec 66197076394253 15),
  (dec 597158717897699 16, dec 470142064105115 15, dec 470142064105115 15, dec 66197076394253 15)]

/-- The arrays of `case 12` of `setBarycentricGaussPoints()`. -/
def triangle12 : List (ℚ × ℚ × ℚ × ℚ) := [
  (dec 63089014491502 15, dec 63089014491502 15, dec 873821971016996 15, dec 254224531851035 16),
  (dec 630890144915021 16, dec 873821971016996 15, dec 63089014491502 15, dec 254224531851035 16),
  (dec 873821971016996 15, dec 63089014491502 15, dec 63089014491502 15, dec 254224531851035 16),
  (dec 249286745170911 15, dec 24928674517091 14, dec 501426509658179 15, dec 583931378631895 16),
  (dec 249286745170911 15, dec 501426509658179 15, dec 24928674517091 14, dec 583931378631895 16),
  (dec 50142650965818 14, dec 24928674517091 14, dec 24928674517091 14, dec 583931378631895 16),
  (dec 53145049844816 15, dec 310352451033785 15, dec 636502499121399 15, dec 41425537809187 15),
  (dec 531450498448161 16, dec 636502499121399 15, dec 310352451033785 15, dec 41425537809187 15),
  (dec 310352451033785 15, dec 53145049844816 15, dec 636502499121399 15, dec 41425537809187 15),
  (dec 636502499121399 15, dec 53145049844816 15, dec 310352451033785 15, dec 41425537809187 15),
  (dec 636502499121399 15, dec 310352451033785 15, dec 53145049844816 15, dec 41425537809187 15),
  (dec 310352451033785 15, dec 636502499121399 15, dec 53145049844816 15, dec 41425537809187 15)]

/-- The arrays of `case 16` of `setBarycentricGaussPoints()`. -/
def triangle16 : List (ℚ × ℚ × ℚ × ℚ) := [
  (dec 333333333333333 15, dec 333333333333333 15, dec 333333333333333 15, dec 721578038388935 16),
  (dec 459292588292723 15, dec 459292588292723 15, dec 81414823414554 15, dec 475458171336425 16),
  (dec 459292588292723 15, dec 81414823414554 15, dec 459292588292723 15, dec 475458171336425 16),
  (dec 81414823414554 15, dec 459292588292723 15, dec 459292588292723 15, dec 475458171336425 16),
  (dec 17056930775176 14, dec 17056930775176 14, dec 65886138449648 14, dec 51608685267359 15),
  (dec 17056930775176 14, dec 65886138449648 14, dec 17056930775176 14, dec 51608685267359 15),
  (dec 65886138449648 14, dec 17056930775176 14, dec 17056930775176 14, dec 51608685267359 15),
  (dec 50547228317031 15, dec 50547228317031 15, dec 898905543365938 15, dec 16229248811599 15),
  (dec 505472283170311 16, dec 898905543365938 15, dec 50547228317031 15, dec 16229248811599 15),
  (dec 898905543365938 15, dec 50547228317031 15, dec 50547228317031 15, dec 16229248811599 15),
  (dec 263112829634638 15, dec 728492392955404 15, dec 8394777409958 15, dec 136151570872175 16),
  (dec 263112829634638 15, dec 8394777409958 15, dec 728492392955404 15, dec 136151570872175 16),
  (dec 728492392955404 15, dec 8394777409958 15, dec 263112829634638 15, dec 136151570872175 16),
  (dec 728492392955404 15, dec 263112829634638 15, dec 8394777409958 15, dec 136151570872175 16),
  (dec 839477740995798 17, dec 728492392955404 15, dec 263112829634638 15, dec 136151570872175 16),
  (dec 839477740995798 17, dec 263112829634638 15, dec 728492392955404 15, dec 136151570872175 16)]

/-- The arrays of `case 17` of `setBarycentricGaussPoints()`. -/
def triangle17 : List (ℚ × ℚ × ℚ × ℚ) := [
  (dec 259016914636572 15, dec 511740721100636 15, dec 229242364262792 15, dec 595659566285715 16),
  (dec 191577434497285 15, dec 758910363747916 15, dec 495122017547988 16, dec 281339023000646 16),
  (dec 481440411116636 15, dec 152964748176719 15, dec 365594840706645 15, dec 350073547709683 16),
  (dec 53205094869033 14, dec 315139873507434 16, dec 436435063958927 15, dec 243807745039326 16),
  (dec 789180748710157 15, dec 511786839328832 16, dec 15964056735696 14, dec 284337444805101 16),
  (dec 467041168284076 16, dec 196451682410697 16, dec 933650714930523 15, dec 782285663421878 17),
  (dec 243294047349708 15, dec 234749045972567 15, dec 521956906677725 15, dec 517911134100478 16),
  (dec 239834898348413 15, dec 490868257718777 16, dec 71107827587971 14, dec 313422953909681 16),
  (dec 329253420983258 16, dec 438223753732188 15, dec 528850904169486 15, dec 245495158492514 16),
  (dec 953028216453241 15, dec 33002106770334 15, dec 139696767764251 16, dec 537138255764711 17),
  (dec 749069919469304 15, dec 208875861463606 15, dec 4205421906709 14, dec 257156551476807 16),
  (dec 325934837676662 16, dec 92089292466547 14, dec 465135915668635 16, dec 104593334080251 16),
  (dec 5281277696068 13, dec 27427409546748 14, dec 19759813492572 14, dec 493778084121232 16),
  (dec 508572946885014 16, dec 165458517909747 15, dec 783684187401751 15, dec 282477236231758 16),
  (dec 464670742502622 15, dec 493001169983355 15, dec 423280875140226 16, dec 321888168401566 16),
  (dec 136209761693663 15, dec 408080496784694 15, dec 455709741521642 15, dec 252208924769323 16),
  (dec 513193590322896 16, dec 712787216274182 15, dec 235893424693528 15, dec 32390873565726 15)]

/-- The arrays of `case 20` of `setBarycentricGaussPoints()`. -/
def triangle20 : List (ℚ × ℚ × ℚ × ℚ) := [
  (dec 496963686517477 15, dec 478345124817644 15, dec 246911886648786 16, dec 177691309112296 16),
  (dec 327737279831677 15, dec 337384423616899 15, dec 334878296551425 15, dec 466754493690407 16),
  (dec 459306059914741 15, dec 124437846325473 15, dec 416256093759786 15, dec 296528333143297 16),
  (dec 180193738693445 15, dec 636556972364812 15, dec 183249288941743 15, dec 388044763499761 16),
  (dec 742607139539477 15, dec 389975936323789 16, dec 218395266828144 15, dec 225151145701125 16),
  (dec 454226607159181 16, dec 909343714009646 15, dec 452336252744363 16, dec 131416239463618 16),
  (dec 493019828416712 15, dec 196826603759659 16, dec 487297511207323 15, dec 156034173661051 16),
  (dec 338561489335711 16, dec 219131112934771 15, dec 747012738131658 15, dec 196706543468974 16),
  (dec 222635403645525 15, dec 383358856024087 16, dec 739028710752066 15, dec 224796284950108 16),
  (dec 226497889207337 15, dec 73897950634751 14, dec 345226044451528 16, dec 208710839496907 16),
  (dec 252265246627187 16, dec 480098928580052 15, dec 494674546757229 15, dec 178766120070067 16),
  (dec 745011886680378 15, dec 217513716531818 15, dec 374743967878046 16, dec 214769586560792 16),
  (dec 337758387591633 16, dec 740471682087998 15, dec 225752479152839 15, dec 204099824730397 16),
  (dec 450682411443534 16, dec 441353150992668 16, dec 91079644375638 14, dec 127034230053368 16),
  (dec 131426222762174 15, dec 443129214297882 15, dec 425444562939944 15, dec 368871309935631 16),
  (dec 422683133407192 15, dec 444095359365284 15, dec 133221507227524 15, dec 381319981153578 16),
  (dec 35666884471604 14, dec 143083140105137 15, dec 500248015178823 15, dec 150864232581216 16),
  (dec 911955121193499 15, dec 439297015841188 16, dec 441151772223827 16, dec 123842228769212 16),
  (dec 616826389139707 15, dec 197320936454502 15, dec 185852674405791 15, dec 399507233699274 16),
  (dec 17205945641573 14, dec 197938105917001 15, dec 630002437667269 15, dec 379091126258925 16)]

/-- `CIntTriangle::setBarycentricGaussPoints()`: IntTriangle_Imp.hpp lines 32-196: the three barycentric coordinates and the weight. The vectors are
cleared first: a number of points without a `case` gives no points. -/
def triangle : Nat → List (ℚ × ℚ × ℚ × ℚ)
  | 1 => triangle1
  | 3 => triangle3
  | 6 => triangle6
  | 7 => triangle7
  | 12 => triangle12
  | 16 => triangle16
  | 17 => triangle17
  | 20 => triangle20
  | _ => []

/-- `CIntTriangularPrism::setGaussPoints()`: IntTriangularPrism_Imp.hpp lines 26-141: `xi`, `eta`, `zeta`, weight. `a` is `1.0 / sqrt(3.0)` and `b` is
`sqrt(3.0) / sqrt(5.0)`. -/
def prism {K : Type} [DivisionRing K] (a b : K) : Nat → List (K × K × K × K)
  | 1 => [
      (0, 0, 0, 2 * 2 * 2)]
  | 6 => [
      (1 / 6, 1 / 6, -a, (1 / 2) * (1 / 2) * (1 / 2)),
      (1 / 3, 1 / 6, -a, (1 / 2) * (1 / 2) * (1 / 2)),
      (1 / 6, 1 / 3, -a, (1 / 2) * (1 / 2) * (1 / 2)),
      (1 / 6, 1 / 6, a, (1 / 2) * (1 / 2) * (1 / 2)),
      (1 / 3, 1 / 6, a, (1 / 2) * (1 / 2) * (1 / 2)),
      (1 / 6, 1 / 3, a, (1 / 2) * (1 / 2) * (1 / 2))]
  | 9 => [
      (1 / 6, 1 / 6, -b, (5 / 18) * (5 / 18) * (5 / 18)),
      (1 / 3, 1 / 6, -b, (5 / 18) * (5 / 18) * (5 / 18)),
      (1 / 6, 1 / 3, -b, (5 / 18) * (5 / 18) * (5 / 18)),
      (1 / 6, 1 / 6, 0, (8 / 18) * (8 / 18) * (8 / 18)),
      (1 / 3, 1 / 6, 0, (8 / 18) * (8 / 18) * (8 / 18)),
      (1 / 6, 1 / 3, 0, (8 / 18) * (8 / 18) * (8 / 18)),
      (1 / 6, 1 / 6, b, (5 / 18) * (5 / 18) * (5 / 18)),
      (1 / 3, 1 / 6, b, (5 / 18) * (5 / 18) * (5 / 18)),
      (1 / 6, 1 / 3, b, (5 / 18) * (5 / 18) * (5 / 18))]
  | n => List.replicate n (0, 0, 0, 0)

/-- `CBemTriangle::getIntegrationPoints`: bem/BemTriangle_Imp.hpp lines 32-51, for `m_integPoints = n`: the points and their weights. -/
def bemPoints {K : Type} [DivisionRing K] (n : Nat) (n1 n2 n3 : Vec3 K) : List (Vec3 K × K) :=
  (triangle n).map fun r : ℚ × ℚ × ℚ × ℚ =>
    (⟨(r.1 : K) * n1.x + (r.2.1 : K) * n2.x + (r.2.2.1 : K) * n3.x,
      (r.1 : K) * n1.y + (r.2.1 : K) * n2.y + (r.2.2.1 : K) * n3.y,
      (r.1 : K) * n1.z + (r.2.1 : K) * n2.z + (r.2.2.1 : K) * n3.z⟩, (r.2.2.2 : K))

end Gauss
end ENigMA
