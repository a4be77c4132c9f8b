import Verif.Pde.FemFlow
import Verif.Pde.FemStructuralProps

/-!
# Properties of the finite element operators of flow problems: C117

A field is given by its values `φ id` at the nodes; `FemOp.nodal m φ` is its vector and `Sys.form s v w` is `vᵀ A w`. The terms below are the
integrals over a triangle of the plane of products of linear functions and their gradients (`gradX`, `gradY`, see `C116_gradient`);
`C117_mean` relates the mean of a product of two linear functions to the rule with the midpoints of the edges, which is exact for such products.
-/

set_option linter.unusedSectionVars false
set_option autoImplicit false

namespace ENigMA
open Matrix FemOp FemStructuralOp FemFlowOp

variable {K : Type} [Field K] [LinearOrder K] [IsStrictOrderedRing K]

namespace FemFlowOp

/-- A quantity of the triangles; zero on other elements. -/
def onTriangle (e : Elem) (f : Int → Int → Int → K) : K :=
  match e.elementType, e.nodeIds with
  | .triangle, [x, y, z] => f x y z
  | _, _ => 0

/-- Twice the signed area of the triangle with the nodes `x`, `y`, `z`: positive when they are counter-clockwise. -/
def turn (m : Mesh K) (x y z : Int) : K := area2 (place m x) (place m y) (place m z)

/-- The derivative along `x` of the field on the triangle. -/
def dX (m : Mesh K) (x y z : Int) (φ : Int → K) : K := gradX (place m x) (place m y) (place m z) (φ x) (φ y) (φ z)

/-- The derivative along `y` of the field on the triangle. -/
def dY (m : Mesh K) (x y z : Int) (φ : Int → K) : K := gradY (place m x) (place m y) (place m z) (φ x) (φ y) (φ z)

/-- The mean of a field over the triangle. -/
def mean (x y z : Int) (φ : Int → K) : K := (φ x + φ y + φ z) / 3

/-- The mean over the triangle of the product of two fields. -/
def meanProduct (x y z : Int) (φ ψ : Int → K) : K := ((φ x + φ y + φ z) * (ψ x + ψ y + ψ z) + (φ x * ψ x + φ y * ψ y + φ z * ψ z)) / 12

/-- `∫ φ ψ`. -/
def massTerm (m : Mesh K) (φ ψ : Int → K) (e : Elem) : K := onTriangle e fun x y z => |turn m x y z| / 2 * meanProduct x y z φ ψ

/-- `-th ∫ ∇φ · ∇ψ`. -/
def diffusionTerm (th : K) (m : Mesh K) (φ ψ : Int → K) (e : Elem) : K :=
  onTriangle e fun x y z => -(th * (|turn m x y z| / 2) * (dX m x y z φ * dX m x y z ψ + dY m x y z φ * dY m x y z ψ))

/-- `± ∫ φ ∂ψ`, with the sign of the orientation of the triangle; the derivative is along `x` for the component 0 and along `y` otherwise. -/
def gradientTerm (c : Int) (m : Mesh K) (φ ψ : Int → K) (e : Elem) : K :=
  onTriangle e fun x y z => turn m x y z / 2 * mean x y z φ * (if c = 0 then dX m x y z ψ else dY m x y z ψ)

/-- `± ∫ φ (u · ∇ψ)`, with the sign of the orientation of the triangle. -/
def convectionTerm (m : Mesh K) (u v φ ψ : Int → K) (e : Elem) : K :=
  onTriangle e fun x y z => turn m x y z / 2 * (meanProduct x y z φ u * dX m x y z ψ + meanProduct x y z φ v * dY m x y z ψ)

/-- `∫ (ū · ∇φ) (ū · ∇ψ)` with the mean velocity `ū`. -/
def streamTerm (m : Mesh K) (u v φ ψ : Int → K) (e : Elem) : K :=
  onTriangle e fun x y z => |turn m x y z| / 2 * ((mean x y z u * dX m x y z φ + mean x y z v * dY m x y z φ) *
    (mean x y z u * dX m x y z ψ + mean x y z v * dY m x y z ψ))

/-- A mesh of the plane without tetrahedra whose triangles have an area. -/
def Sheet (m : Mesh K) : Prop :=
  Flat m ∧ ∀ id e, m.elements.get? id = some e → e.elementType ≠ .tetrahedron ∧
    ∀ x y z, e.elementType = .triangle → e.nodeIds = [x, y, z] → turn m x y z ≠ 0

theorem triB_gradX (p q r : Vec3 K) (h : area2 p q r ≠ 0) (f g k : K) :
    (q.y - r.y) * f + (r.y - p.y) * g + (p.y - q.y) * k = area2 p q r * gradX p q r f g k := by
  unfold gradX
  rw [mul_div_cancel₀ _ h]; ring

theorem triB_gradY (p q r : Vec3 K) (h : area2 p q r ≠ 0) (f g k : K) :
    (r.x - q.x) * f + (p.x - r.x) * g + (q.x - p.x) * k = area2 p q r * gradY p q r f g k := by
  unfold gradY
  rw [mul_div_cancel₀ _ h]; ring

theorem vec3_list (a b c : K) : (fun i : Fin 3 => [a, b, c].getD i 0) = ![a, b, c] := by
  funext i; fin_cases i <;> rfl

theorem flat_rebuild (nrm : Vec3 K → K) (p q r : Vec3 K) (hp : p.z = 0) (hq : q.z = 0) (hr : r.z = 0) :
    Fem.triRebuild nrm ⟨p, q, r⟩ = ⟨p.x, p.y, q.x, q.y, r.x, r.y⟩ := by
  simp [Fem.triRebuild, Fem.localXY, hp, hq, hr]

theorem tri_diffusion {nrm : Vec3 K → K} (hn : IsNorm nrm) (th : K) (p q r : Vec3 K) (hp : p.z = 0) (hq : q.z = 0) (hr : r.z = 0)
    (a b c a' b' c' : K) :
    elementForm (.of (Fem.triLaplacian nrm th ⟨p, q, r⟩)) [a, b, c] [a', b', c'] =
      -(th * (|area2 p q r| / 2) * (gradX p q r a b c * gradX p q r a' b' c' + gradY p q r a b c * gradY p q r a' b' c')) := by
  have hA := triArea_flat hn ⟨p, q, r⟩ hp hq hr
  simp only at hA
  rw [elementForm_of]
  by_cases hD : area2 p q r = 0
  · have h0 : Fem.triArea nrm ⟨p, q, r⟩ = 0 := by rw [hA, hD]; simp
    have : Fem.triLaplacian nrm th ⟨p, q, r⟩ = 0 := by simp [Fem.triLaplacian, h0]
    rw [this, hD]; simp
  · have hpos : 0 < Fem.triArea nrm ⟨p, q, r⟩ := by rw [hA]; positivity
    have x1 := triB_gradX p q r hD a b c
    have x2 := triB_gradX p q r hD a' b' c'
    have y1 := triB_gradY p q r hD a b c
    have y2 := triB_gradY p q r hD a' b' c'
    have habs : |area2 p q r| ≠ 0 := by simpa using hD
    have hsq : |area2 p q r| * |area2 p q r| = area2 p q r * area2 p q r := abs_mul_abs_self _
    have key : ∀ X Y X' Y' t D : K, |D| ≠ 0 → |D| * |D| = D * D →
        -(|D| / 2 * t * (1 / (2 * (|D| / 2)) * (1 / (2 * (|D| / 2)))) * ((D * X) * (D * X') + (D * Y) * (D * Y'))) =
        -(t * (|D| / 2) * (X * X' + Y * Y')) := by
      intro X Y X' Y' t D h1 h2
      have e : 1 / (2 * (|D| / 2)) * (1 / (2 * (|D| / 2))) * (D * D) = 1 := by rw [← h2]; field_simp
      linear_combination -(|D| / 2 * t * (X * X' + Y * Y')) * e
    rw [← key _ _ _ _ th _ habs hsq, ← x1, ← x2, ← y1, ← y2]
    rw [vec3_list, vec3_list]
    simp only [Fem.triLaplacian, if_pos hpos, flat_rebuild nrm p q r hp hq hr]
    rw [hA]
    generalize 1 / (2 * (|area2 p q r| / 2)) = k
    simp [Fem.triB, Matrix.mul_apply, mulVec, dotProduct, Fin.sum_univ_three, Fin.sum_univ_two]
    ring

theorem tri_gradient (nrm : Vec3 K → K) (i : Int) (hi : i = 0 ∨ i = 1) (p q r : Vec3 K) (hp : p.z = 0) (hq : q.z = 0) (hr : r.z = 0)
    (hD : area2 p q r ≠ 0) (a b c a' b' c' : K) :
    elementForm (.of (Fem.triGradient nrm i 0 ⟨p, q, r⟩)) [a, b, c] [a', b', c'] =
      area2 p q r / 2 * ((a + b + c) / 3) * (if i = 0 then gradX p q r a' b' c' else gradY p q r a' b' c') := by
  have x2 := triB_gradX p q r hD a' b' c'
  have y2 := triB_gradY p q r hD a' b' c'
  rw [elementForm_of, vec3_list, vec3_list]
  rcases hi with rfl | rfl
  · simp only [Fem.triGradient, if_true, flat_rebuild nrm p q r hp hq hr]
    simp [Fem.triB, mulVec, dotProduct, Fin.sum_univ_three]
    linear_combination (a + b + c) / 6 * x2
  · simp only [Fem.triGradient, if_neg (by decide : ¬(1 : Int) = 0), if_true, flat_rebuild nrm p q r hp hq hr]
    simp [Fem.triB, mulVec, dotProduct, Fin.sum_univ_three]
    linear_combination (a + b + c) / 6 * y2

theorem tri_convection {nrm : Vec3 K → K} (hn : IsNorm nrm) (dt : K) (p q r : Vec3 K) (hp : p.z = 0) (hq : q.z = 0) (hr : r.z = 0)
    (hD : area2 p q r ≠ 0) (u v : Fin 3 → K) (a b c a' b' c' : K) :
    elementForm (.of (Fem.triConvection nrm dt u v ⟨p, q, r⟩)) [a, b, c] [a', b', c'] =
      area2 p q r / 2 * (((a + b + c) * (u 0 + u 1 + u 2) + (a * u 0 + b * u 1 + c * u 2)) / 12 * gradX p q r a' b' c' +
        ((a + b + c) * (v 0 + v 1 + v 2) + (a * v 0 + b * v 1 + c * v 2)) / 12 * gradY p q r a' b' c') -
      dt * (|area2 p q r| / 2 * (((u 0 + u 1 + u 2) / 3 * gradX p q r a b c + (v 0 + v 1 + v 2) / 3 * gradY p q r a b c) *
        ((u 0 + u 1 + u 2) / 3 * gradX p q r a' b' c' + (v 0 + v 1 + v 2) / 3 * gradY p q r a' b' c'))) := by
  have hA := triArea_flat hn ⟨p, q, r⟩ hp hq hr
  simp only at hA
  have x1 := triB_gradX p q r hD a b c
  have x2 := triB_gradX p q r hD a' b' c'
  have y1 := triB_gradY p q r hD a b c
  have y2 := triB_gradY p q r hD a' b' c'
  have habs : |area2 p q r| ≠ 0 := by simpa using hD
  have hsq : |area2 p q r| * |area2 p q r| = area2 p q r * area2 p q r := abs_mul_abs_self _
  have e : |area2 p q r| / 2 = 1 / (12 * (|area2 p q r| / 2)) * 3 * (area2 p q r * area2 p q r) := by rw [← hsq]; field_simp; norm_num
  rw [elementForm_of, vec3_list, vec3_list]
  simp only [Fem.triConvection, flat_rebuild nrm p q r hp hq hr, hA]
  rw [show dt * (|area2 p q r| / 2 * (((u 0 + u 1 + u 2) / 3 * gradX p q r a b c + (v 0 + v 1 + v 2) / 3 * gradY p q r a b c) *
        ((u 0 + u 1 + u 2) / 3 * gradX p q r a' b' c' + (v 0 + v 1 + v 2) / 3 * gradY p q r a' b' c'))) =
      dt * (1 / (12 * (|area2 p q r| / 2)) * 3 * (area2 p q r * area2 p q r) *
        (((u 0 + u 1 + u 2) / 3 * gradX p q r a b c + (v 0 + v 1 + v 2) / 3 * gradY p q r a b c) *
        ((u 0 + u 1 + u 2) / 3 * gradX p q r a' b' c' + (v 0 + v 1 + v 2) / 3 * gradY p q r a' b' c'))) by rw [← e]]
  clear e
  generalize 12 * (|area2 p q r| / 2) = w
  generalize gradX p q r a b c = X at *
  generalize gradY p q r a b c = Y at *
  generalize gradX p q r a' b' c' = X' at *
  generalize gradY p q r a' b' c' = Y' at *
  have lhs : ∀ b0 b1 b2 c0 c1 c2 : K, ![a, b, c] ⬝ᵥ (((1 / 24 : K) • Matrix.of (fun i j : Fin 3 => (u 0 + u 1 + u 2 + u i) * ![b0, b1, b2] j +
        (v 0 + v 1 + v 2 + v i) * ![c0, c1, c2] j) -
      dt • (((u 0 + u 1 + u 2) / 3 * (u 0 + u 1 + u 2) / w) • Matrix.of (fun i j : Fin 3 => ![b0, b1, b2] i * ![b0, b1, b2] j) +
        ((u 0 + u 1 + u 2) / 3 * (v 0 + v 1 + v 2) / w) • Matrix.of (fun i j : Fin 3 => ![b0, b1, b2] i * ![c0, c1, c2] j) +
        ((v 0 + v 1 + v 2) / 3 * (u 0 + u 1 + u 2) / w) • Matrix.of (fun i j : Fin 3 => ![c0, c1, c2] i * ![b0, b1, b2] j) +
        ((v 0 + v 1 + v 2) / 3 * (v 0 + v 1 + v 2) / w) • Matrix.of (fun i j : Fin 3 => ![c0, c1, c2] i * ![c0, c1, c2] j))) *ᵥ ![a', b', c']) =
      (1 / 24) * (((a + b + c) * (u 0 + u 1 + u 2) + (a * u 0 + b * u 1 + c * u 2)) * (b0 * a' + b1 * b' + b2 * c') +
        ((a + b + c) * (v 0 + v 1 + v 2) + (a * v 0 + b * v 1 + c * v 2)) * (c0 * a' + c1 * b' + c2 * c')) -
      dt / w / 3 * (((u 0 + u 1 + u 2) * (b0 * a + b1 * b + b2 * c) + (v 0 + v 1 + v 2) * (c0 * a + c1 * b + c2 * c)) *
        ((u 0 + u 1 + u 2) * (b0 * a' + b1 * b' + b2 * c') + (v 0 + v 1 + v 2) * (c0 * a' + c1 * b' + c2 * c'))) := by
    intro b0 b1 b2 c0 c1 c2
    simp [mulVec, dotProduct, Fin.sum_univ_three]
    ring
  have := lhs (q.y - r.y) (r.y - p.y) (p.y - q.y) (r.x - q.x) (p.x - r.x) (q.x - p.x)
  rw [x1, x2, y1, y2] at this
  have hB0 : ∀ j : Fin 3, Fem.triB (⟨p.x, p.y, q.x, q.y, r.x, r.y⟩ : Fem.Local3 K) 0 j = ![q.y - r.y, r.y - p.y, p.y - q.y] j := by
    intro j; fin_cases j <;> simp [Fem.triB]
  have hB1 : ∀ j : Fin 3, Fem.triB (⟨p.x, p.y, q.x, q.y, r.x, r.y⟩ : Fem.Local3 K) 1 j = ![r.x - q.x, p.x - r.x, q.x - p.x] j := by
    intro j; fin_cases j <;> simp [Fem.triB]
  simp only [hB0, hB1]
  rw [this]
  ring

/-! ### The loop -/

theorem dofs_one (φ : Int → K) (ids : List Int) : dofs 1 (fun x _ => φ x) ids = ids.map φ := by
  induction ids with
  | nil => rfl
  | cons a t ih => simp only [dofs, List.flatMap_cons, List.map_cons] at ih ⊢; rw [ih]; rfl

theorem nodalD_one (m : Mesh K) (φ : Int → K) : nodalD m 1 (fun x _ => φ x) = nodal m φ := by
  funext i; simp [nodalD, nodal]

theorem elementTermD_one (mat : ElementType → List (Vec3 K) → Option (Option (EMat K))) (m : Mesh K) (φ ψ : Int → K) (e : Elem) :
    elementTermD mat 1 m (fun x _ => φ x) (fun x _ => ψ x) e = elementTerm mat m φ ψ e := by
  unfold elementTermD elementTerm
  rw [dofs_one, dofs_one]
  rcases (List.mapM m.nodes.get? e.nodeIds).bind (mat e.elementType) with _ | _ | _ <;> rfl

theorem assembleBy_spec (mat : Int → Elem → ElementType → List (Vec3 K) → Option (Option (EMat K))) (kind : MatrixType) (m : Mesh K)
    (hwf : m.WF) (hrt : m.nodes.RoundTrip) (hf : ∀ id e, m.elements.get? id = some e → Fits (mat id e) 1 m e)
    (hdef : ∀ id e, m.elements.get? id = some e → ∀ ps, e.nodeIds.mapM m.nodes.get? = some ps → ∃ o, mat id e e.elementType ps = some o) :
    ∃ s, assembleBy mat 1 kind m = some s ∧ s.n = m.nodes.count ∧ s.kind = kind ∧ (∀ i < s.n, s.b i = 0) ∧
      ∀ φ ψ : Int → K, s.form (nodal m φ) (nodal m ψ) = ((elemsId m).map fun p => elementTerm (mat p.1 p.2) m φ ψ p.2).sum := by
  let mat' : Int → ElementType → List (Vec3 K) → Option (Option (EMat K)) := fun id => (m.elements.get? id).elim (fun _ _ => some none) (mat id)
  have e' : ∀ id e, m.elements.get? id = some e → mat' id = mat id e := fun id e h => by simp [mat', h]
  have heq : assembleBy mat 1 kind m = assembleD mat' 1 kind m := by
    unfold assembleBy assembleD
    rw [Nat.mul_one, loop_elemsId m hwf.elements (fun id e => elementStamps (mat id e) 1 true m e),
      loop_elemsId m hwf.elements (fun id e => elementStamps (mat' id) 1 true m e)]
    have : ((elemsId m).map fun p => elementStamps (mat p.1 p.2) 1 true m p.2) = (elemsId m).map fun p => elementStamps (mat' p.1) 1 true m p.2 := by
      apply List.map_congr_left
      intro p hp
      rw [e' _ _ (mem_elemsId.1 hp).2]
    rw [this]
  obtain ⟨s, h1, h2, h3, h4, h5⟩ := assembleD_spec mat' 1 (by norm_num) kind m hwf hrt (fun id e h => by rw [e' id e h]; exact hf id e h)
    (fun id e h => by rw [e' id e h]; exact hdef id e h)
  rw [Nat.mul_one] at h2
  refine ⟨s, heq.trans h1, h2, h3, h4, fun φ ψ => ?_⟩
  have := h5 (fun x _ => φ x) (fun x _ => ψ x)
  rw [nodalD_one, nodalD_one] at this
  rw [this]
  congr 1
  apply List.map_congr_left
  intro p hp
  rw [elementTermD_one, e' _ _ (mem_elemsId.1 hp).2]

/-- The contribution of an element of a sheet when only triangles have a branch. -/
theorem elementTerm_triangle (mat : ElementType → List (Vec3 K) → Option (Option (EMat K))) (m : Mesh K) (e : Elem)
    (hnodes : ∀ x ∈ e.nodeIds, ∃ p, m.nodes.get? x = some p) (φ ψ : Int → K) (f : Int → Int → Int → K)
    (hskip : ∀ ps M, mat e.elementType ps = some (some M) → e.elementType = .triangle ∧ ps.length = 3)
    (htri : ∀ x y z, e.elementType = .triangle → e.nodeIds = [x, y, z] → ∃ M, mat .triangle [place m x, place m y, place m z] = some (some M) ∧
      elementForm M [φ x, φ y, φ z] [ψ x, ψ y, ψ z] = f x y z) :
    elementTerm mat m φ ψ e = onTriangle e f := by
  obtain ⟨ty, ids, fs⟩ := e
  by_cases hty : ty = .triangle ∧ ids.length = 3
  · obtain ⟨rfl, hl⟩ := hty
    obtain ⟨x, y, z, rfl⟩ := List.length_eq_three.1 hl
    obtain ⟨p, hp⟩ := hnodes x (by simp)
    obtain ⟨q, hq⟩ := hnodes y (by simp)
    obtain ⟨r, hr⟩ := hnodes z (by simp)
    have hm : [x, y, z].mapM m.nodes.get? = some [p, q, r] := by simp [List.mapM_cons, hp, hq, hr]
    obtain ⟨M, hM, hf⟩ := htri x y z rfl rfl
    simp only [place, hp, hq, hr, Option.getD_some] at hM
    simp only [elementTerm, hm, Option.bind_some, hM, onTriangle]
    exact hf
  · have hR : onTriangle (K := K) ⟨ty, ids, fs⟩ f = 0 := by
      unfold onTriangle
      split
      · next h3 h4 =>
        simp only at h3 h4
        subst h3 h4
        exact absurd ⟨rfl, rfl⟩ hty
      · rfl
    rw [hR]
    unfold elementTerm
    split
    · next M hM =>
      obtain ⟨ps, hps, hM⟩ := Option.bind_eq_some_iff.1 hM
      have hl := (mapM_length _ _ _ hps).1
      obtain ⟨h1, h2⟩ := hskip ps M hM
      exact absurd ⟨h1, by rw [← hl, h2]⟩ hty
    · rfl

theorem place_flat {m : Mesh K} (hflat : Flat m) (x : Int) : (place m x).z = 0 := by
  unfold place
  cases h : m.nodes.get? x with
  | none => rfl
  | some p => exact hflat x p h

theorem elem_nodes {m : Mesh K} (hwf : m.WF) {id : Int} {e : Elem} (he : m.elements.get? id = some e) :
    ∀ x ∈ e.nodeIds, ∃ p, m.nodes.get? x = some p := fun x hx => (hwf.nodes.2 x).1 (hwf.elemNodes _ _ he x hx)

/-- The values at the nodes of a vector with one component per node. -/
def atNodes (m : Mesh K) (u : Nat → K) (x : Int) : K := (nodeValue m u x).getD 0

theorem nodeValue_eq (m : Mesh K) (hrt : m.nodes.RoundTrip) (u : Nat → K) (x : Int) (hx : x ∈ m.nodes.ids) :
    nodeValue m u x = some (atNodes m u x) := by
  obtain ⟨i, hi, hid⟩ := hrt.2 x hx
  simp only [nodeValue, atNodes, hi, Option.map_some, Option.getD_some]

theorem nodal_atNodes (m : Mesh K) (hrt : m.nodes.RoundTrip) (u : Nat → K) (i : Nat) (hi : i < m.nodes.count) :
    nodal m (atNodes m u) i = u i := by
  obtain ⟨x, hx⟩ := idAt_of_lt m i hi
  have h := hrt.1 i x hx
  simp [nodal, hx, atNodes, nodeValue, h]

theorem atNodes_nodal (m : Mesh K) (hrt : m.nodes.RoundTrip) (u : Int → K) (x : Int) (hx : x ∈ m.nodes.ids) : atNodes m (nodal m u) x = u x := by
  obtain ⟨i, hi, hid⟩ := hrt.2 x hx
  simp only [atNodes, nodeValue, hi, Option.map_some, Option.getD_some, nodal, Cont.idAt?] at hid ⊢
  simp [hid]

theorem nodeValues (m : Mesh K) (hrt : m.nodes.RoundTrip) (u : Nat → K) (l : List Int) (hl : ∀ x ∈ l, x ∈ m.nodes.ids) :
    l.mapM (nodeValue m u) = some (l.map (atNodes m u)) := by
  induction l with
  | nil => rfl
  | cons a t ih => rw [List.mapM_cons, nodeValue_eq m hrt u a (hl a (by simp)), ih fun x hx => hl x (by simp [hx])]; rfl

theorem gradient_skip (nrm : Vec3 K → K) (c : Int) (e : Elem) (h : e.elementType ≠ .tetrahedron) :
    ∀ ps M, elementGradient nrm c e.elementType ps = some (some M) → e.elementType = .triangle ∧ ps.length = 3 := by
  intro ps M hM
  unfold elementGradient at hM
  split at hM
  · next ht => exact ⟨ht, rfl⟩
  · next ht => exact absurd ht h
  · cases hM

theorem laplacian_skip (nrm : Vec3 K → K) (made : Made K) (e : Elem) (h : e.elementType ≠ .tetrahedron) :
    ∀ ps M, FemFlowOp.elementLaplacian nrm made e.elementType ps = some (some M) → e.elementType = .triangle ∧ ps.length = 3 := by
  intro ps M hM
  unfold FemFlowOp.elementLaplacian at hM
  split at hM
  · next ht => exact ⟨ht, rfl⟩
  · next ht => exact absurd ht h
  · cases hM

theorem convection_skip (nrm : Vec3 K → K) (dt : K) (m : Mesh K) (u v : Nat → K) (e' : Elem) (ty : ElementType) :
    ∀ ps M, elementConvection2 nrm dt m u v e' ty ps = some (some M) → ty = .triangle ∧ ps.length = 3 := by
  intro ps M hM
  unfold elementConvection2 at hM
  split at hM
  · exact ⟨rfl, rfl⟩
  · cases hM

theorem row_const (m : Mesh K) (hwf : m.WF) (s : Sys K) (hn : s.n = m.nodes.count) (c : K)
    (h : ∀ φ : Int → K, s.form (nodal m φ) (nodal m fun _ => c) = 0) (i : Nat) (hi : i < s.n) : s.row (fun _ => c) i = 0 := by
  obtain ⟨x, hx⟩ := row_of_lt m 1 i (by omega)
  rw [rowD_eq m hwf 1 (by norm_num) s (by omega) i x hi hx, ← h (fun z => if z = x then 1 else 0)]
  refine Sys.form_congr s _ _ _ _ (fun k _ => ?_) (fun k hk => ?_)
  · have : i % 1 = 0 := Nat.mod_one i
    rw [← nodalD_one]
    simp [nodalD, oneAt, Nat.mod_one]
  · obtain ⟨y, hy⟩ := idAt_of_lt m k (hn ▸ hk)
    simp [nodal, hy]

/-- The loop of `ddt`, when the ids are as it expects. -/
theorem ddt_spec (nrm : Vec3 K → K) (m : Mesh K) (hwf : m.WF) (hrt : m.nodes.RoundTrip) (hc : Contiguous m)
    (hids : ∀ id ∈ m.nodes.ids, 0 ≤ id ∧ id < m.nodes.count) (u : Nat → K) :
    ∃ s, FemFlowOp.ddt nrm m u = some s ∧ s.n = m.nodes.count ∧ s.kind = .sparseSymmetric ∧ (∀ i < s.n, s.b i = s.row u i) ∧
      ∀ φ ψ : Int → K, s.form (nodal m φ) (nodal m ψ) = ((elems m).map (elementTerm (FemFlowOp.elementDdt nrm) m φ ψ)).sum := by
  have hsized : Sized (FemFlowOp.elementDdt nrm) := by
    intro t ps M h
    unfold FemFlowOp.elementDdt at h
    split at h <;> cases h <;> rfl
  let es := ((List.range m.elements.count).map fun (k : Nat) => (k : Int)).filterMap m.elements.get?
  have hperm : es.Perm (elems m) := hc.symm.filterMap _
  have h2 : ∀ l : List Nat, (∀ k ∈ l, ∃ e, m.elements.get? (k : Int) = some e) →
      (l.map fun (el : Nat) => (m.elements.get? (el : Int)).bind (elementStamps (FemFlowOp.elementDdt nrm) 1 false m)) =
        ((l.map fun (k : Nat) => (k : Int)).filterMap m.elements.get?).map (elementStamps (FemFlowOp.elementDdt nrm) 1 false m) := by
    intro l hl
    induction l with
    | nil => rfl
    | cons a t ih =>
      obtain ⟨e, he⟩ := hl a (by simp)
      rw [List.map_cons, List.map_cons, List.filterMap_cons_some he, List.map_cons, ih (fun x hx => hl x (by simp [hx])), he]
      rfl
  have h3 := h2 (List.range m.elements.count) (fun k hk =>
    (hwf.elements.2 k).1 (hc.mem_iff.2 (List.mem_map.2 ⟨k, hk, rfl⟩)))
  have hes : ∀ e ∈ es, ∀ x ∈ e.nodeIds, x ∈ m.nodes.ids := fun e he => elems_nodes hwf e (hperm.mem_iff.1 he)
  obtain ⟨s, hs⟩ := assembled_defined _ hsized false m hwf hrt es hes .sparseSymmetric
    (fun _ e he x hx => hids x (hes e he x hx)) (fun e _ ps _ => by
      unfold FemFlowOp.elementDdt; split <;> exact ⟨_, rfl⟩)
  have key := assembled _ hsized false m hrt es hes .sparseSymmetric s hs
  obtain ⟨h1, h2, -, h4⟩ := key (fun _ => 0) (fun _ => 0)
  refine ⟨{ s with b := fun i => s.b i + s.row u i }, ?_, h1, h2, fun i hi => ?_, fun φ ψ => ?_⟩
  · unfold FemFlowOp.ddt
    obtain ⟨l, hl, hs'⟩ := Option.bind_eq_some_iff.1 hs
    have : collect ((List.range m.elements.count).map fun (el : Nat) =>
        (m.elements.get? (el : Int)).bind (elementStamps (FemFlowOp.elementDdt nrm) 1 false m)) = some l := by rw [h3]; exact hl
    simp only [Option.bind_eq_bind, this, Option.bind_some, hs']
    rfl
  · show s.b i + s.row u i = s.row u i
    rw [← Sys.load_single s i hi, h4, zero_add]
  · exact ((key φ ψ).2.2.1).trans ((hperm.map _).sum_eq)

theorem map_elemsId (m : Mesh K) (f : Elem → K) : ((elemsId m).map fun p => f p.2) = (elems m).map f := by
  unfold elemsId elems
  rw [List.map_filterMap]
  rw [List.map_filterMap]
  congr 1
  funext id
  cases m.elements.get? id <;> rfl

theorem tri_mass {nrm : Vec3 K → K} (hn : IsNorm nrm) (p q r : Vec3 K) (hp : p.z = 0) (hq : q.z = 0) (hr : r.z = 0) (a b c a' b' c' : K) :
    elementForm (.of (Fem.triDdt (Fem.triArea nrm ⟨p, q, r⟩) 1)) [a, b, c] [a', b', c'] =
      |area2 p q r| / 2 * (((a + b + c) * (a' + b' + c') + (a * a' + b * b' + c * c')) / 12) := by
  have hA := triArea_flat hn ⟨p, q, r⟩ hp hq hr
  simp only at hA
  rw [elementForm_of, vec3_list, vec3_list, hA]
  simp [Fem.triDdt, mulVec, dotProduct, Fin.sum_univ_three]
  ring

theorem sum_map_sub {α : Type} (l : List α) (f g : α → K) : (l.map fun a => f a - g a).sum = (l.map f).sum - (l.map g).sum := by
  induction l with
  | nil => simp
  | cons a t ih => simp only [List.map_cons, List.sum_cons, ih]; ring

/-- The components of a vector of space. -/
def component (c : Int) (g : Vec3 K) : K := if c = 0 then g.x else if c = 1 then g.y else g.z

/-- `± ∫ φ ∂ψ` over a tetrahedron, with the sign of `volume()`, for a field `ψ` with the gradient `g`; zero on other elements. -/
def solidGradientTerm (c : Int) (m : Mesh K) (φ : Int → K) (g : Vec3 K) (e : Elem) : K :=
  match e.elementType, e.nodeIds with
  | .tetrahedron, [w, x, y, z] => tetVolume m e * ((φ w + φ x + φ y + φ z) / 4) * component c g
  | _, _ => 0

end FemFlowOp

/-! ### C117 -/

/-- **C117, means.** The mean of a product of two linear functions on a triangle is given by the values at the midpoints of the edges. -/
theorem C117_mean (x y z : Int) (φ ψ : Int → K) : meanProduct x y z φ ψ =
    ((φ x + φ y) / 2 * ((ψ x + ψ y) / 2) + (φ y + φ z) / 2 * ((ψ y + ψ z) / 2) + (φ z + φ x) / 2 * ((ψ z + ψ x) / 2)) / 3 := by
  unfold meanProduct; ring

/-- **C117, `ddt`, partial.** On every plane triangle mesh (with no tetrahedra) whose element ids are `0 … n-1` and whose node ids are smaller than
the number of nodes, `ddt` yields the matrix of `∫ φ ψ` and, as right-hand side, this matrix times the field. Missing: other ids, see
`C117_ddt_element_ids`. -/
theorem C117_ddt_partial {nrm : Vec3 K → K} (hn : IsNorm nrm) (m : Mesh K) (hwf : m.WF) (hrt : m.nodes.RoundTrip) (hs : Flat m)
    (ht : ∀ id e, m.elements.get? id = some e → e.elementType ≠ .tetrahedron) (hc : Contiguous m)
    (hids : ∀ id ∈ m.nodes.ids, 0 ≤ id ∧ id < m.nodes.count) (u : Nat → K) :
    ∃ s, FemFlowOp.ddt nrm m u = some s ∧ s.n = m.nodes.count ∧ s.kind = .sparseSymmetric ∧ (∀ i < s.n, s.b i = s.row u i) ∧
      ∀ φ ψ : Int → K, s.form (nodal m φ) (nodal m ψ) = ((elemsId m).map fun p => massTerm m φ ψ p.2).sum := by
  obtain ⟨s, h1, h2, h3, h4, h5⟩ := ddt_spec nrm m hwf hrt hc hids u
  refine ⟨s, h1, h2, h3, h4, fun φ ψ => ?_⟩
  rw [h5, ← map_elemsId]
  congr 1
  apply List.map_congr_left
  intro p hp
  have he := (mem_elemsId.1 hp).2
  refine elementTerm_triangle _ m p.2 (elem_nodes hwf he) φ ψ _ ?_ ?_
  · intro ps M hM
    unfold FemFlowOp.elementDdt at hM
    split at hM
    · next h => exact ⟨h, rfl⟩
    · next h => exact absurd h (ht _ _ he)
    · cases hM
  · intro x y z _ _
    exact ⟨_, rfl, tri_mass hn _ _ _ (place_flat hs x) (place_flat hs y) (place_flat hs z) _ _ _ _ _ _⟩

/-- `ddt` needs an element with each of the ids `0 … n-1`: it looks elements up with their positions. -/
theorem C117_ddt_element_ids (nrm : Vec3 K → K) (m : Mesh K) (u : Nat → K) (k : Nat) (hk : k < m.elements.count)
    (h : m.elements.get? (k : Int) = none) : FemFlowOp.ddt nrm m u = none := by
  unfold FemFlowOp.ddt
  have := collect_none (List.range m.elements.count) (fun (el : Nat) =>
    (m.elements.get? (el : Int)).bind (elementStamps (FemFlowOp.elementDdt nrm) 1 false m)) k (List.mem_range.2 hk) (by rw [h]; rfl)
  simp only [Option.bind_eq_bind, this, Option.bind_none]

/-- **C117, `laplacian`.** On every consistent mesh of the plane without tetrahedra and with known thicknesses, with any ids, the matrix of
`laplacian` is `-thickness ∫ ∇φ · ∇ψ`, with zero right-hand side. -/
theorem C117_laplacian {nrm : Vec3 K → K} (hn : IsNorm nrm) (made : Int → Made K) (th : Int → K) (m : Mesh K) (hwf : m.WF)
    (hrt : m.nodes.RoundTrip) (hflat : Flat m) (hpl : Plates m made th) :
    ∃ s, FemFlowOp.laplacian nrm made 1 m = some s ∧ s.n = m.nodes.count ∧ s.kind = .sparseSymmetric ∧ (∀ i < s.n, s.b i = 0) ∧
      ∀ φ ψ : Int → K, s.form (nodal m φ) (nodal m ψ) = ((elemsId m).map fun p => diffusionTerm (th p.1) m φ ψ p.2).sum := by
  obtain ⟨s, h1, h2, h3, h4, h5⟩ := assembleBy_spec (fun id _ => FemFlowOp.elementLaplacian nrm (made id)) .sparseSymmetric m hwf hrt (by
    intro id e he ps M hps hM
    have hl := (mapM_length _ _ _ hps).1
    unfold FemFlowOp.elementLaplacian at hM
    split at hM
    · next ht =>
      rw [(hpl id e he).2 ht] at hM
      cases hM
      rw [← hl]; rfl
    · next ht => exact absurd ht (hpl id e he).1
    · cases hM) (by
    intro id e he ps hps
    unfold FemFlowOp.elementLaplacian
    split
    · next ht => rw [(hpl id e he).2 ht]; exact ⟨_, rfl⟩
    · exact ⟨_, rfl⟩
    · exact ⟨_, rfl⟩)
  refine ⟨s, h1, h2, h3, h4, fun φ ψ => ?_⟩
  rw [h5]
  congr 1
  apply List.map_congr_left
  intro p hp
  have he := (mem_elemsId.1 hp).2
  refine elementTerm_triangle _ m p.2 (elem_nodes hwf he) φ ψ _ (laplacian_skip nrm _ p.2 (hpl _ _ he).1) ?_
  intro x y z ht _
  refine ⟨.of (Fem.triLaplacian nrm (th p.1) ⟨place m x, place m y, place m z⟩), ?_,
    tri_diffusion hn _ _ _ _ (place_flat hflat x) (place_flat hflat y) (place_flat hflat z) _ _ _ _ _ _⟩
  simp only [FemFlowOp.elementLaplacian, (hpl _ _ he).2 ht]
  rfl

/-- **C117, `gradient`.** On every consistent mesh of the plane without tetrahedra whose triangles have an area, with any ids: for the components
`x` and `y` the matrix of `gradient` is the sum over the triangles of `± ∫ φ ∂ψ`, with the sign of the orientation of the triangle. -/
theorem C117_gradient (nrm : Vec3 K → K) (c : Int) (hc : c = 0 ∨ c = 1) (m : Mesh K) (hwf : m.WF) (hrt : m.nodes.RoundTrip) (hs : Sheet m) :
    ∃ s, FemFlowOp.gradient nrm c 1 m = some s ∧ s.n = m.nodes.count ∧ s.kind = .sparse ∧ (∀ i < s.n, s.b i = 0) ∧
      (∀ φ ψ : Int → K, s.form (nodal m φ) (nodal m ψ) = ((elemsId m).map fun p => gradientTerm c m φ ψ p.2).sum) ∧
      ∀ a, ∀ i < s.n, s.row (fun _ => a) i = 0 := by
  obtain ⟨s, h1, h2, h3, h4, h5⟩ := assembleBy_spec (fun _ _ => elementGradient nrm c) .sparse m hwf hrt (by
    intro id e he ps M hps hM
    have hl := (mapM_length _ _ _ hps).1
    unfold elementGradient at hM
    split at hM
    · rw [if_pos hc] at hM
      cases hM
      rw [← hl]; rfl
    · next ht => exact absurd ht (hs.2 id e he).1
    · cases hM) (by
    intro id e he ps hps
    unfold elementGradient
    split
    · rw [if_pos hc]; exact ⟨_, rfl⟩
    · next ht => exact absurd ht (hs.2 id e he).1
    · exact ⟨_, rfl⟩)
  have h6 : ∀ φ ψ : Int → K, s.form (nodal m φ) (nodal m ψ) = ((elemsId m).map fun p => gradientTerm c m φ ψ p.2).sum := by
    intro φ ψ
    rw [h5]
    congr 1
    apply List.map_congr_left
    intro p hp
    have he := (mem_elemsId.1 hp).2
    refine elementTerm_triangle _ m p.2 (elem_nodes hwf he) φ ψ _ (gradient_skip nrm c p.2 (hs.2 _ _ he).1) ?_
    intro x y z ht hids
    refine ⟨.of (Fem.triGradient nrm c 0 ⟨place m x, place m y, place m z⟩), by simp only [elementGradient, if_pos hc], ?_⟩
    exact tri_gradient nrm c hc _ _ _ (place_flat hs.1 x) (place_flat hs.1 y) (place_flat hs.1 z) ((hs.2 _ _ he).2 x y z ht hids) _ _ _ _ _ _
  refine ⟨s, h1, h2, h3, h4, h6, fun a i hi => row_const m hwf s h2 a (fun φ => ?_) i hi⟩
  rw [h6]
  apply List.sum_eq_zero
  intro t ht
  obtain ⟨p, -, rfl⟩ := List.mem_map.1 ht
  simp only [gradientTerm, onTriangle, dX, dY, gradX, gradY]
  split <;> simp

/-- **C117, `gradient` of counter-clockwise meshes.** When every triangle is counter-clockwise, the matrix is `∫ φ ∂ψ`; when every triangle is
clockwise it is the opposite: the orientation of the mesh, on which `ddt` and `laplacian` do not depend, decides over the sign. -/
theorem C117_gradient_orientation (nrm : Vec3 K → K) (c : Int) (hc : c = 0 ∨ c = 1) (m : Mesh K) (hwf : m.WF) (hrt : m.nodes.RoundTrip)
    (hs : Sheet m) (σ : K) (hσ : ∀ id e x y z, m.elements.get? id = some e → e.elementType = .triangle → e.nodeIds = [x, y, z] →
      turn m x y z = σ * |turn m x y z|) :
    ∃ s, FemFlowOp.gradient nrm c 1 m = some s ∧ ∀ φ ψ : Int → K, s.form (nodal m φ) (nodal m ψ) =
      σ * ((elemsId m).map fun p => onTriangle p.2 fun x y z =>
        |turn m x y z| / 2 * mean x y z φ * (if c = 0 then dX m x y z ψ else dY m x y z ψ)).sum := by
  obtain ⟨s, h1, -, -, -, h6, -⟩ := C117_gradient nrm c hc m hwf hrt hs
  refine ⟨s, h1, fun φ ψ => ?_⟩
  rw [h6, ← List.sum_map_mul_left]
  congr 1
  apply List.map_congr_left
  intro p hp
  have he := (mem_elemsId.1 hp).2
  obtain ⟨id, ty, ids, fs⟩ := p
  simp only [gradientTerm, onTriangle]
  split
  · next x y z =>
    have h := hσ id _ x y z he rfl rfl
    linear_combination (mean x y z φ * (if c = 0 then dX m x y z ψ else dY m x y z ψ)) / 2 * h
  · simp

/-- **C117, convection.** On such meshes, for all vectors `U`, `V` of nodal velocities and every step `dt`, the matrix of `divergence` is the sum over the triangles of
`± ∫ φ (u · ∇ψ) - dt ∫ (ū · ∇φ) (ū · ∇ψ)`: the first with the sign of the orientation of the triangle, the second, with the mean velocity `ū` of the
triangle, with the negative sign whatever the orientation. -/
theorem C117_convection {nrm : Vec3 K → K} (hn : IsNorm nrm) (dt : K) (m : Mesh K) (hwf : m.WF) (hrt : m.nodes.RoundTrip) (hs : Sheet m)
    (U V : Nat → K) :
    ∃ s, FemFlowOp.divergence2 nrm dt 1 m U V = some s ∧ s.n = m.nodes.count ∧ s.kind = .sparse ∧ (∀ i < s.n, s.b i = 0) ∧
      (∀ φ ψ : Int → K, s.form (nodal m φ) (nodal m ψ) = ((elemsId m).map fun p => convectionTerm m (atNodes m U) (atNodes m V) φ ψ p.2).sum -
        dt * ((elemsId m).map fun p => streamTerm m (atNodes m U) (atNodes m V) φ ψ p.2).sum) ∧
      ∀ a, ∀ i < s.n, s.row (fun _ => a) i = 0 := by
  have hval : ∀ id e, m.elements.get? id = some e → ∀ w : Nat → K, e.nodeIds.mapM (nodeValue m w) = some (e.nodeIds.map (atNodes m w)) :=
    fun id e he w => nodeValues m hrt w _ fun x hx => hwf.elemNodes _ _ he x hx
  obtain ⟨s, h1, h2, h3, h4, h5⟩ := assembleBy_spec (fun _ => elementConvection2 nrm dt m U V) .sparse m hwf hrt (by
    intro id e he ps M hps hM
    have hl := (mapM_length _ _ _ hps).1
    simp only [elementConvection2] at hM
    split at hM
    · rw [hval id e he, hval id e he] at hM
      cases hM
      rw [← hl]; rfl
    · cases hM) (by
    intro id e he ps hps
    simp only [elementConvection2]
    split
    · rw [hval id e he, hval id e he]; exact ⟨_, rfl⟩
    · exact ⟨_, rfl⟩)
  have h6 : ∀ φ ψ : Int → K, s.form (nodal m φ) (nodal m ψ) = ((elemsId m).map fun p => convectionTerm m (atNodes m U) (atNodes m V) φ ψ p.2).sum -
        dt * ((elemsId m).map fun p => streamTerm m (atNodes m U) (atNodes m V) φ ψ p.2).sum := by
    intro φ ψ
    rw [h5, ← List.sum_map_mul_left, ← sum_map_sub]
    congr 1
    apply List.map_congr_left
    intro p hp
    have he := (mem_elemsId.1 hp).2
    have : convectionTerm m (atNodes m U) (atNodes m V) φ ψ p.2 - dt * streamTerm m (atNodes m U) (atNodes m V) φ ψ p.2 = onTriangle p.2 fun x y z =>
        turn m x y z / 2 * (meanProduct x y z φ (atNodes m U) * dX m x y z ψ + meanProduct x y z φ (atNodes m V) * dY m x y z ψ) -
        dt * (|turn m x y z| / 2 * ((mean x y z (atNodes m U) * dX m x y z φ + mean x y z (atNodes m V) * dY m x y z φ) *
          (mean x y z (atNodes m U) * dX m x y z ψ + mean x y z (atNodes m V) * dY m x y z ψ))) := by
      simp only [convectionTerm, streamTerm, onTriangle]
      split <;> simp
    rw [this]
    refine elementTerm_triangle _ m p.2 (elem_nodes hwf he) φ ψ _ (convection_skip _ _ _ _ _ _ _) ?_
    intro x y z ht hids
    refine ⟨.of (Fem.triConvection nrm dt (fun i => [atNodes m U x, atNodes m U y, atNodes m U z].getD i 0) (fun i => [atNodes m V x, atNodes m V y, atNodes m V z].getD i 0)
      ⟨place m x, place m y, place m z⟩), ?_, ?_⟩
    · simp only [elementConvection2]
      rw [hval _ _ he, hval _ _ he, hids]
      rfl
    · exact tri_convection hn dt _ _ _ (place_flat hs.1 x) (place_flat hs.1 y) (place_flat hs.1 z) ((hs.2 _ _ he).2 x y z ht hids) _ _ _ _ _ _ _ _
  refine ⟨s, h1, h2, h3, h4, h6, fun a i hi => row_const m hwf s h2 a (fun φ => ?_) i hi⟩
  rw [h6]
  have e1 : ((elemsId m).map fun p => convectionTerm m (atNodes m U) (atNodes m V) φ (fun _ => a) p.2).sum = 0 := by
    apply List.sum_eq_zero
    intro t ht
    obtain ⟨p, -, rfl⟩ := List.mem_map.1 ht
    simp only [convectionTerm, onTriangle, dX, dY, gradX, gradY]
    split <;> simp
  have e2 : ((elemsId m).map fun p => streamTerm m (atNodes m U) (atNodes m V) φ (fun _ => a) p.2).sum = 0 := by
    apply List.sum_eq_zero
    intro t ht
    obtain ⟨p, -, rfl⟩ := List.mem_map.1 ht
    simp only [streamTerm, onTriangle, dX, dY, gradX, gradY]
    split <;> simp
  rw [e1, e2]; simp

/-- **C117, the streamline term amplifies.** For a positive step the second part of `divergence` is never positive on the diagonal: it is a negative
diffusion along the flow, where the method adds a positive one for stability. -/
theorem C117_stream_negative (dt : K) (hdt : 0 < dt) (m : Mesh K) (u v φ : Int → K) :
    -(dt * ((elemsId m).map fun p => streamTerm m u v φ φ p.2).sum) ≤ 0 ∧
    ∀ p ∈ elemsId m, streamTerm m u v φ φ p.2 ≠ 0 → -(dt * ((elemsId m).map fun p => streamTerm m u v φ φ p.2).sum) < 0 := by
  have hnn : ∀ p ∈ elemsId m, 0 ≤ streamTerm m u v φ φ p.2 := by
    intro p _
    simp only [streamTerm, onTriangle]
    split
    · exact mul_nonneg (by positivity) (mul_self_nonneg _)
    · exact le_refl _
  have hsum : 0 ≤ ((elemsId m).map fun p => streamTerm m u v φ φ p.2).sum :=
    List.sum_nonneg fun t ht => by obtain ⟨p, hp, rfl⟩ := List.mem_map.1 ht; exact hnn p hp
  refine ⟨by nlinarith, fun p hp hne => ?_⟩
  have : streamTerm m u v φ φ p.2 ≤ ((elemsId m).map fun p => streamTerm m u v φ φ p.2).sum :=
    List.single_le_sum (fun t ht => by obtain ⟨p, hp, rfl⟩ := List.mem_map.1 ht; exact hnn p hp) _ (List.mem_map.2 ⟨p, hp, rfl⟩)
  have h0 : 0 < streamTerm m u v φ φ p.2 := lt_of_le_of_ne (hnn p hp) hne.symm
  nlinarith

/-- **C117, gradient of solids.** On every consistent mesh without triangles and for every component: the form of the matrix is the sum over the tetrahedra of
`± ∫ φ ∂ψ`, with the sign of `volume()`, where `g id` is the gradient of `ψ` on the element `id`. -/
theorem C117_gradient_solid (nrm : Vec3 K → K) (c : Int) (hc : c = 0 ∨ c = 1 ∨ c = 2) (m : Mesh K) (hwf : m.WF) (hrt : m.nodes.RoundTrip)
    (hs : ∀ id e, m.elements.get? id = some e → e.elementType ≠ .triangle) :
    ∃ s, FemFlowOp.gradient nrm c 1 m = some s ∧ s.n = m.nodes.count ∧ s.kind = .sparse ∧ (∀ i < s.n, s.b i = 0) ∧
      ∀ (φ ψ : Int → K) (a : Int → K) (g : Int → Vec3 K),
        (∀ id e, m.elements.get? id = some e → e.elementType = .tetrahedron → ∀ x ∈ e.nodeIds, ψ x = a id + (g id).dot (place m x)) →
        s.form (nodal m φ) (nodal m ψ) = ((elemsId m).map fun p => solidGradientTerm c m φ (g p.1) p.2).sum := by
  obtain ⟨s, h1, h2, h3, h4, h5⟩ := assembleBy_spec (fun _ _ => elementGradient nrm c) .sparse m hwf hrt (by
    intro id e he ps M hps hM
    have hl := (mapM_length _ _ _ hps).1
    unfold elementGradient at hM
    split at hM
    · next ht => exact absurd ht (hs id e he)
    · rw [if_pos hc] at hM
      cases hM
      rw [← hl]; rfl
    · cases hM) (by
    intro id e he ps hps
    unfold elementGradient
    split
    · next ht => exact absurd ht (hs id e he)
    · rw [if_pos hc]; exact ⟨_, rfl⟩
    · exact ⟨_, rfl⟩)
  refine ⟨s, h1, h2, h3, h4, fun φ ψ a g hψ => ?_⟩
  rw [h5]
  congr 1
  apply List.map_congr_left
  intro p hp
  have he := (mem_elemsId.1 hp).2
  obtain ⟨id, ty, ids, fs⟩ := p
  simp only at he
  by_cases hty : ty = .tetrahedron ∧ ids.length = 4
  · obtain ⟨rfl, hl⟩ := hty
    match ids, hl with
    | [w, x, y, z], _ =>
    obtain ⟨o, ho⟩ := elem_nodes hwf he w (by simp)
    obtain ⟨p, hp⟩ := elem_nodes hwf he x (by simp)
    obtain ⟨q, hq⟩ := elem_nodes hwf he y (by simp)
    obtain ⟨r, hr⟩ := elem_nodes hwf he z (by simp)
    have hm : [w, x, y, z].mapM m.nodes.get? = some [o, p, q, r] := by simp [List.mapM_cons, ho, hp, hq, hr]
    have e0 := hψ id _ he rfl w (by simp)
    have e1 := hψ id _ he rfl x (by simp)
    have e2 := hψ id _ he rfl y (by simp)
    have e3 := hψ id _ he rfl z (by simp)
    simp only [place, ho, hp, hq, hr, Option.getD_some] at e0 e1 e2 e3
    simp only [elementTerm, hm, Option.bind_some, elementGradient, if_pos hc, solidGradientTerm, tetVolume, place, ho, hp, hq, hr, Option.getD_some]
    rw [elementForm_of]
    have hv : (fun i : Fin 4 => (List.map ψ [w, x, y, z]).getD i 0) = Fem.sample (Fem.tetV ⟨o, p, q, r⟩) (a id) (g id) := by
      funext i
      fin_cases i
      · exact e0
      · exact e1
      · exact e2
      · exact e3
    have hT := fun i => C61_tetrahedron_gradient (⟨o, p, q, r⟩ : Tet K) 0 (a id) (g id) i
    have hcomp : ∀ i, (Fem.tetGradient c 0 (⟨o, p, q, r⟩ : Tet K) *ᵥ Fem.sample (Fem.tetV ⟨o, p, q, r⟩) (a id) (g id)) i =
        (⟨o, p, q, r⟩ : Tet K).volume / 4 * component c (g id) := by
      intro i
      rcases hc with rfl | rfl | rfl
      · exact (hT i).1
      · exact (hT i).2.1
      · exact (hT i).2.2
    rw [hv]
    simp only [dotProduct, Fin.sum_univ_four, hcomp]
    simp
    ring
  · have hR : solidGradientTerm c m φ (g id) ⟨ty, ids, fs⟩ = 0 := by
      unfold solidGradientTerm
      split
      · next h3 h4 =>
        simp only at h3 h4
        subst h3 h4
        exact absurd ⟨rfl, rfl⟩ hty
      · rfl
    simp only [hR]
    unfold elementTerm
    split
    · next M hM =>
      obtain ⟨ps, hps, hM⟩ := Option.bind_eq_some_iff.1 hM
      have hl := (mapM_length _ _ _ hps).1
      exfalso
      unfold elementGradient at hM
      split at hM
      · next h3 => exact hs _ _ he h3
      · next h3 =>
        simp only at h3 hl
        exact hty ⟨h3, by simpa using hl.symm⟩
      · cases hM
    · rfl

/-- **C117, elements without a branch.** On a mesh without triangles and tetrahedra (quadrilaterals, prisms and hexahedra, say) `laplacian`, the three
`divergence` and `gradient` yield a zero matrix and a zero right-hand side, without an error. -/
theorem C117_no_branch (nrm : Vec3 K → K) (made : Int → Made K) (dt : K) (c : Int) (m : Mesh K) (hwf : m.WF) (hrt : m.nodes.RoundTrip)
    (hne : ∀ id e, m.elements.get? id = some e → e.elementType ≠ .triangle ∧ e.elementType ≠ .tetrahedron) (u v w : Nat → K) :
    ∀ o ∈ [FemFlowOp.laplacian nrm made 1 m, FemFlowOp.divergence m, FemFlowOp.divergence2 nrm dt 1 m u v, FemFlowOp.divergence3 dt 1 m u v w,
      FemFlowOp.gradient nrm c 1 m], ∃ s, o = some s ∧ s.n = m.nodes.count ∧ (∀ i < s.n, s.b i = 0) ∧ ∀ φ ψ : Int → K, s.form (nodal m φ) (nodal m ψ) = 0 := by
  have key : ∀ (mat : Int → Elem → ElementType → List (Vec3 K) → Option (Option (EMat K))) (kind : MatrixType),
      (∀ id e, m.elements.get? id = some e → ∀ ps, mat id e e.elementType ps = some none) →
      ∃ s, assembleBy mat 1 kind m = some s ∧ s.n = m.nodes.count ∧ (∀ i < s.n, s.b i = 0) ∧ ∀ φ ψ : Int → K, s.form (nodal m φ) (nodal m ψ) = 0 := by
    intro mat kind h
    obtain ⟨s, h1, h2, -, h4, h5⟩ := assembleBy_spec mat kind m hwf hrt
      (fun id e he ps M _ hM => by rw [h id e he ps] at hM; cases hM) (fun id e he ps _ => ⟨_, h id e he ps⟩)
    refine ⟨s, h1, h2, h4, fun φ ψ => ?_⟩
    rw [h5]
    apply List.sum_eq_zero
    intro t ht
    obtain ⟨p, hp, rfl⟩ := List.mem_map.1 ht
    have he := (mem_elemsId.1 hp).2
    unfold elementTerm
    cases hps : p.2.nodeIds.mapM m.nodes.get? with
    | none => rfl
    | some ps => simp only [Option.bind_some, h _ _ he ps]
  have sk : ∀ id e, m.elements.get? id = some e → ∀ ps, FemFlowOp.elementLaplacian nrm (made id) e.elementType ps = some none ∧
      elementConvection2 nrm dt m u v e e.elementType ps = some none ∧ elementConvection3 dt m u v w e e.elementType ps = some none ∧
      elementGradient nrm c e.elementType ps = some none := by
    intro id e he ps
    obtain ⟨a, b⟩ := hne id e he
    refine ⟨?_, ?_, ?_, ?_⟩
    · unfold FemFlowOp.elementLaplacian
      split
      · next h => exact absurd h a
      · next h => exact absurd h b
      · rfl
    · unfold elementConvection2
      split
      · next h => exact absurd h a
      · rfl
    · unfold elementConvection3
      split
      · next h => exact absurd h b
      · rfl
    · unfold elementGradient
      split
      · next h => exact absurd h a
      · next h => exact absurd h b
      · rfl
  intro o ho
  simp only [List.mem_cons, List.not_mem_nil, or_false] at ho
  rcases ho with rfl | rfl | rfl | rfl | rfl
  · exact key _ _ fun id e he ps => (sk id e he ps).1
  · exact key _ _ fun id e he ps => rfl
  · exact key _ _ fun id e he ps => (sk id e he ps).2.1
  · exact key _ _ fun id e he ps => (sk id e he ps).2.2.1
  · exact key _ _ fun id e he ps => (sk id e he ps).2.2.2

namespace FemFlowOp

theorem assembleBy_none (mat : Int → Elem → ElementType → List (Vec3 K) → Option (Option (EMat K))) (d : Nat) (kind : MatrixType) (m : Mesh K)
    (hwf : m.WF) (id : Int) (e : Elem) (he : m.elements.get? id = some e) (h : elementStamps (mat id e) d true m e = none) :
    assembleBy mat d kind m = none := by
  unfold assembleBy
  rw [loop_elemsId m hwf.elements (fun id e => elementStamps (mat id e) d true m e)]
  rw [collect_none (elemsId m) _ (id, e) (mem_elemsId.2 ⟨(hwf.elements.2 id).2 ⟨e, he⟩, he⟩) h]
  rfl

end FemFlowOp

/-- **C117, thickness.** For a triangle created with its type, and given no thickness since, `laplacian` uses a thickness that was never set. -/
theorem C117_thickness (nrm : Vec3 K → K) (made : Int → Made K) (d : Nat) (m : Mesh K) (hwf : m.WF) (id : Int) (e : Elem)
    (he : m.elements.get? id = some e) (ht : e.elementType = .triangle) (hl : e.nodeIds.length = 3) (hm : (made id).thickness = none) :
    FemFlowOp.laplacian nrm made d m = none := by
  refine assembleBy_none _ _ _ m hwf id e he ?_
  obtain ⟨ty, ids, fs⟩ := e
  simp only at ht hl
  subst ht
  obtain ⟨x, y, z, rfl⟩ := List.length_eq_three.1 hl
  obtain ⟨ps, hps, -⟩ := mapM_some m.nodes.get? [x, y, z] (elem_nodes hwf he)
  obtain ⟨p, q, r, rfl⟩ := List.length_eq_three.1 ((mapM_length _ _ _ hps).1)
  simp only [elementStamps, hps, Option.bind_eq_bind, Option.bind_some, FemFlowOp.elementLaplacian, hm, Option.bind_none]

/-- **C117, third component.** `gradient` along `z` (or any component but `x` and `y`) of a mesh with a triangle reads outside an empty matrix. -/
theorem C117_gradient_component (nrm : Vec3 K → K) (c : Int) (hc : ¬(c = 0 ∨ c = 1)) (d : Nat) (hd : 0 < d) (m : Mesh K) (hwf : m.WF)
    (hrt : m.nodes.RoundTrip) (id : Int) (e : Elem)
    (he : m.elements.get? id = some e) (ht : e.elementType = .triangle) (hl : e.nodeIds.length = 3) : FemFlowOp.gradient nrm c d m = none := by
  refine assembleBy_none _ _ _ m hwf id e he ?_
  obtain ⟨ty, ids, fs⟩ := e
  simp only at ht hl
  subst ht
  obtain ⟨x, y, z, rfl⟩ := List.length_eq_three.1 hl
  obtain ⟨ps, hps, -⟩ := mapM_some m.nodes.get? [x, y, z] (elem_nodes hwf he)
  obtain ⟨p, q, r, rfl⟩ := List.length_eq_three.1 ((mapM_length _ _ _ hps).1)
  obtain ⟨idx, hidx, -⟩ := mapM_some m.nodes.indexOf? [x, y, z] fun a ha => by
    obtain ⟨i, hi, -⟩ := hrt.2 a (hwf.elemNodes _ _ he a ha); exact ⟨i, hi⟩
  obtain ⟨i, j, k, rfl⟩ := List.length_eq_three.1 ((mapM_length _ _ _ hidx).1)
  simp only [elementStamps, hps, Option.bind_eq_bind, Option.bind_some, elementGradient, if_neg hc, hidx, if_true]
  unfold scatter
  refine collect_none _ _ (k, 2) (by simp) ?_
  simp only [Option.bind_eq_bind]
  rw [collect_none (List.range d) _ 0 (List.mem_range.2 hd) ?_]
  · rfl
  refine collect_none _ _ (k, 2) (by simp) ?_
  refine collect_none _ _ 0 (List.mem_range.2 hd) ?_
  simp [EMat.get?]

/-! ### The hypotheses are met -/

/-- Two counter-clockwise triangles of a square, with ids as `ddt` expects them. -/
def flowSquare : Mesh K :=
  { nodes := (((Cont.empty.add 2 ⟨0, 0, 0⟩).add 0 ⟨1, 0, 0⟩).add 3 ⟨1, 1, 0⟩).add 1 ⟨0, 1, 0⟩
    faces := Cont.empty
    elements := (Cont.empty.add 1 ⟨.triangle, [2, 0, 3], []⟩).add 0 ⟨.triangle, [2, 3, 1], []⟩
    nbBoundary := 0 }

theorem flowSquare_elements {id : Int} {e : Elem} (h : (flowSquare : Mesh K).elements.get? id = some e) :
    e = ⟨.triangle, [2, 0, 3], []⟩ ∨ e = ⟨.triangle, [2, 3, 1], []⟩ := by
  simp only [flowSquare, Cont.get?_add] at h
  split_ifs at h
  · simp only [Option.some.injEq] at h; exact Or.inr h.symm
  · simp only [Option.some.injEq] at h; exact Or.inl h.symm
  · simp [Cont.empty, Cont.get?] at h

theorem flowSquare_ok : (flowSquare : Mesh K).WF ∧ (flowSquare : Mesh K).nodes.RoundTrip := by
  refine ⟨⟨Cont.add_ok (Cont.add_ok (Cont.add_ok (Cont.add_ok Cont.empty_ok _ (by show (2 : Int) ∉ []; simp)) _
    (by show (0 : Int) ∉ [(2 : Int)]; simp)) _ (by show (3 : Int) ∉ [(2 : Int), 0]; simp)) _ (by show (1 : Int) ∉ [(2 : Int), 0, 3]; simp),
    Cont.empty_ok, Cont.add_ok (Cont.add_ok Cont.empty_ok _ (by decide)) _ (by decide), ?_, ?_⟩, ?_, ?_⟩
  · intro id e h
    simp [flowSquare, Cont.empty, Cont.get?] at h
  · intro id e h n hn
    rcases flowSquare_elements h with rfl | rfl <;> simp only [List.mem_cons, List.not_mem_nil, or_false] at hn <;>
      rcases hn with rfl | rfl | rfl <;> (show _ ∈ [(2 : Int), 0, 3, 1]; simp)
  · intro i id h
    have hi : i < 4 := (List.getElem?_eq_some_iff.1 h).1
    have h2 : i = 0 ∨ i = 1 ∨ i = 2 ∨ i = 3 := by omega
    rcases h2 with rfl | rfl | rfl | rfl <;> (cases h; rfl)
  · intro id h
    have h2 : id = 2 ∨ id = 0 ∨ id = 3 ∨ id = 1 := by
      change id ∈ [(2 : Int), 0, 3, 1] at h
      simpa using h
    rcases h2 with rfl | rfl | rfl | rfl
    · exact ⟨0, rfl, rfl⟩
    · exact ⟨1, rfl, rfl⟩
    · exact ⟨2, rfl, rfl⟩
    · exact ⟨3, rfl, rfl⟩

theorem flowSquare_flat : Flat (flowSquare : Mesh K) := by
  intro id p h
  simp only [flowSquare, Cont.get?_add] at h
  split_ifs at h <;> simp [Cont.empty, Cont.get?] at h <;> rw [← h]

theorem flowSquare_turn : turn (flowSquare : Mesh K) 2 0 3 = 1 ∧ turn (flowSquare : Mesh K) 2 3 1 = 1 := by
  constructor <;> simp [turn, place, flowSquare, Cont.get?_add, area2]

theorem flowSquare_sheet : Sheet (flowSquare : Mesh K) := by
  refine ⟨flowSquare_flat, fun id e h => ?_⟩
  rcases flowSquare_elements h with rfl | rfl
  · refine ⟨by simp, fun x y z _ hi => ?_⟩
    cases hi
    rw [flowSquare_turn.1]; exact one_ne_zero
  · refine ⟨by simp, fun x y z _ hi => ?_⟩
    cases hi
    rw [flowSquare_turn.2]; exact one_ne_zero

theorem flowSquare_ids : Contiguous (flowSquare : Mesh K) ∧ ∀ id ∈ (flowSquare : Mesh K).nodes.ids, 0 ≤ id ∧ id < (flowSquare : Mesh K).nodes.count := by
  refine ⟨?_, ?_⟩
  · show List.Perm [(1 : Int), 0] [0, 1]
    exact List.Perm.swap _ _ _
  · intro id h
    have h2 : id = 2 ∨ id = 0 ∨ id = 3 ∨ id = 1 := by
      change id ∈ [(2 : Int), 0, 3, 1] at h
      simpa using h
    show 0 ≤ id ∧ id < ((4 : Nat) : Int)
    rcases h2 with rfl | rfl | rfl | rfl <;> constructor <;> norm_num

/-- The hypotheses of the theorems on plane meshes; the orientation is `σ = 1`. -/
example : (flowSquare : Mesh ℚ).WF ∧ (flowSquare : Mesh ℚ).nodes.RoundTrip ∧ Sheet (flowSquare : Mesh ℚ) ∧
    Plates (flowSquare : Mesh ℚ) (fun _ => .set 2) (fun _ => 2) ∧
    (∀ id e x y z, (flowSquare : Mesh ℚ).elements.get? id = some e → e.elementType = .triangle → e.nodeIds = [x, y, z] →
      turn (flowSquare : Mesh ℚ) x y z = 1 * |turn (flowSquare : Mesh ℚ) x y z|) ∧
    Contiguous (flowSquare : Mesh ℚ) ∧ ∀ id ∈ (flowSquare : Mesh ℚ).nodes.ids, 0 ≤ id ∧ id < (flowSquare : Mesh ℚ).nodes.count := by
  refine ⟨flowSquare_ok.1, flowSquare_ok.2, flowSquare_sheet, ?_, ?_, flowSquare_ids⟩
  · intro id e h
    rcases flowSquare_elements h with rfl | rfl <;> exact ⟨by simp, fun _ => rfl⟩
  · intro id e x y z h _ hi
    rcases flowSquare_elements h with rfl | rfl
    · cases hi
      rw [flowSquare_turn.1]; simp
    · cases hi
      rw [flowSquare_turn.2]; simp

/-- On the square `∫ x ∂x = 1/2`, `∫ ∇x · ∇x = 1`, and with the velocity `(1, 0)` the streamline term of `x` is 1. -/
example : ((elemsId (flowSquare : Mesh ℚ)).map fun p => gradientTerm 0 flowSquare (fun id => (place (flowSquare : Mesh ℚ) id).x)
      (fun id => (place (flowSquare : Mesh ℚ) id).x) p.2).sum = 1 / 2 ∧
    ((elemsId (flowSquare : Mesh ℚ)).map fun p => diffusionTerm 1 flowSquare (fun id => (place (flowSquare : Mesh ℚ) id).x)
      (fun id => (place (flowSquare : Mesh ℚ) id).x) p.2).sum = -1 ∧
    ((elemsId (flowSquare : Mesh ℚ)).map fun p => streamTerm flowSquare (fun _ => 1) (fun _ => 0) (fun id => (place (flowSquare : Mesh ℚ) id).x)
      (fun id => (place (flowSquare : Mesh ℚ) id).x) p.2).sum = 1 := by decide +kernel

/-- `stressPlate` meets the hypothesis of `C117_ddt_element_ids`, `C117_thickness` and `C117_gradient_component`. -/
example : (0 : Nat) < (stressPlate : Mesh ℚ).elements.count ∧ (stressPlate : Mesh ℚ).elements.get? ((0 : Nat) : Int) = none ∧
    (stressPlate : Mesh ℚ).elements.get? 3 = some ⟨.triangle, [5, 9, 7], []⟩ ∧ (Made.typed : Made ℚ).thickness = none := by
  refine ⟨by decide, rfl, rfl, rfl⟩

/-- `stressBlock` meets the hypotheses of `C117_gradient_solid`, with the field `z`. -/
example : (∀ id e, (stressBlock : Mesh ℚ).elements.get? id = some e → e.elementType ≠ .triangle) ∧
    ((elemsId (stressBlock : Mesh ℚ)).map fun p => solidGradientTerm 2 (stressBlock : Mesh ℚ) (fun _ => 1) ⟨0, 0, 1⟩ p.2).sum ≠ 0 := by
  refine ⟨?_, by decide +kernel⟩
  intro id e h
  simp only [stressBlock, Cont.get?_add] at h
  split_ifs at h
  · simp only [Option.some.injEq] at h
    subst h
    simp
  · simp [Cont.empty, Cont.get?] at h

/-- A square with one quadrilateral, for `C117_no_branch`. -/
example : ∃ m : Mesh ℚ, m.WF ∧ m.nodes.RoundTrip ∧ m.elements.count = 1 ∧
    ∀ id e, m.elements.get? id = some e → e.elementType ≠ .triangle ∧ e.elementType ≠ .tetrahedron := by
  refine ⟨{ (flowSquare : Mesh ℚ) with elements := Cont.empty.add 0 ⟨.quadrilateral, [2, 0, 3, 1], []⟩ },
    ⟨(flowSquare_ok (K := ℚ)).1.nodes, (flowSquare_ok (K := ℚ)).1.faces, Cont.add_ok Cont.empty_ok _ (by decide), (flowSquare_ok (K := ℚ)).1.faceNodes, ?_⟩,
    (flowSquare_ok (K := ℚ)).2, rfl, ?_⟩
  · intro id e h n hn
    simp only [Cont.get?_add] at h
    split_ifs at h
    · cases h; exact hn
    · simp [Cont.empty, Cont.get?] at h
  · intro id e h
    simp only [Cont.get?_add] at h
    split_ifs at h
    · cases h; simp
    · simp [Cont.empty, Cont.get?] at h

end ENigMA
