import Verif.Pde.FemDofs
import Verif.Pde.FemStructural

/-!
# Properties of the finite element operators of structural problems: C116

A displacement field is given by `φ id k`, the `k`-th component at the node `id`; `FemOp.nodalD m d φ` is its vector, and `Sys.form s v w` is
`vᵀ A w`, the virtual work. `planeEnergy` below is the virtual work of plane stress on a triangle, written with the gradients of the linear
interpolants; `C116_gradient` says what these gradients are.
-/

set_option linter.unusedSectionVars false
set_option autoImplicit false

namespace ENigMA
open Matrix FemOp FemStructuralOp

variable {K : Type} [Field K] [LinearOrder K] [IsStrictOrderedRing K]

namespace FemStructuralOp

/-- The place of a node. -/
def place (m : Mesh K) (id : Int) : Vec3 K := (m.nodes.get? id).getD 0

/-- Twice the signed area of a triangle of the plane. -/
def area2 (p q r : Vec3 K) : K := (q.x - p.x) * (r.y - p.y) - (r.x - p.x) * (q.y - p.y)

/-- The `x` derivative of the linear function with the values `f`, `g`, `h` at `p`, `q`, `r`. -/
def gradX (p q r : Vec3 K) (f g h : K) : K := ((g - f) * (r.y - p.y) - (h - f) * (q.y - p.y)) / area2 p q r

/-- The `y` derivative of that function. -/
def gradY (p q r : Vec3 K) (f g h : K) : K := ((h - f) * (q.x - p.x) - (g - f) * (r.x - p.x)) / area2 p q r

/-- The strains `εx, εy, γ` of a displacement field on a triangle of the plane. -/
def strain (p q r : Vec3 K) (u v w : Nat → K) : K × K × K :=
  (gradX p q r (u 0) (v 0) (w 0), gradY p q r (u 1) (v 1) (w 1), gradY p q r (u 0) (v 0) (w 0) + gradX p q r (u 1) (v 1) (w 1))

/-- `σ(a) : ε(b)` in plane stress. -/
def planeStress (E ν : K) (a b : K × K × K) : K :=
  E / (1 - ν * ν) * (a.1 * b.1 + ν * (a.1 * b.2.1 + a.2.1 * b.1) + a.2.1 * b.2.1 + (1 - ν) / 2 * (a.2.2 * b.2.2))

/-- The virtual work of an element of a plane mesh: thickness × area × stress : strain on triangles, nothing on other elements. -/
def planeEnergy (E ν th : K) (m : Mesh K) (φ ψ : Int → Nat → K) (e : Elem) : K :=
  match e.elementType, e.nodeIds with
  | .triangle, [x, y, z] =>
    th * (|area2 (place m x) (place m y) (place m z)| / 2) * planeStress E ν
      (strain (place m x) (place m y) (place m z) (φ x) (φ y) (φ z)) (strain (place m x) (place m y) (place m z) (ψ x) (ψ y) (ψ z))
  | _, _ => 0

/-- The elastic modulus of a material. -/
def modulus (mat : Material K) : K := (mat.property.find? 4).getD 0

/-- The Poisson coefficient of a material. -/
def poisson (mat : Material K) : K := (mat.property.find? 5).getD 0

theorem material_values (mat : Material K) :
    (mat.propertyValue 4).1 = modulus mat ∧ ((mat.propertyValue 4).2.propertyValue 5).1 = poisson mat := by
  unfold Material.propertyValue modulus poisson
  cases h4 : mat.property.find? 4 with
  | some v =>
    refine ⟨rfl, ?_⟩
    cases h5 : mat.property.find? 5 with
    | some w => simp [h5]
    | none => simp [h5]
  | none =>
    refine ⟨rfl, ?_⟩
    have e : (mat.property.insert 4 (0 : K)).find? 5 = mat.property.find? 5 := by
      simp [SMap.find?_insert]
    simp only [e]
    cases h5 : mat.property.find? 5 with
    | some w => simp
    | none => simp

theorem triArea_flat {nrm : Vec3 K → K} (hn : IsNorm nrm) (t : Tri K) (h0 : t.v0.z = 0) (h1 : t.v1.z = 0) (h2 : t.v2.z = 0) :
    Fem.triArea nrm t = |area2 t.v0 t.v1 t.v2| / 2 := by
  have hsq := Fem.triArea_sq hn t
  have hnn : 0 ≤ Fem.triArea nrm t := mul_nonneg (hn.nonneg _) (by norm_num)
  refine (pow_left_inj₀ hnn (by positivity) two_ne_zero).1 ?_
  rw [div_pow, sq_abs, pow_two (Fem.triArea nrm t)]
  simp only [Tri.rawNormal, Vec3.normSq, Vec3.dot, Vec3.cross, Vec3.sub_x, Vec3.sub_y, Vec3.sub_z, h0, h1, h2] at hsq
  unfold area2
  linear_combination hsq / 4

/-- The virtual work of one triangle. -/
theorem triStiffness_work {nrm : Vec3 K → K} (hn : IsNorm nrm) (E ν th : K) (p q r : Vec3 K) (hp : p.z = 0) (hq : q.z = 0) (hr : r.z = 0)
    (u v w u' v' w' : Nat → K) :
    elementForm (.of (Fem.triStiffness nrm E ν th ⟨p, q, r⟩)) [u 0, u 1, v 0, v 1, w 0, w 1] [u' 0, u' 1, v' 0, v' 1, w' 0, w' 1] =
      th * (|area2 p q r| / 2) * planeStress E ν (strain p q r u v w) (strain p q r u' v' w') := by
  have hA := triArea_flat hn ⟨p, q, r⟩ hp hq hr
  simp only at hA
  rw [elementForm_of]
  by_cases hD : area2 p q r = 0
  · have h0 : Fem.triArea nrm ⟨p, q, r⟩ = 0 := by rw [hA, hD]; simp
    have : Fem.triStiffness nrm E ν th ⟨p, q, r⟩ = 0 := by simp [Fem.triStiffness, h0]
    rw [this, hD]; simp
  · have hpos : 0 < Fem.triArea nrm ⟨p, q, r⟩ := by rw [hA]; positivity
    have hc : Fem.triRebuild nrm ⟨p, q, r⟩ = ⟨p.x, p.y, q.x, q.y, r.x, r.y⟩ := by
      simp [Fem.triRebuild, Fem.localXY, hp, hq, hr]
    have hvec : ∀ a b c : Nat → K, (fun i : Fin 6 => [a 0, a 1, b 0, b 1, c 0, c 1].getD i 0) =
        Fem.disp2 (Fem.triRebuild nrm ⟨p, q, r⟩)
          (a 0 - gradX p q r (a 0) (b 0) (c 0) * p.x - gradY p q r (a 0) (b 0) (c 0) * p.y)
          (a 1 - gradX p q r (a 1) (b 1) (c 1) * p.x - gradY p q r (a 1) (b 1) (c 1) * p.y)
          (gradX p q r (a 0) (b 0) (c 0)) (gradY p q r (a 0) (b 0) (c 0)) (gradX p q r (a 1) (b 1) (c 1)) (gradY p q r (a 1) (b 1) (c 1)) := by
      intro a b c
      have key : ∀ f g h : K, g = f - gradX p q r f g h * p.x - gradY p q r f g h * p.y + gradX p q r f g h * q.x + gradY p q r f g h * q.y ∧
          h = f - gradX p q r f g h * p.x - gradY p q r f g h * p.y + gradX p q r f g h * r.x + gradY p q r f g h * r.y := by
        intro f g h
        constructor
        · have : (g - f) * area2 p q r = ((g - f) * (r.y - p.y) - (h - f) * (q.y - p.y)) * (q.x - p.x) +
              ((h - f) * (q.x - p.x) - (g - f) * (r.x - p.x)) * (q.y - p.y) := by unfold area2; ring
          have : g - f = gradX p q r f g h * (q.x - p.x) + gradY p q r f g h * (q.y - p.y) := by
            unfold gradX gradY
            rw [eq_comm, div_mul_eq_mul_div, div_mul_eq_mul_div, ← add_div, ← this, mul_div_assoc, div_self hD, mul_one]
          linear_combination this
        · have : (h - f) * area2 p q r = ((g - f) * (r.y - p.y) - (h - f) * (q.y - p.y)) * (r.x - p.x) +
              ((h - f) * (q.x - p.x) - (g - f) * (r.x - p.x)) * (r.y - p.y) := by unfold area2; ring
          have : h - f = gradX p q r f g h * (r.x - p.x) + gradY p q r f g h * (r.y - p.y) := by
            unfold gradX gradY
            rw [eq_comm, div_mul_eq_mul_div, div_mul_eq_mul_div, ← add_div, ← this, mul_div_assoc, div_self hD, mul_one]
          linear_combination this
      obtain ⟨k1, k2⟩ := key (a 0) (b 0) (c 0)
      obtain ⟨k3, k4⟩ := key (a 1) (b 1) (c 1)
      rw [hc]
      funext i
      fin_cases i
      · show a 0 = _; simp [Fem.disp2]; ring
      · show a 1 = _; simp [Fem.disp2]; ring
      · show b 0 = _; simpa [Fem.disp2] using k1
      · show b 1 = _; simpa [Fem.disp2] using k3
      · show c 0 = _; simpa [Fem.disp2] using k2
      · show c 1 = _; simpa [Fem.disp2] using k4
    rw [hvec, hvec, (C27_triangle hn ⟨p, q, r⟩ hpos E ν th).2.2, hA]
    simp only [planeStress, strain]
    ring

/-- All nodes are in the plane `z = 0`. -/
def Flat (m : Mesh K) : Prop := ∀ id p, m.nodes.get? id = some p → p.z = 0

/-- A triangle mesh whose thicknesses `th` are known: no tetrahedra, and every triangle has a thickness. -/
def Plates (m : Mesh K) (made : Int → Made K) (th : Int → K) : Prop :=
  ∀ id e, m.elements.get? id = some e → e.elementType ≠ .tetrahedron ∧ (e.elementType = .triangle → (made id).thickness = some (th id))

theorem laplacian_eq (nrm : Vec3 K → K) (mat : Material K) (made : Int → Made K) (d : Nat) (m : Mesh K) :
    FemStructuralOp.laplacian nrm mat made d m = assembleD (fun id => elementStiffness nrm mat (made id)) d .sparseSymmetric m := rfl

theorem elementTerm_plane {nrm : Vec3 K → K} (hn : IsNorm nrm) (mat : Material K) (made : Made K) (th : K) (m : Mesh K) (hflat : Flat m)
    (e : Elem) (hnodes : ∀ x ∈ e.nodeIds, ∃ p, m.nodes.get? x = some p) (h1 : e.elementType ≠ .tetrahedron)
    (h2 : e.elementType = .triangle → made.thickness = some th) (φ ψ : Int → Nat → K) :
    elementTermD (elementStiffness nrm mat made) 2 m φ ψ e = planeEnergy (modulus mat) (poisson mat) th m φ ψ e := by
  obtain ⟨ty, ids, fs⟩ := e
  obtain ⟨a1, a2⟩ := material_values mat
  by_cases hty : ty = .triangle ∧ ids.length = 3
  · obtain ⟨rfl, hl⟩ := hty
    obtain ⟨x, y, z, rfl⟩ := List.length_eq_three.1 hl
    obtain ⟨p, hp⟩ := hnodes x (by simp)
    obtain ⟨q, hq⟩ := hnodes y (by simp)
    obtain ⟨r, hr⟩ := hnodes z (by simp)
    have hm : [x, y, z].mapM m.nodes.get? = some [p, q, r] := by simp [List.mapM_cons, hp, hq, hr]
    simp only [elementTermD, hm, Option.bind_some, elementStiffness, h2 rfl, Option.bind_eq_bind, Option.pure_def, a1, a2, planeEnergy,
      place, hp, hq, hr, Option.getD_some]
    have hd : ∀ φ : Int → Nat → K, dofs 2 φ [x, y, z] = [φ x 0, φ x 1, φ y 0, φ y 1, φ z 0, φ z 1] := fun φ => rfl
    rw [hd, hd]
    exact triStiffness_work hn _ _ _ p q r (hflat _ _ hp) (hflat _ _ hq) (hflat _ _ hr) (φ x) (φ y) (φ z) (ψ x) (ψ y) (ψ z)
  · have hR : planeEnergy (modulus mat) (poisson mat) th m φ ψ ⟨ty, ids, fs⟩ = 0 := by
      unfold planeEnergy
      split
      · next h3 h4 =>
        simp only at h3 h4
        subst h3 h4
        exact absurd ⟨rfl, rfl⟩ hty
      · rfl
    rw [hR]
    unfold elementTermD
    split
    · next M hM =>
      obtain ⟨ps, hps, hM⟩ := Option.bind_eq_some_iff.1 hM
      have hl := (mapM_length _ _ _ hps).1
      exfalso
      unfold elementStiffness at hM
      split at hM
      · next h3 =>
        simp only at h3 hl
        exact hty ⟨h3, by simpa using hl.symm⟩
      · next h3 => exact h1 h3
      · cases hM
    · rfl

/-- The coefficients of an affine displacement field of space: the `k`-th component is `c.k + g.k · p`. -/
structure Affine (K : Type) where
  c : Vec3 K
  gx : Vec3 K
  gy : Vec3 K
  gz : Vec3 K

/-- The value of an affine field. -/
def Affine.at_ (a : Affine K) (p : Vec3 K) (k : Nat) : K :=
  if k = 0 then a.c.x + a.gx.dot p else if k = 1 then a.c.y + a.gy.dot p else a.c.z + a.gz.dot p

/-- The work of the stresses of an isotropic material with the strains `a`, on the strains of `b`, per volume:
`2μ ε(a) : ε(b) + λ tr ε(a) tr ε(b)`, with the Lamé coefficients written with the modulus and the Poisson coefficient. -/
def isotropic (E ν : K) (a b : Affine K) : K :=
  let lam := E * ν / ((1 + ν) * (1 - 2 * ν))
  let mu := E / (2 * (1 + ν))
  2 * mu * (a.gx.x * b.gx.x + a.gy.y * b.gy.y + a.gz.z * b.gz.z) + lam * ((a.gx.x + a.gy.y + a.gz.z) * (b.gx.x + b.gy.y + b.gz.z)) +
    mu * ((a.gy.z + a.gz.y) * (b.gy.z + b.gz.y) + (a.gx.z + a.gz.x) * (b.gx.z + b.gz.x) + (a.gx.y + a.gy.x) * (b.gx.y + b.gy.x))

/-- `volume()` of a tetrahedron, zero for other elements. -/
def tetVolume (m : Mesh K) (e : Elem) : K :=
  match e.elementType, e.nodeIds with
  | .tetrahedron, [w, x, y, z] => (⟨place m w, place m x, place m y, place m z⟩ : Tet K).volume
  | _, _ => 0

/-- A mesh without triangles whose tetrahedra have a volume. -/
def Solid (m : Mesh K) : Prop :=
  ∀ id e, m.elements.get? id = some e → e.elementType ≠ .triangle ∧
    (e.elementType = .tetrahedron → e.nodeIds.length = 4 → tetVolume m e ≠ 0)

theorem dofs_affine (m : Mesh K) (φ : Int → Nat → K) (G : Affine K) {w x y z : Int} {o p q r : Vec3 K} (ho : m.nodes.get? w = some o)
    (hp : m.nodes.get? x = some p) (hq : m.nodes.get? y = some q) (hr : m.nodes.get? z = some r)
    (hG : ∀ x' ∈ [w, x, y, z], ∀ k, φ x' k = G.at_ (place m x') k) :
    (fun i : Fin 12 => (dofs 3 φ [w, x, y, z]).getD i 0) = Fem.disp3 ⟨o, p, q, r⟩ G.c G.gx G.gy G.gz := by
  have e0 := hG w (by simp)
  have e1 := hG x (by simp)
  have e2 := hG y (by simp)
  have e3 := hG z (by simp)
  simp only [place, ho, hp, hq, hr, Option.getD_some] at e0 e1 e2 e3
  funext i
  fin_cases i
  · show φ w 0 = _; rw [e0]; rfl
  · show φ w 1 = _; rw [e0]; rfl
  · show φ w 2 = _; rw [e0]; rfl
  · show φ x 0 = _; rw [e1]; rfl
  · show φ x 1 = _; rw [e1]; rfl
  · show φ x 2 = _; rw [e1]; rfl
  · show φ y 0 = _; rw [e2]; rfl
  · show φ y 1 = _; rw [e2]; rfl
  · show φ y 2 = _; rw [e2]; rfl
  · show φ z 0 = _; rw [e3]; rfl
  · show φ z 1 = _; rw [e3]; rfl
  · show φ z 2 = _; rw [e3]; rfl

/-- A tetrahedron does not resist rigid motions. -/
theorem elementTerm_rigid (nrm : Vec3 K → K) (mat : Material K) (made : Made K) (m : Mesh K)
    (e : Elem) (hnodes : ∀ x ∈ e.nodeIds, ∃ p, m.nodes.get? x = some p) (h1 : e.elementType ≠ .triangle)
    (h2 : e.elementType = .tetrahedron → e.nodeIds.length = 4 → tetVolume m e ≠ 0) (φ : Int → Nat → K) (c ω : Vec3 K) :
    elementTermD (elementStiffness nrm mat made) 3 m φ
      (fun id => (⟨c, ⟨0, -ω.z, ω.y⟩, ⟨ω.z, 0, -ω.x⟩, ⟨-ω.y, ω.x, 0⟩⟩ : Affine K).at_ (place m id)) e = 0 := by
  obtain ⟨ty, ids, fs⟩ := e
  unfold elementTermD
  split
  · next M hM0 =>
    obtain ⟨ps, hps, hM⟩ := Option.bind_eq_some_iff.1 hM0
    clear hM0
    have hl := (mapM_length _ _ _ hps).1
    unfold elementStiffness at hM
    split at hM
    · next h3 => exact absurd h3 h1
    · next h3 =>
      simp only at h3
      subst h3
      cases hM
      simp only [List.length_cons, List.length_nil] at hl
      match ids, hl with
      | [w, x, y, z], _ =>
      obtain ⟨o, ho⟩ := hnodes w (by simp)
      obtain ⟨p, hp⟩ := hnodes x (by simp)
      obtain ⟨q, hq⟩ := hnodes y (by simp)
      obtain ⟨r, hr⟩ := hnodes z (by simp)
      have hm : [w, x, y, z].mapM m.nodes.get? = some [o, p, q, r] := by simp [List.mapM_cons, ho, hp, hq, hr]
      rw [hm] at hps
      cases hps
      have hV := h2 rfl rfl
      simp only [tetVolume, place, ho, hp, hq, hr, Option.getD_some] at hV
      rw [elementForm_of, dofs_affine m _ _ ho hp hq hr (fun _ _ _ => rfl), (C27_tetrahedron_partial _ hV _ _).1]
      simp
    · cases hM
  · rfl

theorem elementTerm_solid (nrm : Vec3 K → K) (mat : Material K) (made : Made K) (m : Mesh K)
    (e : Elem) (hnodes : ∀ x ∈ e.nodeIds, ∃ p, m.nodes.get? x = some p) (h1 : e.elementType ≠ .triangle)
    (h2 : e.elementType = .tetrahedron → e.nodeIds.length = 4 → tetVolume m e ≠ 0)
    (hν : 1 + poisson mat ≠ 0) (hν' : 1 - 2 * poisson mat ≠ 0) (φ ψ : Int → Nat → K) (G H : Affine K)
    (hG : e.elementType = .tetrahedron → ∀ x ∈ e.nodeIds, ∀ k, φ x k = G.at_ (place m x) k)
    (hH : e.elementType = .tetrahedron → ∀ x ∈ e.nodeIds, ∀ k, ψ x k = H.at_ (place m x) k) :
    elementTermD (elementStiffness nrm mat made) 3 m φ ψ e = tetVolume m e * (isotropic (modulus mat) (poisson mat) G H -
      modulus mat * poisson mat / ((1 + poisson mat) * (1 - 2 * poisson mat)) * (G.gx.x * H.gz.z)) := by
  obtain ⟨ty, ids, fs⟩ := e
  obtain ⟨a1, a2⟩ := material_values mat
  by_cases hty : ty = .tetrahedron ∧ ids.length = 4
  · obtain ⟨rfl, hl⟩ := hty
    match ids, hl with
    | [w, x, y, z], _ =>
    obtain ⟨o, ho⟩ := hnodes w (by simp)
    obtain ⟨p, hp⟩ := hnodes x (by simp)
    obtain ⟨q, hq⟩ := hnodes y (by simp)
    obtain ⟨r, hr⟩ := hnodes z (by simp)
    have hm : [w, x, y, z].mapM m.nodes.get? = some [o, p, q, r] := by simp [List.mapM_cons, ho, hp, hq, hr]
    have hV := h2 rfl rfl
    simp only [tetVolume, place, ho, hp, hq, hr, Option.getD_some] at hV
    simp only [elementTermD, hm, Option.bind_some, elementStiffness, a1, a2, tetVolume, place, ho, hp, hq, hr, Option.getD_some]
    rw [elementForm_of]
    rw [dofs_affine m φ G ho hp hq hr (hG rfl), dofs_affine m ψ H ho hp hq hr (hH rfl), (C27_tetrahedron_partial _ hV (modulus mat) (poisson mat)).2]
    congr 1
    have e1 : modulus mat / (2 * (1 + poisson mat)) =
        modulus mat / ((1 + poisson mat) * (1 - 2 * poisson mat)) * (1 / 2 - poisson mat) := by field_simp
    have e2 : modulus mat * poisson mat / ((1 + poisson mat) * (1 - 2 * poisson mat)) =
        modulus mat / ((1 + poisson mat) * (1 - 2 * poisson mat)) * poisson mat := by ring
    simp only [isotropic, e1, e2, Fem.tetD]
    generalize modulus mat / ((1 + poisson mat) * (1 - 2 * poisson mat)) = c
    simp [Fem.strain3, mulVec, dotProduct, Fin.sum_univ_succ]
    ring
  · have hR : tetVolume m ⟨ty, ids, fs⟩ = 0 := by
      unfold tetVolume
      split
      · next h3 h4 =>
        simp only at h3 h4
        subst h3 h4
        exact absurd ⟨rfl, rfl⟩ hty
      · rfl
    rw [hR, zero_mul]
    unfold elementTermD
    split
    · next M hM =>
      obtain ⟨ps, hps, hM⟩ := Option.bind_eq_some_iff.1 hM
      have hl := (mapM_length _ _ _ hps).1
      exfalso
      unfold elementStiffness at hM
      split at hM
      · next h3 => exact h1 h3
      · next h3 =>
        simp only at h3 hl
        exact hty ⟨h3, by simpa using hl.symm⟩
      · cases hM
    · rfl

theorem solid_fits (nrm : Vec3 K → K) (mat : Material K) (made : Int → Made K) (m : Mesh K) (hsol : Solid m) :
    ∀ id e, m.elements.get? id = some e → Fits (elementStiffness nrm mat (made id)) 3 m e := by
  intro id e he ps M hps hM
  have hl := (mapM_length _ _ _ hps).1
  unfold elementStiffness at hM
  split at hM
  · next ht => exact absurd ht (hsol id e he).1
  · cases hM
    rw [← hl]; rfl
  · cases hM

theorem solid_defined (nrm : Vec3 K → K) (mat : Material K) (made : Int → Made K) (m : Mesh K) (hsol : Solid m) :
    ∀ id e, m.elements.get? id = some e → ∀ ps, e.nodeIds.mapM m.nodes.get? = some ps →
      ∃ o, elementStiffness nrm mat (made id) e.elementType ps = some o := by
  intro id e he ps hps
  unfold elementStiffness
  split
  · next ht => exact absurd ht (hsol id e he).1
  · exact ⟨_, rfl⟩
  · exact ⟨_, rfl⟩

theorem collect_none {α β : Type} (l : List α) (f : α → Option (List β)) (a : α) (ha : a ∈ l) (h : f a = none) : collect (l.map f) = none := by
  by_contra hc
  obtain ⟨out, ho⟩ := Option.ne_none_iff_exists'.1 hc
  obtain ⟨g, hg, -⟩ := collect_some _ _ _ ho
  have := hg a ha
  rw [h] at this
  cases this

theorem laplacian_none (nrm : Vec3 K → K) (mat : Material K) (made : Int → Made K) (d : Nat) (m : Mesh K) (hwf : m.WF) (id : Int) (e : Elem)
    (he : m.elements.get? id = some e) (h : FemOp.elementStamps (elementStiffness nrm mat (made id)) d true m e = none) :
    FemStructuralOp.laplacian nrm mat made d m = none := by
  rw [FemStructuralOp.laplacian_eq]
  unfold assembleD
  rw [loop_elemsId m hwf.elements (fun id e => elementStamps (elementStiffness nrm mat (made id)) d true m e)]
  rw [collect_none (elemsId m) _ (id, e) (mem_elemsId.2 ⟨(hwf.elements.2 id).2 ⟨e, he⟩, he⟩) h]
  rfl

end FemStructuralOp

/-- **C116, the gradients.** For a triangle with non-zero area `gradX`, `gradY` are the coefficients of the one linear function with the given
values at the corners. -/
theorem C116_gradient (p q r : Vec3 K) (h : area2 p q r ≠ 0) (a gx gy : K) :
    gradX p q r (a + gx * p.x + gy * p.y) (a + gx * q.x + gy * q.y) (a + gx * r.x + gy * r.y) = gx ∧
    gradY p q r (a + gx * p.x + gy * p.y) (a + gx * q.x + gy * q.y) (a + gx * r.x + gy * r.y) = gy := by
  unfold gradX gradY
  rw [div_eq_iff h, div_eq_iff h]
  unfold area2
  constructor <;> ring

/-- **C116, plane stress.** On every consistent mesh of the plane `z = 0` made of triangles (other elements but tetrahedra contribute nothing),
with any ids, for every material and known thicknesses: with two degrees of freedom, `laplacian` yields a system with two rows per node and zero
right-hand side, and the virtual work `φᵀ A ψ` of any two displacement fields is the sum over the triangles of
thickness × area × stress(φ) : strain(ψ). -/
theorem C116_plane {nrm : Vec3 K → K} (hn : IsNorm nrm) (mat : Material K) (made : Int → Made K) (th : Int → K) (m : Mesh K) (hwf : m.WF)
    (hrt : m.nodes.RoundTrip) (hflat : Flat m) (hpl : Plates m made th) :
    ∃ s, FemStructuralOp.laplacian nrm mat made 2 m = some s ∧ s.n = m.nodes.count * 2 ∧ s.kind = .sparseSymmetric ∧ (∀ i < s.n, s.b i = 0) ∧
      ∀ φ ψ : Int → Nat → K, s.form (nodalD m 2 φ) (nodalD m 2 ψ) =
        ((elemsId m).map fun p => planeEnergy (modulus mat) (poisson mat) (th p.1) m φ ψ p.2).sum := by
  obtain ⟨s, h1, h2, h3, h4, h5⟩ := assembleD_spec (fun id => elementStiffness nrm mat (made id)) 2 (by norm_num) .sparseSymmetric m hwf hrt (by
    intro id e he ps M hps hM
    have hl := (mapM_length _ _ _ hps).1
    unfold elementStiffness at hM
    split at hM
    · next ht =>
      rw [(hpl id e he).2 ht] at hM
      cases hM
      rw [← hl]; rfl
    · next ht => exact absurd ht (hpl id e he).1
    · cases hM) (by
    intro id e he ps hps
    unfold elementStiffness
    split
    · next ht => rw [(hpl id e he).2 ht]; exact ⟨_, rfl⟩
    · exact ⟨_, rfl⟩
    · exact ⟨_, rfl⟩)
  refine ⟨s, h1, h2, h3, h4, fun φ ψ => ?_⟩
  rw [h5]
  congr 1
  apply List.map_congr_left
  intro p hp
  have he := (mem_elemsId.1 hp).2
  exact elementTerm_plane hn mat (made p.1) (th p.1) m hflat p.2 (fun x hx => (hwf.nodes.2 x).1 (hwf.elemNodes _ _ he x hx))
    (hpl _ _ he).1 (hpl _ _ he).2 φ ψ

/-- **C116, symmetry and rigid motions.** The assembled matrix is symmetric, and translations and infinitesimal rotations of the whole mesh need no
force: every row vanishes on them. -/
theorem C116_plane_rigid {nrm : Vec3 K → K} (hn : IsNorm nrm) (mat : Material K) (made : Int → Made K) (th : Int → K) (m : Mesh K) (hwf : m.WF)
    (hrt : m.nodes.RoundTrip) (hflat : Flat m) (hpl : Plates m made th) (s : Sys K) (hs : FemStructuralOp.laplacian nrm mat made 2 m = some s) :
    (∀ i < s.n, ∀ j < s.n, s.A i j = s.A j i) ∧
    ∀ a b ω : K, ∀ i < s.n,
      s.row (nodalD m 2 fun id k => if k = 0 then a - ω * (place m id).y else b + ω * (place m id).x) i = 0 := by
  obtain ⟨s', hs', h2, -, -, h5⟩ := C116_plane hn mat made th m hwf hrt hflat hpl
  rw [hs] at hs'
  cases hs'
  constructor
  · intro i hi j hj
    obtain ⟨x, hx⟩ := row_of_lt m 2 i (h2 ▸ hi)
    obtain ⟨y, hy⟩ := row_of_lt m 2 j (h2 ▸ hj)
    rw [entryD_eq m hwf 2 (by norm_num) s h2 i j x y hi hj hx hy, entryD_eq m hwf 2 (by norm_num) s h2 j i y x hj hi hy hx, h5, h5]
    congr 1
    apply List.map_congr_left
    intro p _
    unfold planeEnergy
    split
    · simp only [planeStress]; ring
    · rfl
  · intro a b ω i hi
    obtain ⟨x, hx⟩ := row_of_lt m 2 i (h2 ▸ hi)
    rw [rowD_eq m hwf 2 (by norm_num) s h2 i x hi hx, h5]
    apply List.sum_eq_zero
    intro z hz
    obtain ⟨p, -, rfl⟩ := List.mem_map.1 hz
    unfold planeEnergy
    split
    · next x y z _ _ =>
      by_cases hD : area2 (place m x) (place m y) (place m z) = 0
      · rw [hD]; simp
      · have g1 := C116_gradient _ _ _ hD a 0 (-ω)
        have g2 := C116_gradient _ _ _ hD b ω 0
        simp only [zero_mul, add_zero, neg_mul, ← sub_eq_add_neg] at g1 g2
        have e0 : ∀ u v w : Nat → K, planeStress (modulus mat) (poisson mat) (strain (place m x) (place m y) (place m z) u v w)
            (0, 0, 0) = 0 := by intro u v w; simp [planeStress]
        have e1 : strain (place m x) (place m y) (place m z) (fun k => if k = 0 then a - ω * (place m x).y else b + ω * (place m x).x)
            (fun k => if k = 0 then a - ω * (place m y).y else b + ω * (place m y).x)
            (fun k => if k = 0 then a - ω * (place m z).y else b + ω * (place m z).x) = (0, 0, 0) := by
          simp only [strain, if_true, one_ne_zero, if_false, g1.1, g1.2, g2.1, g2.2]
          simp
        rw [e1, e0, mul_zero]
    · rfl

/-- **C116, the energy.** With a positive modulus, a Poisson coefficient between `-1` and `1` and positive thicknesses, the elastic energy of every
displacement is non-negative, and it is zero exactly when no triangle with positive area is strained. -/
theorem C116_plane_energy {nrm : Vec3 K → K} (hn : IsNorm nrm) (mat : Material K) (made : Int → Made K) (th : Int → K) (m : Mesh K) (hwf : m.WF)
    (hrt : m.nodes.RoundTrip) (hflat : Flat m) (hpl : Plates m made th) (s : Sys K) (hs : FemStructuralOp.laplacian nrm mat made 2 m = some s)
    (hE : 0 < modulus mat) (hν : -1 < poisson mat ∧ poisson mat < 1) (hth : ∀ id, 0 < th id) (φ : Int → Nat → K) :
    0 ≤ s.form (nodalD m 2 φ) (nodalD m 2 φ) ∧
    (s.form (nodalD m 2 φ) (nodalD m 2 φ) = 0 ↔ ∀ id e x y z, m.elements.get? id = some e → e.elementType = .triangle → e.nodeIds = [x, y, z] →
      area2 (place m x) (place m y) (place m z) ≠ 0 →
        strain (place m x) (place m y) (place m z) (φ x) (φ y) (φ z) = (0, 0, 0)) := by
  obtain ⟨s', hs', h2, -, -, h5⟩ := C116_plane hn mat made th m hwf hrt hflat hpl
  rw [hs] at hs'
  cases hs'
  rw [h5]
  obtain ⟨ν1, ν2⟩ := hν
  have hc : 0 < 1 - poisson mat * poisson mat := by nlinarith
  have quad : ∀ a : K × K × K, 0 ≤ planeStress (modulus mat) (poisson mat) a a ∧
      (planeStress (modulus mat) (poisson mat) a a = 0 → a = (0, 0, 0)) := by
    rintro ⟨a, b, c⟩
    have e : planeStress (modulus mat) (poisson mat) (a, b, c) (a, b, c) = modulus mat / (1 - poisson mat * poisson mat) *
        ((1 + poisson mat) / 2 * (a + b) ^ 2 + (1 - poisson mat) / 2 * (a - b) ^ 2 + (1 - poisson mat) / 2 * c ^ 2) := by
      simp only [planeStress]; ring
    have hk : 0 < modulus mat / (1 - poisson mat * poisson mat) := div_pos hE hc
    have p1 : 0 < (1 + poisson mat) / 2 := by linarith
    have p2 : 0 < (1 - poisson mat) / 2 := by linarith
    rw [e]
    constructor
    · positivity
    · intro h
      have h := (mul_eq_zero.1 h).resolve_left hk.ne'
      have q1 : 0 ≤ (1 + poisson mat) / 2 * (a + b) ^ 2 := by positivity
      have q2 : 0 ≤ (1 - poisson mat) / 2 * (a - b) ^ 2 := by positivity
      have q3 : 0 ≤ (1 - poisson mat) / 2 * c ^ 2 := by positivity
      have r1 : (1 + poisson mat) / 2 * (a + b) ^ 2 = 0 := by linarith
      have r2 : (1 - poisson mat) / 2 * (a - b) ^ 2 = 0 := by linarith
      have r3 : (1 - poisson mat) / 2 * c ^ 2 = 0 := by linarith
      have s1 := pow_eq_zero_iff (two_ne_zero) |>.1 ((mul_eq_zero.1 r1).resolve_left p1.ne')
      have s2 := pow_eq_zero_iff (two_ne_zero) |>.1 ((mul_eq_zero.1 r2).resolve_left p2.ne')
      have s3 := pow_eq_zero_iff (two_ne_zero) |>.1 ((mul_eq_zero.1 r3).resolve_left p2.ne')
      have ha : a = 0 := by linarith
      have hb : b = 0 := by linarith
      rw [ha, hb, s3]
  have hnn : ∀ x ∈ (elemsId m).map fun p => planeEnergy (modulus mat) (poisson mat) (th p.1) m φ φ p.2, 0 ≤ x := by
    intro x hx
    obtain ⟨p, hp, rfl⟩ := List.mem_map.1 hx
    unfold planeEnergy
    split
    · exact mul_nonneg (mul_nonneg (hth _).le (by positivity)) (quad _).1
    · exact le_rfl
  refine ⟨List.sum_nonneg hnn, ?_⟩
  constructor
  · intro h0 id e x y z he ht hi hD
    have hmem : (id, e) ∈ elemsId m := mem_elemsId.2 ⟨(hwf.elements.2 id).2 ⟨e, he⟩, he⟩
    have hz := List.all_zero_of_le_zero_le_of_sum_eq_zero hnn h0 (List.mem_map_of_mem hmem)
    obtain ⟨ty, ids, fs⟩ := e
    simp only at ht hi
    subst ht hi
    simp only [planeEnergy] at hz
    have hpos : 0 < th id * (|area2 (place m x) (place m y) (place m z)| / 2) := mul_pos (hth id) (by positivity)
    exact (quad _).2 ((mul_eq_zero.1 hz).resolve_left hpos.ne')
  · intro h
    apply List.sum_eq_zero
    intro x hx
    obtain ⟨p, hp, rfl⟩ := List.mem_map.1 hx
    unfold planeEnergy
    split
    · next x y z h3 h4 =>
      by_cases hD : area2 (place m x) (place m y) (place m z) = 0
      · rw [hD]; simp
      · rw [h p.1 p.2 x y z (mem_elemsId.1 hp).2 h3 h4 hD]
        simp [planeStress]
    · rfl

/-- **C116, solids, the part that holds.** On every consistent mesh without triangles whose tetrahedra are not degenerate, with any ids and any
material: with three degrees of freedom, `laplacian` yields a system with three rows per node and zero right-hand side, for displacement fields
that are affine on every tetrahedron (with the coefficients `G id`, `H id`) the virtual
work `φᵀ A ψ` is the sum over the tetrahedra of volume × (the work of an isotropic material less `λ ∂x φx ∂z ψz`), and the rows vanish on
translations and infinitesimal rotations. Missing: that the last term is absent (`C116_solid_asymmetric`). -/
theorem C116_solid_partial (nrm : Vec3 K → K) (mat : Material K) (made : Int → Made K) (m : Mesh K) (hwf : m.WF)
    (hrt : m.nodes.RoundTrip) (hsol : Solid m) (h1 : 1 + poisson mat ≠ 0) (h2 : 1 - 2 * poisson mat ≠ 0) :
    ∃ s, FemStructuralOp.laplacian nrm mat made 3 m = some s ∧ s.n = m.nodes.count * 3 ∧ s.kind = .sparseSymmetric ∧ (∀ i < s.n, s.b i = 0) ∧
      ∀ (φ ψ : Int → Nat → K) (G H : Int → Affine K),
        (∀ id e, m.elements.get? id = some e → e.elementType = .tetrahedron → ∀ x ∈ e.nodeIds, ∀ k,
          φ x k = (G id).at_ (place m x) k ∧ ψ x k = (H id).at_ (place m x) k) →
        s.form (nodalD m 3 φ) (nodalD m 3 ψ) = ((elemsId m).map fun p => tetVolume m p.2 * (isotropic (modulus mat) (poisson mat) (G p.1) (H p.1) -
          modulus mat * poisson mat / ((1 + poisson mat) * (1 - 2 * poisson mat)) * ((G p.1).gx.x * (H p.1).gz.z))).sum := by
  obtain ⟨s, g1, g2, g3, g4, g5⟩ := assembleD_spec (fun id => elementStiffness nrm mat (made id)) 3 (by norm_num) .sparseSymmetric m hwf hrt
    (solid_fits nrm mat made m hsol) (solid_defined nrm mat made m hsol)
  refine ⟨s, g1, g2, g3, g4, fun φ ψ G H hGH => ?_⟩
  rw [g5]
  congr 1
  apply List.map_congr_left
  intro p hp
  have he := (mem_elemsId.1 hp).2
  exact elementTerm_solid nrm mat (made p.1) m p.2 (fun x hx => (hwf.nodes.2 x).1 (hwf.elemNodes _ _ he x hx)) (hsol _ _ he).1 (hsol _ _ he).2 h1 h2
    φ ψ (G p.1) (H p.1) (fun ht x hx k => (hGH _ _ he ht x hx k).1) (fun ht x hx k => (hGH _ _ he ht x hx k).2)

/-- **C116 fails for solids.** On every such mesh with non-zero total volume, for every material with non-zero modulus and Poisson coefficient, the
matrix is not symmetric, although the system declares it to be and is then solved with conjugate gradients from one of its triangles. -/
theorem C116_solid_asymmetric (nrm : Vec3 K → K) (mat : Material K) (made : Int → Made K) (m : Mesh K) (hwf : m.WF)
    (hrt : m.nodes.RoundTrip) (hsol : Solid m) (h1 : 1 + poisson mat ≠ 0) (h2 : 1 - 2 * poisson mat ≠ 0) (hE : modulus mat ≠ 0)
    (hν : poisson mat ≠ 0) (hV : ((elemsId m).map fun p => tetVolume m p.2).sum ≠ 0) :
    ∃ s, FemStructuralOp.laplacian nrm mat made 3 m = some s ∧ s.kind = .sparseSymmetric ∧ ∃ i < s.n, ∃ j < s.n, s.A i j ≠ s.A j i := by
  obtain ⟨s, g1, g2, g3, -, g5⟩ := C116_solid_partial nrm mat made m hwf hrt hsol h1 h2
  refine ⟨s, g1, g3, ?_⟩
  by_contra hno
  push Not at hno
  have hsym : ∀ v w : Nat → K, s.form v w = s.form w v := by
    intro v w
    unfold Sys.form
    rw [Finset.sum_comm]
    apply Finset.sum_congr rfl
    intro j hj
    apply Finset.sum_congr rfl
    intro i hi
    rw [hno i (Finset.mem_range.1 hi) j (Finset.mem_range.1 hj)]
    ring
  let X : Affine K := ⟨0, ⟨1, 0, 0⟩, 0, 0⟩
  let Z : Affine K := ⟨0, 0, 0, ⟨0, 0, 1⟩⟩
  let c := modulus mat * poisson mat / ((1 + poisson mat) * (1 - 2 * poisson mat))
  have hc : c ≠ 0 := div_ne_zero (mul_ne_zero hE hν) (mul_ne_zero h1 h2)
  have a := g5 (fun x => X.at_ (place m x)) (fun x => Z.at_ (place m x)) (fun _ => X) (fun _ => Z) (fun _ _ _ _ x _ k => ⟨rfl, rfl⟩)
  have b := g5 (fun x => Z.at_ (place m x)) (fun x => X.at_ (place m x)) (fun _ => Z) (fun _ => X) (fun _ _ _ _ x _ k => ⟨rfl, rfl⟩)
  rw [hsym, b] at a
  have e1 : isotropic (modulus mat) (poisson mat) X Z - c * (X.gx.x * Z.gz.z) = 0 := by
    simp [isotropic, X, Z, c]
  have e2 : isotropic (modulus mat) (poisson mat) Z X - c * (Z.gx.x * X.gz.z) = c := by
    simp [isotropic, X, Z, c]
  change ((elemsId m).map fun p => tetVolume m p.2 * (isotropic (modulus mat) (poisson mat) Z X - c * (Z.gx.x * X.gz.z))).sum =
    ((elemsId m).map fun p => tetVolume m p.2 * (isotropic (modulus mat) (poisson mat) X Z - c * (X.gx.x * Z.gz.z))).sum at a
  simp only [e1, e2, mul_zero, List.map_const', List.sum_replicate, smul_zero] at a
  rw [List.sum_map_mul_right] at a
  exact (mul_ne_zero hV hc) a

/-- **C116, solids, rigid motions.** Translations and infinitesimal rotations need no force. -/
theorem C116_solid_rigid (nrm : Vec3 K → K) (mat : Material K) (made : Int → Made K) (m : Mesh K) (hwf : m.WF)
    (hrt : m.nodes.RoundTrip) (hsol : Solid m) (s : Sys K) (hs : FemStructuralOp.laplacian nrm mat made 3 m = some s) :
    ∀ c w : Vec3 K, ∀ i < s.n, s.row (nodalD m 3 fun id => (⟨c, ⟨0, -w.z, w.y⟩, ⟨w.z, 0, -w.x⟩, ⟨-w.y, w.x, 0⟩⟩ : Affine K).at_ (place m id)) i = 0 := by
  obtain ⟨s', g1, g2, -, -, g5⟩ := assembleD_spec (fun id => elementStiffness nrm mat (made id)) 3 (by norm_num) .sparseSymmetric m hwf hrt
    (solid_fits nrm mat made m hsol) (solid_defined nrm mat made m hsol)
  rw [← FemStructuralOp.laplacian_eq, hs] at g1
  cases g1
  intro c w i hi
  obtain ⟨x, hx⟩ := row_of_lt m 3 i (g2 ▸ hi)
  rw [rowD_eq m hwf 3 (by norm_num) s g2 i x hi hx, g5]
  apply List.sum_eq_zero
  intro z hz
  obtain ⟨p, hp, rfl⟩ := List.mem_map.1 hz
  have he := (mem_elemsId.1 hp).2
  exact elementTerm_rigid nrm mat (made p.1) m p.2 (fun x hx => (hwf.nodes.2 x).1 (hwf.elemNodes _ _ he x hx)) (hsol _ _ he).1 (hsol _ _ he).2 _ c w

/-- **C116, thickness.** A triangle made with `CMshElement(ET_TRIANGLE)`, as all the meshers do, has no thickness until `setThickness` is called:
whatever else is in the mesh, `laplacian` then reads an indeterminate value. -/
theorem C116_thickness (nrm : Vec3 K → K) (mat : Material K) (made : Int → Made K) (d : Nat) (m : Mesh K) (hwf : m.WF) (id : Int) (e : Elem)
    (he : m.elements.get? id = some e) (ht : e.elementType = .triangle) (hl : e.nodeIds.length = 3) (hm : made id = .typed) :
    FemStructuralOp.laplacian nrm mat made d m = none := by
  refine laplacian_none nrm mat made d m hwf id e he ?_
  obtain ⟨ty, ids, fs⟩ := e
  simp only at ht hl
  subst ht
  obtain ⟨x, y, z, rfl⟩ := List.length_eq_three.1 hl
  obtain ⟨ps, hps, -⟩ := mapM_some m.nodes.get? [x, y, z] fun a ha => (hwf.nodes.2 a).1 (hwf.elemNodes _ _ he a ha)
  obtain ⟨p, q, r, rfl⟩ := List.length_eq_three.1 ((mapM_length _ _ _ hps).1)
  simp only [elementStamps, hps, Option.bind_eq_bind, Option.bind_some, elementStiffness, hm, Made.thickness, Option.bind_none]

/-- **C116, three degrees of freedom.** A mesh with a triangle cannot be used with three or more degrees of freedom: the loops read outside the
6 × 6 matrix of the triangle. -/
theorem C116_dofs (nrm : Vec3 K → K) (mat : Material K) (made : Int → Made K) (d : Nat) (hd : 3 ≤ d) (m : Mesh K) (hwf : m.WF)
    (hrt : m.nodes.RoundTrip) (id : Int) (e : Elem) (he : m.elements.get? id = some e) (ht : e.elementType = .triangle)
    (hl : e.nodeIds.length = 3) : FemStructuralOp.laplacian nrm mat made d m = none := by
  refine laplacian_none nrm mat made d m hwf id e he ?_
  obtain ⟨ty, ids, fs⟩ := e
  simp only at ht hl
  subst ht
  obtain ⟨x, y, z, rfl⟩ := List.length_eq_three.1 hl
  obtain ⟨ps, hps, -⟩ := mapM_some m.nodes.get? [x, y, z] fun a ha => (hwf.nodes.2 a).1 (hwf.elemNodes _ _ he a ha)
  obtain ⟨p, q, r, rfl⟩ := List.length_eq_three.1 ((mapM_length _ _ _ hps).1)
  obtain ⟨idx, hidx, -⟩ := mapM_some m.nodes.indexOf? [x, y, z] fun a ha => by
    obtain ⟨i, hi, -⟩ := hrt.2 a (hwf.elemNodes _ _ he a ha); exact ⟨i, hi⟩
  obtain ⟨i, j, k, rfl⟩ := List.length_eq_three.1 ((mapM_length _ _ _ hidx).1)
  simp only [elementStamps, hps, Option.bind_eq_bind, Option.bind_some, elementStiffness]
  cases (made id).thickness with
  | none => rfl
  | some th =>
    simp only [Option.bind_some, Option.pure_def, hidx, if_true]
    unfold scatter
    refine collect_none _ _ (k, 2) (by simp) ?_
    simp only [Option.bind_eq_bind]
    rw [collect_none (List.range d) _ 0 (List.mem_range.2 (by omega)) ?_]
    · rfl
    refine collect_none _ _ (k, 2) (by simp) ?_
    refine collect_none _ _ 0 (List.mem_range.2 (by omega)) ?_
    have : ¬(2 * d + 0 < 6) := by omega
    simp [EMat.get?, EMat.of]
    omega

/-! ### The hypotheses are met -/

/-- A triangle with ids out of order, in the plane. -/
def stressPlate : Mesh K :=
  { nodes := ((Cont.empty.add 5 ⟨0, 0, 0⟩).add 9 ⟨2, 0, 0⟩).add 7 ⟨0, 1, 0⟩
    faces := Cont.empty
    elements := Cont.empty.add 3 ⟨.triangle, [5, 9, 7], []⟩
    nbBoundary := 0 }

theorem stressPlate_ok : (stressPlate : Mesh K).WF ∧ (stressPlate : Mesh K).nodes.RoundTrip := by
  refine ⟨⟨Cont.add_ok (Cont.add_ok (Cont.add_ok Cont.empty_ok _ (by show (5 : Int) ∉ []; simp)) _ (by show (9 : Int) ∉ [(5 : Int)]; simp)) _
    (by show (7 : Int) ∉ [(5 : Int), 9]; simp), Cont.empty_ok, Cont.add_ok Cont.empty_ok _ (by decide), ?_, ?_⟩, ?_, ?_⟩
  · intro id e h
    simp [stressPlate, Cont.empty, Cont.get?] at h
  · intro id e h n hn
    simp only [stressPlate, Cont.get?_add] at h
    split_ifs at h
    · simp only [Option.some.injEq] at h
      subst h
      simp only [List.mem_cons, List.not_mem_nil, or_false] at hn
      rcases hn with rfl | rfl | rfl <;> (show _ ∈ [(5 : Int), 9, 7]; simp)
    · simp [Cont.empty, Cont.get?] at h
  · intro i id h
    have hi : i < 3 := (List.getElem?_eq_some_iff.1 h).1
    have h2 : i = 0 ∨ i = 1 ∨ i = 2 := by omega
    rcases h2 with rfl | rfl | rfl <;> (cases h; rfl)
  · intro id h
    have h2 : id = 5 ∨ id = 9 ∨ id = 7 := by
      change id ∈ [(5 : Int), 9, 7] at h
      simpa using h
    rcases h2 with rfl | rfl | rfl
    · exact ⟨0, rfl, rfl⟩
    · exact ⟨1, rfl, rfl⟩
    · exact ⟨2, rfl, rfl⟩

/-- The hypotheses of the theorems on plane stress, for a mesh whose triangle is made with `CMshElement()` (thickness 1) and a material with modulus
2 and Poisson coefficient 1/2. -/
example : (stressPlate : Mesh ℚ).WF ∧ (stressPlate : Mesh ℚ).nodes.RoundTrip ∧ Flat (stressPlate : Mesh ℚ) ∧
    Plates (stressPlate : Mesh ℚ) (fun _ => .plain) (fun _ => 1) ∧ modulus (((Material.empty).addProperty 4 2).addProperty 5 (1 / 2) : Material ℚ) = 2 ∧
    poisson (((Material.empty).addProperty 4 2).addProperty 5 (1 / 2) : Material ℚ) = 1 / 2 := by
  refine ⟨stressPlate_ok.1, stressPlate_ok.2, ?_, ?_, by decide +kernel, by decide +kernel⟩
  · intro id p h
    simp only [stressPlate, Cont.get?_add] at h
    split_ifs at h <;> simp [Cont.empty, Cont.get?] at h <;> rw [← h]
  · intro id e h
    simp only [stressPlate, Cont.get?_add] at h
    split_ifs at h
    · simp only [Option.some.injEq] at h
      subst h
      exact ⟨by simp, fun _ => rfl⟩
    · simp [Cont.empty, Cont.get?] at h

/-- The energy of stretching `stressPlate` along `x`: thickness × area × E / (1 - ν²), with area 1. -/
example : planeEnergy (2 : ℚ) (1 / 2) 1 stressPlate (fun id k => if k = 0 then (place stressPlate id).x else 0)
    (fun id k => if k = 0 then (place stressPlate id).x else 0) ⟨.triangle, [5, 9, 7], []⟩ = 8 / 3 := by decide +kernel

/-- A tetrahedron of space. -/
def stressBlock : Mesh K :=
  { nodes := (((Cont.empty.add 5 ⟨0, 0, 1⟩).add 9 ⟨2, 0, 0⟩).add 7 ⟨0, 1, 0⟩).add 1 ⟨0, 0, 0⟩
    faces := Cont.empty
    elements := Cont.empty.add 3 ⟨.tetrahedron, [5, 9, 7, 1], []⟩
    nbBoundary := 0 }

theorem stressBlock_ok : (stressBlock : Mesh K).WF ∧ (stressBlock : Mesh K).nodes.RoundTrip := by
  refine ⟨⟨Cont.add_ok (Cont.add_ok (Cont.add_ok (Cont.add_ok Cont.empty_ok _ (by show (5 : Int) ∉ []; simp)) _
    (by show (9 : Int) ∉ [(5 : Int)]; simp)) _ (by show (7 : Int) ∉ [(5 : Int), 9]; simp)) _ (by show (1 : Int) ∉ [(5 : Int), 9, 7]; simp),
    Cont.empty_ok, Cont.add_ok Cont.empty_ok _ (by decide), ?_, ?_⟩, ?_, ?_⟩
  · intro id e h
    simp [stressBlock, Cont.empty, Cont.get?] at h
  · intro id e h n hn
    simp only [stressBlock, Cont.get?_add] at h
    split_ifs at h
    · simp only [Option.some.injEq] at h
      subst h
      simp only [List.mem_cons, List.not_mem_nil, or_false] at hn
      rcases hn with rfl | rfl | rfl | rfl <;> (show _ ∈ [(5 : Int), 9, 7, 1]; simp)
    · simp [Cont.empty, Cont.get?] at h
  · intro i id h
    have hi : i < 4 := (List.getElem?_eq_some_iff.1 h).1
    have h2 : i = 0 ∨ i = 1 ∨ i = 2 ∨ i = 3 := by omega
    rcases h2 with rfl | rfl | rfl | rfl <;> (cases h; rfl)
  · intro id h
    have h2 : id = 5 ∨ id = 9 ∨ id = 7 ∨ id = 1 := by
      change id ∈ [(5 : Int), 9, 7, 1] at h
      simpa using h
    rcases h2 with rfl | rfl | rfl | rfl
    · exact ⟨0, rfl, rfl⟩
    · exact ⟨1, rfl, rfl⟩
    · exact ⟨2, rfl, rfl⟩
    · exact ⟨3, rfl, rfl⟩

/-- The hypotheses of the theorems on solids. -/
example : (stressBlock : Mesh ℚ).WF ∧ (stressBlock : Mesh ℚ).nodes.RoundTrip ∧ Solid (stressBlock : Mesh ℚ) ∧
    ((elemsId (stressBlock : Mesh ℚ)).map fun p => tetVolume (stressBlock : Mesh ℚ) p.2).sum ≠ 0 := by
  refine ⟨stressBlock_ok.1, stressBlock_ok.2, ?_, by decide +kernel⟩
  intro id e h
  simp only [stressBlock, Cont.get?_add] at h
  split_ifs at h
  · simp only [Option.some.injEq] at h
    subst h
    exact ⟨by simp, fun _ _ => by decide +kernel⟩
  · simp [Cont.empty, Cont.get?] at h

/-- The hypotheses of `C116_thickness` and `C116_dofs`. -/
example : (stressPlate : Mesh ℚ).elements.get? 3 = some ⟨.triangle, [5, 9, 7], []⟩ := rfl

end ENigMA
