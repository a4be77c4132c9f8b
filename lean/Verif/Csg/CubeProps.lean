import Verif.Csg.BspProps

/-!
# C59: the CSG cube
-/

set_option linter.unusedSectionVars false

namespace ENigMA
open Csg Csg.Bsp

variable {K : Type} [Field K] [LinearOrder K] [IsStrictOrderedRing K]

theorem cube_normal {nrm : Vec3 K → K} (hn : IsNorm nrm) {eps : K} (he : 0 ≤ eps) (a b c : Vec3 K)
    (l : List (Vec3 K)) {k : K} (u : Vec3 K) (hk : eps < k) (hu : u.normSq = 1)
    (h : Vec3.cross (b - a) (c - a) = k • u) :
    Polygon.normal nrm eps (a :: b :: c :: l) = u := by
  have hk0 : 0 < k := lt_of_le_of_lt he hk
  have h1 : nrm u = 1 := hn.eq_of_sq zero_le_one (by rw [hu]; ring)
  have h2 : nrm (k • u) = k := by rw [hn.smul, h1, abs_of_pos hk0, mul_one]
  simp only [Polygon.normal, Polygon.normalLoop]
  rw [h, h2, if_pos hk, smul_smul, inv_mul_cancel₀ hk0.ne', one_smul]

/-- The six faces, written out. -/
theorem cube_eq {nrm : Vec3 K → K} (hn : IsNorm nrm) {eps : K} (he : 0 ≤ eps) (c r : Vec3 K)
    (hx : 0 < r.x) (hy : 0 < r.y) (hz : 0 < r.z) (h1 : eps < 4 * r.x * r.y) (h2 : eps < 4 * r.y * r.z)
    (h3 : eps < 4 * r.z * r.x) :
    cube (Polygon.normal nrm eps) c r = [
      ⟨[⟨c.x - r.x, c.y - r.y, c.z - r.z⟩, ⟨c.x - r.x, c.y - r.y, c.z + r.z⟩, ⟨c.x - r.x, c.y + r.y, c.z + r.z⟩,
        ⟨c.x - r.x, c.y + r.y, c.z - r.z⟩, ⟨c.x - r.x, c.y - r.y, c.z - r.z⟩], ⟨-1, 0, 0⟩⟩,
      ⟨[⟨c.x + r.x, c.y - r.y, c.z - r.z⟩, ⟨c.x + r.x, c.y + r.y, c.z - r.z⟩, ⟨c.x + r.x, c.y + r.y, c.z + r.z⟩,
        ⟨c.x + r.x, c.y - r.y, c.z + r.z⟩, ⟨c.x + r.x, c.y - r.y, c.z - r.z⟩], ⟨1, 0, 0⟩⟩,
      ⟨[⟨c.x - r.x, c.y - r.y, c.z - r.z⟩, ⟨c.x + r.x, c.y - r.y, c.z - r.z⟩, ⟨c.x + r.x, c.y - r.y, c.z + r.z⟩,
        ⟨c.x - r.x, c.y - r.y, c.z + r.z⟩, ⟨c.x - r.x, c.y - r.y, c.z - r.z⟩], ⟨0, -1, 0⟩⟩,
      ⟨[⟨c.x - r.x, c.y + r.y, c.z - r.z⟩, ⟨c.x - r.x, c.y + r.y, c.z + r.z⟩, ⟨c.x + r.x, c.y + r.y, c.z + r.z⟩,
        ⟨c.x + r.x, c.y + r.y, c.z - r.z⟩, ⟨c.x - r.x, c.y + r.y, c.z - r.z⟩], ⟨0, 1, 0⟩⟩,
      ⟨[⟨c.x - r.x, c.y - r.y, c.z - r.z⟩, ⟨c.x - r.x, c.y + r.y, c.z - r.z⟩, ⟨c.x + r.x, c.y + r.y, c.z - r.z⟩,
        ⟨c.x + r.x, c.y - r.y, c.z - r.z⟩, ⟨c.x - r.x, c.y - r.y, c.z - r.z⟩], ⟨0, 0, -1⟩⟩,
      ⟨[⟨c.x - r.x, c.y - r.y, c.z + r.z⟩, ⟨c.x + r.x, c.y - r.y, c.z + r.z⟩, ⟨c.x + r.x, c.y + r.y, c.z + r.z⟩,
        ⟨c.x - r.x, c.y + r.y, c.z + r.z⟩, ⟨c.x - r.x, c.y - r.y, c.z + r.z⟩], ⟨0, 0, 1⟩⟩] := by
  have ne : ∀ a b : K, 0 < b → a + b ≠ a - b := fun a b h h' => by linarith
  have close : ∀ a b c d : Vec3 K, d ≠ a → closeExact [a, b, c, d] = [a, b, c, d, a] := by
    intro a b c d h
    simp [closeExact, h]
  simp only [cube, cubeFaces, List.map_cons, List.map_nil]
  simp only [cubeVertex, show (0 : Nat) &&& 1 = 0 from rfl, show (0 : Nat) &&& 2 = 0 from rfl,
    show (0 : Nat) &&& 4 = 0 from rfl, show (1 : Nat) &&& 1 = 1 from rfl, show (1 : Nat) &&& 2 = 0 from rfl,
    show (1 : Nat) &&& 4 = 0 from rfl, show (2 : Nat) &&& 1 = 0 from rfl, show (2 : Nat) &&& 2 = 2 from rfl,
    show (2 : Nat) &&& 4 = 0 from rfl, show (3 : Nat) &&& 1 = 1 from rfl, show (3 : Nat) &&& 2 = 2 from rfl,
    show (3 : Nat) &&& 4 = 0 from rfl, show (4 : Nat) &&& 1 = 0 from rfl, show (4 : Nat) &&& 2 = 0 from rfl,
    show (4 : Nat) &&& 4 = 4 from rfl, show (5 : Nat) &&& 1 = 1 from rfl, show (5 : Nat) &&& 2 = 0 from rfl,
    show (5 : Nat) &&& 4 = 4 from rfl, show (6 : Nat) &&& 1 = 0 from rfl, show (6 : Nat) &&& 2 = 2 from rfl,
    show (6 : Nat) &&& 4 = 4 from rfl, show (7 : Nat) &&& 1 = 1 from rfl, show (7 : Nat) &&& 2 = 2 from rfl,
    show (7 : Nat) &&& 4 = 4 from rfl, if_true, show ¬ ((1 : Nat) = 0) by decide, show ¬ ((2 : Nat) = 0) by decide,
    show ¬ ((4 : Nat) = 0) by decide, if_false, mul_one, mul_neg, ← sub_eq_add_neg]
  rw [close _ _ _ _ (by simp [ne _ _ hy]), close _ _ _ _ (by simp [ne _ _ hz]), close _ _ _ _ (by simp [ne _ _ hz]),
    close _ _ _ _ (by simp [ne _ _ hx]), close _ _ _ _ (by simp [ne _ _ hx]), close _ _ _ _ (by simp [ne _ _ hy])]
  rw [cube_normal hn he _ _ _ _ (k := 4 * r.y * r.z) ⟨-1, 0, 0⟩ h2 (by simp [Vec3.normSq, Vec3.dot])
      (by ext <;> simp <;> ring),
    cube_normal hn he _ _ _ _ (k := 4 * r.y * r.z) ⟨1, 0, 0⟩ h2 (by simp [Vec3.normSq, Vec3.dot])
      (by ext <;> simp <;> ring),
    cube_normal hn he _ _ _ _ (k := 4 * r.z * r.x) ⟨0, -1, 0⟩ h3 (by simp [Vec3.normSq, Vec3.dot])
      (by ext <;> simp <;> ring),
    cube_normal hn he _ _ _ _ (k := 4 * r.z * r.x) ⟨0, 1, 0⟩ h3 (by simp [Vec3.normSq, Vec3.dot])
      (by ext <;> simp <;> ring),
    cube_normal hn he _ _ _ _ (k := 4 * r.x * r.y) ⟨0, 0, -1⟩ h1 (by simp [Vec3.normSq, Vec3.dot])
      (by ext <;> simp <;> ring),
    cube_normal hn he _ _ _ _ (k := 4 * r.x * r.y) ⟨0, 0, 1⟩ h1 (by simp [Vec3.normSq, Vec3.dot])
      (by ext <;> simp <;> ring)]

/-- **C59.** The cube with centre `c` and half sides `r` is the box it should be: its six faces are proper, their
vector areas cancel (the surface is closed), face for face they have the areas and outward directions of the box's
sides, and the BSP tree built from them has the box as its inside and the complement of the open box as its
outside. -/
theorem C59_cube {nrm : Vec3 K → K} (hn : IsNorm nrm) (eps : K) (he : 0 ≤ eps) (c r : Vec3 K)
    (hx : 0 < r.x) (hy : 0 < r.y) (hz : 0 < r.z) (h1 : eps < 4 * r.x * r.y) (h2 : eps < 4 * r.y * r.z)
    (h3 : eps < 4 * r.z * r.x) :
    let ps := cube (Polygon.normal nrm eps) c r
    (∀ p ∈ ps, Proper p) ∧ areaSum ps = 0 ∧
    (ps.map fun p => (p.normal, vecArea2 p.vs)) =
      [(⟨-1, 0, 0⟩, ⟨-(8 * r.y * r.z), 0, 0⟩), (⟨1, 0, 0⟩, ⟨8 * r.y * r.z, 0, 0⟩),
       (⟨0, -1, 0⟩, ⟨0, -(8 * r.z * r.x), 0⟩), (⟨0, 1, 0⟩, ⟨0, 8 * r.z * r.x, 0⟩),
       (⟨0, 0, -1⟩, ⟨0, 0, -(8 * r.x * r.y)⟩), (⟨0, 0, 1⟩, ⟨0, 0, 8 * r.x * r.y⟩)] ∧
    ∃ t : Bsp K, (∀ fuel, 6 < fuel → ofPolygons 0 fuel ps = some t) ∧
      (∀ x, t.Inside x ↔ |x.x - c.x| ≤ r.x ∧ |x.y - c.y| ≤ r.y ∧ |x.z - c.z| ≤ r.z) ∧
      (∀ x, t.Outside x ↔ r.x ≤ |x.x - c.x| ∨ r.y ≤ |x.y - c.y| ∨ r.z ≤ |x.z - c.z|) := by
  intro ps
  have hps : ps = _ := cube_eq hn he c r hx hy hz h1 h2 h3
  have hareas : (ps.map fun p => (p.normal, vecArea2 p.vs)) =
      [(⟨-1, 0, 0⟩, ⟨-(8 * r.y * r.z), 0, 0⟩), (⟨1, 0, 0⟩, ⟨8 * r.y * r.z, 0, 0⟩),
       (⟨0, -1, 0⟩, ⟨0, -(8 * r.z * r.x), 0⟩), (⟨0, 1, 0⟩, ⟨0, 8 * r.z * r.x, 0⟩),
       (⟨0, 0, -1⟩, ⟨0, 0, -(8 * r.x * r.y)⟩), (⟨0, 0, 1⟩, ⟨0, 0, 8 * r.x * r.y⟩)] := by
    rw [hps]
    simp only [List.map_cons, List.map_nil, List.cons.injEq, Prod.mk.injEq, true_and, and_true]
    refine ⟨?_, ?_, ?_, ?_, ?_, ?_⟩ <;>
    · ext <;> simp [vecArea2] <;> ring
  have hproper : ∀ p ∈ ps, Proper p := by
    rw [hps]
    simp only [List.mem_cons, List.not_mem_nil, or_false, forall_eq_or_imp, forall_eq]
    refine ⟨?_, ?_, ?_, ?_, ?_, ?_⟩ <;>
    · refine ⟨by simp, fun h => by simpa using congrArg (fun v : Vec3 K => (v.x, v.y, v.z)) h, ?_⟩
      simp [Vec3.dot]
  refine ⟨hproper, ?_, hareas, ?_⟩
  · have : areaSum ps = ((ps.map fun p => (p.normal, vecArea2 p.vs)).map Prod.snd).sum := by
      simp [areaSum, List.map_map, Function.comp_def]
    rw [this, hareas]
    ext <;> simp
  · have hb : ps.Pairwise Behind := by
      rw [hps]
      simp only [List.pairwise_cons, List.mem_cons, List.not_mem_nil, or_false, forall_eq_or_imp, forall_eq,
        IsEmpty.forall_iff, implies_true, List.Pairwise.nil, and_true]
      have l1 : c.x - r.x < c.x + r.x := by linarith
      have l2 : c.y - r.y < c.y + r.y := by linarith
      have l3 : c.z - r.z < c.z + r.z := by linarith
      refine ⟨⟨?_, ?_, ?_, ?_, ?_⟩, ⟨?_, ?_, ?_, ?_⟩, ⟨?_, ?_, ?_⟩, ⟨?_, ?_⟩, ?_⟩ <;>
      · refine ⟨?_, ?_⟩
        · simp [Vec3.dot, l1.le, l2.le, l3.le]
          try linarith
        · simp [Vec3.dot, l1, l2, l3]
          try linarith
    have hlen : ps.length = 6 := by rw [hps]; rfl
    obtain ⟨t, t1, _, t3, t4⟩ := C46_convex_solid ps (by rw [hps]; simp) hproper hb
    refine ⟨t, by rw [hlen] at t1; exact t1, fun x => ?_, fun x => ?_⟩
    · rw [t3, hps]
      simp only [List.mem_cons, List.not_mem_nil, or_false, forall_eq_or_imp, forall_eq, Vec3.dot, abs_le]
      constructor
      · rintro ⟨a1, a2, a3, a4, a5, a6⟩
        have := a1.1; have := a2.1; have := a3.1; have := a4.1; have := a5.1; have := a6.1
        refine ⟨⟨?_, ?_⟩, ⟨?_, ?_⟩, ⟨?_, ?_⟩⟩ <;> linarith
      · rintro ⟨⟨a1, a2⟩, ⟨a3, a4⟩, ⟨a5, a6⟩⟩
        refine ⟨?_, ?_, ?_, ?_, ?_, ?_⟩ <;> (refine ⟨?_, ?_, ?_, ?_, ?_⟩ <;> linarith)
    · rw [t4, hps]
      simp only [List.mem_cons, List.not_mem_nil, or_false, exists_eq_or_imp, exists_eq_left, Vec3.dot, le_abs]
      constructor
      · rintro (h | h | h | h | h | h)
        · left; right; rcases h with h | h | h | h | h <;> linarith
        · left; left; rcases h with h | h | h | h | h <;> linarith
        · right; left; right; rcases h with h | h | h | h | h <;> linarith
        · right; left; left; rcases h with h | h | h | h | h <;> linarith
        · right; right; right; rcases h with h | h | h | h | h <;> linarith
        · right; right; left; rcases h with h | h | h | h | h <;> linarith
      · rintro ((h | h) | (h | h) | h | h)
        · right; left; left; linarith
        · left; left; linarith
        · right; right; right; left; left; linarith
        · right; right; left; left; linarith
        · right; right; right; right; right; left; linarith
        · right; right; right; right; left; left; linarith

/-- A box of sides 2, 4, 6 with the Euclidean norm over the reals meets the hypotheses. -/
example : IsNorm realNorm ∧ (0 : ℝ) ≤ 1 / 100 ∧ (1 / 100 : ℝ) < 4 * 1 * 2 ∧ (1 / 100 : ℝ) < 4 * 2 * 3 ∧
    (1 / 100 : ℝ) < 4 * 3 * 1 := ⟨isNorm_real, by norm_num, by norm_num, by norm_num, by norm_num⟩

/-! ### The cube, and two cubes combined -/

/-- Unit outward normals for the six faces, in the order of `cubeFaces`. -/
def cubeQ (c r : Vec3 ℚ) : List (Poly ℚ) :=
  cube (fun vs => match vs with
    | a :: b :: c :: _ => (1 / 4 : ℚ) • Vec3.cross (b - a) (c - b)
    | _ => 0) c r

/-- Two overlapping cubes meet the hypotheses of the boolean operations, and of the convex case. -/
example : (cubeQ 0 ⟨1, 1, 1⟩ ≠ [] ∧ cubeQ ⟨1, 1, 1⟩ ⟨1, 1, 1⟩ ≠ []) ∧
    (cubeQ 0 ⟨1, 1, 1⟩ ++ cubeQ ⟨1, 1, 1⟩ ⟨1, 1, 1⟩).all (fun p => decide (p.vs ≠ [] ∧ p.normal ≠ 0 ∧
      ∀ v ∈ p.vs, ∀ w ∈ p.vs, p.normal.dot v = p.normal.dot w)) = true := by decide +kernel

instance (p q : Poly ℚ) : Decidable (Behind p q) := by unfold Behind; infer_instance

example : (cubeQ 0 ⟨1, 1, 1⟩).Pairwise Behind := by decide +kernel

/-- The three operations on the two cubes: twice the area facing (1, 0, 0). Each face has area 4; the cubes overlap
in a unit cube, of whose two faces across x each lies on one of the cubes. -/
example :
    (add 0 40 (cubeQ 0 ⟨1, 1, 1⟩) (cubeQ ⟨1, 1, 1⟩ ⟨1, 1, 1⟩)).map (areaFacing ⟨1, 0, 0⟩) = some ⟨14, 0, 0⟩ ∧
    (subtract 0 40 (cubeQ 0 ⟨1, 1, 1⟩) (cubeQ ⟨1, 1, 1⟩ ⟨1, 1, 1⟩)).map (areaFacing ⟨1, 0, 0⟩) =
      some ⟨8, 0, 0⟩ ∧
    (intersect 0 40 (cubeQ 0 ⟨1, 1, 1⟩) (cubeQ ⟨1, 1, 1⟩ ⟨1, 1, 1⟩)).map (areaFacing ⟨1, 0, 0⟩) =
      some ⟨2, 0, 0⟩ := by decide +kernel

end ENigMA
