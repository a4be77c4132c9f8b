import Verif.Mesh.TriangleMesherLemmas
import Verif.Mesh.TriangleMesherSpec
import Verif.Mesh.CleanupProps
import Verif.Mesh.MeshCheck
import Verif.Mesh.BasicMesher
import Verif.Mesh.MergeNodesProps
import Mathlib.Data.ZMod.Basic
import Mathlib.Tactic.Linarith
import Mathlib.Tactic.LinearCombination
import Mathlib.Tactic.FieldSimp
import Mathlib.Analysis.Real.Pi.Bounds

/-!
# Properties of the triangle mesher
-/

set_option linter.unusedSectionVars false
set_option autoImplicit false

namespace ENigMA
namespace TriMesher

variable {K : Type} [Field K] [LinearOrder K] [IsStrictOrderedRing K]

/-! ### The mesh that is returned -/

/-- The position of a node. -/
def posOf (nodes : Cont (Vec3 K)) (id : Int) : Vec3 K := (nodes.get? id).getD 0

/-- The corners of a triangle. -/
def triPos (nodes : Cont (Vec3 K)) (t : Int × Int × Int) : Tri K := ⟨posOf nodes t.1, posOf nodes t.2.1, posOf nodes t.2.2⟩

theorem filterMap_of_map {α β : Type} (g : α → Option β) : ∀ (l : List α) (r : List β), l.map g = r.map some → l.filterMap g = r := by
  intro l
  induction l with
  | nil => intro r h; cases r <;> simp_all
  | cons a t ih =>
    intro r h
    cases r with
    | nil => simp at h
    | cons b r =>
      simp only [List.map_cons, List.cons.injEq] at h
      rw [List.filterMap_cons_some h.1, ih r h.2]

theorem MInv.wf {m : Mesh K} {tris : List (Int × Int × Int)} (h : MInv m tris) : m.WF := by
  refine ⟨h.nodes, by rw [h.faces]; exact Cont.empty_ok, h.els.ok, ?_, ?_⟩
  · intro id f hf
    rw [h.faces] at hf
    simp [Cont.empty, Cont.get?] at hf
  · intro id e he n hn
    have hid : 0 ≤ id := by
      by_contra hneg
      rw [h.els.neg id (by omega)] at he
      simp at he
    obtain ⟨k, rfl⟩ := Int.eq_ofNat_of_zero_le hid
    rw [h.els.get] at he
    rw [List.getElem?_map, Option.map_eq_some_iff] at he
    obtain ⟨t, ht, rfl⟩ := he
    obtain ⟨a, b, c, g1, g2, g3, -⟩ := h.up t (List.mem_of_getElem? ht)
    simp only [triElem, List.mem_cons, List.not_mem_nil, or_false] at hn
    rw [h.nodes.2]
    rcases hn with rfl | rfl | rfl
    · exact ⟨a, g1⟩
    · exact ⟨b, g2⟩
    · exact ⟨c, g3⟩

/-- What the clean-up at the end of `generate` returns. -/
theorem finish_spec [FloorRing K] {mc : HashGrid.Machine K} {tol : K} {m m1 m2 m3 : Mesh K} {tris : List (Int × Int × Int)} (h : MInv m tris)
    (h1 : m.removeDanglingNodes = some m1) (h2 : m1.renumber = some m2) (h3 : m2.generateFaces mc tol = some m3) :
    m3.elements.ids = Mesh.iota tris.length ∧ m3.nodes.Ok ∧ (∃ n, m3.nodes.ids = Mesh.iota n) ∧
    (∀ (k : Nat) t, tris[k]? = some t → m3.triAt k = some (triPos m.nodes t)) ∧
    (∀ id p, m3.nodes.get? id = some p → ∃ id', m.nodes.get? id' = some p ∧ ∃ t ∈ tris, id' = t.1 ∨ id' = t.2.1 ∨ id' = t.2.2) := by
  have hwf := h.wf
  obtain ⟨m1', a1, a2, a3, a4, a5, a6, a7⟩ := C11_removeDanglingNodes m hwf
  rw [h1] at a1
  obtain rfl : m1 = m1' := by simpa using a1
  have hel : ∀ id e, m.elements.get? id = some e → ∃ (k : Nat) (t : Int × Int × Int), id = k ∧ tris[k]? = some t ∧ e = triElem t := by
    intro id e he
    have hid : 0 ≤ id := by
      by_contra hneg
      rw [h.els.neg id (by omega)] at he
      simp at he
    obtain ⟨k, rfl⟩ := Int.eq_ofNat_of_zero_le hid
    rw [h.els.get, List.getElem?_map, Option.map_eq_some_iff] at he
    obtain ⟨t, ht, rfl⟩ := he
    exact ⟨k, t, rfl, ht, rfl⟩
  obtain ⟨m2', b1, b2, b3, b4, b5, b6, b7, b8, φ, ψ, c1, c2, c3⟩ := C12_renumber_partial m1 a7 (by
    intro id e he f hf
    rw [a3] at he
    obtain ⟨k, t, -, -, rfl⟩ := hel id e he
    simp [triElem] at hf)
  rw [h2] at b1
  obtain rfl : m2 = m2' := by simpa using b1
  have hids1 : m1.elements.ids = Mesh.iota tris.length := by rw [a3, h.els.ids]; simp
  have hcount : m1.elements.count = tris.length := by unfold Cont.count; rw [hids1]; simp [Mesh.iota]
  have hget2 : ∀ (k : Nat) t, tris[k]? = some t → m2.elements.get? k = some ⟨.triangle, [φ t.1, φ t.2.1, φ t.2.2], []⟩ ∧
      m2.nodes.get? (φ t.1) = m.nodes.get? t.1 ∧ m2.nodes.get? (φ t.2.1) = m.nodes.get? t.2.1 ∧ m2.nodes.get? (φ t.2.2) = m.nodes.get? t.2.2 := by
    intro k t ht
    have hk : k < tris.length := (List.getElem?_eq_some_iff.1 ht).1
    have hme : m.elements.get? k = some (triElem t) := by rw [h.els.get, List.getElem?_map, ht]; rfl
    obtain ⟨d1, d2⟩ := c3 k k (triElem t) (by unfold Cont.idAt?; rw [hids1]; simp [Mesh.iota, hk]) (by rw [a3]; exact hme)
    have hu : ∀ n, n ∈ (triElem t).nodeIds → m1.nodes.get? n = m.nodes.get? n := by
      intro n hn
      obtain ⟨v, hv⟩ := (hwf.nodes.2 n).1 (hwf.elemNodes k _ hme n hn)
      rw [hv, (a4 n v).2 ⟨hv, Or.inr ⟨k, _, hme, hn⟩⟩]
    refine ⟨d1, ?_⟩
    simp only [Mesh.coords, triElem, List.map_cons, List.map_nil, List.cons.injEq, and_true] at d2
    exact ⟨d2.1.trans (hu _ (by simp [triElem])), d2.2.1.trans (hu _ (by simp [triElem])), d2.2.2.trans (hu _ (by simp [triElem]))⟩
  have hids2 : m2.elements.ids = Mesh.iota tris.length := by rw [b4, hcount]
  have hfull : ∀ id ∈ m2.elements.ids, ∃ e, m2.elements.get? id = some e ∧ e.elementType.nbNodes ≤ e.nodeIds.length := by
    intro id hid
    rw [hids2] at hid
    simp only [Mesh.iota, List.mem_map, List.mem_range] at hid
    obtain ⟨k, hk, rfl⟩ := hid
    obtain ⟨t, ht⟩ : ∃ t, tris[k]? = some t := ⟨_, List.getElem?_eq_getElem hk⟩
    exact ⟨_, (hget2 k t ht).1, by simp [ElementType.nbNodes]⟩
  obtain ⟨els', faces', e1, -, e3, -, -, -, e7⟩ := Mesh.genFacesLoop_spec m2.elements m2.elements.ids (by rw [hids2]; exact Mesh.iota_nodup _) hfull
    m2.elements Cont.empty [] (fun _ _ => rfl) Mesh.filled_empty
  unfold Mesh.generateFaces at h3
  rw [e1] at h3
  simp only [Option.bind_eq_bind, Option.bind_some, Option.bind_eq_some_iff] at h3
  obtain ⟨centers, -, g, -, faces, -, h3⟩ := h3
  simp only [Option.pure_def, Option.some.injEq] at h3
  subst h3
  refine ⟨by show els'.ids = _; rw [e3, hids2], b8.nodes, ⟨_, b2⟩, ?_, ?_⟩
  · intro k t ht
    have hk : k < tris.length := (List.getElem?_eq_some_iff.1 ht).1
    obtain ⟨q1, q2, q3, q4⟩ := hget2 k t ht
    have hmem : (k : Int) ∈ m2.elements.ids := by
      rw [hids2]; simp only [Mesh.iota, List.mem_map, List.mem_range]; exact ⟨k, hk, rfl⟩
    obtain ⟨u, v, huv⟩ := List.append_of_mem hmem
    have hnew := e7 u v k huv _ q1
    obtain ⟨a, b, c, p1, p2, p3, -⟩ := h.up t (List.mem_of_getElem? ht)
    unfold Mesh.triAt
    simp only [hnew, q2, q3, q4, p1, p2, p3, triPos, posOf]
    rfl
  · intro id p hp
    have hid : id ∈ m2.nodes.ids := (b8.nodes.2 id).2 ⟨p, hp⟩
    rw [b2] at hid
    simp only [Mesh.iota, List.mem_map, List.mem_range] at hid
    obtain ⟨k, hk, rfl⟩ := hid
    obtain ⟨n, hn⟩ : ∃ n, m1.nodes.idAt? k = some n := ⟨_, List.getElem?_eq_getElem hk⟩
    have hp' : m2.nodes.get? (k : Int) = some p := hp
    rw [(c1 k n hn).2] at hp'
    obtain ⟨r1, r2⟩ := (a4 n p).1 hp'
    refine ⟨n, r1, ?_⟩
    rcases r2 with ⟨i, f, hf, -⟩ | ⟨i, e, he, hn2⟩
    · rw [h.faces] at hf; simp [Cont.empty, Cont.get?] at hf
    · obtain ⟨k', t, -, ht, rfl⟩ := hel i e he
      exact ⟨t, List.mem_of_getElem? ht, by simpa [triElem] using hn2⟩

/-! ### Crossing a triangle -/

theorem orient_swap (a b p : Vec3 K) : orient b a p = - orient a b p := by unfold orient; ring

theorem orient_sum (a b c p : Vec3 K) : orient a b p + orient b c p + orient c a p = orient a b c := by unfold orient; ring

theorem orient_bary (a b c p : Vec3 K) : orient b c p * (a.y - p.y) + orient c a p * (b.y - p.y) + orient a b p * (c.y - p.y) = 0 := by
  unfold orient; ring

theorem crosses_swap (p a b : Vec3 K) : CrossesRay p (a, b) ↔ CrossesRay p (b, a) := by unfold CrossesRay; exact or_comm

theorem covers_of_level {a b p : Vec3 K} (h1 : a.y ≤ p.y) (h2 : p.y < b.y) (h : orient a b p = 0) : Covers (a, b) p := by
  have hd : 0 < b.y - a.y := by linarith
  refine ⟨(p.y - a.y) / (b.y - a.y), div_nonneg (by linarith) hd.le, by rw [div_le_one hd]; linarith, ?_, ?_⟩
  · unfold orient at h
    field_simp
    linear_combination (-1 : K) * h
  · field_simp
    ring

theorem covers_swap {a b p : Vec3 K} (h : Covers (a, b) p) : Covers (b, a) p := by
  obtain ⟨t, h1, h2, h3, h4⟩ := h
  exact ⟨1 - t, by linarith, by linarith, by simp only at *; linear_combination h3, by simp only at *; linear_combination h4⟩

theorem covers_of_bary {a b c p : Vec3 K} (hd : 0 < orient a b c) (h1 : orient b c p = 0) (h2 : 0 ≤ orient a b p) (h3 : 0 ≤ orient c a p) : Covers (b, c) p := by
  have hs := orient_sum a b c p
  refine ⟨orient a b p / orient a b c, div_nonneg h2 hd.le, by rw [div_le_one hd]; linarith, ?_, ?_⟩
  · have hx : orient b c p * a.x + orient c a p * b.x + orient a b p * c.x = orient a b c * p.x := by unfold orient; ring
    rw [h1] at hx hs
    simp only
    field_simp
    linear_combination (-1 : K) * hx + (b.x) * hs
  · have hx : orient b c p * a.y + orient c a p * b.y + orient a b p * c.y = orient a b c * p.y := by unfold orient; ring
    rw [h1] at hx hs
    simp only
    field_simp
    linear_combination (-1 : K) * hx + (b.y) * hs

/-- One or zero. -/
def ind (p : Prop) [Decidable p] : ZMod 2 := if p then 1 else 0

theorem ind_congr {p q : Prop} [Decidable p] [Decidable q] (h : p ↔ q) : ind p = ind q := by unfold ind; simp [h]

theorem ind_pos {p : Prop} [Decidable p] (h : p) : ind p = 1 := if_pos h
theorem ind_neg {p : Prop} [Decidable p] (h : ¬ p) : ind p = 0 := if_neg h

theorem zmod_two (x : ZMod 2) : x + x = 0 := by
  have : (2 : ZMod 2) = 0 := rfl
  rw [← two_mul, this, zero_mul]

theorem two_neg {x y D : K} (h1 : x < 0) (h2 : y < 0) {z u v w : K} (hu : 0 < u) (hv : v ≤ 0) (hw : w ≤ 0) (hD : z + y + x = D)
    (h : z * u + y * v + x * w = 0) : D < 0 := by
  have h3 : 0 ≤ y * v := mul_nonneg_of_nonpos_of_nonpos h2.le hv
  have h4 : 0 ≤ x * w := mul_nonneg_of_nonpos_of_nonpos h1.le hw
  have h5 : z * u ≤ 0 := by linarith
  have h6 : z ≤ 0 := by
    by_contra hz
    push Not at hz
    have := mul_pos hz hu
    linarith
  linarith

theorem two_pos' {x y : K} (h1 : 0 < x) (h2 : 0 < y) {z u v w : K} (hu : 0 < u) (hv : v ≤ 0) (hw : w ≤ 0)
    (h : z * u + y * v + x * w = 0) : 0 ≤ z := by
  have h3 : y * v ≤ 0 := mul_nonpos_of_nonneg_of_nonpos h2.le hv
  have h4 : x * w ≤ 0 := mul_nonpos_of_nonneg_of_nonpos h1.le hw
  by_contra hz
  push Not at hz
  have := mul_neg_of_neg_of_pos hz hu
  linarith

/-- The ray from a point that is level with or above two corners and below the third. -/
theorem one_above {a b c p : Vec3 K} (hd : 0 < orient a b c) (ha : p.y < a.y) (hb : b.y ≤ p.y) (hc : c.y ≤ p.y)
    (nab : ¬ Covers (a, b) p) (nbc : ¬ Covers (b, c) p) (nca : ¬ Covers (c, a) p) :
    ind (CrossesRay p (a, b)) + ind (CrossesRay p (b, c)) + ind (CrossesRay p (c, a)) = ind (Tri.Inside ⟨a, b, c⟩ p) := by
  have hs := orient_sum a b c p
  have hbary := orient_bary a b c p
  have e1 : CrossesRay p (a, b) ↔ orient a b p < 0 := by
    unfold CrossesRay
    simp only [not_le.2 ha, not_lt.2 hb, ha, hb, false_and, true_and, false_or, orient_swap a b]
    constructor <;> intro h <;> linarith
  have e2 : ¬ CrossesRay p (b, c) := by
    unfold CrossesRay
    simp [not_lt.2 hb, not_lt.2 hc]
  have e3 : CrossesRay p (c, a) ↔ 0 < orient c a p := by
    unfold CrossesRay
    simp [hc, ha, not_le.2 ha]
  have n1 : orient a b p ≠ 0 := fun h => nab (covers_swap (covers_of_level hb ha (by rw [orient_swap, h, neg_zero])))
  have n2 : orient c a p ≠ 0 := fun h => nca (covers_of_level hc ha h)
  rw [ind_neg e2, ind_congr e1, ind_congr e3]
  rcases lt_or_gt_of_ne n1 with h1 | h1 <;> rcases lt_or_gt_of_ne n2 with h2 | h2
  · have := two_neg h1 h2 (sub_pos.2 ha) (sub_nonpos.2 hb) (sub_nonpos.2 hc) (by linarith : orient b c p + orient c a p + orient a b p = orient a b c) hbary
    linarith
  · rw [ind_pos h1, ind_pos h2, ind_neg]
    · rfl
    · intro h; exact absurd h.1 (not_lt.2 h1.le)
  · rw [ind_neg (not_lt.2 h1.le), ind_neg (not_lt.2 h2.le), ind_neg]
    · rfl
    · intro h; exact absurd h.2.2 (not_lt.2 h2.le)
  · have h3 := two_pos' h1 h2 (sub_pos.2 ha) (sub_nonpos.2 hb) (sub_nonpos.2 hc) hbary
    rw [ind_neg (not_lt.2 h1.le), ind_pos h2, ind_pos]
    · rfl
    · refine ⟨h1, lt_of_le_of_ne h3 (fun h => nbc ?_), h2⟩
      exact covers_of_bary hd h.symm h1.le h2.le

/-- The ray from a point that is level with or above one corner and below the two others. -/
theorem one_below {a b c p : Vec3 K} (hd : 0 < orient a b c) (ha : a.y ≤ p.y) (hb : p.y < b.y) (hc : p.y < c.y)
    (nab : ¬ Covers (a, b) p) (nca : ¬ Covers (c, a) p) :
    ind (CrossesRay p (a, b)) + ind (CrossesRay p (b, c)) + ind (CrossesRay p (c, a)) = ind (Tri.Inside ⟨a, b, c⟩ p) := by
  have hs := orient_sum a b c p
  have hbary := orient_bary a b c p
  have e1 : CrossesRay p (a, b) ↔ 0 < orient a b p := by
    unfold CrossesRay
    simp [ha, hb, not_le.2 hb]
  have e2 : ¬ CrossesRay p (b, c) := by
    unfold CrossesRay
    simp [not_le.2 hb, not_le.2 hc]
  have e3 : CrossesRay p (c, a) ↔ orient c a p < 0 := by
    unfold CrossesRay
    simp only [not_le.2 hc, hc, ha, not_lt.2 ha, false_and, true_and, false_or, orient_swap c a]
    constructor <;> intro h <;> linarith
  have n1 : orient a b p ≠ 0 := fun h => nab (covers_of_level ha hb h)
  have n2 : orient c a p ≠ 0 := fun h => nca (covers_swap (covers_of_level ha hc (by rw [orient_swap, h, neg_zero])))
  rw [ind_neg e2, ind_congr e1, ind_congr e3]
  have k1 : 0 < b.y - p.y := sub_pos.2 hb
  have k2 : 0 < c.y - p.y := sub_pos.2 hc
  have k3 : a.y - p.y ≤ 0 := sub_nonpos.2 ha
  rcases lt_or_gt_of_ne n1 with h1 | h1 <;> rcases lt_or_gt_of_ne n2 with h2 | h2
  · have h3 := mul_neg_of_neg_of_pos h2 k1
    have h4 := mul_neg_of_neg_of_pos h1 k2
    have h5 : 0 < orient b c p * (a.y - p.y) := by linarith
    have h6 : orient b c p < 0 := by
      by_contra hz
      push Not at hz
      have := mul_nonpos_of_nonneg_of_nonpos hz k3
      linarith
    linarith
  · rw [ind_neg (not_lt.2 h1.le), ind_neg (not_lt.2 h2.le), ind_neg]
    · rfl
    · intro h; exact absurd h.1 (not_lt.2 h1.le)
  · rw [ind_pos h1, ind_pos h2, ind_neg]
    · rfl
    · intro h; exact absurd h.2.2 (not_lt.2 h2.le)
  · have h3 := mul_pos h2 k1
    have h4 := mul_pos h1 k2
    have h5 : orient b c p * (a.y - p.y) < 0 := by linarith
    have h6 : 0 < orient b c p := by
      by_contra hz
      push Not at hz
      have := mul_nonneg_of_nonpos_of_nonpos hz k3
      linarith
    rw [ind_pos h1, ind_neg (not_lt.2 h2.le), ind_pos]
    · rfl
    · exact ⟨h1, h6, h2⟩

theorem inside_rotate (a b c p : Vec3 K) : Tri.Inside ⟨b, c, a⟩ p ↔ Tri.Inside ⟨a, b, c⟩ p := by
  unfold Tri.Inside
  constructor
  · rintro ⟨h1, h2, h3⟩; exact ⟨h3, h1, h2⟩
  · rintro ⟨h1, h2, h3⟩; exact ⟨h2, h3, h1⟩

theorem orient_rotate (a b c : Vec3 K) : orient b c a = orient a b c := by unfold orient; ring

/-- The even–odd rule for a triangle. -/
theorem tri_parity {a b c p : Vec3 K} (hd : 0 < orient a b c) (nab : ¬ Covers (a, b) p) (nbc : ¬ Covers (b, c) p) (nca : ¬ Covers (c, a) p) :
    ind (CrossesRay p (a, b)) + ind (CrossesRay p (b, c)) + ind (CrossesRay p (c, a)) = ind (Tri.Inside ⟨a, b, c⟩ p) := by
  have hd1 : 0 < orient b c a := by rw [orient_rotate]; exact hd
  have hd2 : 0 < orient c a b := by rw [orient_rotate]; exact hd1
  have hbary := orient_bary a b c p
  have r1 : ind (Tri.Inside ⟨b, c, a⟩ p) = ind (Tri.Inside ⟨a, b, c⟩ p) := ind_congr (inside_rotate a b c p)
  have r2 : ind (Tri.Inside ⟨c, a, b⟩ p) = ind (Tri.Inside ⟨a, b, c⟩ p) := (ind_congr (inside_rotate b c a p)).trans r1
  rcases le_or_gt a.y p.y with ha | ha <;> rcases le_or_gt b.y p.y with hb | hb <;> rcases le_or_gt c.y p.y with hc | hc
  · -- all below
    rw [ind_neg (p := CrossesRay p (a, b)), ind_neg (p := CrossesRay p (b, c)), ind_neg (p := CrossesRay p (c, a)), ind_neg]
    · rfl
    · rintro ⟨h1, h2, h3⟩
      simp only at h1 h2 h3
      have g1 := mul_nonpos_of_nonneg_of_nonpos h2.le (sub_nonpos.2 ha)
      have g2 := mul_nonpos_of_nonneg_of_nonpos h3.le (sub_nonpos.2 hb)
      have g3 := mul_nonpos_of_nonneg_of_nonpos h1.le (sub_nonpos.2 hc)
      have z1 : orient b c p * (a.y - p.y) = 0 := by linarith
      have z2 : orient c a p * (b.y - p.y) = 0 := by linarith
      have y1 := (mul_eq_zero.1 z1).resolve_left h2.ne'
      have y2 := (mul_eq_zero.1 z2).resolve_left h3.ne'
      have : orient a b p = 0 := by
        unfold orient
        rw [show p.y - a.y = 0 by linarith, show b.y - a.y = 0 by linarith]; ring
      linarith
    · unfold CrossesRay; simp [not_lt.2 ha, not_lt.2 hc]
    · unfold CrossesRay; simp [not_lt.2 hb, not_lt.2 hc]
    · unfold CrossesRay; simp [not_lt.2 ha, not_lt.2 hb]
  · have := one_above hd2 hc ha hb nca nab nbc
    rw [r2] at this
    rw [← this]; abel
  · have := one_above hd1 hb hc ha nbc nca nab
    rw [r1] at this
    rw [← this]; abel
  · exact one_below hd ha hb hc nab nca
  · exact one_above hd ha hb hc nab nbc nca
  · have := one_below hd1 hb hc ha nbc nab
    rw [r1] at this
    rw [← this]; abel
  · have := one_below hd2 hc ha hb nca nbc
    rw [r2] at this
    rw [← this]; abel
  · rw [ind_neg (p := CrossesRay p (a, b)), ind_neg (p := CrossesRay p (b, c)), ind_neg (p := CrossesRay p (c, a)), ind_neg]
    · rfl
    · rintro ⟨h1, h2, h3⟩
      simp only at h1 h2 h3
      have g1 := mul_pos h2 (sub_pos.2 ha)
      have g2 := mul_pos h3 (sub_pos.2 hb)
      have g3 := mul_pos h1 (sub_pos.2 hc)
      linarith
    · unfold CrossesRay; simp [not_le.2 ha, not_le.2 hc]
    · unfold CrossesRay; simp [not_le.2 hb, not_le.2 hc]
    · unfold CrossesRay; simp [not_le.2 ha, not_le.2 hb]

theorem orient_raw (a b c : Vec3 K) : (Tri.rawNormal ⟨a, b, c⟩).z = orient a b c := by
  simp [Tri.rawNormal, orient]

theorem countP_ind {α : Type} (q : α → Prop) [DecidablePred q] (l : List α) : ((l.countP fun x => decide (q x) : Nat) : ZMod 2) = (l.map fun x => ind (q x)).sum := by
  induction l with
  | nil => simp
  | cons a t ih =>
    rw [List.countP_cons, List.map_cons, List.sum_cons, Nat.cast_add, ih]
    by_cases h : q a
    · simp [h, ind_pos, add_comm]
    · simp [h, ind_neg]

theorem mod_two_of_cast {a b : Nat} (h : (a : ZMod 2) = b) : a % 2 = b % 2 := by
  have := (ZMod.natCast_eq_natCast_iff' a b 2).1 h
  exact this

/-! ### The sum over the boundary -/

theorem beams_eq {src : Mesh K} (hs : src.WF) {nodes : Cont (Vec3 K)} (hn : ∀ id p, src.nodes.get? id = some p → nodes.get? id = some p) (l : List Int) :
    l.filterMap src.beamAt = (beamIds src l).map fun p => (posOf nodes p.1, posOf nodes p.2) := by
  induction l with
  | nil => rfl
  | cons id t ih =>
    by_cases hbm : ∃ a b fs, src.elements.get? id = some ⟨.beam, [a, b], fs⟩
    · obtain ⟨a, b, fs, hel⟩ := hbm
      have ha := (hs.nodes.2 a).1 (hs.elemNodes id _ hel a (by simp))
      have hb := (hs.nodes.2 b).1 (hs.elemNodes id _ hel b (by simp))
      obtain ⟨p, hp⟩ := ha
      obtain ⟨q, hq⟩ := hb
      have h1 : src.beamAt id = some (p, q) := by
        unfold Mesh.beamAt; simp [hel, hp, hq]
      have h2 : beamIds src (id :: t) = (a, b) :: beamIds src t := by simp [beamIds, hel]
      rw [List.filterMap_cons_some h1, h2, ih]
      simp only [List.map_cons, posOf, hn _ _ hp, hn _ _ hq, Option.getD_some]
    · have h1 : src.beamAt id = none := by
        unfold Mesh.beamAt
        split
        · rename_i a b fs hel
          exact absurd ⟨a, b, fs, hel⟩ hbm
        · rfl
      have h2 : beamIds src (id :: t) = beamIds src t := by
        unfold beamIds
        split
        · rename_i a b fs hel
          exact absurd ⟨a, b, fs, hel⟩ hbm
        · cases t <;> rfl
      rw [List.filterMap_cons_none h1, h2, ih]

variable {G : Type} [AddCommGroup G]

/-- What is shared by all the properties of a mesh that `generate` returns. -/
theorem generate_spec [FloorRing K] {P : Par K} (hv : Rtree.VolOk P.vol) (ht : 0 ≤ P.tol) {mc : HashGrid.Machine K} {fuel : Nat} {src : Mesh K} (hs : src.WF)
    {points : List (Vec3 K)} {old ints : List (Int × Bool)} {m : Mesh K} (h : generate P mc fuel src points old = .ok (m, ints)) :
    ∃ (nodes : Cont (Vec3 K)) (tris : List (Int × Int × Int)), m.elements.ids = Mesh.iota tris.length ∧ m.nodes.Ok ∧ (∃ n, m.nodes.ids = Mesh.iota n) ∧
      (∀ (k : Nat) t, tris[k]? = some t → m.triAt k = some (triPos nodes t)) ∧
      (∀ t ∈ tris, 0 < orient (triPos nodes t).v0 (triPos nodes t).v1 (triPos nodes t).v2) ∧
      m.triangles = tris.map (triPos nodes) ∧ src.beams = (beamIds src src.elements.ids).map (fun p => (posOf nodes p.1, posOf nodes p.2)) ∧
      (∀ (g : Vec3 K → Vec3 K → ZMod 2), (∀ a b, g a b = g b a) → (∀ a, g a a = 0) →
        (m.triangles.map fun t => g t.v0 t.v1 + g t.v1 t.v2 + g t.v2 t.v0).sum = (src.beams.map fun b => g b.1 b.2).sum) ∧
      (∀ id p, m.nodes.get? id = some p → (∃ id', src.nodes.get? id' = some p) ∨ p ∈ points ∨
        ((BBox.ofPoints P.big (src.nodes.ids.filterMap src.nodes.get?)).grow P.tol).containsPt p P.tol = true) ∧
      (∀ id p, m.nodes.get? id = some p → ∃ t ∈ m.triangles, p = t.v0 ∨ p = t.v1 ∨ p = t.v2) := by
  unfold generate at h
  simp only [bind_ok, lift_ok, pure_ok, Prod.mk.injEq] at h
  obtain ⟨st0, hst0, st, hst, m1, hm1, m2, hm2, m3, hm3, rfl, -⟩ := h
  have hz : Chain (fun _ _ : Int => (0 : ZMod 2)) := ⟨fun _ _ => by simp, fun _ _ => by simp, fun _ => rfl⟩
  obtain ⟨s1, s2, s3, s4⟩ := start_spec (f := fun _ _ : Int => (0 : ZMod 2)) hv ht hs.nodes hst0
  obtain ⟨g1, tris, g2, -⟩ := passes_spec hv ht hz s1 hst
  obtain ⟨k1, k2, k3, k4, k5⟩ := finish_spec g2.mesh hm1 hm2 hm3
  have hext : ∀ id p, src.nodes.get? id = some p → st.mesh.nodes.get? id = some p := fun id p hp => g1.old id p (s2 id p hp)
  have hb := beams_eq hs hext src.elements.ids
  have htri : m3.triangles = tris.map (triPos st.mesh.nodes) := by
    unfold Mesh.triangles
    apply filterMap_of_map
    rw [k1]
    apply List.ext_getElem?
    intro j
    simp only [Mesh.iota, List.map_map, List.getElem?_map]
    by_cases hj : j < tris.length
    · have hj' : tris[j]? = some tris[j] := List.getElem?_eq_getElem hj
      rw [List.getElem?_range hj, hj']
      simp only [Option.map_some, Function.comp]
      have := k4 j _ hj'
      rw [← this]; rfl
    · rw [List.getElem?_eq_none (by simpa using hj), List.getElem?_eq_none (by simpa using hj)]; rfl
  refine ⟨st.mesh.nodes, tris, k1, k2, k3, k4, ?_, htri, hb, ?_, ?_, ?_⟩
  · intro t htm
    obtain ⟨a, b, c, e1, e2, e3, e4⟩ := g2.mesh.up t htm
    rw [orient_raw] at e4
    simpa [triPos, posOf, e1, e2, e3] using e4
  · intro g hg1 hg2
    let f : Int → Int → ZMod 2 := fun i j => g (posOf st.mesh.nodes i) (posOf st.mesh.nodes j)
    have hf : Chain f := ⟨fun a b => by show g _ _ + g _ _ = 0; rw [hg1 (posOf _ b)]; exact zmod_two _, fun a b => zmod_two _, fun a => hg2 _⟩
    obtain ⟨s1', -, -, -⟩ := start_spec (f := f) hv ht hs.nodes hst0
    obtain ⟨-, tris', g2', g3'⟩ := passes_spec hv ht hf s1' hst
    have heq : tris' = tris := by
      have e1 := g2.mesh.els
      have e2 := g2'.mesh.els
      apply List.ext_getElem?
      intro k
      have e3 : (tris'.map triElem)[k]? = (tris.map triElem)[k]? := by rw [← e1.get, ← e2.get]
      rw [List.getElem?_map, List.getElem?_map] at e3
      cases h1 : tris'[k]? with
      | none => rw [h1] at e3; cases h2 : tris[k]? with
        | none => rfl
        | some t => rw [h2] at e3; simp at e3
      | some t =>
        rw [h1] at e3
        cases h2 : tris[k]? with
        | none => rw [h2] at e3; simp at e3
        | some u =>
          rw [h2] at e3
          simp only [Option.map_some, Option.some.injEq, triElem, Elem.mk.injEq, List.cons.injEq, and_true, true_and] at e3
          obtain ⟨t0, t1, t2⟩ := t
          obtain ⟨u0, u1, u2⟩ := u
          simp only at e3
          obtain ⟨rfl, rfl, rfl⟩ := e3
          rfl
    subst heq
    rw [htri]
    unfold Mesh.beams
    rw [hb, List.map_map, List.map_map]
    exact g3'
  · intro id p hp
    obtain ⟨id', hid', -⟩ := k5 id p hp
    rcases g1.new id' p hid' with q | q
    · rcases s3 id' p q with r | r
      · exact Or.inl ⟨id', r⟩
      · exact Or.inr (Or.inl r)
    · rw [s4] at q
      exact Or.inr (Or.inr q)
  · intro id p hp
    obtain ⟨id', hid', t, htm, hor⟩ := k5 id p hp
    refine ⟨triPos st.mesh.nodes t, by rw [htri]; exact List.mem_map.2 ⟨t, htm, rfl⟩, ?_⟩
    simp only [triPos, posOf]
    rcases hor with rfl | rfl | rfl
    · left; simp [hid']
    · right; left; simp [hid']
    · right; right; simp [hid']

/-! ### The number of rounds -/

theorem pass_more {P : Par K} {c : Pass K} (fuel : Nat) : ∀ (i : Nat) (st : St K) (k : Nat), NF (pass P c fuel i st) → pass P c (fuel + k) i st = pass P c fuel i st := by
  induction fuel with
  | zero => intro i st k h; simp [NF, pass] at h
  | succ fuel ih =>
    intro i st k h
    rw [Nat.add_right_comm]
    unfold pass at h ⊢
    cases he : st.front[i]? with
    | none => rfl
    | some e =>
      rw [he] at h
      simp only at h ⊢
      split_ifs at h ⊢ with h1 h2 h3
      · exact ih _ _ _ h
      · rfl
      · rfl
      · cases ha : advance P c st i e with
        | error e => rfl
        | ok st1 =>
          rw [ha] at h
          exact ih _ _ _ h

theorem NF.left {α β : Type} {x : R α} {f : α → R β} (h : NF (x >>= f)) : NF x := by
  cases x with
  | error e => simpa [NF, Bind.bind, Except.bind] using h
  | ok a => exact nf_ok a

theorem passes_more {P : Par K} {fuel : Nat} {st : St K} (k : Nat) (h : NF (passes P fuel st)) : passes P (fuel + k) st = passes P fuel st := by
  unfold passes at h ⊢
  rw [pass_more fuel 0 st k h.left]
  cases h1 : pass P pass1 fuel 0 st with
  | error e => rfl
  | ok s1 =>
    rw [h1] at h
    simp only [Bind.bind, Except.bind] at h ⊢
    have h' : NF (pass P pass2 fuel 0 s1 >>= fun s2 => pass P pass3 fuel 0 s2 >>= fun st => if unfinished st = true then .error .unfinished else pure st) := h
    rw [pass_more fuel 0 s1 k h'.left]
    cases h2 : pass P pass2 fuel 0 s1 with
    | error e => rfl
    | ok s2 =>
      rw [h2] at h'
      have h'' : NF (pass P pass3 fuel 0 s2 >>= fun st => if unfinished st = true then .error .unfinished else pure st) := h'
      simp only
      rw [pass_more fuel 0 s2 k h''.left]

theorem addBeams_closed {P : Par K} {src : Mesh K} {ids : SMap Int Nat} (l : List Int) : ∀ st st' : St K, addBeams P src ids l st = .ok st' →
    ∀ id ∈ l, ∀ el, src.elements.get? id = some el → el.elementType = .beam →
      ∃ a b f g, el.nodeIds = [a, b] ∧ el.faceIds = [f, g] ∧ (∃ x, src.faces.get? f = some x ∧ x.hasPair = true) ∧ ∃ x, src.faces.get? g = some x ∧ x.hasPair = true := by
  have hnb : ∀ f r, neighbour src ids f = .ok r → ∃ x, src.faces.get? f = some x ∧ x.hasPair = true := by
    intro f r h
    unfold neighbour at h
    simp only [bind_ok, lift_ok] at h
    obtain ⟨x, hx, h⟩ := h
    split_ifs at h with h1
    exact ⟨x, hx, h1⟩
  induction l with
  | nil => intro st st' _ id hid; simp at hid
  | cons i t ih =>
    intro st st' h
    unfold addBeams at h
    simp only [bind_ok, lift_ok] at h
    obtain ⟨el, hel, h⟩ := h
    obtain ⟨ty, ns, fs⟩ := el
    simp only at h
    split_ifs at h with h1
    · split at h
      · rename_i a b fa fb
        simp only [bind_ok] at h
        obtain ⟨e, he, p, hp, n, hnn, st1, hst1, h⟩ := h
        intro id hid el' hel' hty
        rcases List.mem_cons.1 hid with rfl | hid
        · rw [hel] at hel'
          simp only [Option.some.injEq] at hel'
          subst hel'
          exact ⟨a, b, fa, fb, rfl, rfl, hnb _ _ hp, hnb _ _ hnn⟩
        · exact ih _ _ h id hid el' hel' hty
      · simp at h
    · intro id hid el' hel' hty
      rcases List.mem_cons.1 hid with rfl | hid
      · rw [hel] at hel'
        simp only [Option.some.injEq] at hel'
        subst hel'
        exact absurd hty h1
      · exact ih _ _ h id hid el' hel' hty

/-! ### A sample -/

/-- A beam. -/
def sampleBeam (a b : Int) : Elem := ⟨.beam, [a, b], []⟩

/-- The unit square as a closed chain of four beams, with its faces. -/
def sampleSquare : Mesh ℚ :=
  ((BasicMesher.build [⟨0, 0, 0⟩, ⟨1, 0, 0⟩, ⟨1, 1, 0⟩, ⟨0, 1, 0⟩] [sampleBeam 0 1, sampleBeam 1 2, sampleBeam 2 3, sampleBeam 3 0]).generateFaces
    smallMachine (1 / 1024)).getD Mesh.empty

/-- A unit square whose first element is a triangle, with its faces. -/
def sampleMixed : Mesh ℚ :=
  ((BasicMesher.build [⟨0, 0, 0⟩, ⟨1, 0, 0⟩, ⟨1, 1, 0⟩, ⟨0, 1, 0⟩] [⟨.triangle, [0, 1, 2], []⟩, sampleBeam 0 1, sampleBeam 1 2, sampleBeam 2 3, sampleBeam 3 0]).generateFaces
    smallMachine (1 / 1024)).getD Mesh.empty

/-- Arguments for a call; the largest coordinate replaces the length, and all triangles are equally good. -/
def samplePar (size : ℚ) (maxElem : Int) : Par ℚ where
  nrm := fun v => max (max |v.x| |v.y|) |v.z|
  eps := 1 / 100000
  big := 1000
  cos1 := 9998 / 10000
  sqrt3 := 7 / 4
  quality := fun _ => 1 / 2
  vol := fun b => (b.max.x - b.min.x) + (b.max.y - b.min.y) + (b.max.z - b.min.z)
  tol := 1 / 100
  size := size
  minSize := 0
  maxSize := 10
  maxElem := maxElem
  stop := fun _ => false

theorem samplePar_vol (s : ℚ) (n : Int) : Rtree.VolOk (samplePar s n).vol := by
  constructor
  · intro a ha
    obtain ⟨h1, h2, h3⟩ := ha
    show 0 ≤ (a.max.x - a.min.x) + (a.max.y - a.min.y) + (a.max.z - a.min.z)
    linarith
  · intro a b _ hs
    obtain ⟨⟨h1, h2, h3⟩, h4, h5, h6⟩ := hs
    show (a.max.x - a.min.x) + (a.max.y - a.min.y) + (a.max.z - a.min.z) ≤ (b.max.x - b.min.x) + (b.max.y - b.min.y) + (b.max.z - b.min.z)
    linarith

/-- The triangles of a result. -/
def resultTris (r : R (Mesh ℚ × List (Int × Bool))) : Option (List (List (ℚ × ℚ))) :=
  match r with
  | .ok (m, _) => some (m.triangles.map fun t => [(t.v0.x, t.v0.y), (t.v1.x, t.v1.y), (t.v2.x, t.v2.y)])
  | .error _ => none

def resultErr (r : R (Mesh ℚ × List (Int × Bool))) : Option Err :=
  match r with
  | .ok _ => none
  | .error e => some e

end TriMesher

open TriMesher
variable {K : Type} [Field K] [LinearOrder K] [IsStrictOrderedRing K] [FloorRing K]

section
variable {P : Par K} (hv : Rtree.VolOk P.vol) (ht : 0 ≤ P.tol) {mc : HashGrid.Machine K} {fuel : Nat} {src : Mesh K} (hs : src.WF)
  {points : List (Vec3 K)} {old ints : List (Int × Bool)} {m : Mesh K} (h : generate P mc fuel src points old = .ok (m, ints))
include hv ht hs h

/-- **C85 (shared sides).** In a mesh returned by `generate`, for any two points the number of triangle sides that join them and the number of
boundary beams that join them have the same parity: sides that are not on the boundary occur an even number of times. -/
theorem C85_sides (p q : Vec3 K) (hpq : p ≠ q) :
    (m.sides.countP fun s => decide (Joins p q s)) % 2 = (src.beams.countP fun s => decide (Joins p q s)) % 2 := by
  obtain ⟨nodes, tris, -, -, -, -, -, -, -, hsum, -⟩ := generate_spec hv ht hs h
  apply mod_two_of_cast
  rw [countP_ind, countP_ind]
  have := hsum (fun a b => ind (Joins p q (a, b))) (fun a b => ind_congr (by
    unfold Joins; simp only; constructor <;> rintro (⟨h1, h2⟩ | ⟨h1, h2⟩) <;> simp [h1, h2])) (fun a => ind_neg (by
    unfold Joins; simp only
    rintro (⟨h1, h2⟩ | ⟨h1, h2⟩)
    · exact hpq (h1.symm.trans h2)
    · exact hpq (h2.symm.trans h1)))
  simp only [Prod.mk.eta] at this
  rw [← this]
  unfold Mesh.sides
  generalize m.triangles = l
  induction l with
  | nil => rfl
  | cons t l ih =>
    rw [List.flatMap_cons, List.map_append, List.sum_append, ih, List.map_cons, List.sum_cons]
    simp [Tri.sides, add_assoc]

/-- **C85 (the region).** A point that lies on no side of a triangle is, seen from above, inside an odd number of triangles exactly if it is inside the
region that the beams bound by the even–odd rule. -/
theorem C85_region (p : Vec3 K) (hp : ∀ s ∈ m.sides, ¬ Covers s p) :
    (m.triangles.countP fun t => decide (t.Inside p)) % 2 = 1 ↔ InRegion src.beams p := by
  obtain ⟨nodes, tris, -, -, -, -, hup, htri, -, hsum, -⟩ := generate_spec hv ht hs h
  have key : (m.triangles.countP fun t => decide (t.Inside p)) % 2 = (src.beams.countP fun s => decide (CrossesRay p s)) % 2 := by
    apply mod_two_of_cast
    rw [countP_ind, countP_ind]
    have := hsum (fun a b => ind (CrossesRay p (a, b))) (fun a b => ind_congr (crosses_swap p a b)) (fun a => ind_neg (by
      unfold CrossesRay; simp only
      rintro (⟨h1, h2, -⟩ | ⟨h1, h2, -⟩) <;> exact absurd h2 (not_lt.2 h1)))
    simp only [Prod.mk.eta] at this
    rw [← this]
    congr 1
    apply List.map_congr_left
    intro t htm
    have hside : ∀ s ∈ t.sides, ¬ Covers s p := fun s hs' => hp s (List.mem_flatMap.2 ⟨t, htm, hs'⟩)
    rw [htri] at htm
    obtain ⟨u, hu, rfl⟩ := List.mem_map.1 htm
    exact (tri_parity (hup u hu) (hside _ (by simp [Tri.sides])) (hside _ (by simp [Tri.sides])) (hside _ (by simp [Tri.sides]))).symm
  unfold InRegion
  rw [key]

/-- **C85 (nothing is left out).** Every point of the region lies in a triangle, inside it or on a side. -/
theorem C85_covered (p : Vec3 K) (hp : InRegion src.beams p) : (∃ t ∈ m.triangles, t.Inside p) ∨ ∃ s ∈ m.sides, Covers s p := by
  by_cases hq : ∃ s ∈ m.sides, Covers s p
  · exact Or.inr hq
  · push Not at hq
    have := (C85_region hv ht hs h p hq).2 hp
    left
    have hpos : 0 < m.triangles.countP fun t => decide (t.Inside p) := by omega
    rw [List.countP_pos_iff] at hpos
    obtain ⟨t, h1, h2⟩ := hpos
    exact ⟨t, h1, by simpa using h2⟩

/-- **C85 (once).** If no point is inside two triangles, then the triangles tile the region: off their sides, a point of the region is inside exactly
one triangle, and a point outside the region inside none. That the triangles do not overlap is not proved: the mesher tests new sides against
the front with a tolerance, see the notes. -/
theorem C85_tiling_partial (hd : ∀ p, (m.triangles.countP fun t => decide (t.Inside p)) ≤ 1) (p : Vec3 K) (hp : ∀ s ∈ m.sides, ¬ Covers s p) :
    (m.triangles.countP fun t => decide (t.Inside p)) = if InRegion src.beams p then 1 else 0 := by
  have h1 := C85_region hv ht hs h p hp
  have h2 := hd p
  split_ifs with h3
  · have := h1.2 h3; omega
  · have : ¬ (m.triangles.countP fun t => decide (t.Inside p)) % 2 = 1 := fun h4 => h3 (h1.1 h4)
    omega

/-- **C86 (triangles).** Every element of a mesh that `generate` returns is a triangle on three stored nodes that is traversed counter-clockwise seen from
above, so its corners are different and its area is not zero; the ids of elements and nodes are `0, 1, …`, and every node is a corner of a triangle. -/
theorem C86_triangles : (∃ n, m.elements.ids = (List.range n).map Int.ofNat) ∧ (∃ n, m.nodes.ids = (List.range n).map Int.ofNat) ∧ m.nodes.Ok ∧
    (∀ id ∈ m.elements.ids, ∃ t, m.triAt id = some t ∧ 0 < orient t.v0 t.v1 t.v2) ∧
    (∀ id p, m.nodes.get? id = some p → ∃ t ∈ m.triangles, p = t.v0 ∨ p = t.v1 ∨ p = t.v2) := by
  obtain ⟨nodes, tris, h1, h2, h3, h4, h5, -, -, -, -, h6⟩ := generate_spec hv ht hs h
  refine ⟨⟨_, h1⟩, h3, h2, ?_, h6⟩
  intro id hid
  rw [h1] at hid
  simp only [Mesh.iota, List.mem_map, List.mem_range] at hid
  obtain ⟨k, hk, rfl⟩ := hid
  have hk' : tris[k]? = some tris[k] := List.getElem?_eq_getElem hk
  exact ⟨_, h4 k _ hk', h5 _ (List.getElem_mem hk)⟩

/-- **C87 (nodes).** Every node of the result is at the position of a node of the boundary mesh, at one of the given interior points, or within the bounding box of the
boundary grown by twice the tolerance. -/
theorem C87_nodes (id : Int) (p : Vec3 K) (hp : m.nodes.get? id = some p) : (∃ id', src.nodes.get? id' = some p) ∨ p ∈ points ∨
    ((BBox.ofPoints P.big (src.nodes.ids.filterMap src.nodes.get?)).grow P.tol).containsPt p P.tol = true := by
  obtain ⟨nodes, tris, -, -, -, -, -, -, -, -, h1, -⟩ := generate_spec hv ht hs h
  exact h1 id p hp

/-- **C87 (the boundary is kept).** The ends of every beam that is not cancelled by another beam with the same ends are corners of one and the same triangle, joined by one of its sides: the
boundary is not subdivided and not left out. -/
theorem C87_boundary_kept (p q : Vec3 K) (hpq : p ≠ q) (hodd : (src.beams.countP fun s => decide (Joins p q s)) % 2 = 1) :
    ∃ t ∈ m.triangles, ∃ s ∈ t.sides, Joins p q s := by
  have := C85_sides hv ht hs h p q hpq
  have hpos : 0 < m.sides.countP fun s => decide (Joins p q s) := by omega
  rw [List.countP_pos_iff] at hpos
  obtain ⟨s, h1, h2⟩ := hpos
  obtain ⟨t, h3, h4⟩ := List.mem_flatMap.1 h1
  exact ⟨t, h3, s, h4, by simpa using h2⟩
end

/-- **C88 (the limit).** With a positive limit on the number of elements, `generate` comes to an end, by returning or by throwing, on every consistent boundary mesh: each of its three loops over the growing front takes at most
one round per beam and two per element, and a mesh that is returned has at most as many elements as the limit. -/
theorem C88_terminates {P : Par K} (hv : Rtree.VolOk P.vol) (ht : 0 ≤ P.tol) (mc : HashGrid.Machine K) {src : Mesh K} (hs : src.WF)
    (points : List (Vec3 K)) (old : List (Int × Bool)) {M : Nat} (hM : P.maxElem = M) (hpos : 0 < M) {fuel : Nat} (hfu : src.beams.length + 2 * M < fuel) :
    generate P mc fuel src points old ≠ .error .fuel ∧
    ∀ m ints, generate P mc fuel src points old = .ok (m, ints) → m.elements.count ≤ M := by
  have hz : Chain (fun _ _ : Int => (0 : ZMod 2)) := ⟨fun _ _ => by simp, fun _ _ => by simp, fun _ => rfl⟩
  have hb : (beamIds src src.elements.ids).length = src.beams.length := by
    unfold Mesh.beams
    rw [beams_eq hs (nodes := src.nodes) (fun _ _ h => h) src.elements.ids, List.length_map]
  rw [← hb] at hfu
  constructor
  · show NF _
    refine (nf_start _ _ _).bind fun st0 hst0 => ?_
    obtain ⟨s1, -⟩ := start_spec (f := fun _ _ : Int => (0 : ZMod 2)) hv ht hs.nodes hst0
    exact (passes_fuel hv ht hz hM hpos hfu s1).1.bind fun _ _ => (nf_lift _).bind fun _ _ => (nf_lift _).bind fun _ _ => (nf_lift _).bind fun _ _ => nf_pure _
  · intro m ints h
    unfold generate at h
    simp only [bind_ok, lift_ok, pure_ok, Prod.mk.injEq] at h
    obtain ⟨st0, hst0, st, hst, m1, hm1, m2, hm2, m3, hm3, rfl, -⟩ := h
    obtain ⟨s1, -⟩ := start_spec (f := fun _ _ : Int => (0 : ZMod 2)) hv ht hs.nodes hst0
    obtain ⟨tris, k1, k2⟩ := (passes_fuel hv ht hz hM hpos hfu s1).2 st hst
    obtain ⟨f1, -⟩ := finish_spec k1.mesh hm1 hm2 hm3
    unfold Cont.count
    rw [f1]
    simpa [Mesh.iota] using k2

/-- **C88 (rounds).** The number of rounds granted to the loops plays no part in the result of a call that comes to an end. -/
theorem C88_rounds (P : Par K) (mc : HashGrid.Machine K) (src : Mesh K) (points : List (Vec3 K)) (old : List (Int × Bool)) (fuel more : Nat)
    (h : generate P mc fuel src points old ≠ .error .fuel) : generate P mc (fuel + more) src points old = generate P mc fuel src points old := by
  have h' : NF (generate P mc fuel src points old) := h
  unfold generate at h' ⊢
  cases hst : start P src points old with
  | error e => rfl
  | ok st =>
    rw [hst] at h'
    simp only [Bind.bind, Except.bind] at h' ⊢
    have h'' : NF (passes P fuel st >>= fun st => lift st.mesh.removeDanglingNodes >>= fun m => lift m.renumber >>= fun m => lift (m.generateFaces mc P.tol) >>= fun m =>
      pure (m, st.interior)) := h'
    rw [passes_more more h''.left]

/-- **C89 (open boundaries).** A boundary with an open end is refused: if `generate` returns, every beam has two nodes and two faces, and both faces are paired. -/
theorem C89_closed {P : Par K} {mc : HashGrid.Machine K} {fuel : Nat} {src : Mesh K} {points : List (Vec3 K)} {old ints : List (Int × Bool)} {m : Mesh K}
    (h : generate P mc fuel src points old = .ok (m, ints)) (id : Int) (hid : id ∈ src.elements.ids) (el : Elem) (hel : src.elements.get? id = some el) (hty : el.elementType = .beam) :
    ∃ a b f g, el.nodeIds = [a, b] ∧ el.faceIds = [f, g] ∧ (∃ x, src.faces.get? f = some x ∧ x.hasPair = true) ∧ ∃ x, src.faces.get? g = some x ∧ x.hasPair = true := by
  unfold generate at h
  simp only [bind_ok] at h
  obtain ⟨st0, hst0, -⟩ := h
  unfold start at hst0
  simp only [bind_ok] at hst0
  obtain ⟨⟨m, box⟩, -, ids, -, st1, hst1, -⟩ := hst0
  exact addBeams_closed _ _ _ hst1 id hid el hel hty

/-- **C89 (negative).** A mesher that has been used cannot be used again: the list of interior nodes is not cleared. Meshing the unit square with an interior point outside of it
succeeds and leaves that node in the list; the next call for the unit square, without interior points, looks the node up and throws, although a new mesher meshes the square. -/
theorem C89_interior_not_cleared : ∃ m ints, generate (samplePar 1 10) smallMachine 30 sampleSquare [⟨3, 3, 0⟩] [] = .ok (m, ints) ∧
    resultErr (generate (samplePar 1 10) smallMachine 30 sampleSquare [] ints) = some .undefined ∧
    resultErr (generate (samplePar 1 10) smallMachine 30 sampleSquare [] []) = none := by
  have h : resultTris (generate (samplePar 1 10) smallMachine 30 sampleSquare [⟨3, 3, 0⟩] []) ≠ none := by decide +kernel
  have h2 : (match generate (samplePar 1 10) smallMachine 30 sampleSquare [⟨3, 3, 0⟩] [] with
    | .ok (_, l) => resultErr (generate (samplePar 1 10) smallMachine 30 sampleSquare [] l)
    | .error _ => none) = some .undefined := by decide +kernel
  have h3 : resultErr (generate (samplePar 1 10) smallMachine 30 sampleSquare [] []) = none := by decide +kernel
  cases hg : generate (samplePar 1 10) smallMachine 30 sampleSquare [⟨3, 3, 0⟩] [] with
  | error e => rw [hg] at h; simp [resultTris] at h
  | ok r =>
    obtain ⟨m, ints⟩ := r
    rw [hg] at h2
    exact ⟨m, ints, rfl, h2, h3⟩

/-- **C89 (negative).** The neighbours of the edges of the front are numbered by the position of the beam among *all* elements: a boundary mesh that holds another element
before its beams makes `generate` throw, although the same beams alone are meshed. -/
theorem C89_other_elements : sampleMixed.beams = sampleSquare.beams ∧ sampleMixed.check = true ∧
    resultErr (generate (samplePar 1 10) smallMachine 30 sampleMixed [] []) = some .undefined ∧
    resultTris (generate (samplePar 1 10) smallMachine 30 sampleSquare [] []) = some [[(0, 0), (1, 0), (1, 1)], [(1, 1), (0, 1), (0, 0)]] := by
  refine ⟨?_, by decide +kernel, by decide +kernel, by decide +kernel⟩
  decide +kernel

/-- The square meets the hypotheses, is meshed with and without new nodes, and the limit is noticed. -/
example : sampleSquare.WF ∧ Rtree.VolOk (samplePar 1 10).vol ∧ 0 ≤ (samplePar 1 10).tol ∧ sampleSquare.beams.length = 4 ∧
    resultTris (generate (samplePar (1 / 2) 10) smallMachine 30 sampleSquare [] []) =
      some [[(0, 0), (1, 0), (1 / 2, 7 / 20)], [(1, 0), (1, 1), (1 / 2, 7 / 20)], [(1, 1), (0, 1), (1 / 2, 7 / 20)], [(0, 1), (0, 0), (1 / 2, 7 / 20)]] ∧
    resultErr (generate (samplePar (1 / 2) 3) smallMachine 30 sampleSquare [] []) = some .maxElements ∧
    InRegion sampleSquare.beams ⟨1 / 2, 1 / 4, 0⟩ ∧ ¬ InRegion sampleSquare.beams ⟨3 / 2, 1 / 4, 0⟩ := by
  refine ⟨Mesh.wf_of_check (by decide +kernel), samplePar_vol _ _, by norm_num [samplePar], by decide +kernel, by decide +kernel, by decide +kernel, by decide +kernel, by decide +kernel⟩

/-- Over the reals, the volume of the tree meets its hypothesis. -/
example : Rtree.VolOk (Rtree.sphericalVolume Real.sqrt (4 / 3 * Real.pi)) :=
  Rtree.volOk_spherical (fun x hx => ⟨Real.sqrt_nonneg x, Real.mul_self_sqrt hx⟩) (by positivity)

end ENigMA
