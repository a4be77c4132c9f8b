import Verif.Mesh.TetMesherStart
import Verif.Mesh.TetMesherSpec
import Verif.Mesh.TriangleMesherProps
import Verif.Mesh.Space
import Mathlib.Tactic.Linarith
import Mathlib.Tactic.LinearCombination
import Mathlib.Tactic.FieldSimp

/-!
# What a call of the mesher of solids returns
-/

set_option linter.unusedSectionVars false
set_option autoImplicit false

namespace ENigMA
namespace TetMesher
open TriMesher (Err R lift nodeAt pushNew markInterior Pass bind_ok pure_ok lift_ok nodeAt_ok NF NF.bind NF.left nf_pure nf_ok nf_lift nf_nodeAt nf_foldlM posOf
  filterMap_of_map ind ind_congr ind_pos ind_neg countP_ind mod_two_of_cast)
open Space (move behind_move step clear_direction direction count_ray off_planes ray hull Clear hull_ray ray_odd rate rate_normal normal det3_turn det3_swap)

variable {K : Type} [Field K] [LinearOrder K] [IsStrictOrderedRing K]

/-! ### The mesh that is returned -/

/-- The corners of the element with this id. -/
def tetOf (m : Mesh K) (id : Int) : Tet K :=
  match m.elements.get? id with
  | some ⟨_, [a, b, c, d], _⟩ => ⟨posOf m.nodes a, posOf m.nodes b, posOf m.nodes c, posOf m.nodes d⟩
  | _ => ⟨0, 0, 0, 0⟩

theorem MInv.wf {v : K} {m : Mesh K} (h : MInv v m) : m.WF := by
  refine ⟨h.nodes, by rw [h.faces]; exact Cont.empty_ok, h.els, ?_, ?_⟩
  · intro id f hf
    rw [h.faces] at hf
    simp [Cont.empty, Cont.get?] at hf
  · intro id e he n hn
    obtain ⟨a, b, c, d, rfl, p, q, r, s, g1, g2, g3, g4, -⟩ := h.tets id e he
    simp only [tetElem, List.mem_cons, List.not_mem_nil, or_false] at hn
    rw [h.nodes.2]
    rcases hn with rfl | rfl | rfl | rfl
    · exact ⟨p, g1⟩
    · exact ⟨q, g2⟩
    · exact ⟨r, g3⟩
    · exact ⟨s, g4⟩

/-- What the clean-up at the end of `generate` returns. -/
theorem finish_spec [FloorRing K] {mc : HashGrid.Machine K} {tol v : K} {m m1 m2 m3 : Mesh K} (h : MInv v m)
    (h1 : m.removeDanglingNodes = some m1) (h2 : m1.renumber = some m2) (h3 : m2.generateFaces mc tol = some m3) :
    m3.elements.ids = Mesh.iota m.elements.count ∧ m3.nodes.Ok ∧ (∃ n, m3.nodes.ids = Mesh.iota n) ∧
    (∀ (k : Nat) id, m.elements.ids[k]? = some id → m3.tetAt k = some (tetOf m id)) ∧
    (∀ i p, m3.nodes.get? i = some p → ∃ i', m.nodes.get? i' = some p ∧ ∃ id ∈ m.elements.ids, p = (tetOf m id).v0 ∨ p = (tetOf m id).v1 ∨ p = (tetOf m id).v2 ∨ p = (tetOf m id).v3) := by
  have hwf := h.wf
  obtain ⟨m1', a1, a2, a3, a4, a5, a6, a7⟩ := C11_removeDanglingNodes m hwf
  rw [h1] at a1
  obtain rfl : m1 = m1' := by simpa using a1
  obtain ⟨m2', b1, b2, b3, b4, b5, b6, b7, b8, φ, ψ, c1, c2, c3⟩ := C12_renumber_partial m1 a7 (by
    intro id e he f hf
    rw [a3] at he
    obtain ⟨a, b, c, d, rfl, -⟩ := h.tets id e he
    simp [tetElem] at hf)
  rw [h2] at b1
  obtain rfl : m2 = m2' := by simpa using b1
  have hcount : m1.elements.count = m.elements.count := by rw [a3]
  have hget2 : ∀ (k : Nat) id, m.elements.ids[k]? = some id → ∃ a b c d p q r s, m.elements.get? id = some (tetElem a b c d) ∧
      m2.elements.get? k = some ⟨.tetrahedron, [φ a, φ b, φ c, φ d], []⟩ ∧ m.nodes.get? a = some p ∧ m.nodes.get? b = some q ∧ m.nodes.get? c = some r ∧ m.nodes.get? d = some s ∧
      m2.nodes.get? (φ a) = some p ∧ m2.nodes.get? (φ b) = some q ∧ m2.nodes.get? (φ c) = some r ∧ m2.nodes.get? (φ d) = some s := by
    intro k id hid
    obtain ⟨e, hme⟩ := (h.els.2 id).1 (List.mem_of_getElem? hid)
    obtain ⟨a, b, c, d, rfl, p, q, r, s, g1, g2, g3, g4, -⟩ := h.tets id e hme
    obtain ⟨d1, d2⟩ := c3 k id (tetElem a b c d) (by unfold Cont.idAt?; rw [a3]; exact hid) (by rw [a3]; exact hme)
    have hu : ∀ n, n ∈ (tetElem a b c d).nodeIds → m1.nodes.get? n = m.nodes.get? n := by
      intro n hn
      obtain ⟨v, hv⟩ := (hwf.nodes.2 n).1 (hwf.elemNodes id _ hme n hn)
      rw [hv, (a4 n v).2 ⟨hv, Or.inr ⟨id, _, hme, hn⟩⟩]
    simp only [Mesh.coords, tetElem, List.map_cons, List.map_nil, List.cons.injEq, and_true] at d2
    refine ⟨a, b, c, d, p, q, r, s, hme, d1, g1, g2, g3, g4, ?_, ?_, ?_, ?_⟩
    · rw [d2.1, hu a (by simp [tetElem]), g1]
    · rw [d2.2.1, hu b (by simp [tetElem]), g2]
    · rw [d2.2.2.1, hu c (by simp [tetElem]), g3]
    · rw [d2.2.2.2, hu d (by simp [tetElem]), g4]
  have hids2 : m2.elements.ids = Mesh.iota m.elements.count := by rw [b4, hcount]
  have hpos : ∀ k, k < m.elements.count → ∃ id, m.elements.ids[k]? = some id := fun k hk => ⟨_, List.getElem?_eq_getElem hk⟩
  have hfull : ∀ id ∈ m2.elements.ids, ∃ e, m2.elements.get? id = some e ∧ e.elementType.nbNodes ≤ e.nodeIds.length := by
    intro id hid
    rw [hids2] at hid
    simp only [Mesh.iota, List.mem_map, List.mem_range] at hid
    obtain ⟨k, hk, rfl⟩ := hid
    obtain ⟨id, hid⟩ := hpos k hk
    obtain ⟨a, b, c, d, p, q, r, s, -, e1, -⟩ := hget2 k id hid
    exact ⟨_, e1, by simp [ElementType.nbNodes]⟩
  obtain ⟨els', faces', e1, -, e3, -, -, -, e7⟩ := Mesh.genFacesLoop_spec m2.elements m2.elements.ids (by rw [hids2]; exact Mesh.iota_nodup _) hfull
    m2.elements Cont.empty [] (fun _ _ => rfl) Mesh.filled_empty
  unfold Mesh.generateFaces at h3
  rw [e1] at h3
  simp only [Option.bind_eq_bind, Option.bind_some, Option.bind_eq_some_iff] at h3
  obtain ⟨centers, -, g, -, faces, -, h3⟩ := h3
  simp only [Option.pure_def, Option.some.injEq] at h3
  subst h3
  refine ⟨by show els'.ids = _; rw [e3, hids2], b8.nodes, ⟨_, b2⟩, ?_, ?_⟩
  · intro k id hid
    have hk : k < m.elements.count := (List.getElem?_eq_some_iff.1 hid).1
    obtain ⟨a, b, c, d, p, q, r, s, hme, q1, p1, p2, p3, p4, q2, q3, q4, q5⟩ := hget2 k id hid
    have hmem : (k : Int) ∈ m2.elements.ids := by
      rw [hids2]; simp only [Mesh.iota, List.mem_map, List.mem_range]; exact ⟨k, hk, rfl⟩
    obtain ⟨u, v, huv⟩ := List.append_of_mem hmem
    have hnew := e7 u v k huv _ q1
    unfold Mesh.tetAt tetOf
    simp only [hnew, q2, q3, q4, q5, hme, tetElem, p1, p2, p3, p4, posOf]
    rfl
  · intro i p hp
    have hid : i ∈ m2.nodes.ids := (b8.nodes.2 i).2 ⟨p, hp⟩
    rw [b2] at hid
    simp only [Mesh.iota, List.mem_map, List.mem_range] at hid
    obtain ⟨k, hk, rfl⟩ := hid
    obtain ⟨n, hn⟩ : ∃ n, m1.nodes.idAt? k = some n := ⟨_, List.getElem?_eq_getElem hk⟩
    have hp' : m2.nodes.get? (k : Int) = some p := hp
    rw [(c1 k n hn).2] at hp'
    obtain ⟨r1, r2⟩ := (a4 n p).1 hp'
    refine ⟨n, r1, ?_⟩
    rcases r2 with ⟨i, f, hf, -⟩ | ⟨i, e, he, hn2⟩
    · rw [h.faces] at hf; simp [Cont.empty, Cont.get?] at hf
    · obtain ⟨a, b, c, d, rfl, -⟩ := h.tets i e he
      refine ⟨i, (h.els.2 i).2 ⟨_, he⟩, ?_⟩
      simp only [tetElem, List.mem_cons, List.not_mem_nil, or_false] at hn2
      simp only [tetOf, he, tetElem, posOf]
      rcases hn2 with rfl | rfl | rfl | rfl <;> simp [r1]

theorem tets_map {m m3 : Mesh K} (h1 : m3.elements.ids = Mesh.iota m.elements.count)
    (h2 : ∀ (k : Nat) id, m.elements.ids[k]? = some id → m3.tetAt k = some (tetOf m id)) : m3.tets = m.elements.ids.map (tetOf m) := by
  unfold Mesh.tets
  apply filterMap_of_map
  rw [h1]
  apply List.ext_getElem?
  intro j
  simp only [Mesh.iota, List.map_map, List.getElem?_map]
  by_cases hj : j < m.elements.ids.length
  · have hj' : m.elements.ids[j]? = some m.elements.ids[j] := List.getElem?_eq_getElem hj
    rw [show m.elements.count = m.elements.ids.length from rfl, List.getElem?_range hj, hj']
    simp only [Option.map_some, Function.comp]
    have := h2 j _ hj'
    rw [← this]; rfl
  · rw [List.getElem?_eq_none (l := m.elements.ids) (by simpa using hj), List.getElem?_eq_none (by simpa [Cont.count] using hj)]; rfl

/-! ### The sum over the surface -/

/-- The corners of a triangle of ids. -/
def triPos (nodes : Cont (Vec3 K)) (n : T3 Int) : Tri K := ⟨posOf nodes n.a, posOf nodes n.b, posOf nodes n.c⟩

theorem surf_eq {src : Mesh K} (hs : src.WF) {nodes : Cont (Vec3 K)} (hn : ∀ id p, src.nodes.get? id = some p → nodes.get? id = some p) (l : List Int) :
    l.filterMap src.triAt = (surfIds src l).map (triPos nodes) := by
  induction l with
  | nil => rfl
  | cons id t ih =>
    by_cases hbm : ∃ a b c fs, src.elements.get? id = some ⟨.triangle, [a, b, c], fs⟩
    · obtain ⟨a, b, c, fs, hel⟩ := hbm
      obtain ⟨p, hp⟩ := (hs.nodes.2 a).1 (hs.elemNodes id _ hel a (by simp))
      obtain ⟨q, hq⟩ := (hs.nodes.2 b).1 (hs.elemNodes id _ hel b (by simp))
      obtain ⟨r, hr⟩ := (hs.nodes.2 c).1 (hs.elemNodes id _ hel c (by simp))
      have h1 : src.triAt id = some ⟨p, q, r⟩ := by
        unfold Mesh.triAt; simp [hel, hp, hq, hr]
      have h2 : surfIds src (id :: t) = ⟨a, b, c⟩ :: surfIds src t := by simp [surfIds, hel]
      rw [List.filterMap_cons_some h1, h2, ih]
      simp only [List.map_cons, triPos, posOf, hn _ _ hp, hn _ _ hq, hn _ _ hr, Option.getD_some]
    · have h1 : src.triAt id = none := by
        unfold Mesh.triAt
        split
        · rename_i a b c fs hel
          exact absurd ⟨a, b, c, fs, hel⟩ hbm
        · rfl
      have h2 : surfIds src (id :: t) = surfIds src t := by
        unfold surfIds
        split
        · rename_i a b c fs hel
          exact absurd ⟨a, b, c, fs, hel⟩ hbm
        · cases t <;> rfl
      rw [List.filterMap_cons_none h1, h2, ih]

/-- A function of triangles that does not depend on the order of the corners, and is zero if two of them are the same. -/
structure Even (g : Tri K → ZMod 2) : Prop where
  swap : ∀ a b c, g ⟨b, a, c⟩ = g ⟨a, b, c⟩
  turn : ∀ a b c, g ⟨b, c, a⟩ = g ⟨a, b, c⟩
  flat : ∀ a c, g ⟨a, a, c⟩ = 0

/-- What is shared by all the properties of a mesh that `generate` returns. -/
theorem generate_spec [FloorRing K] {P : Par K} (hv : Rtree.VolOk P.vol) (ht : 0 ≤ P.tol) {mc : HashGrid.Machine K} {fuel : Nat} {src : Mesh K} (hs : src.WF)
    {points : List (Vec3 K)} {old : List (Int × Bool)} {o : Out K} (h : generate P mc fuel src points old = .ok o) :
    (∃ n, o.mesh.elements.ids = Mesh.iota n) ∧ o.mesh.nodes.Ok ∧ (∃ n, o.mesh.nodes.ids = Mesh.iota n) ∧
      (∀ id ∈ o.mesh.elements.ids, ∃ t, o.mesh.tetAt id = some t) ∧
      (∀ t ∈ o.mesh.tets, tol3 P < t.volume) ∧
      (o.upset = false → ∀ g : Tri K → ZMod 2, Even g → (o.mesh.tets.map (hull g)).sum = (src.triangles.map g).sum) ∧
      (∀ id p, o.mesh.nodes.get? id = some p → (∃ id', src.nodes.get? id' = some p) ∨ p ∈ points ∨
        ((BBox.ofPoints P.big (src.nodes.ids.filterMap src.nodes.get?)).grow P.tol).containsPt p P.tol = true) ∧
      (∀ id p, o.mesh.nodes.get? id = some p → ∃ t ∈ o.mesh.tets, p = t.v0 ∨ p = t.v1 ∨ p = t.v2 ∨ p = t.v3) ∧
      (0 < P.maxElem → (o.mesh.elements.count : Int) ≤ P.maxElem) := by
  unfold generate at h
  simp only [bind_ok, lift_ok, pure_ok] at h
  obtain ⟨st0, hst0, st, hst, m1, hm1, m2, hm2, m3, hm3, rfl⟩ := h
  have s := start_spec hv ht hs.nodes hst0
  obtain ⟨r, hz⟩ := passes_spec hv ht s.inv hst
  obtain ⟨k1, k2, k3, k4, k5⟩ := finish_spec r.inv.mesh hm1 hm2 hm3
  have htets := tets_map k1 k4
  have hext : ∀ id p, src.nodes.get? id = some p → st.mesh.nodes.get? id = some p := fun id p hp => r.went.old id p (s.old id p hp)
  have hof : ∀ id ∈ st.mesh.elements.ids, ∃ a b c d, st.mesh.elements.get? id = some (tetElem a b c d) ∧ Big (tol3 P) st.mesh.nodes a b c d := by
    intro id hid
    obtain ⟨e, he⟩ := (r.inv.mesh.els.2 id).1 hid
    obtain ⟨a, b, c, d, rfl, hb⟩ := r.inv.mesh.tets id e he
    exact ⟨a, b, c, d, he, hb⟩
  refine ⟨⟨_, k1⟩, k2, k3, ?_, ?_, ?_, ?_, ?_, ?_⟩
  · intro id hid
    simp only at hid ⊢
    rw [k1] at hid
    simp only [Mesh.iota, List.mem_map, List.mem_range] at hid
    obtain ⟨k, hk, rfl⟩ := hid
    exact ⟨_, k4 k _ (List.getElem?_eq_getElem hk)⟩
  · intro t htm
    simp only at htm
    rw [htets] at htm
    obtain ⟨id, hid, rfl⟩ := List.mem_map.1 htm
    obtain ⟨a, b, c, d, he, p, q, r', s', g1, g2, g3, g4, g5⟩ := hof id hid
    simpa [tetOf, he, tetElem, posOf, g1, g2, g3, g4] using g5
  · intro hu g hg
    simp only at hu ⊢
    let f : Int → Int → Int → ZMod 2 := fun i j k => g (triPos st.mesh.nodes ⟨i, j, k⟩)
    have hf : Sym3 f := ⟨fun a b c => hg.swap _ _ _, fun a b c => hg.turn _ _ _, fun a c => hg.flat _ _⟩
    have hsum := r.went.sum hu f hf
    rw [s.sum f] at hsum
    unfold total at hsum
    rw [hz f, add_zero] at hsum
    unfold Mesh.triangles
    rw [surf_eq hs hext src.elements.ids, htets, List.map_map, List.map_map]
    refine Eq.trans ?_ hsum
    unfold esum
    congr 1
    apply List.map_congr_left
    intro id hid
    obtain ⟨a, b, c, d, he, -⟩ := hof id hid
    simp only [Function.comp, tetOf, elval, he, tetElem, four, Option.map_some, Option.getD_some, hull]
    rfl
  · intro id p hp
    obtain ⟨id', hid', -⟩ := k5 id p hp
    rcases r.went.new id' p hid' with q | q
    · rcases s.new id' p q with e | e
      · exact Or.inl ⟨id', e⟩
      · exact Or.inr (Or.inl e)
    · rw [s.box] at q
      exact Or.inr (Or.inr q)
  · intro id p hp
    obtain ⟨id', hid', t, htm, hor⟩ := k5 id p hp
    refine ⟨tetOf st.mesh t, ?_, hor⟩
    simp only
    rw [htets]; exact List.mem_map.2 ⟨t, htm, rfl⟩
  · intro hp
    have := r.limit hp (by rw [s.count]; exact_mod_cast hp.le)
    simp only
    have hc : m3.elements.count = st.mesh.elements.count := by
      unfold Cont.count; rw [k1]; simp [Mesh.iota, Cont.count]
    rw [hc]; exact this

/-! ### Rays -/

theorem volume_behind' (t : Tet K) : t.volume = behind ⟨t.v0, t.v1, t.v2⟩ t.v3 / 6 := by
  simp only [Tet.volume, det4one, det4, behind, det3, Vec3.cross, Vec3.dot, Vec3.sub_x, Vec3.sub_y, Vec3.sub_z]; ring

theorem cramer_x (a b c d : Vec3 K) : det3 b c d * a.x + det3 c a d * b.x + det3 a b d * c.x = det3 a b c * d.x := by
  simp only [det3, Vec3.cross, Vec3.dot]; ring
theorem cramer_y (a b c d : Vec3 K) : det3 b c d * a.y + det3 c a d * b.y + det3 a b d * c.y = det3 a b c * d.y := by
  simp only [det3, Vec3.cross, Vec3.dot]; ring
theorem cramer_z (a b c d : Vec3 K) : det3 b c d * a.z + det3 c a d * b.z + det3 a b d * c.z = det3 a b c * d.z := by
  simp only [det3, Vec3.cross, Vec3.dot]; ring

theorem det3_smul (a b c d : Vec3 K) {s u v w : K} (hx : s * d.x = u * a.x + v * b.x + w * c.x) (hy : s * d.y = u * a.y + v * b.y + w * c.y)
    (hz : s * d.z = u * a.z + v * b.z + w * c.z) : s * det3 a b d = w * det3 a b c := by
  simp only [det3, Vec3.cross, Vec3.dot]
  linear_combination (a.y * b.z - a.z * b.y) * hx + (a.z * b.x - a.x * b.z) * hy + (a.x * b.y - a.y * b.x) * hz

/-- The sum of the three determinants is positive if the triangle is crossed. -/
theorem pierces_of_sign {d p : Vec3 K} {t : Tri K} {D x y z : K} (hD : 0 < D) (hx : 0 < x) (hy : 0 < y) (hz : 0 < z)
    (ex : x * (t.v0 - p).x + y * (t.v1 - p).x + z * (t.v2 - p).x = D * d.x) (ey : x * (t.v0 - p).y + y * (t.v1 - p).y + z * (t.v2 - p).y = D * d.y)
    (ez : x * (t.v0 - p).z + y * (t.v1 - p).z + z * (t.v2 - p).z = D * d.z) : Pierces d p t := by
  have hS : 0 < x + y + z := by linarith
  refine ⟨D / (x + y + z), x / (x + y + z), y / (x + y + z), z / (x + y + z), div_pos hD hS, div_pos hx hS, div_pos hy hS, div_pos hz hS, ?_, ?_, ?_, ?_⟩
  · field_simp
  · simp only [Vec3.sub_x] at ex
    field_simp
    linear_combination (-1 : K) * ex
  · simp only [Vec3.sub_y] at ey
    field_simp
    linear_combination (-1 : K) * ey
  · simp only [Vec3.sub_z] at ez
    field_simp
    linear_combination (-1 : K) * ez

theorem ray_pierces {d p : Vec3 K} {t : Tri K} (h0 : behind t p ≠ 0) : ray d p t ≠ 0 ↔ Pierces d p t := by
  have cx := cramer_x (t.v0 - p) (t.v1 - p) (t.v2 - p) d
  have cy := cramer_y (t.v0 - p) (t.v1 - p) (t.v2 - p) d
  have cz := cramer_z (t.v0 - p) (t.v1 - p) (t.v2 - p) d
  constructor
  · intro h
    unfold ray at h
    simp only at h
    split_ifs at h with h1 h2
    · exact pierces_of_sign h1.1 h1.2.2.1 h1.2.2.2 h1.2.1 cx cy cz
    · exact pierces_of_sign (D := - det3 (t.v0 - p) (t.v1 - p) (t.v2 - p)) (x := - det3 (t.v1 - p) (t.v2 - p) d) (y := - det3 (t.v2 - p) (t.v0 - p) d)
        (z := - det3 (t.v0 - p) (t.v1 - p) d) (by linarith [h2.1]) (by linarith [h2.2.2.1]) (by linarith [h2.2.2.2]) (by linarith [h2.2.1])
        (by linear_combination (-1 : K) * cx) (by linear_combination (-1 : K) * cy) (by linear_combination (-1 : K) * cz)
    · exact absurd rfl h
  · rintro ⟨s, u, v, w, hs, hu, hv, hw, h1, hx, hy, hz⟩
    have ex : s * d.x = u * (t.v0 - p).x + v * (t.v1 - p).x + w * (t.v2 - p).x := by
      simp only [Vec3.sub_x]; linear_combination hx + p.x * h1
    have ey : s * d.y = u * (t.v0 - p).y + v * (t.v1 - p).y + w * (t.v2 - p).y := by
      simp only [Vec3.sub_y]; linear_combination hy + p.y * h1
    have ez : s * d.z = u * (t.v0 - p).z + v * (t.v1 - p).z + w * (t.v2 - p).z := by
      simp only [Vec3.sub_z]; linear_combination hz + p.z * h1
    have e1 := det3_smul (t.v0 - p) (t.v1 - p) (t.v2 - p) d ex ey ez
    have e2 := det3_smul (t.v1 - p) (t.v2 - p) (t.v0 - p) d (s := s) (u := v) (v := w) (w := u) (by linear_combination ex) (by linear_combination ey) (by linear_combination ez)
    have e3 := det3_smul (t.v2 - p) (t.v0 - p) (t.v1 - p) d (s := s) (u := w) (v := u) (w := v) (by linear_combination ex) (by linear_combination ey) (by linear_combination ez)
    rw [det3_turn (t.v0 - p) (t.v1 - p) (t.v2 - p)] at e2
    rw [← det3_turn (t.v2 - p) (t.v0 - p) (t.v1 - p)] at e3
    have pos : ∀ {x y : K}, s * x = y → 0 < y → 0 < x := fun h hy => by
      by_contra hx
      push Not at hx
      have := mul_nonpos_of_nonneg_of_nonpos hs.le hx
      linarith
    have neg : ∀ {x y : K}, s * x = y → y < 0 → x < 0 := fun h hy => by
      by_contra hx
      push Not at hx
      have := mul_nonneg hs.le hx
      linarith
    unfold behind at h0
    unfold ray
    simp only
    rcases lt_or_gt_of_ne h0 with hD | hD
    · rw [if_neg (fun hh => absurd hh.1 (not_lt.2 hD.le)), if_pos ⟨hD, neg e1 (mul_neg_of_pos_of_neg hw hD), neg e2 (mul_neg_of_pos_of_neg hu hD), neg e3 (mul_neg_of_pos_of_neg hv hD)⟩]
      decide
    · rw [if_pos ⟨hD, pos e1 (mul_pos hw hD), pos e2 (mul_pos hu hD), pos e3 (mul_pos hv hD)⟩]
      decide

/-- The crossing, counted modulo two. -/
def ray2 (d p : Vec3 K) (t : Tri K) : ZMod 2 := ((ray d p t : ℤ) : ZMod 2)

theorem ray2_even (d p : Vec3 K) : Even (ray2 d p) := by
  have ho := ray_odd d p
  refine ⟨fun a b c => ?_, fun a b c => ?_, fun a c => ?_⟩
  · unfold ray2
    rw [ho.swap]
    push_cast
    generalize ((ray d p ⟨a, b, c⟩ : ℤ) : ZMod 2) = x
    revert x; decide
  · unfold ray2
    rw [ho.turn]
  · have := ho.swap a a c
    have : ray d p ⟨a, a, c⟩ = 0 := by omega
    unfold ray2
    rw [this]; rfl

/-- Two numbers have the same sign and are not zero. -/
theorem sign_same {x y : K} (h : 0 < x * y) : (0 < x ↔ 0 < y) ∧ (x < 0 ↔ y < 0) := by
  rcases mul_pos_iff.1 h with ⟨h1, h2⟩ | ⟨h1, h2⟩
  · exact ⟨by simp [h1, h2], by simp only [not_lt.2 h1.le, not_lt.2 h2.le]⟩
  · exact ⟨by simp only [not_lt.2 h1.le, not_lt.2 h2.le], by simp [h1, h2]⟩

/-- The four numbers whose signs decide whether the ray crosses a triangle. -/
def ray4 (d p : Vec3 K) (t : Tri K) : List K := [behind t p, det3 (t.v0 - p) (t.v1 - p) d, det3 (t.v1 - p) (t.v2 - p) d, det3 (t.v2 - p) (t.v0 - p) d]

theorem ray_same {d p d' p' : Vec3 K} {t : Tri K} (h : ∀ u ∈ (ray4 d p t).zip (ray4 d' p' t), 0 < u.1 * u.2) : ray d p t = ray d' p' t := by
  simp only [ray4, List.zip_cons_cons, List.zip_nil_right, List.mem_cons, List.not_mem_nil, or_false, forall_eq_or_imp, forall_eq] at h
  obtain ⟨h1, h2, h3, h4⟩ := h
  unfold ray
  simp only [behind] at h1 ⊢
  simp only [(sign_same h1).1, (sign_same h2).1, (sign_same h3).1, (sign_same h4).1, (sign_same h1).2, (sign_same h2).2, (sign_same h3).2, (sign_same h4).2]

theorem generic_ray4 {d p : Vec3 K} {t : Tri K} (h : Generic d p t) : ∀ x ∈ ray4 d p t, x ≠ 0 := by
  simp only [ray4, List.mem_cons, List.not_mem_nil, or_false, forall_eq_or_imp, forall_eq]
  exact ⟨h.off, h.sides.1, h.sides.2.1, h.sides.2.2⟩

/-- How fast the four numbers change if the direction is moved. -/
def turn4 (e p : Vec3 K) (t : Tri K) : List K := [0, det3 (t.v0 - p) (t.v1 - p) e, det3 (t.v1 - p) (t.v2 - p) e, det3 (t.v2 - p) (t.v0 - p) e]

/-- How fast the four numbers change if the point is moved. -/
def slide4 (e d p : Vec3 K) (t : Tri K) : List K := [rate t e, - (det3 e (t.v1 - p) d + det3 (t.v0 - p) e d), - (det3 e (t.v2 - p) d + det3 (t.v1 - p) e d),
  - (det3 e (t.v0 - p) d + det3 (t.v2 - p) e d)]

theorem det3_move (a b d e : Vec3 K) (s : K) : det3 a b (move d e s) = det3 a b d + s * det3 a b e := by
  simp only [det3, move, Vec3.cross, Vec3.dot]; ring

theorem det3_slide (a b d e p : Vec3 K) (s : K) : det3 (a - move p e s) (b - move p e s) d = det3 (a - p) (b - p) d + s * - (det3 e (b - p) d + det3 (a - p) e d) := by
  simp only [det3, move, Vec3.cross, Vec3.dot, Vec3.sub_x, Vec3.sub_y, Vec3.sub_z]; ring

/-- The pairs for `step`. -/
def keep (l r : List K) : List (K × K) := (l.zip r).map fun u => (u.1 * u.1, u.1 * u.2)

theorem keep_pos {l r : List K} (h : ∀ x ∈ l, x ≠ 0) : ∀ u ∈ keep l r, 0 < u.1 := by
  intro u hu
  obtain ⟨v, hv, rfl⟩ := List.mem_map.1 hu
  exact mul_self_pos.2 (h _ (List.of_mem_zip hv).1)

theorem turn_same {d e p : Vec3 K} {t : Tri K} {s : K} (h : ∀ u ∈ keep (ray4 d p t) (turn4 e p t), 0 < u.1 + s * u.2) : ray d p t = ray (move d e s) p t := by
  apply ray_same
  simp only [keep, ray4, turn4, List.zip_cons_cons, List.zip_nil_right, List.map_cons, List.map_nil, List.mem_cons, List.not_mem_nil, or_false, forall_eq_or_imp, forall_eq, det3_move] at h ⊢
  obtain ⟨h1, h2, h3, h4⟩ := h
  exact ⟨by linarith, by linarith, by linarith, by linarith⟩

theorem slide_same {d e p : Vec3 K} {t : Tri K} {s : K} (h : ∀ u ∈ keep (ray4 d p t) (slide4 e d p t), 0 < u.1 + s * u.2) :
    ray d p t = ray d (move p e s) t ∧ ∀ x ∈ ray4 d (move p e s) t, x ≠ 0 := by
  have key : ∀ u ∈ (ray4 d p t).zip (ray4 d (move p e s) t), 0 < u.1 * u.2 := by
    simp only [keep, ray4, slide4, List.zip_cons_cons, List.zip_nil_right, List.map_cons, List.map_nil, List.mem_cons, List.not_mem_nil, or_false, forall_eq_or_imp, forall_eq, det3_slide, behind_move] at h ⊢
    obtain ⟨h1, h2, h3, h4⟩ := h
    exact ⟨by linarith, by linarith, by linarith, by linarith⟩
  refine ⟨ray_same key, ?_⟩
  simp only [ray4, List.zip_cons_cons, List.zip_nil_right, List.mem_cons, List.not_mem_nil, or_false, forall_eq_or_imp, forall_eq] at key ⊢
  obtain ⟨h1, h2, h3, h4⟩ := key
  exact ⟨right_ne_zero_of_mul h1.ne', right_ne_zero_of_mul h2.ne', right_ne_zero_of_mul h3.ne', right_ne_zero_of_mul h4.ne'⟩

/-- A direction that is in general position to some triangles can be turned so little that it crosses the same ones, and so that it passes no edge of finitely many tetrahedra. -/
theorem turn_clear (S : List (Tri K)) (l : List (Tet K)) (p d : Vec3 K) (hS : ∀ t ∈ S, Generic d p t) (hl : ∀ t ∈ l, ∀ f ∈ t.faces, behind f p ≠ 0) :
    ∃ d', (∀ t ∈ S, ray d p t = ray d' p t) ∧ ∀ t ∈ l, Clear t p d' := by
  obtain ⟨e, he⟩ := clear_direction l p hl
  obtain ⟨s, -, -, h1, h2⟩ := step (S.flatMap fun t => keep (ray4 d p t) (turn4 e p t))
    ((l.flatMap Tet.faces).flatMap fun f => [(rate f d, rate f e), (det3 (f.v0 - p) (f.v1 - p) d, det3 (f.v0 - p) (f.v1 - p) e),
      (det3 (f.v1 - p) (f.v2 - p) d, det3 (f.v1 - p) (f.v2 - p) e), (det3 (f.v2 - p) (f.v0 - p) d, det3 (f.v2 - p) (f.v0 - p) e)]) (by
      intro u hu
      obtain ⟨t, ht, hu⟩ := List.mem_flatMap.1 hu
      exact keep_pos (generic_ray4 (hS t ht)) u hu) (by
      intro u hu
      obtain ⟨f, hf, hu⟩ := List.mem_flatMap.1 hu
      obtain ⟨t, ht, hf⟩ := List.mem_flatMap.1 hf
      right
      have c := he t ht
      simp only [List.mem_cons, List.not_mem_nil, or_false] at hu
      rcases hu with rfl | rfl | rfl | rfl
      · exact c.across f hf
      · exact (c.edge f hf).1
      · exact (c.edge f hf).2.1
      · exact (c.edge f hf).2.2) (zero_lt_one (α := K))
  have hmem : ∀ t ∈ l, ∀ f ∈ t.faces, ∀ u ∈ [(rate f d, rate f e), (det3 (f.v0 - p) (f.v1 - p) d, det3 (f.v0 - p) (f.v1 - p) e),
      (det3 (f.v1 - p) (f.v2 - p) d, det3 (f.v1 - p) (f.v2 - p) e), (det3 (f.v2 - p) (f.v0 - p) d, det3 (f.v2 - p) (f.v0 - p) e)], u.1 + s * u.2 ≠ 0 :=
    fun t ht f hf u hu => h2 u (List.mem_flatMap.2 ⟨f, List.mem_flatMap.2 ⟨t, ht, hf⟩, hu⟩)
  refine ⟨move d e s, fun t ht => turn_same fun u hu => h1 u (List.mem_flatMap.2 ⟨t, ht, hu⟩), fun t ht => ⟨hl t ht, fun f hf => ?_, fun f hf => ?_⟩⟩
  · have := hmem t ht f hf (rate f d, rate f e) (List.mem_cons_self ..)
    have e1 : rate f (move d e s) = rate f d + s * rate f e := by
      simp only [rate, move, Vec3.dot]; ring
    rw [e1]; exact this
  · simp only [det3_move]
    exact ⟨hmem t ht f hf (_, _) (.tail _ (.head _)), hmem t ht f hf (_, _) (.tail _ (.tail _ (.head _))), hmem t ht f hf (_, _) (.tail _ (.tail _ (.tail _ (.head _))))⟩

theorem hull_cast (f : Tri K → ℤ) (l : List (Tet K)) : (l.map (hull fun t => ((f t : ℤ) : ZMod 2))).sum = (((l.map (hull f)).sum : ℤ) : ZMod 2) := by
  induction l with
  | nil => simp
  | cons t l ih => rw [List.map_cons, List.sum_cons, ih, List.map_cons, List.sum_cons]; simp only [hull]; push_cast; rfl

open Classical in
theorem ray2_ind {d p : Vec3 K} {t : Tri K} (h0 : behind t p ≠ 0) : ray2 d p t = ind (Pierces d p t) := by
  have h := ray_pierces (d := d) h0
  have hv : ray d p t = 1 ∨ ray d p t = -1 ∨ ray d p t = 0 := by
    unfold ray; simp only; split_ifs <;> simp
  unfold ray2
  rcases hv with e | e | e
  · rw [ind_pos (h.1 (by rw [e]; decide)), e]; rfl
  · rw [ind_pos (h.1 (by rw [e]; decide)), e]; rfl
  · rw [ind_neg (fun hp => h.2 hp e), e]; rfl

open Classical in
/-- Crossings of the surface and tetrahedra around a point. -/
theorem crossings {l : List (Tet K)} {S : List (Tri K)} (hpos : ∀ t ∈ l, t.Positive) (h : ∀ g : Tri K → ZMod 2, Even g → (l.map (hull g)).sum = (S.map g).sum)
    {p d : Vec3 K} (hl : ∀ t ∈ l, ∀ f ∈ t.faces, behind f p ≠ 0) (hS : ∀ t ∈ S, Generic d p t) :
    (l.countP fun t => decide (t.Inside p)) % 2 = (S.countP fun t => decide (Pierces d p t)) % 2 := by
  obtain ⟨d', h1, h2⟩ := turn_clear S l p d hS hl
  have h3 := h _ (ray2_even d' p)
  have h4 : (l.map (hull (ray2 d' p))).sum = ((l.countP fun t => decide (t.Inside p) : ℕ) : ZMod 2) := by
    unfold ray2
    rw [hull_cast, count_ray l p d' hpos h2]
    push_cast; rfl
  rw [h4] at h3
  apply mod_two_of_cast
  rw [h3, countP_ind]
  congr 1
  apply List.map_congr_left
  intro t ht
  rw [← ray2_ind (hS t ht).off]
  unfold ray2
  rw [h1 t ht]

open Classical in
/-- A point from which a ray crosses the surface an odd number of times is in a tetrahedron, inside or on a face. -/
theorem crossings_cover {l : List (Tet K)} {S : List (Tri K)} (hpos : ∀ t ∈ l, t.Positive) (h : ∀ g : Tri K → ZMod 2, Even g → (l.map (hull g)).sum = (S.map g).sum)
    {p d : Vec3 K} (hS : ∀ t ∈ S, Generic d p t) (hodd : (S.countP fun t => decide (Pierces d p t)) % 2 = 1) : ∃ t ∈ l, t.Contains p := by
  by_contra hno
  push Not at hno
  have hface : ∀ t ∈ l, ∃ f ∈ t.faces, behind f p < 0 := by
    intro t ht
    have := hno t ht
    unfold Tet.Contains at this
    push Not at this
    exact this
  obtain ⟨e, he⟩ := direction ((l.flatMap Tet.faces).map normal) (by
    intro n hn
    obtain ⟨f, hf, rfl⟩ := List.mem_map.1 hn
    obtain ⟨t, ht, hf⟩ := List.mem_flatMap.1 hf
    exact Space.positive_normal (hpos t ht) f hf)
  obtain ⟨s, -, -, h1, h2⟩ := step ((S.flatMap fun t => keep (ray4 d p t) (slide4 e d p t)) ++ ((l.flatMap Tet.faces).filter fun f => decide (behind f p < 0)).map fun f => (- behind f p, - rate f e))
    ((l.flatMap Tet.faces).map fun f => (behind f p, rate f e)) (by
      intro u hu
      rcases List.mem_append.1 hu with hu | hu
      · obtain ⟨t, ht, hu⟩ := List.mem_flatMap.1 hu
        exact keep_pos (generic_ray4 (hS t ht)) u hu
      · obtain ⟨f, hf, rfl⟩ := List.mem_map.1 hu
        have := of_decide_eq_true (List.mem_filter.1 hf).2
        simp only; linarith) (by
      intro u hu
      obtain ⟨f, hf, rfl⟩ := List.mem_map.1 hu
      right
      rw [rate_normal]
      exact neg_ne_zero.2 (he _ (List.mem_map.2 ⟨f, hf, rfl⟩))) (zero_lt_one (α := K))
  have hS' : ∀ t ∈ S, ray d p t = ray d (move p e s) t ∧ ∀ x ∈ ray4 d (move p e s) t, x ≠ 0 :=
    fun t ht => slide_same fun u hu => h1 u (List.mem_append_left _ (List.mem_flatMap.2 ⟨t, ht, hu⟩))
  have hgen : ∀ t ∈ S, Generic d (move p e s) t := by
    intro t ht
    have := (hS' t ht).2
    simp only [ray4, List.mem_cons, List.not_mem_nil, or_false, forall_eq_or_imp, forall_eq] at this
    exact ⟨this.1, this.2⟩
  have hq := crossings hpos h (p := move p e s) (d := d) (by
    intro t ht f hf
    rw [behind_move]
    exact h2 (_, _) (List.mem_map.2 ⟨f, List.mem_flatMap.2 ⟨t, ht, hf⟩, rfl⟩)) hgen
  have hsame : (S.countP fun t => decide (Pierces d (move p e s) t)) = S.countP fun t => decide (Pierces d p t) := by
    apply List.countP_congr
    intro t ht
    simp only [decide_eq_true_eq]
    rw [← ray_pierces (hS t ht).off, ← ray_pierces (hgen t ht).off, (hS' t ht).1]
  rw [hsame, hodd] at hq
  have hz : (l.countP fun t => decide (t.Inside (move p e s))) = 0 := by
    rw [List.countP_eq_zero]
    intro t ht
    simp only [decide_eq_true_eq]
    intro hin
    obtain ⟨f, hf, hneg⟩ := hface t ht
    have h3 := hin f hf
    have h4 := h1 (- behind f p, - rate f e) (List.mem_append_right _ (List.mem_map.2 ⟨f, List.mem_filter.2 ⟨List.mem_flatMap.2 ⟨t, ht, hf⟩, by simpa using hneg⟩, rfl⟩))
    rw [behind_move] at h3
    simp only at h4
    linarith
  omega

theorem spans_even {a b c : Vec3 K} (h1 : a ≠ b) (h2 : b ≠ c) (h3 : a ≠ c) : Even fun t : Tri K => ind (Spans a b c t) := by
  refine ⟨fun x y z => ind_congr ?_, fun x y z => ind_congr ?_, fun x z => ind_neg ?_⟩
  · unfold Spans
    exact (List.Perm.swap x y [z]).congr_left _
  · unfold Spans
    refine List.Perm.congr_left ?_ _
    exact (List.perm_append_comm (l₁ := [y, z]) (l₂ := [x]))
  · intro hp
    unfold Spans at hp
    have : ([a, b, c] : List (Vec3 K)).Nodup := by simp [h1, h2, h3]
    have h4 := (hp.nodup_iff).2 this
    simp at h4

theorem hull_faces (g : Tri K → ZMod 2) (l : List (Tet K)) : (l.map (hull g)).sum = ((l.flatMap Tet.faces).map g).sum := by
  induction l with
  | nil => rfl
  | cons t l ih =>
    rw [List.flatMap_cons, List.map_append, List.sum_append, ← ih, List.map_cons, List.sum_cons]
    congr 1
    simp only [hull, Tet.faces, List.map_cons, List.map_nil, List.sum_cons, List.sum_nil, add_zero]
    ring

end TetMesher
end ENigMA
