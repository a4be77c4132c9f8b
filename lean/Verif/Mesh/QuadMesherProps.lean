import Verif.Mesh.QuadMesherEnd
import Verif.Mesh.TriangleMesherProps

/-!
# Properties of the quadrilateral mesher
-/

set_option linter.unusedSectionVars false
set_option autoImplicit false

namespace ENigMA
namespace QuadMesher
open TriMesher (Par R St Edge Pass lift edgeAt nodeAt Chain bind_ok pure_ok lift_ok posOf filterMap_of_map beamIds beams_eq start_spec ind ind_congr ind_pos ind_neg zmod_two
  countP_ind mod_two_of_cast crosses_swap NF nf_start nf_lift nf_pure eds fsum Ed Edge.ed Ed.val)

variable {K : Type} [Field K] [LinearOrder K] [IsStrictOrderedRing K]

/-! ### The mesh that is returned -/

/-- The corners of a cell. -/
def cellPos (nodes : Cont (Vec3 K)) (e : Elem) : List (Vec3 K) := e.nodeIds.map (posOf nodes)

theorem CellOk.stored {nodes : Cont (Vec3 K)} {e : Elem} (h : CellOk nodes e) : e.faceIds = [] ∧ e.elementType.nbNodes ≤ e.nodeIds.length ∧
    ∀ n ∈ e.nodeIds, nodes.get? n = some (posOf nodes n) := by
  have key : ∀ n p, nodes.get? n = some p → nodes.get? n = some (posOf nodes n) := by
    intro n p hp
    unfold posOf
    rw [hp]; rfl
  rcases h with ⟨a, b, c, pa, pb, pc, rfl, h1, h2, h3⟩ | ⟨a, b, c, d, pa, pb, pc, pd, rfl, h1, h2, h3, h4, -⟩
  · refine ⟨rfl, by simp [ElementType.nbNodes], fun n hn => ?_⟩
    simp only [List.mem_cons, List.not_mem_nil, or_false] at hn
    rcases hn with rfl | rfl | rfl
    · exact key _ _ h1
    · exact key _ _ h2
    · exact key _ _ h3
  · refine ⟨rfl, by simp [ElementType.nbNodes], fun n hn => ?_⟩
    simp only [List.mem_cons, List.not_mem_nil, or_false] at hn
    rcases hn with rfl | rfl | rfl | rfl
    · exact key _ _ h1
    · exact key _ _ h2
    · exact key _ _ h3
    · exact key _ _ h4

theorem MInv.elem {m : Mesh K} {cells : List Elem} (h : MInv m cells) {id : Int} {e : Elem} (he : m.elements.get? id = some e) : ∃ k : Nat, id = k ∧ cells[k]? = some e := by
  have hid : 0 ≤ id := by
    by_contra hneg
    rw [h.els.neg id (by omega)] at he
    simp at he
  obtain ⟨k, rfl⟩ := Int.eq_ofNat_of_zero_le hid
  rw [h.els.get] at he
  exact ⟨k, rfl, he⟩

theorem MInv.wf {m : Mesh K} {cells : List Elem} (h : MInv m cells) : m.WF := by
  refine ⟨h.nodes, by rw [h.faces]; exact Cont.empty_ok, h.els.ok, ?_, ?_⟩
  · intro id f hf
    rw [h.faces] at hf
    simp [Cont.empty, Cont.get?] at hf
  · intro id e he n hn
    obtain ⟨k, rfl, hk⟩ := h.elem he
    rw [h.nodes.2]
    exact ⟨_, (h.ok e (List.mem_of_getElem? hk)).stored.2.2 n hn⟩

/-- The positions looked up one by one. -/
theorem mapM_of_map {α β : Type} (g : α → Option β) : ∀ (l : List α) (r : List β), l.map g = r.map some → l.mapM g = some r := by
  intro l
  induction l with
  | nil => intro r h; cases r <;> simp_all
  | cons a t ih =>
    intro r h
    cases r with
    | nil => simp at h
    | cons b r =>
      simp only [List.map_cons, List.cons.injEq] at h
      rw [List.mapM_cons, h.1, ih r h.2]
      rfl

/-- What the clean-up at the end of `generate` returns. -/
theorem finish_spec [FloorRing K] {mc : HashGrid.Machine K} {tol : K} {m m1 m2 m3 : Mesh K} {cells : List Elem} (h : MInv m cells)
    (h1 : m.removeDanglingNodes = some m1) (h2 : m1.renumber = some m2) (h3 : m2.generateFaces mc tol = some m3) :
    m3.elements.ids = Mesh.iota cells.length ∧ m3.nodes.Ok ∧ (∃ n, m3.nodes.ids = Mesh.iota n) ∧
    (∀ (k : Nat) e, cells[k]? = some e → m3.outlineAt k = some (cellPos m.nodes e) ∧ ∃ e', m3.elements.get? k = some e' ∧ e'.elementType = e.elementType) ∧
    (∀ id p, m3.nodes.get? id = some p → ∃ id', m.nodes.get? id' = some p ∧ ∃ e ∈ cells, id' ∈ e.nodeIds) := by
  have hwf := h.wf
  obtain ⟨m1', a1, a2, a3, a4, a5, a6, a7⟩ := C11_removeDanglingNodes m hwf
  rw [h1] at a1
  obtain rfl : m1 = m1' := by simpa using a1
  obtain ⟨m2', b1, b2, b3, b4, b5, b6, b7, b8, φ, ψ, c1, c2, c3⟩ := C12_renumber_partial m1 a7 (by
    intro id e he f hf
    rw [a3] at he
    obtain ⟨k, -, hk⟩ := h.elem he
    rw [(h.ok e (List.mem_of_getElem? hk)).stored.1] at hf
    simp at hf)
  rw [h2] at b1
  obtain rfl : m2 = m2' := by simpa using b1
  have hids1 : m1.elements.ids = Mesh.iota cells.length := by rw [a3, h.els.ids]
  have hcount : m1.elements.count = cells.length := by unfold Cont.count; rw [hids1]; simp [Mesh.iota]
  have hget2 : ∀ (k : Nat) e, cells[k]? = some e → m2.elements.get? k = some { e with nodeIds := e.nodeIds.map φ, faceIds := e.faceIds.map ψ } ∧
      (e.nodeIds.map φ).map m2.nodes.get? = e.nodeIds.map m.nodes.get? := by
    intro k e he
    have hk : k < cells.length := (List.getElem?_eq_some_iff.1 he).1
    have hme : m.elements.get? k = some e := by rw [h.els.get, he]
    obtain ⟨d1, d2⟩ := c3 k k e (by unfold Cont.idAt?; rw [hids1]; simp [Mesh.iota, hk]) (by rw [a3]; exact hme)
    refine ⟨d1, ?_⟩
    have d2' : (e.nodeIds.map φ).map m2.nodes.get? = e.nodeIds.map m1.nodes.get? := d2
    rw [d2']
    apply List.map_congr_left
    intro n hn
    obtain ⟨v, hv⟩ := (hwf.nodes.2 n).1 (hwf.elemNodes k _ hme n hn)
    rw [hv, (a4 n v).2 ⟨hv, Or.inr ⟨k, _, hme, hn⟩⟩]
  have hids2 : m2.elements.ids = Mesh.iota cells.length := by rw [b4, hcount]
  have hfull : ∀ id ∈ m2.elements.ids, ∃ e, m2.elements.get? id = some e ∧ e.elementType.nbNodes ≤ e.nodeIds.length := by
    intro id hid
    rw [hids2] at hid
    simp only [Mesh.iota, List.mem_map, List.mem_range] at hid
    obtain ⟨k, hk, rfl⟩ := hid
    obtain ⟨e, he⟩ : ∃ e, cells[k]? = some e := ⟨_, List.getElem?_eq_getElem hk⟩
    refine ⟨_, (hget2 k e he).1, ?_⟩
    simpa using (h.ok e (List.mem_of_getElem? he)).stored.2.1
  obtain ⟨els', faces', e1, -, e3, -, -, -, e7⟩ := Mesh.genFacesLoop_spec m2.elements m2.elements.ids (by rw [hids2]; exact Mesh.iota_nodup _) hfull
    m2.elements Cont.empty [] (fun _ _ => rfl) Mesh.filled_empty
  unfold Mesh.generateFaces at h3
  rw [e1] at h3
  simp only [Option.bind_eq_bind, Option.bind_some, Option.bind_eq_some_iff] at h3
  obtain ⟨centers, -, g, -, faces, -, h3⟩ := h3
  simp only [Option.pure_def, Option.some.injEq] at h3
  subst h3
  refine ⟨by show els'.ids = _; rw [e3, hids2], b8.nodes, ⟨_, b2⟩, ?_, ?_⟩
  · intro k e he
    have hk : k < cells.length := (List.getElem?_eq_some_iff.1 he).1
    obtain ⟨q1, q2⟩ := hget2 k e he
    have hmem : (k : Int) ∈ m2.elements.ids := by
      rw [hids2]; simp only [Mesh.iota, List.mem_map, List.mem_range]; exact ⟨k, hk, rfl⟩
    obtain ⟨u, v, huv⟩ := List.append_of_mem hmem
    have hnew := e7 u v k huv _ q1
    refine ⟨?_, ⟨_, hnew, rfl⟩⟩
    unfold Mesh.outlineAt
    simp only [hnew, Option.bind_some]
    apply mapM_of_map
    rw [q2]
    unfold cellPos
    rw [List.map_map]
    apply List.map_congr_left
    intro n hn
    exact (h.ok e (List.mem_of_getElem? he)).stored.2.2 n hn
  · intro id p hp
    have hid : id ∈ m2.nodes.ids := (b8.nodes.2 id).2 ⟨p, hp⟩
    rw [b2] at hid
    simp only [Mesh.iota, List.mem_map, List.mem_range] at hid
    obtain ⟨k, hk, rfl⟩ := hid
    obtain ⟨n, hn⟩ : ∃ n, m1.nodes.idAt? k = some n := ⟨_, List.getElem?_eq_getElem hk⟩
    have hp' : m2.nodes.get? (k : Int) = some p := hp
    rw [(c1 k n hn).2] at hp'
    obtain ⟨r1, r2⟩ := (a4 n p).1 hp'
    refine ⟨n, r1, ?_⟩
    rcases r2 with ⟨i, f, hf, -⟩ | ⟨i, e, he, hn2⟩
    · rw [h.faces] at hf; simp [Cont.empty, Cont.get?] at hf
    · obtain ⟨k', -, hk'⟩ := h.elem he
      exact ⟨e, List.mem_of_getElem? hk', hn2⟩

theorem zip_map_pos (nodes : Cont (Vec3 K)) (e : Elem) :
    outlineSides (cellPos nodes e) = (e.nodeIds.zip (e.nodeIds.rotate 1)).map fun p => (posOf nodes p.1, posOf nodes p.2) := by
  unfold outlineSides cellPos
  rw [← List.map_rotate, List.zip_map]
  rfl

/-- What is shared by all the properties of a mesh that `generate` returns. -/
theorem generate_spec [FloorRing K] {P : Par K} (hv : Rtree.VolOk P.vol) (ht : 0 ≤ P.tol) {mc : HashGrid.Machine K} {fuel : Nat} {src : Mesh K} (hs : src.WF)
    {points : List (Vec3 K)} {old : List (Int × Bool)} {o : Out K} (h : generate P mc fuel src points old = .ok o) (hl : o.lost = false) (ha : o.again = false) :
    ∃ (nodes : Cont (Vec3 K)) (cells : List Elem), o.mesh.elements.ids = Mesh.iota cells.length ∧ o.mesh.nodes.Ok ∧ (∃ n, o.mesh.nodes.ids = Mesh.iota n) ∧
      (∀ (k : Nat) e, cells[k]? = some e → o.mesh.outlineAt k = some (cellPos nodes e) ∧ ∃ e', o.mesh.elements.get? k = some e' ∧ e'.elementType = e.elementType) ∧
      (∀ e ∈ cells, CellOk nodes e) ∧
      (∀ (g : Vec3 K → Vec3 K → ZMod 2), (∀ a b, g a b = g b a) → (∀ a, g a a = 0) →
        ((o.mesh.outlines.flatMap outlineSides).map fun s => g s.1 s.2).sum = (src.beams.map fun b => g b.1 b.2).sum) ∧
      (∀ id p, o.mesh.nodes.get? id = some p → ∃ l ∈ o.mesh.outlines, p ∈ l) := by
  unfold generate at h
  simp only [bind_ok, lift_ok, pure_ok] at h
  obtain ⟨st0, hst0, q, hq, m1, hm1, m2, hm2, m3, hm3, rfl⟩ := h
  simp only at hl ha ⊢
  have main : ∀ (f : Int → Int → ZMod 2), Chain f → ∃ cells, Inv P f (((beamIds src src.elements.ids).map fun p => f p.1 p.2).sum) q.st cells ∧
      total f cells = ((beamIds src src.elements.ids).map fun p => f p.1 p.2).sum ∧
      ∀ id p, src.nodes.get? id = some p → q.st.mesh.nodes.get? id = some p := by
    intro f hf
    obtain ⟨s1, s2, -, -⟩ := start_spec (f := f) hv ht hs.nodes hst0
    have hi : Inv P f (((beamIds src src.elements.ids).map fun p => f p.1 p.2).sum) st0 [] := by
      refine ⟨s1.next, ⟨s1.mesh.nodes, s1.mesh.faces, by simpa using s1.mesh.els, by simp⟩, ?_⟩
      have := s1.front
      simpa [total, TriMesher.tsum] using this
    obtain ⟨p1, p2⟩ := passes_spec (tot := ((beamIds src src.elements.ids).map fun p => f p.1 p.2).sum) hv ht hf hq
    obtain ⟨⟨cells, k1⟩, k2⟩ := p1.inv hl ha [] hi
    rw [List.nil_append] at k1
    refine ⟨cells, k1, ?_, fun id p hp => k2 id p (s2 id p hp)⟩
    have hz : fsum f (eds q.st.front) = 0 := by
      unfold fsum
      apply List.sum_eq_zero
      intro x hx
      obtain ⟨y, hy, rfl⟩ := List.mem_map.1 hx
      obtain ⟨e, he, rfl⟩ := List.mem_map.1 hy
      simp [Ed.val, Edge.ed, p2 e he]
    have := k1.front.sum
    rw [hz] at this
    exact (sub_eq_zero.1 this.symm).symm
  obtain ⟨cells, g2, -, g3⟩ := main (fun _ _ => 0) ⟨fun _ _ => by simp, fun _ _ => by simp, fun _ => rfl⟩
  obtain ⟨k1, k2, k3, k4, k5⟩ := finish_spec g2.mesh hm1 hm2 hm3
  have hb := beams_eq hs g3 src.elements.ids
  have hout : m3.outlines = cells.map (cellPos q.st.mesh.nodes) := by
    unfold Mesh.outlines
    apply filterMap_of_map
    rw [k1]
    apply List.ext_getElem?
    intro j
    simp only [Mesh.iota, List.map_map, List.getElem?_map]
    by_cases hj : j < cells.length
    · have hj' : cells[j]? = some cells[j] := List.getElem?_eq_getElem hj
      rw [List.getElem?_range hj, hj']
      simp only [Option.map_some, Function.comp]
      have := (k4 j _ hj').1
      rw [← this]; rfl
    · rw [List.getElem?_eq_none (by simpa using hj), List.getElem?_eq_none (by simpa using hj)]; rfl
  refine ⟨q.st.mesh.nodes, cells, k1, k2, k3, k4, g2.mesh.ok, ?_, ?_⟩
  · intro g hg1 hg2
    let f : Int → Int → ZMod 2 := fun i j => g (posOf q.st.mesh.nodes i) (posOf q.st.mesh.nodes j)
    have hf : Chain f := ⟨fun a b => by show g _ _ + g _ _ = 0; rw [hg1 (posOf _ b)]; exact zmod_two _, fun a b => zmod_two _, fun a => hg2 _⟩
    obtain ⟨cells', g2', g3', -⟩ := main f hf
    have heq : cells' = cells := by
      apply List.ext_getElem?
      intro k
      rw [← g2.mesh.els.get, ← g2'.mesh.els.get]
    subst heq
    rw [hout]
    unfold Mesh.beams
    rw [hb, List.map_map]
    refine Eq.trans ?_ g3'
    unfold total
    generalize cells' = l
    induction l with
    | nil => rfl
    | cons e l ih =>
      rw [List.map_cons, List.flatMap_cons, List.map_append, List.sum_append, ih, List.map_cons, List.sum_cons, zip_map_pos, List.map_map]
      rfl
  · intro id p hp
    obtain ⟨id', hid', e, he, hn⟩ := k5 id p hp
    refine ⟨cellPos q.st.mesh.nodes e, by rw [hout]; exact List.mem_map.2 ⟨e, he, rfl⟩, ?_⟩
    unfold cellPos
    refine List.mem_map.2 ⟨id', hn, ?_⟩
    simp [posOf, hid']

theorem sum_flatMap_ind {f : Vec3 K × Vec3 K → ZMod 2} (l : List (List (Vec3 K))) :
    ((l.flatMap outlineSides).map f).sum = (l.map fun o => ((outlineSides o).map f).sum).sum := by
  induction l with
  | nil => rfl
  | cons o l ih => rw [List.flatMap_cons, List.map_append, List.sum_append, ih, List.map_cons, List.sum_cons]

theorem ind_odd (n : Nat) : ind (n % 2 = 1) = (n : ZMod 2) := by
  rcases Nat.mod_two_eq_zero_or_one n with h | h
  · rw [ind_neg (by omega)]
    exact ((ZMod.natCast_eq_zero_iff n 2).2 (Nat.dvd_of_mod_eq_zero h)).symm
  · rw [ind_pos h]
    have : ((n : Nat) : ZMod 2) = ((1 : Nat) : ZMod 2) := (ZMod.natCast_eq_natCast_iff' n 1 2).2 h
    simpa using this.symm

/-- The outlines of a result, the number of its nodes, and the two records. -/
def result (r : R (Out ℚ)) : Option (List (List (ℚ × ℚ)) × Nat × Bool × Bool) :=
  match r with
  | .ok o => some (o.mesh.outlines.map (fun l => l.map fun p => (p.x, p.y)), o.mesh.nodes.ids.length, o.lost, o.again)
  | .error _ => none

/-- Why a call failed. -/
def resultErr (r : R (Out ℚ)) : Option TriMesher.Err :=
  match r with
  | .ok _ => none
  | .error e => some e

/-- A closed polygon of beams, with its faces. -/
def samplePoly (ps : List (ℚ × ℚ)) : Mesh ℚ :=
  ((BasicMesher.build (ps.map fun p => ⟨p.1, p.2, 0⟩)
    ((List.range ps.length).map fun i => TriMesher.sampleBeam (i : Nat) (((i + 1) % ps.length : Nat) : Int))).generateFaces smallMachine (1 / 1024)).getD Mesh.empty

end QuadMesher

open QuadMesher
variable {K : Type} [Field K] [LinearOrder K] [IsStrictOrderedRing K] [FloorRing K]

section
variable {P : TriMesher.Par K} (hv : Rtree.VolOk P.vol) (ht : 0 ≤ P.tol) {mc : HashGrid.Machine K} {fuel : Nat} {src : Mesh K} (hs : src.WF)
  {points : List (Vec3 K)} {old : List (Int × Bool)} {o : Out K} (h : generate P mc fuel src points old = .ok o) (hl : o.lost = false) (ha : o.again = false)
include hv ht hs h hl ha

/-- **C123 (shared sides).** If during the call no edge was cancelled against an edge that had gone before and no node was stored under an id in use, then
for any two points the number of sides of elements that join them and the number of boundary beams that join them have the same parity. -/
theorem C123_sides_partial (p q : Vec3 K) (hpq : p ≠ q) :
    ((o.mesh.outlines.flatMap outlineSides).countP fun s => decide (Joins p q s)) % 2 = (src.beams.countP fun s => decide (Joins p q s)) % 2 := by
  obtain ⟨nodes, cells, -, -, -, -, -, hsum, -⟩ := generate_spec hv ht hs h hl ha
  apply TriMesher.mod_two_of_cast
  rw [TriMesher.countP_ind, TriMesher.countP_ind]
  have := hsum (fun a b => TriMesher.ind (Joins p q (a, b))) (fun a b => TriMesher.ind_congr (by
    unfold Joins; simp only; constructor <;> rintro (⟨h1, h2⟩ | ⟨h1, h2⟩) <;> simp [h1, h2])) (fun a => TriMesher.ind_neg (by
    unfold Joins; simp only
    rintro (⟨h1, h2⟩ | ⟨h1, h2⟩)
    · exact hpq (h1.symm.trans h2)
    · exact hpq (h2.symm.trans h1)))
  simpa only [Prod.mk.eta] using this

/-- **C123 (the region).** Under the same condition every point is inside an odd number of elements exactly if it is inside the region that the beams bound; both by the even–odd rule. -/
theorem C123_region_partial (p : Vec3 K) :
    (o.mesh.outlines.countP fun l => decide (InRegion (outlineSides l) p)) % 2 = 1 ↔ InRegion src.beams p := by
  obtain ⟨nodes, cells, -, -, -, -, -, hsum, -⟩ := generate_spec hv ht hs h hl ha
  have key : (o.mesh.outlines.countP fun l => decide (InRegion (outlineSides l) p)) % 2 = (src.beams.countP fun s => decide (CrossesRay p s)) % 2 := by
    apply TriMesher.mod_two_of_cast
    rw [TriMesher.countP_ind, TriMesher.countP_ind]
    have := hsum (fun a b => TriMesher.ind (CrossesRay p (a, b))) (fun a b => TriMesher.ind_congr (TriMesher.crosses_swap p a b)) (fun a => TriMesher.ind_neg (by
      unfold CrossesRay; simp only
      rintro (⟨h1, h2, -⟩ | ⟨h1, h2, -⟩) <;> exact absurd h2 (not_lt.2 h1)))
    simp only [Prod.mk.eta] at this
    rw [← this, sum_flatMap_ind]
    congr 1
    apply List.map_congr_left
    intro l _
    unfold InRegion
    rw [ind_odd, TriMesher.countP_ind]
  unfold InRegion at key ⊢
  rw [key]

/-- **C123 (nothing is left out).** Under the same condition every point of the region is inside an element. -/
theorem C123_covered_partial (p : Vec3 K) (hp : InRegion src.beams p) : ∃ l ∈ o.mesh.outlines, InRegion (outlineSides l) p := by
  have := (C123_region_partial hv ht hs h hl ha p).2 hp
  have hpos : 0 < o.mesh.outlines.countP fun l => decide (InRegion (outlineSides l) p) := by omega
  rw [List.countP_pos_iff] at hpos
  obtain ⟨t, h1, h2⟩ := hpos
  exact ⟨t, h1, by simpa using h2⟩

/-- **C123 (the boundary is kept).** Under the same condition the ends of every beam that is not cancelled by another beam with the same ends are joined by a side of an element. -/
theorem C123_boundary_partial (p q : Vec3 K) (hpq : p ≠ q) (hodd : (src.beams.countP fun s => decide (Joins p q s)) % 2 = 1) :
    ∃ l ∈ o.mesh.outlines, ∃ s ∈ outlineSides l, Joins p q s := by
  have := C123_sides_partial hv ht hs h hl ha p q hpq
  have hpos : 0 < (o.mesh.outlines.flatMap outlineSides).countP fun s => decide (Joins p q s) := by omega
  rw [List.countP_pos_iff] at hpos
  obtain ⟨s, h1, h2⟩ := hpos
  obtain ⟨t, h3, h4⟩ := List.mem_flatMap.1 h1
  exact ⟨t, h3, s, h4, by simpa using h2⟩

/-- **C124 (elements).** Under the same condition every element is a triangle, or a quadrilateral that is strictly convex and traversed counter-clockwise seen from above; the ids of elements and nodes are
`0, 1, …`, and every node is a corner of an element. -/
theorem C124_elements_partial : (∃ n, o.mesh.elements.ids = (List.range n).map Int.ofNat) ∧ (∃ n, o.mesh.nodes.ids = (List.range n).map Int.ofNat) ∧ o.mesh.nodes.Ok ∧
    (∀ id ∈ o.mesh.elements.ids, ∃ e, o.mesh.elements.get? id = some e ∧
      ((e.elementType = .triangle ∧ ∃ a b c, o.mesh.outlineAt id = some [a, b, c]) ∨
       (e.elementType = .quadrilateral ∧ ∃ a b c d, o.mesh.outlineAt id = some [a, b, c, d] ∧ ConvexQuad a b c d))) ∧
    (∀ id p, o.mesh.nodes.get? id = some p → ∃ l ∈ o.mesh.outlines, p ∈ l) := by
  obtain ⟨nodes, cells, h1, h2, h3, h4, h5, -, h6⟩ := generate_spec hv ht hs h hl ha
  refine ⟨⟨_, h1⟩, h3, h2, ?_, h6⟩
  intro id hid
  rw [h1] at hid
  simp only [Mesh.iota, List.mem_map, List.mem_range] at hid
  obtain ⟨k, hk, rfl⟩ := hid
  have hk' : cells[k]? = some cells[k] := List.getElem?_eq_getElem hk
  obtain ⟨g1, e', g2, g3⟩ := h4 k _ hk'
  refine ⟨e', g2, ?_⟩
  rcases h5 _ (List.getElem_mem hk) with ⟨a, b, c, pa, pb, pc, h0, -⟩ | ⟨a, b, c, d, pa, pb, pc, pd, h0, k1, k2, k3, k4, k5⟩
  · left
    rw [h0] at g1 g3
    exact ⟨g3, _, _, _, g1⟩
  · right
    rw [h0] at g1 g3
    refine ⟨g3, _, _, _, _, g1, ?_⟩
    simpa [TriMesher.posOf, k1, k2, k3, k4] using k5
end

/-- **C125 (the end).** With a positive limit on the number of elements `generate` comes to an end, by returning or by throwing: each of its six loops over the growing front takes at most one
round per beam and three per element, and a mesh that is returned has at most one element more than the limit. -/
theorem C125_terminates {P : TriMesher.Par K} (hv : Rtree.VolOk P.vol) (ht : 0 ≤ P.tol) (mc : HashGrid.Machine K) {src : Mesh K} (hs : src.WF)
    (points : List (Vec3 K)) (old : List (Int × Bool)) {M : Nat} (hM : P.maxElem = M) (hpos : 0 < M) {fuel : Nat} (hfu : src.beams.length + 3 * (M + 1) < fuel) :
    generate P mc fuel src points old ≠ .error .fuel ∧
    ∀ o, generate P mc fuel src points old = .ok o → o.lost = false → o.again = false → o.mesh.elements.count ≤ M + 1 := by
  have hz : TriMesher.Chain (fun _ _ : Int => (0 : ZMod 2)) := ⟨fun _ _ => by simp, fun _ _ => by simp, fun _ => rfl⟩
  have hb : (TriMesher.beamIds src src.elements.ids).length = src.beams.length := by
    unfold Mesh.beams
    rw [TriMesher.beams_eq hs (nodes := src.nodes) (fun _ _ h => h) src.elements.ids, List.length_map]
  rw [← hb] at hfu
  have hw : ∀ st0, TriMesher.start P src points old = .ok st0 → Within (TriMesher.beamIds src src.elements.ids).length M st0 := by
    intro st0 hst0
    obtain ⟨s1, -⟩ := TriMesher.start_spec (f := fun _ _ : Int => (0 : ZMod 2)) hv ht hs.nodes hst0
    have h1 := s1.len
    have h2 := s1.mesh.els.ids
    simp only [List.map_nil, List.length_nil, Mesh.iota, List.range_zero, List.map_nil] at h1 h2
    unfold Within
    rw [h2]
    simp only [List.length_nil]
    omega
  constructor
  · show TriMesher.NF _
    refine (TriMesher.nf_start _ _ _).bind fun st0 hst0 => ?_
    exact (passes_fuel hM hpos hfu (q := ⟨st0, false, false⟩) (hw st0 hst0)).1.bind fun _ _ => (TriMesher.nf_lift _).bind fun _ _ => (TriMesher.nf_lift _).bind fun _ _ =>
      (TriMesher.nf_lift _).bind fun _ _ => TriMesher.nf_pure _
  · intro o h hl ha
    unfold generate at h
    simp only [TriMesher.bind_ok, TriMesher.lift_ok, TriMesher.pure_ok] at h
    obtain ⟨st0, hst0, q, hq, m1, hm1, m2, hm2, m3, hm3, rfl⟩ := h
    obtain ⟨s1, -⟩ := TriMesher.start_spec (f := fun _ _ : Int => (0 : ZMod 2)) hv ht hs.nodes hst0
    have hi : Inv P (fun _ _ : Int => (0 : ZMod 2)) (((TriMesher.beamIds src src.elements.ids).map fun _ => (0 : ZMod 2)).sum) st0 [] := by
      refine ⟨s1.next, ⟨s1.mesh.nodes, s1.mesh.faces, by simpa using s1.mesh.els, by simp⟩, ?_⟩
      have := s1.front
      simpa [total, TriMesher.tsum] using this
    obtain ⟨p1, -⟩ := passes_spec (tot := ((TriMesher.beamIds src src.elements.ids).map fun _ => (0 : ZMod 2)).sum) hv ht hz hq
    obtain ⟨⟨cells, k1⟩, -⟩ := p1.inv hl ha [] hi
    rw [List.nil_append] at k1
    obtain ⟨f1, -⟩ := finish_spec k1.mesh hm1 hm2 hm3
    have := ((passes_fuel hM hpos hfu (q := ⟨st0, false, false⟩) (hw st0 hst0)).2 q hq).2
    rw [k1.mesh.els.ids] at this
    unfold Cont.count
    rw [f1]
    simpa [Mesh.iota] using this

/-- **C125 (rounds).** The number of rounds granted to the loops plays no part in the result of a call that comes to an end. -/
theorem C125_rounds (P : TriMesher.Par K) (mc : HashGrid.Machine K) (src : Mesh K) (points : List (Vec3 K)) (old : List (Int × Bool)) (fuel more : Nat)
    (h : generate P mc fuel src points old ≠ .error .fuel) : generate P mc (fuel + more) src points old = generate P mc fuel src points old := by
  have h' : TriMesher.NF (generate P mc fuel src points old) := h
  unfold generate at h' ⊢
  cases hst : TriMesher.start P src points old with
  | error e => rfl
  | ok st =>
    rw [hst] at h'
    simp only [Bind.bind, Except.bind] at h' ⊢
    have key : passes P (fuel + more) ⟨st, false, false⟩ = passes P fuel ⟨st, false, false⟩ := by
      have h2 : TriMesher.NF (passes P fuel ⟨st, false, false⟩) := by
        cases hp : passes P fuel ⟨st, false, false⟩ with
        | error e => rw [hp] at h'; exact fun hc => h' (by simpa using hc)
        | ok q => simp [TriMesher.NF]
      unfold passes at h2 ⊢
      have h3 := h2.left
      rw [runPasses_more h3 passList _ rfl more]
    rw [key]

/-- **C125 (open boundaries).** A boundary with an open end is refused: if `generate` returns, every beam has two nodes and two faces, and both faces are paired. -/
theorem C125_closed {P : TriMesher.Par K} {mc : HashGrid.Machine K} {fuel : Nat} {src : Mesh K} {points : List (Vec3 K)} {old : List (Int × Bool)} {o : Out K}
    (h : generate P mc fuel src points old = .ok o) (id : Int) (hid : id ∈ src.elements.ids) (el : Elem) (hel : src.elements.get? id = some el) (hty : el.elementType = .beam) :
    ∃ a b f g, el.nodeIds = [a, b] ∧ el.faceIds = [f, g] ∧ (∃ x, src.faces.get? f = some x ∧ x.hasPair = true) ∧ ∃ x, src.faces.get? g = some x ∧ x.hasPair = true := by
  unfold generate at h
  simp only [TriMesher.bind_ok] at h
  obtain ⟨st0, hst0, -⟩ := h
  unfold TriMesher.start at hst0
  simp only [TriMesher.bind_ok] at hst0
  obtain ⟨⟨m, box⟩, -, ids, -, st1, hst1, -⟩ := hst0
  exact TriMesher.addBeams_closed _ _ _ hst1 id hid el hel hty

open TriMesher (samplePar sampleBeam sampleSquare samplePar_vol)

/-- **C125 (negative: the limit).** A limit of one element is not respected: this quadrilateral is not convex, it is split into two triangles, and the mesh with both is returned. -/
theorem C125_limit_exceeded : (samplePar 1 1).maxElem = 1 ∧
    result (generate (samplePar 1 1) smallMachine 60 (samplePoly [(0, 0), (2, 0), (2, 2), (1, 1 / 2)]) [] []) =
      some ([[(2, 2), (1, 1 / 2), (2, 0)], [(1, 1 / 2), (0, 0), (2, 0)]], 4, false, false) := by
  refine ⟨rfl, ?_⟩
  decide +kernel

/-- **C125 (negative: long quadrilaterals).** A rectangle of four beams whose sides are 1 and 4, with an element size of 1, is not meshed: the first quadrilateral is the rectangle, but the side opposite to the first is not
among the edges near the first, so that it is not cancelled, and the front goes on outside the rectangle until the limit of 20 elements is reached. A square is meshed with a single quadrilateral. -/
theorem C125_long_rectangle :
    resultErr (generate (samplePar 1 20) smallMachine 200 (samplePoly [(0, 0), (1, 0), (1, 4), (0, 4)]) [] []) = some .maxElements ∧
    result (generate (samplePar 1 20) smallMachine 200 (samplePoly [(0, 0), (1, 0), (1, 1), (0, 1)]) [] []) = some ([[(0, 0), (1, 0), (1, 1), (0, 1)]], 4, false, false) := by
  constructor <;> decide +kernel

/-- **C124 (negative: orientation of triangles).** The triangles need not be traversed counter-clockwise: a square whose beams are clockwise is meshed with two clockwise triangles. -/
theorem C124_clockwise :
    result (generate (samplePar 1 10) smallMachine 60 (samplePoly [(0, 0), (0, 1), (1, 1), (1, 0)]) [] []) = some ([[(0, 0), (0, 1), (1, 0)], [(0, 1), (1, 1), (1, 0)]], 4, false, false) := by
  decide +kernel

/-- A polygon with eight corners. -/
def sampleStar : Mesh ℚ := samplePoly [(1, 0), (1 / 2, 1 / 2), (0, 2), (-3 / 2, 3 / 2), (-5 / 2, 0), (-1, -1), (0, -1), (3 / 2, -3 / 2)]

/-- The result has stored a node under an id in use, and the point is in no element. -/
def againAt (r : TriMesher.R (Out ℚ)) (p : Vec3 ℚ) : Bool :=
  match r with
  | .ok o => o.again && !o.lost && o.mesh.outlines.all fun l => !decide (InRegion (outlineSides l) p)
  | .error _ => false

theorem star_again : againAt (generate (samplePar 1 40) smallMachine 300 sampleStar [] []) ⟨-11 / 5, -1 / 5, 0⟩ = true := by decide +kernel

/-- **C123 (negative).** The condition is not always met: for this polygon with eight corners the last resort stores a new node under the id of a node that it had found, which moves that node, and the mesh that is returned leaves out a
point of the region. (The largest coordinate stands for the length.) -/
theorem C123_node_moved : ∃ o, generate (samplePar 1 40) smallMachine 300 sampleStar [] [] = .ok o ∧ o.again = true ∧ o.lost = false ∧
    InRegion sampleStar.beams ⟨-11 / 5, -1 / 5, 0⟩ ∧ ∀ l ∈ o.mesh.outlines, ¬ InRegion (outlineSides l) ⟨-11 / 5, -1 / 5, 0⟩ := by
  have h1 := star_again
  have h2 : InRegion sampleStar.beams ⟨-11 / 5, -1 / 5, 0⟩ := by decide +kernel
  cases h : generate (samplePar 1 40) smallMachine 300 sampleStar [] [] with
  | error e => rw [h] at h1; simp [againAt] at h1
  | ok o =>
    rw [h] at h1
    simp only [againAt, Bool.and_eq_true, Bool.not_eq_true', List.all_eq_true, decide_eq_false_iff_not] at h1
    exact ⟨o, rfl, h1.1.1, h1.1.2, h2, h1.2⟩

/-- **C123 (negative: overlaps).** Elements may overlap and leave the region, also when the condition is met: for this polygon with five corners one triangle is stored twice, and it lies outside the region; counted
by parity the two cancel, as C123 says. (The largest coordinate stands for the length.) -/
theorem C123_overlap : result (generate (samplePar 2 9) smallMachine 100 (samplePoly [(4, 4), (-4, 0), (-1, -1), (0, -1 / 2), (3, -3)]) [] []) =
      some ([[(4, 4), (0, -1 / 2), (3, -3)], [(0, -1 / 2), (-1, -1), (3, -3)], [(4, 4), (-4, 0), (-1, -1), (0, -1 / 2)], [(0, -1 / 2), (-1, -1), (3, -3)]], 5, false, false) ∧
    ¬ InRegion (samplePoly [(4, 4), (-4, 0), (-1, -1), (0, -1 / 2), (3, -3)]).beams ⟨-4 / 5, -99 / 100, 0⟩ ∧
    InRegion (outlineSides [⟨0, -1 / 2, 0⟩, ⟨-1, -1, 0⟩, ⟨3, -3, 0⟩]) (⟨-4 / 5, -99 / 100, 0⟩ : Vec3 ℚ) := by
  refine ⟨by decide +kernel, by decide +kernel, by decide +kernel⟩

/-- Two squares side by side meet the hypotheses and are meshed with a quadrilateral each; the limit is noticed. -/
example : (samplePoly [(0, 0), (1, 0), (2, 0), (2, 1), (1, 1), (0, 1)]).WF ∧ Rtree.VolOk (samplePar 1 10).vol ∧ 0 ≤ (samplePar 1 10).tol ∧
    (samplePoly [(0, 0), (1, 0), (2, 0), (2, 1), (1, 1), (0, 1)]).beams.length = 6 ∧ (samplePoly [(0, 0), (1, 0), (2, 0), (2, 1), (1, 1), (0, 1)]).beams.length + 3 * (10 + 1) < 60 :=
  ⟨Mesh.wf_of_check (by decide +kernel), samplePar_vol _ _, by norm_num [samplePar], by decide +kernel, by decide +kernel⟩

example : result (generate (samplePar 1 10) smallMachine 60 (samplePoly [(0, 0), (1, 0), (2, 0), (2, 1), (1, 1), (0, 1)]) [] []) =
      some ([[(0, 0), (1, 0), (1, 1), (0, 1)], [(1, 0), (2, 0), (2, 1), (1, 1)]], 6, false, false) ∧
    resultErr (generate (samplePar 1 1) smallMachine 60 (samplePoly [(0, 0), (1, 0), (2, 0), (2, 1), (1, 1), (0, 1)]) [] []) = some .maxElements := by
  constructor <;> decide +kernel

/-- A polygon with five corners is meshed with quadrilaterals and a triangle, with two new nodes. -/
example : (result (generate (samplePar 1 10) smallMachine 100 (samplePoly [(0, 0), (2, 0), (3, 1), (2, 2), (0, 2)]) [] [])).map (fun r => (r.1.map List.length, r.2)) =
    some ([4, 4, 3, 4], 7, false, false) := by
  decide +kernel

end ENigMA
