import Verif.Mesh.TetMesherGenerate
import Verif.Mesh.TetMesherMore

/-!
# Properties of the mesher of solids

`generate P mc fuel src points old` is a call of `CMshTetrahedronMesher::generate` for the surface mesh `src` with the interior points `points`; `old` is what an earlier call left in the
list of interior nodes, and is empty for a new mesher.
-/

set_option linter.unusedSectionVars false
set_option autoImplicit false

namespace ENigMA
namespace TetMesher
open TriMesher (Err R bind_ok pure_ok lift_ok NF NF.bind NF.left nf_pure nf_lift lift ind ind_congr ind_pos ind_neg countP_ind mod_two_of_cast)

/-! ### A sample -/

/-- The surface of the corner tetrahedron of the unit cube, with its faces. -/
def sampleCorner : Mesh ℚ :=
  ((BasicMesher.build [⟨0, 0, 0⟩, ⟨1, 0, 0⟩, ⟨0, 1, 0⟩, ⟨0, 0, 1⟩] [⟨.triangle, [0, 2, 1], []⟩, ⟨.triangle, [2, 3, 1], []⟩, ⟨.triangle, [0, 3, 2], []⟩, ⟨.triangle, [0, 1, 3], []⟩]).generateFaces
    smallMachine (1 / 1024)).getD Mesh.empty

/-- Arguments for a call; the largest coordinate replaces the length, and all tetrahedra are equally good. -/
def samplePar (maxElem : Int) : Par ℚ where
  nrm := fun v => max (max |v.x| |v.y|) |v.z|
  big := 1000
  sqrt23 := 4 / 5
  quality := fun _ => 1 / 2
  crosses := fun _ _ => false
  hit := fun _ _ => none
  vol := fun b => (b.max.x - b.min.x) + (b.max.y - b.min.y) + (b.max.z - b.min.z)
  tol := 1 / 100
  size := 1
  minSize := 0
  maxSize := 10
  maxElem := maxElem
  stop := fun _ => false

/-- The tetrahedra of a result and whether it is upset. -/
def resultTets (r : R (Out ℚ)) : Option (Bool × List (List (ℚ × ℚ × ℚ))) :=
  match r with
  | .ok o => some (o.upset, o.mesh.tets.map fun t => [(t.v0.x, t.v0.y, t.v0.z), (t.v1.x, t.v1.y, t.v1.z), (t.v2.x, t.v2.y, t.v2.z), (t.v3.x, t.v3.y, t.v3.z)])
  | .error _ => none

def resultErr (r : R (Out ℚ)) : Option Err :=
  match r with
  | .ok _ => none
  | .error e => some e

/-- The surface of the octahedron with corners on the axes, with its faces. -/
def sampleOcta : Mesh ℚ :=
  ((BasicMesher.build [⟨1, 0, 0⟩, ⟨-1, 0, 0⟩, ⟨0, 1, 0⟩, ⟨0, -1, 0⟩, ⟨0, 0, 1⟩, ⟨0, 0, -1⟩]
    ([[0, 2, 4], [2, 1, 4], [1, 3, 4], [3, 0, 4], [2, 0, 5], [1, 2, 5], [3, 1, 5], [0, 3, 5]].map fun l => ⟨.triangle, l, []⟩)).generateFaces
    smallMachine (1 / 1024)).getD Mesh.empty

/-- The corner tetrahedron without its first triangle. -/
def sampleOpen : Mesh ℚ :=
  ((BasicMesher.build [⟨0, 0, 0⟩, ⟨1, 0, 0⟩, ⟨0, 1, 0⟩, ⟨0, 0, 1⟩] [⟨.triangle, [2, 3, 1], []⟩, ⟨.triangle, [0, 3, 2], []⟩, ⟨.triangle, [0, 1, 3], []⟩]).generateFaces
    smallMachine (1 / 1024)).getD Mesh.empty

/-- A front with three triangles on the same nodes: what the third loop of `repair` makes of an element, taken three times. -/
def sampleThree : R (St ℚ) :=
  [⟨.triangle, false, 0, 0, [0, 1, 2]⟩, ⟨.triangle, false, 0, 0, [1, 2, 0]⟩, ⟨.triangle, false, 0, 0, [2, 1, 0]⟩].foldlM (addFace (samplePar 10))
    ⟨[], Rtree.empty, sampleCorner, [], 0, BBox.reset 1000, 0, false, false⟩

/-- What `repair` makes of this front: all three triangles are removed. -/
def lostThree : Bool :=
  match sampleThree with
  | .ok st =>
    match dedup (samplePar 10) (List.range 3) st with
    | .ok (s, b) => decide (st.front.map (fun x => (x.n.a, x.n.b, x.n.c, x.remove)) = [(0, 1, 2, false), (1, 2, 0, false), (2, 1, 0, false)]) &&
        decide (s.front.map Fr.remove = [true, true, true]) && b && !st.upset && s.upset
    | .error _ => false
  | .error _ => false

theorem samplePar_vol (n : Int) : Rtree.VolOk (samplePar n).vol := by
  constructor
  · intro a ha
    obtain ⟨h1, h2, h3⟩ := ha
    show 0 ≤ (a.max.x - a.min.x) + (a.max.y - a.min.y) + (a.max.z - a.min.z)
    linarith
  · intro a b _ hs
    obtain ⟨⟨h1, h2, h3⟩, h4, h5, h6⟩ := hs
    show (a.max.x - a.min.x) + (a.max.y - a.min.y) + (a.max.z - a.min.z) ≤ (b.max.x - b.min.x) + (b.max.y - b.min.y) + (b.max.z - b.min.z)
    linarith

end TetMesher

open TetMesher
open TriMesher (Err R bind_ok pure_ok lift_ok NF NF.bind NF.left nf_pure nf_lift lift ind ind_congr ind_pos ind_neg countP_ind mod_two_of_cast)
variable {K : Type} [Field K] [LinearOrder K] [IsStrictOrderedRing K] [FloorRing K]

section
variable {P : Par K} (hv : Rtree.VolOk P.vol) (ht : 0 ≤ P.tol) {mc : HashGrid.Machine K} {fuel : Nat} {src : Mesh K} (hs : src.WF)
  {points : List (Vec3 K)} {old : List (Int × Bool)} {o : Out K} (h : generate P mc fuel src points old = .ok o)
include hv ht hs h

/-- **C121 (tetrahedra).** Every element of a mesh that `generate` returns is a tetrahedron on four stored nodes with a volume larger than the cube of the tolerance, so its faces are seen from outside and it is not
flat; the ids of elements and nodes are `0, 1, …`, and every node is a corner of a tetrahedron. -/
theorem C121_tetrahedra : (∃ n, o.mesh.elements.ids = (List.range n).map Int.ofNat) ∧ (∃ n, o.mesh.nodes.ids = (List.range n).map Int.ofNat) ∧ o.mesh.nodes.Ok ∧
    (∀ id ∈ o.mesh.elements.ids, ∃ t, o.mesh.tetAt id = some t ∧ P.tol * P.tol * P.tol < t.volume ∧ t.Positive) ∧
    (∀ id p, o.mesh.nodes.get? id = some p → ∃ t ∈ o.mesh.tets, p = t.v0 ∨ p = t.v1 ∨ p = t.v2 ∨ p = t.v3) := by
  obtain ⟨h1, h2, h3, h4, h5, -, -, h8, -⟩ := generate_spec hv ht hs h
  refine ⟨h1, h3, h2, ?_, h8⟩
  intro id hid
  obtain ⟨t, h9⟩ := h4 id hid
  have hvol := h5 t (List.mem_filterMap.2 ⟨id, hid, h9⟩)
  refine ⟨t, h9, hvol, ?_⟩
  have : 0 ≤ tol3 P := mul_nonneg (mul_nonneg ht ht) ht
  rw [volume_behind'] at hvol
  unfold Tet.Positive
  linarith

/-- **C121 (nodes).** Every node of the result is at the position of a node of the surface, at one of the given interior points, or within the bounding box of the surface grown by twice the tolerance. -/
theorem C121_nodes (id : Int) (p : Vec3 K) (hp : o.mesh.nodes.get? id = some p) : (∃ id', src.nodes.get? id' = some p) ∨ p ∈ points ∨
    ((BBox.ofPoints P.big (src.nodes.ids.filterMap src.nodes.get?)).grow P.tol).containsPt p P.tol = true := by
  obtain ⟨-, -, -, -, -, -, h7, -⟩ := generate_spec hv ht hs h
  exact h7 id p hp

theorem TetMesher.positive_tets : ∀ t ∈ o.mesh.tets, t.Positive := by
  obtain ⟨-, -, -, h4, -⟩ := C121_tetrahedra hv ht hs h
  intro t htm
  obtain ⟨id, hid, h9⟩ := List.mem_filterMap.1 htm
  obtain ⟨t', h10, -, h11⟩ := h4 id hid
  rw [h9] at h10
  obtain rfl : t = t' := by simpa using h10
  exact h11

/-- **C120 (shared faces), partial.** If no repair was upset, then for any three different points the number of faces of tetrahedra with these corners and the number of triangles of the surface with these
corners have the same parity: faces that are not on the surface occur an even number of times. Missing: results after an upset repair (`C120_triple_lost`). -/
theorem C120_faces_partial (hu : o.upset = false) (a b c : Vec3 K) (hab : a ≠ b) (hbc : b ≠ c) (hac : a ≠ c) :
    (o.mesh.tetSides.countP fun t => decide (Spans a b c t)) % 2 = (src.triangles.countP fun t => decide (Spans a b c t)) % 2 := by
  obtain ⟨-, -, -, -, -, h6, -⟩ := generate_spec hv ht hs h
  apply mod_two_of_cast
  rw [countP_ind, countP_ind]
  have := h6 hu _ (spans_even hab hbc hac)
  rw [← this, hull_faces]
  rfl

open Classical in
/-- **C120 (the solid), partial.** If no repair was upset: take a point that is in no plane of a face of a tetrahedron, and any half line from it in general position to the surface. The number of tetrahedra that
have the point inside and the number of triangles of the surface that the half line pierces have the same parity: the tetrahedra that overlap an even number of times apart, the mesh fills what the surface
encloses by the even–odd rule. Missing: results after an upset repair. -/
theorem C120_solid_partial (hu : o.upset = false) (p d : Vec3 K) (hp : ∀ f ∈ o.mesh.tetSides, behind f p ≠ 0) (hd : ∀ t ∈ src.triangles, Generic d p t) :
    (o.mesh.tets.countP fun t => decide (t.Inside p)) % 2 = (src.triangles.countP fun t => decide (Pierces d p t)) % 2 := by
  obtain ⟨-, -, -, -, -, h6, -⟩ := generate_spec hv ht hs h
  exact crossings (positive_tets hv ht hs h) (h6 hu) (fun t htm f hf => hp f (List.mem_flatMap.2 ⟨t, htm, hf⟩)) hd

open Classical in
/-- **C120 (nothing is left out), partial.** If no repair was upset, every point from which a half line in general position pierces the surface an odd number of times is in a tetrahedron, inside or on a face of it. -/
theorem C120_covered_partial (hu : o.upset = false) (p d : Vec3 K) (hd : ∀ t ∈ src.triangles, Generic d p t)
    (hodd : (src.triangles.countP fun t => decide (Pierces d p t)) % 2 = 1) : ∃ t ∈ o.mesh.tets, t.Contains p := by
  obtain ⟨-, -, -, -, -, h6, -⟩ := generate_spec hv ht hs h
  exact crossings_cover (positive_tets hv ht hs h) (h6 hu) hd hodd

open Classical in
/-- **C120 (once), partial.** If moreover no point is inside two tetrahedra, then off the planes of the faces a point is inside exactly one tetrahedron if a half line from it pierces the surface an odd number of times, and inside
none otherwise. That the tetrahedra do not overlap is not proved: the mesher tests new faces against the front with a tolerance. -/
theorem C120_tiling_partial (hu : o.upset = false) (ha : Apart o.mesh.tets) (p d : Vec3 K) (hp : ∀ f ∈ o.mesh.tetSides, behind f p ≠ 0) (hd : ∀ t ∈ src.triangles, Generic d p t) :
    (o.mesh.tets.countP fun t => decide (t.Inside p)) = (src.triangles.countP fun t => decide (Pierces d p t)) % 2 := by
  have h1 := C120_solid_partial hv ht hs h hu p d hp hd
  have h2 := ha p
  omega

/-- **C120 (the surface is kept), partial.** If no repair was upset, the corners of every triangle of the surface that is not cancelled by another one on the same corners are the corners of a face of a tetrahedron: the surface is
not subdivided and not left out. -/
theorem C120_surface_kept_partial (hu : o.upset = false) (a b c : Vec3 K) (hab : a ≠ b) (hbc : b ≠ c) (hac : a ≠ c)
    (hodd : (src.triangles.countP fun t => decide (Spans a b c t)) % 2 = 1) : ∃ t ∈ o.mesh.tets, ∃ f ∈ t.faces, Spans a b c f := by
  have := C120_faces_partial hv ht hs h hu a b c hab hbc hac
  have hpos : 0 < o.mesh.tetSides.countP fun s => decide (Spans a b c s) := by omega
  rw [List.countP_pos_iff] at hpos
  obtain ⟨f, h1, h2⟩ := hpos
  obtain ⟨t, h3, h4⟩ := List.mem_flatMap.1 h1
  exact ⟨t, h3, f, h4, by simpa using h2⟩
end

/-- From every point that is in no plane of a triangle of the surface there is a half line in general position. -/
theorem C120_half_line (S : List (Tri K)) (p : Vec3 K) (hp : ∀ t ∈ S, behind t p ≠ 0) : ∃ d, ∀ t ∈ S, Generic d p t := by
  obtain ⟨d, hd⟩ := Space.direction (S.flatMap fun f => [Vec3.cross (f.v0 - p) (f.v1 - p), Vec3.cross (f.v1 - p) (f.v2 - p), Vec3.cross (f.v2 - p) (f.v0 - p)]) (by
    intro n hn
    obtain ⟨f, hf, hn⟩ := List.mem_flatMap.1 hn
    have h0 := hp f hf
    simp only [List.mem_cons, List.not_mem_nil, or_false] at hn
    rcases hn with rfl | rfl | rfl
    · exact Space.cross_ne h0
    · refine Space.cross_ne (c := f.v0 - p) ?_
      rw [Space.det3_turn]; exact h0
    · refine Space.cross_ne (c := f.v1 - p) ?_
      rw [Space.det3_turn, Space.det3_turn]; exact h0)
  refine ⟨d, fun t ht => ⟨hp t ht, ?_⟩⟩
  simp only [Space.det_cross]
  exact ⟨hd _ (List.mem_flatMap.2 ⟨t, ht, .head _⟩), hd _ (List.mem_flatMap.2 ⟨t, ht, .tail _ (.head _)⟩), hd _ (List.mem_flatMap.2 ⟨t, ht, .tail _ (.tail _ (.head _))⟩)⟩

/-- **C122 (the limit).** With a positive limit on the number of elements, `generate` comes to an end, by returning or by throwing, on every consistent surface mesh, and a mesh that is returned has at most as many elements as the limit. -/
theorem C122_terminates {P : Par K} (hv : Rtree.VolOk P.vol) (ht : 0 ≤ P.tol) (mc : HashGrid.Machine K) {src : Mesh K} (hs : src.WF)
    (points : List (Vec3 K)) (old : List (Int × Bool)) {M : Nat} (hM : P.maxElem = M) (hpos : 0 < M) {fuel : Nat} (hfu : src.triangles.length + 87 * M < fuel) :
    generate P mc fuel src points old ≠ .error .fuel ∧
    ∀ o, generate P mc fuel src points old = .ok o → o.mesh.elements.count ≤ M := by
  have hb : (surfIds src src.elements.ids).length = src.triangles.length := by
    unfold Mesh.triangles
    rw [surf_eq hs (nodes := src.nodes) (fun _ _ h => h) src.elements.ids, List.length_map]
  constructor
  · show NF _
    unfold generate
    refine (nf_start _ _ _).bind fun st0 hst0 => ?_
    have s := start_spec hv ht hs.nodes hst0
    exact (passes_fuel hv ht hM hpos s.inv s.count (by rw [s.len, hb]; exact hfu)).bind
      fun _ _ => (nf_lift _).bind fun _ _ => (nf_lift _).bind fun _ _ => (nf_lift _).bind fun _ _ => nf_pure _
  · intro o h
    obtain ⟨-, -, -, -, -, -, -, -, h9⟩ := generate_spec hv ht hs h
    have := h9 (by rw [hM]; exact_mod_cast hpos)
    rw [hM] at this
    exact_mod_cast this

/-- **C122 (rounds).** The number of rounds granted to the loops plays no part in the result of a call that comes to an end. -/
theorem C122_rounds (P : Par K) (mc : HashGrid.Machine K) (src : Mesh K) (points : List (Vec3 K)) (old : List (Int × Bool)) (fuel more : Nat)
    (h : generate P mc fuel src points old ≠ .error .fuel) : generate P mc (fuel + more) src points old = generate P mc fuel src points old := by
  have h' : NF (generate P mc fuel src points old) := h
  unfold generate at h' ⊢
  exact bind_more h' (fun _ => rfl) fun st h2 => bind_more h2 (passes_more more) fun _ _ => rfl

/-- **C122 (open surfaces).** A surface with an open side is refused: if `generate` returns, every triangle has three nodes and three faces, and all of them are paired. -/
theorem C122_closed {P : Par K} {mc : HashGrid.Machine K} {fuel : Nat} {src : Mesh K} {points : List (Vec3 K)} {old : List (Int × Bool)} {o : Out K}
    (h : generate P mc fuel src points old = .ok o) (id : Int) (hid : id ∈ src.elements.ids) (el : Elem) (hel : src.elements.get? id = some el) (hty : el.elementType = .triangle) :
    el.nodeIds.length = 3 ∧ el.faceIds.length = 3 ∧ ∀ f ∈ el.faceIds, ∃ x, src.faces.get? f = some x ∧ x.hasPair = true := by
  unfold generate at h
  simp only [bind_ok] at h
  obtain ⟨st0, hst0, -⟩ := h
  unfold start at hst0
  simp only [bind_ok] at hst0
  obtain ⟨⟨m, box⟩, -, ids, -, st1, hst1, -⟩ := hst0
  exact addTris_closed _ _ _ hst1 id hid el hel hty

/-- **C122 (negative).** A mesher that has been used cannot be used again: the list of interior nodes is not cleared. Meshing the corner tetrahedron with an interior point outside of it succeeds and leaves that node in the list; the
next call, without interior points, looks the node up and throws, although a new mesher meshes the tetrahedron. -/
theorem C122_inner_not_cleared : ∃ o, generate (samplePar 10) smallMachine 900 sampleCorner [⟨3, 3, 3⟩] [] = .ok o ∧
    resultErr (generate (samplePar 10) smallMachine 900 sampleCorner [] o.inner) = some .undefined ∧
    resultErr (generate (samplePar 10) smallMachine 900 sampleCorner [] []) = none := by
  have h : resultErr (generate (samplePar 10) smallMachine 900 sampleCorner [⟨3, 3, 3⟩] []) = none := by decide +kernel
  have h2 : (match generate (samplePar 10) smallMachine 900 sampleCorner [⟨3, 3, 3⟩] [] with
    | .ok o => resultErr (generate (samplePar 10) smallMachine 900 sampleCorner [] o.inner)
    | .error _ => none) = some .undefined := by decide +kernel
  have h3 : resultErr (generate (samplePar 10) smallMachine 900 sampleCorner [] []) = none := by decide +kernel
  cases hg : generate (samplePar 10) smallMachine 900 sampleCorner [⟨3, 3, 3⟩] [] with
  | error e => rw [hg] at h; simp [resultErr] at h
  | ok o =>
    rw [hg] at h2
    exact ⟨o, rfl, h2, h3⟩

/-- **C120 (negative).** `repair` compares a triangle of the front with all later ones and removes the two at every match, without leaving the loop: of three triangles on the same corners all three are removed, although one of them is
a part of what the front encloses. The model records this as `upset`. -/
theorem C120_triple_lost : ∃ st st', sampleThree = .ok st ∧ st.front.map (fun x => (x.n.a, x.n.b, x.n.c, x.remove)) = [(0, 1, 2, false), (1, 2, 0, false), (2, 1, 0, false)] ∧
    dedup (samplePar 10) (List.range 3) st = .ok (st', true) ∧ st'.front.map Fr.remove = [true, true, true] ∧ st.upset = false ∧ st'.upset = true := by
  have h : lostThree = true := by decide +kernel
  unfold lostThree at h
  cases h1 : sampleThree with
  | error e => rw [h1] at h; simp at h
  | ok st =>
    rw [h1] at h
    simp only at h
    cases h2 : dedup (samplePar 10) (List.range 3) st with
    | error e => rw [h2] at h; simp at h
    | ok r =>
      obtain ⟨s, b⟩ := r
      rw [h2] at h
      simp only [Bool.and_eq_true, decide_eq_true_eq, Bool.not_eq_true'] at h
      obtain ⟨⟨⟨⟨a1, a2⟩, a3⟩, a4⟩, a5⟩ := h
      subst a3
      exact ⟨st, s, rfl, a1, h2, a2, a4, a5⟩

/-- The corner tetrahedron and the octahedron meet the hypotheses and are meshed. -/
example : sampleCorner.WF ∧ sampleOcta.WF ∧ Rtree.VolOk (samplePar 10).vol ∧ 0 ≤ (samplePar 10).tol ∧ sampleOcta.triangles.length = 8 :=
  ⟨Mesh.wf_of_check (by decide +kernel), Mesh.wf_of_check (by decide +kernel), samplePar_vol _, by norm_num [samplePar], by decide +kernel⟩

/-- With no new node. -/
example : resultTets (generate (samplePar 10) smallMachine 900 sampleCorner [] []) = some (false, [[(0, 0, 0), (0, 1, 0), (1, 0, 0), (0, 0, 1)]]) := by decide +kernel

example : resultTets (generate (samplePar 10) smallMachine 900 sampleOcta [] []) = some (false, [[(1, 0, 0), (0, 1, 0), (0, 0, 1), (-1, 0, 0)], [(-1, 0, 0), (0, -1, 0), (0, 0, 1), (1, 0, 0)],
      [(0, 1, 0), (1, 0, 0), (0, 0, -1), (-1, 0, 0)], [(0, -1, 0), (-1, 0, 0), (0, 0, -1), (1, 0, 0)]]) := by decide +kernel

/-- With an interior point, and with a new node. -/
example : ((resultTets (generate (samplePar 10) smallMachine 900 sampleOcta [⟨0, 0, 0⟩] [])).map fun r => (r.1, r.2.length)) = some (false, 8) := by decide +kernel

example : ((resultTets (generate { samplePar 10 with size := 1 / 2 } smallMachine 900 sampleOcta [] [])).map fun r => (r.1, r.2.length)) = some (false, 8) := by decide +kernel

/-- The limit and an open surface are noticed. -/
example : resultErr (generate (samplePar 3) smallMachine 900 sampleOcta [] []) = some .maxElements ∧
    resultErr (generate (samplePar 10) smallMachine 900 sampleOpen [] []) = some .openBoundary := ⟨by decide +kernel, by decide +kernel⟩

/-- A half line from the point (1/4, 1/8, 1/16) of the octahedron that is in general position to its surface and pierces one triangle. -/
example : (∀ t ∈ sampleOcta.triangles, Generic ⟨1, 2, 4⟩ ⟨1 / 4, 1 / 8, 1 / 16⟩ t) ∧ (∃ t ∈ sampleOcta.triangles, Pierces ⟨1, 2, 4⟩ ⟨1 / 4, 1 / 8, 1 / 16⟩ t) := by
  have h1 : ∀ t ∈ sampleOcta.triangles, behind t ⟨1 / 4, 1 / 8, 1 / 16⟩ ≠ 0 ∧ det3 (t.v0 - (⟨1 / 4, 1 / 8, 1 / 16⟩ : Vec3 ℚ)) (t.v1 - ⟨1 / 4, 1 / 8, 1 / 16⟩) ⟨1, 2, 4⟩ ≠ 0 ∧
      det3 (t.v1 - (⟨1 / 4, 1 / 8, 1 / 16⟩ : Vec3 ℚ)) (t.v2 - ⟨1 / 4, 1 / 8, 1 / 16⟩) ⟨1, 2, 4⟩ ≠ 0 ∧ det3 (t.v2 - (⟨1 / 4, 1 / 8, 1 / 16⟩ : Vec3 ℚ)) (t.v0 - ⟨1 / 4, 1 / 8, 1 / 16⟩) ⟨1, 2, 4⟩ ≠ 0 := by decide +kernel
  refine ⟨fun t ht => ⟨(h1 t ht).1, (h1 t ht).2⟩, ?_⟩
  have h2 : ∃ t ∈ sampleOcta.triangles, Space.ray ⟨1, 2, 4⟩ ⟨1 / 4, 1 / 8, 1 / 16⟩ t ≠ 0 := by decide +kernel
  obtain ⟨t, ht, h3⟩ := h2
  exact ⟨t, ht, (ray_pierces (h1 t ht).1).1 h3⟩

end ENigMA
