import Verif.Mesh.MergeLemmas

/-! # C08: `mergeNodes` -/

set_option linter.unusedSectionVars false

namespace ENigMA
namespace Mesh
open Cont
variable {K : Type} [Field K] [LinearOrder K] [IsStrictOrderedRing K] [FloorRing K]

/-- The nodes can be put in the hash grid (C13): machine constants positive, coordinates finite, and not all nodes at the same
point unless the machine defines the cast of NaN. -/
structure GoodNodes (mc : HashGrid.Machine K) (m : Mesh K) : Prop where
  eps : 0 < mc.eps
  big : 0 < mc.big
  bounded : ∀ n v, m.nodes.get? n = some v → v.Bounded mc.big
  spread : mc.bad ≠ none ∨ m.nodes.ids = [] ∨
    ∃ n v n' v', m.nodes.get? n = some v ∧ m.nodes.get? n' = some v' ∧ v ≠ v'

/-- Position of a node, 0 if there is none. -/
def posOf (m : Mesh K) (n : Int) : Vec3 K := (m.nodes.get? n).getD 0

theorem posOf_get {m : Mesh K} (hm : m.nodes.Ok) {n : Int} (hn : n ∈ m.nodes.ids) : m.nodes.get? n = some (m.posOf n) := by
  obtain ⟨v, hv⟩ := (hm.2 n).1 hn
  simp [posOf, hv]

theorem GoodNodes.gridable {mc : HashGrid.Machine K} {m : Mesh K} (h : GoodNodes mc m) (hm : m.nodes.Ok) :
    Gridable mc (m.nodes.ids.map fun n => (n, m.posOf n)) := by
  refine ⟨h.eps, h.big, ?_, ?_⟩
  · intro o ho
    obtain ⟨n, hn, rfl⟩ := List.mem_map.1 ho
    exact h.bounded n _ (posOf_get hm hn)
  · rcases h.spread with h1 | h1 | ⟨n, v, n', v', hv, hv', hne⟩
    · exact Or.inl h1
    · right; left; simp [h1]
    · right; right
      refine ⟨(n, m.posOf n), List.mem_map.2 ⟨n, (hm.2 n).2 ⟨v, hv⟩, rfl⟩,
        (n', m.posOf n'), List.mem_map.2 ⟨n', (hm.2 n').2 ⟨v', hv'⟩, rfl⟩, ?_⟩
      simpa [posOf, hv, hv'] using hne

/-- What `mergeNodes` achieves for any order of the nodes. -/
structure MergedNodes (m m' : Mesh K) (tol : K) (φ : Int → Int) : Prop where
  /-- A node either stays itself or is replaced by a node with smaller id at distance at most `tol`. -/
  close : ∀ n v, m.nodes.get? n = some v → φ n = n ∨
    (φ n < n ∧ ∃ v', m.nodes.get? (φ n) = some v' ∧ Vec3.Within v v' tol)
  /-- The surviving nodes are those that are not replaced, with unchanged coordinates, in the same order. -/
  nodes : ∀ n v, m'.nodes.get? n = some v ↔ m.nodes.get? n = some v ∧ φ n = n
  order : m'.nodes.ids.Sublist m.nodes.ids
  /-- No two surviving nodes are within the tolerance. -/
  apart : ∀ n n' v v', m'.nodes.get? n = some v → m'.nodes.get? n' = some v' → n ≠ n' → ¬ Vec3.Within v v' tol
  /-- Elements and faces refer to the replacements; elements that became degenerate are gone. -/
  elements : ∀ id e', m'.elements.get? id = some e' ↔
    ∃ e, m.elements.get? id = some e ∧ e' = { e with nodeIds := e.nodeIds.map φ } ∧ (e.nodeIds.map φ).Nodup
  elementOrder : m'.elements.ids.Sublist m.elements.ids
  faces : ∀ id f', m'.faces.get? id = some f' ↔
    ∃ f, m.faces.get? id = some f ∧ f' = { f with nodeIds := f.nodeIds.map φ }
  faceOrder : m'.faces.ids = m.faces.ids

theorem mergeNodes_spec (mc : HashGrid.Machine K) (m : Mesh K) (hm : m.WF) (hg : GoodNodes mc m) (tol : K) :
    ∃ m' φ, mergeNodes mc m tol = some m' ∧ MergedNodes m m' tol φ ∧
      m'.nodes.Ok ∧ m'.faces.Ok ∧ m'.elements.Ok ∧
      m'.nodes.RoundTrip ∧ m'.faces.RoundTrip ∧ m'.elements.RoundTrip ∧
      (m.nodes.ids.Pairwise (· < ·) → ∀ n ∈ m.nodes.ids, φ n ∈ m'.nodes.ids) := by
  have hobjs : (m.nodes.ids.mapM fun id => do
      let p ← m.nodes.get? id
      return (id, p)) = some (m.nodes.ids.map fun n => (n, m.posOf n)) := by
    apply mapM_option_eq
    intro n hn
    simp [posOf_get hm.nodes hn]
  obtain ⟨g, hgrid, hfind⟩ := grid_exact (hg.gridable hm.nodes) tol
  have hinit : MergeInv m.nodes.ids m.posOf tol [] (mergeInit m.nodes.ids (SMap.empty, SMap.empty)) := by
    refine ⟨?_, ?_, ?_, ?_, by simp, ?_⟩
    · intro n hn; rw [(mergeInit_find _ _ _ _).1]; simp [hn]
    · intro n hn; rw [(mergeInit_find _ _ _ _).1]; simp [hn]
    · intro n hn _; rw [(mergeInit_find _ _ _ _).2]; simp [hn]
    · intro n hn h; rw [(mergeInit_find _ _ _ _).1] at h; simp [hn] at h
    · intro _ n hn h; rw [(mergeInit_find _ _ _ _).1] at h; simp [hn] at h
  obtain ⟨⟨del, new⟩, hloop, hinv⟩ := mergeLoop_spec m.nodes m.posOf tol _ (fun n hn => posOf_get hm.nodes hn) hfind
    m.nodes.ids [] _ rfl hinit
  let φ : Int → Int := fun n => (new.find? n).getD 0
  have hnew : ∀ n ∈ m.nodes.ids, new.find? n = some (φ n) := by
    intro n hn
    obtain ⟨b, hb⟩ := hinv.delSome n hn
    cases b with
    | false => have := hinv.kept n hn hb; simp only at this; simp [φ, this]
    | true => obtain ⟨t, -, h, -⟩ := hinv.moved n hn hb; simp only at h; simp [φ, h]
  have hdel : ∀ n ∈ m.nodes.ids, (del.find? n = some true ↔ φ n ≠ n) := by
    intro n hn
    obtain ⟨b, hb⟩ := hinv.delSome n hn
    simp only at hb
    cases b with
    | false =>
      have := hinv.kept n hn hb
      simp only [hnew n hn, Option.some.injEq] at this
      simp [hb, this]
    | true =>
      obtain ⟨t, -, h, hlt, -⟩ := hinv.moved n hn hb
      simp only [hnew n hn, Option.some.injEq] at h
      simp only [hb, ne_eq, true_iff]
      omega
  -- elements and faces
  obtain ⟨els, he1, he2, he3, he4, he5⟩ := remapLoop_spec (remapElem new) m.elements.ids hm.elements.1 m.elements (by
    intro id hid
    obtain ⟨e, he⟩ := (hm.elements.2 id).1 hid
    exact ⟨e, _, he, remapElem_eq (fun n hn => hnew n (hm.elemNodes id e he n hn))⟩)
  obtain ⟨fcs, hf1, hf2, hf3, hf4, hf5⟩ := remapLoop_spec (remapFace new) m.faces.ids hm.faces.1 m.faces (by
    intro id hid
    obtain ⟨e, he⟩ := (hm.faces.2 id).1 hid
    exact ⟨e, _, he, remapFace_eq (fun n hn => hnew n (hm.faceNodes id e he n hn))⟩)
  have hEl : ∀ id e', els.get? id = some e' ↔
      ∃ e, m.elements.get? id = some e ∧ e' = { e with nodeIds := e.nodeIds.map φ } := by
    intro id e'
    rw [he5]
    cases hgt : m.elements.get? id with
    | none => split_ifs <;> simp
    | some e =>
      rw [if_pos ((hm.elements.2 id).2 ⟨e, hgt⟩)]
      simp only [Option.bind_some, remapElem_eq (fun n hn => hnew n (hm.elemNodes id e hgt n hn)), Option.some.injEq]
      constructor
      · rintro rfl; exact ⟨e, rfl, rfl⟩
      · rintro ⟨e1, rfl, rfl⟩; rfl
  have hFc : ∀ id f', fcs.get? id = some f' ↔
      ∃ f, m.faces.get? id = some f ∧ f' = { f with nodeIds := f.nodeIds.map φ } := by
    intro id e'
    rw [hf5]
    cases hgt : m.faces.get? id with
    | none => split_ifs <;> simp
    | some e =>
      rw [if_pos ((hm.faces.2 id).2 ⟨e, hgt⟩)]
      simp only [Option.bind_some, remapFace_eq (fun n hn => hnew n (hm.faceNodes id e hgt n hn)), Option.some.injEq]
      constructor
      · rintro rfl; exact ⟨e, rfl, rfl⟩
      · rintro ⟨e1, rfl, rfl⟩; rfl
  have okE : els.Ok := by
    refine ⟨he2 ▸ hm.elements.1, fun id => ?_⟩
    rw [he2, hm.elements.2 id]
    constructor
    · rintro ⟨e, he⟩; exact ⟨_, (hEl id _).2 ⟨e, he, rfl⟩⟩
    · rintro ⟨e', he'⟩; obtain ⟨e, he, -⟩ := (hEl id e').1 he'; exact ⟨e, he⟩
  have okF : fcs.Ok := by
    refine ⟨hf2 ▸ hm.faces.1, fun id => ?_⟩
    rw [hf2, hm.faces.2 id]
    constructor
    · rintro ⟨e, he⟩; exact ⟨_, (hFc id _).2 ⟨e, he, rfl⟩⟩
    · rintro ⟨e', he'⟩; obtain ⟨e, he, -⟩ := (hFc id e').1 he'; exact ⟨e, he⟩
  -- nodes
  obtain ⟨nds, hn1, okN, hn3, hn4, -⟩ := deleteMap_spec del m.nodes hm.nodes (by
    intro n hn
    by_contra hx
    have := hinv.delNone n hx
    simp only at this
    rw [this] at hn
    simp at hn)
  have hNd : ∀ n v, nds.get? n = some v ↔ m.nodes.get? n = some v ∧ φ n = n := by
    intro n v
    rw [hn4]
    by_cases hmem : n ∈ m.nodes.ids
    · by_cases hd : del.find? n = some true
      · have := (hdel n hmem).1 hd
        simp [hd, this]
      · have := (not_congr (hdel n hmem)).1 hd
        simp only [ne_eq, not_not] at this
        simp [hd, this]
    · have : m.nodes.get? n = none := by
        cases hg' : m.nodes.get? n with
        | none => rfl
        | some a => exact absurd ((hm.nodes.2 n).2 ⟨a, hg'⟩) hmem
      split_ifs <;> simp [this]
  -- final steps
  obtain ⟨m2, hr1, hr2, hr3, -, okE2, hr5, hr6⟩ := removeInvalid_ids { m with nodes := nds, faces := fcs, elements := els } okE
  refine ⟨m2.rebuildIndices, φ, ?_, ⟨?_, ?_, ?_, ?_, ?_, ?_, ?_, ?_⟩, ?_, ?_, ?_, ?_, ?_, ?_, ?_⟩
  · unfold mergeNodes
    rw [hobjs]
    simp only [Option.bind_eq_bind, Option.bind_some, hgrid, hloop, he1, hf1, hn1, hr1]
    rfl
  · intro n v hv
    have hmem := (hm.nodes.2 n).2 ⟨v, hv⟩
    by_cases h : φ n = n
    · exact Or.inl h
    · right
      obtain ⟨t, -, h1, h2, h3, h4⟩ := hinv.moved n hmem ((hdel n hmem).2 h)
      simp only [hnew n hmem, Option.some.injEq] at h1
      subst h1
      refine ⟨h2, _, posOf_get hm.nodes h3, ?_⟩
      have : m.posOf n = v := by simp [posOf, hv]
      rw [this] at h4
      exact h4
  · intro n v
    simp only [rebuildIndices, Cont.rebuild, Cont.get?, hr2]
    exact hNd n v
  · simp only [rebuildIndices, Cont.rebuild, hr2, hn3]; exact List.filter_sublist
  · intro n n' v v' hv hv' hne hw
    simp only [rebuildIndices, Cont.rebuild, Cont.get?, hr2] at hv hv'
    obtain ⟨a1, a2⟩ := (hNd n v).1 hv
    obtain ⟨b1, b2⟩ := (hNd n' v').1 hv'
    have key : ∀ x y vx vy, m.nodes.get? x = some vx → φ x = x → m.nodes.get? y = some vy → φ y = y → x < y →
        Vec3.Within vy vx tol → False := by
      intro x y vx vy hx hφx hy hφy hlt hw
      have mx := (hm.nodes.2 x).2 ⟨vx, hx⟩
      have my := (hm.nodes.2 y).2 ⟨vy, hy⟩
      have dx : del.find? x = some false := by
        obtain ⟨b, hb⟩ := hinv.delSome x mx
        simp only at hb
        cases b with
        | false => exact hb
        | true => exact absurd hφx ((hdel x mx).1 hb)
      have := hinv.clear x mx dx y my hlt (by
        have e1 : m.posOf y = vy := by simp [posOf, hy]
        have e2 : m.posOf x = vx := by simp [posOf, hx]
        rw [e1, e2]; exact hw)
      exact (hdel y my).1 this hφy
    rcases lt_or_gt_of_ne hne with h | h
    · exact key n n' v v' a1 a2 b1 b2 h hw.symm
    · exact key n' n v' v b1 b2 a1 a2 h hw
  · intro id e'
    simp only [rebuildIndices, Cont.rebuild, Cont.get?]
    refine (hr6 id e').trans ?_
    simp only [hEl]
    constructor
    · rintro ⟨⟨e, he, rfl⟩, hd⟩; exact ⟨e, he, rfl, hd⟩
    · rintro ⟨e, he, rfl, hd⟩; exact ⟨⟨e, he, rfl⟩, hd⟩
  · simp only [rebuildIndices, Cont.rebuild]; rw [← he2]; exact hr5
  · intro id f'
    simp only [rebuildIndices, Cont.rebuild, Cont.get?, hr3]
    exact hFc id f'
  · simp only [rebuildIndices, Cont.rebuild, hr3, hf2]
  · simp only [rebuildIndices, hr2]; exact okN
  · simp only [rebuildIndices, hr3]; exact okF
  · exact okE2
  · simp only [rebuildIndices, hr2]; exact (rebuild_synced _ okN.1).roundTrip
  · simp only [rebuildIndices, hr3]; exact (rebuild_synced _ okF.1).roundTrip
  · exact (rebuild_synced _ okE2.1).roundTrip
  · intro hsort n hn
    simp only [rebuildIndices, Cont.rebuild, hr2, hn3, List.mem_filter, decide_eq_true_eq, ne_eq]
    by_cases h : φ n = n
    · rw [h]
      exact ⟨hn, fun hd => (hdel n hn).1 hd h⟩
    · have hd := (hdel n hn).2 h
      obtain ⟨t, -, h1, h2, h3, h4⟩ := hinv.moved n hn hd
      simp only [hnew n hn, Option.some.injEq] at h1
      subst h1
      refine ⟨h3, ?_⟩
      have := hinv.target hsort n hn hd (φ n) (hnew n hn)
      simp only at this
      rw [this]; simp

end Mesh

open Mesh Cont
variable {K : Type} [Field K] [LinearOrder K] [IsStrictOrderedRing K] [FloorRing K]

/-- **C08 (partial: ids in ascending order).** On every consistent mesh whose nodes were added in ascending id order (what all
meshers and `renumber` produce), `mergeNodes(tol)` is defined, the result is again consistent (so no element or face refers to
a removed node), surviving nodes are pairwise farther than `tol` apart, each vertex of each element is replaced by a node
at distance at most `tol`, elements have no repeated node, and indices round-trip. Missing from the full property: other orders
of the node ids, see `C08_any_order_partial` and `C08_dangling_reference`. -/
theorem C08_mergeNodes_partial (mc : HashGrid.Machine K) (m : Mesh K) (hm : m.WF) (hg : GoodNodes mc m) (tol : K)
    (hsort : m.nodes.ids.Pairwise (· < ·)) :
    ∃ m' φ, mergeNodes mc m tol = some m' ∧ MergedNodes m m' tol φ ∧ m'.WF ∧
      (∀ id e', m'.elements.get? id = some e' → e'.nodeIds.Nodup) ∧
      (∀ n v, m.nodes.get? n = some v → ∃ v', m'.nodes.get? (φ n) = some v' ∧ (v' = v ∨ Vec3.Within v v' tol)) ∧
      m'.nodes.RoundTrip ∧ m'.faces.RoundTrip ∧ m'.elements.RoundTrip := by
  obtain ⟨m', φ, h1, h2, okN, okF, okE, r1, r2, r3, hd⟩ := mergeNodes_spec mc m hm hg tol
  have hd := hd hsort
  refine ⟨m', φ, h1, h2, ⟨okN, okF, okE, ?_, ?_⟩, ?_, ?_, r1, r2, r3⟩
  · intro id f' hf' n hn
    obtain ⟨f, hf, rfl⟩ := (h2.faces id f').1 hf'
    simp only [List.mem_map] at hn
    obtain ⟨n', hn', rfl⟩ := hn
    exact hd n' (hm.faceNodes id f hf n' hn')
  · intro id f' hf' n hn
    obtain ⟨f, hf, rfl, -⟩ := (h2.elements id f').1 hf'
    simp only [List.mem_map] at hn
    obtain ⟨n', hn', rfl⟩ := hn
    exact hd n' (hm.elemNodes id f hf n' hn')
  · intro id f' hf'
    obtain ⟨f, hf, rfl, h⟩ := (h2.elements id f').1 hf'
    exact h
  · intro n v hv
    obtain ⟨v', hv'⟩ := (okN.2 _).1 (hd n ((hm.nodes.2 n).2 ⟨v, hv⟩))
    refine ⟨v', hv', ?_⟩
    have hv2 := ((h2.nodes _ _).1 hv').1
    rcases h2.close n v hv with h | ⟨-, w, hw, hwt⟩
    · rw [h, hv] at hv2
      simp only [Option.some.injEq] at hv2
      exact Or.inl hv2.symm
    · rw [hv2] at hw
      simp only [Option.some.injEq] at hw
      subst hw
      exact Or.inr hwt

/-- **C08 (partial: any order).** For an arbitrary order of the node ids everything holds except that replaced nodes may refer to a node
which is itself removed: survivors are farther than `tol` apart, every replacement is within `tol`, no element repeats a
node. -/
theorem C08_any_order_partial (mc : HashGrid.Machine K) (m : Mesh K) (hm : m.WF) (hg : GoodNodes mc m) (tol : K) :
    ∃ m' φ, mergeNodes mc m tol = some m' ∧ MergedNodes m m' tol φ ∧
      m'.nodes.RoundTrip ∧ m'.faces.RoundTrip ∧ m'.elements.RoundTrip := by
  obtain ⟨m', φ, h1, h2, okN, okF, okE, r1, r2, r3, hd⟩ := mergeNodes_spec mc m hm hg tol
  exact ⟨m', φ, h1, h2, r1, r2, r3⟩

/-- A small machine over `ℚ` for evaluated examples. -/
def smallMachine : HashGrid.Machine ℚ := { eps := 1 / 1024, big := 1000, cbrt := fun _ => 1, bad := none }

/-- Nodes 0, 1, 2 (and 5) on a line, added in the order 1, 0, 2; a beam joins 2 and 5. -/
def danglingMesh : Mesh ℚ :=
  { nodes := (((Cont.empty.add 1 ⟨1, 0, 0⟩).add 0 ⟨0, 0, 0⟩).add 2 ⟨2, 0, 0⟩).add 5 ⟨9, 0, 0⟩
    faces := Cont.empty
    elements := Cont.empty.add 0 ⟨.beam, [2, 5], []⟩
    nbBoundary := 0 }

/-- **C08 (negative).** When node ids are not in ascending order, `mergeNodes` can leave an element that refers to a removed node: here
node 2 is replaced by 1, then 1 by 0, and the beam ends at node 1, which no longer exists. -/
theorem C08_dangling_reference :
    (mergeNodes smallMachine danglingMesh 1).map (fun m => (m.nodes.ids, m.elements.get? 0)) =
      some ([0, 5], some ⟨.beam, [1, 5], []⟩) := by decide +kernel

/-- The same mesh with the nodes added in ascending order meets the hypotheses of `C08_mergeNodes_partial`. -/
def ascendingMesh : Mesh ℚ :=
  { nodes := (((Cont.empty.add 0 ⟨0, 0, 0⟩).add 1 ⟨1, 0, 0⟩).add 2 ⟨2, 0, 0⟩).add 5 ⟨9, 0, 0⟩
    faces := Cont.empty
    elements := Cont.empty.add 0 ⟨.beam, [2, 5], []⟩
    nbBoundary := 0 }

theorem ascendingMesh_ok : ascendingMesh.WF ∧ GoodNodes smallMachine ascendingMesh ∧
    ascendingMesh.nodes.ids.Pairwise (· < ·) := by
  refine ⟨⟨?_, empty_ok, ?_, ?_, ?_⟩, ⟨by norm_num [smallMachine], by norm_num [smallMachine], ?_, ?_⟩, by decide⟩
  · exact add_ok (add_ok (add_ok (add_ok empty_ok _ (by decide)) _ (by decide)) _ (by decide)) _ (by decide)
  · exact add_ok empty_ok _ (by decide)
  · intro id f h; simp [ascendingMesh, Cont.empty, Cont.get?] at h
  · intro id e h n hn
    simp only [ascendingMesh, get?_add] at h
    split_ifs at h
    · simp only [Option.some.injEq] at h; subst h; simp at hn; rcases hn with rfl | rfl <;> decide
    · simp [Cont.empty, Cont.get?] at h
  · intro n v h
    simp only [ascendingMesh, get?_add] at h
    split_ifs at h <;> first
      | (simp only [Option.some.injEq] at h; subst h; norm_num [Vec3.Bounded, smallMachine])
      | (simp [Cont.empty, Cont.get?] at h)
  · right; right
    exact ⟨0, ⟨0, 0, 0⟩, 1, ⟨1, 0, 0⟩, by decide +kernel, by decide +kernel, by decide +kernel⟩

/-- There the beam ends at node 1, which survives. -/
example : (mergeNodes smallMachine ascendingMesh 1).map (fun m => (m.nodes.ids, m.elements.get? 0)) =
    some ([0, 2, 5], some ⟨.beam, [2, 5], []⟩) := by decide +kernel

end ENigMA
