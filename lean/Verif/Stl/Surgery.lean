import Verif.Stl.Orient
import Verif.Stl.MeshProps

/-!
# What the changes to single vertices and edges of facets do
-/

set_option linter.unusedSectionVars false
set_option autoImplicit false

namespace ENigMA
namespace Stl
variable {K : Type}

theorem idx_nat (n : Nat) : idx (n : Int) = some n := by simp [idx]

theorem idx_mod {v : Int} {p : Nat} (hv : v = (p : Int)) (k : Nat) : idx ((v + (k : Int)).tmod 3) = some ((p + k) % 3) := by
  subst hv
  rw [show ((p : Int) + (k : Int)).tmod 3 = (((p + k) % 3 : Nat) : Int) by rw [Int.tmod_eq_emod_of_nonneg (by omega)]; omega, idx_nat]

/-- The edge data at `x`. -/
abbrev edgeAt (s : File K) (x : Int × Nat) : Option Edge := edge? s x.1 x.2

/-- Facets with three vertices and three edges, filed properly. -/
structure Good (s : File K) : Prop where
  ok : s.Ok
  tri : Triangular s

theorem edgeAt_some {s : File K} (h : Good s) (x : Int × Nat) : (∃ e, edgeAt s x = some e) ↔ Corner s x := by
  unfold edgeAt edge? Corner
  constructor
  · rintro ⟨e, he⟩
    simp only [Option.bind_eq_bind, Option.bind_eq_some_iff] at he
    obtain ⟨f, hf, he⟩ := he
    have := (List.getElem?_eq_some_iff.1 he).1
    rw [(h.tri _ f hf).2] at this
    exact ⟨(h.ok.2 _).2 ⟨f, hf⟩, this⟩
  · rintro ⟨h1, h2⟩
    obtain ⟨f, hf⟩ := (h.ok.2 _).1 h1
    rw [hf]
    refine ⟨_, List.getElem?_eq_getElem (l := f.edges) (i := x.2) ?_⟩
    rw [(h.tri _ f hf).2]
    exact h2

theorem vert_some {s : File K} (h : Good s) (x : Int × Nat) : (∃ v, vert s x = some v) ↔ Corner s x := by
  unfold vert Corner
  constructor
  · rintro ⟨e, he⟩
    simp only [Option.bind_eq_some_iff] at he
    obtain ⟨f, hf, he⟩ := he
    have := (List.getElem?_eq_some_iff.1 he).1
    rw [(h.tri _ f hf).1] at this
    exact ⟨(h.ok.2 _).2 ⟨f, hf⟩, this⟩
  · rintro ⟨h1, h2⟩
    obtain ⟨f, hf⟩ := (h.ok.2 _).1 h1
    rw [hf]
    refine ⟨_, List.getElem?_eq_getElem (l := f.verts) (i := x.2) ?_⟩
    rw [(h.tri _ f hf).1]
    exact h2

theorem vertexOf_eq {s : File K} (h : Good s) {id : Int} {j : Nat} (hj : j < 3) : vertexOf s id j = vert s (id, j) := by
  unfold vertexOf vert
  simp only
  cases hf : s.get? id with
  | none => rfl
  | some f =>
    simp only [Option.bind_eq_bind, Option.bind_some, Facet.vertex?, (h.tri _ f hf).1]
    rw [Nat.mod_eq_of_lt hj]

/-- A change that keeps the facets, and is told by what it does to vertices and edges. -/
structure Change (s s' : File K) (v : Int × Nat → Option (Vec3 K)) (e : Int × Nat → Option Edge) : Prop where
  good : Good s'
  ids : s'.ids = s.ids
  verts : ∀ x, vert s' x = v x
  edges : ∀ x, edgeAt s' x = e x

theorem Change.corner {s s' : File K} {v : Int × Nat → Option (Vec3 K)} {e : Int × Nat → Option Edge} (h : Change s s' v e) (x : Int × Nat) : Corner s' x ↔ Corner s x := by
  unfold Corner
  rw [h.ids]

theorem setVert_spec {s : File K} (h : Good s) {x : Int × Nat} (hx : Corner s x) (p : Vec3 K) :
    ∃ s', setVert s x.1 x.2 p = some s' ∧ Change s s' (fun y => if y = x then some p else vert s y) (edgeAt s) := by
  obtain ⟨f, hf⟩ := (h.ok.2 _).1 hx.1
  have hl := h.tri _ f hf
  refine ⟨_, Cont.modify_eq (a' := { f with verts := f.verts.set x.2 p }) hf ?_, ?_⟩
  · rw [if_neg (by omega), hl.1, Nat.mod_eq_of_lt hx.2]
  · refine ⟨⟨Cont.put_ok h.ok hf, ?_⟩, rfl, ?_, ?_⟩
    · intro id g hg
      rw [Cont.get?_put] at hg
      split_ifs at hg with hid
      · rw [Option.some.injEq] at hg
        subst hg
        simpa using hl
      · exact h.tri id g hg
    · intro y
      unfold vert
      rw [Cont.get?_put]
      by_cases hy : y.1 = x.1
      · rw [if_pos hy, Option.bind_some, hy, hf, Option.bind_some]
        simp only
        by_cases hy2 : y.2 = x.2
        · rw [if_pos (Prod.ext hy hy2), hy2, List.getElem?_set_self (by rw [hl.1]; exact hx.2)]
        · rw [if_neg (fun h => hy2 (by rw [h])), List.getElem?_set_ne (Ne.symm hy2)]
      · rw [if_neg hy, if_neg (fun h => hy (by rw [h]))]
    · intro y
      unfold edgeAt edge?
      rw [Cont.get?_put]
      by_cases hy : y.1 = x.1
      · rw [if_pos hy, hy, hf]
        rfl
      · rw [if_neg hy]

theorem setEdge_spec {s : File K} (h : Good s) {x : Int × Nat} (hx : Corner s x) (g : Edge → Edge) :
    ∃ s', setEdge s x.1 x.2 g = some s' ∧ Change s s' (vert s) (fun y => if y = x then (edgeAt s y).map g else edgeAt s y) := by
  obtain ⟨f, hf⟩ := (h.ok.2 _).1 hx.1
  have hl := h.tri _ f hf
  have he := List.getElem?_eq_getElem (l := f.edges) (i := x.2) (by rw [hl.2]; exact hx.2)
  generalize f.edges[x.2]'(by rw [hl.2]; exact hx.2) = e at he
  refine ⟨_, Cont.modify_eq (a' := { f with edges := f.edges.set x.2 (g e) }) hf ?_, ?_⟩
  · simp only [he, Option.map_some]
  · refine ⟨⟨Cont.put_ok h.ok hf, ?_⟩, rfl, ?_, ?_⟩
    · intro id g' hg
      rw [Cont.get?_put] at hg
      split_ifs at hg with hid
      · rw [Option.some.injEq] at hg
        subst hg
        simpa using hl
      · exact h.tri id g' hg
    · intro y
      unfold vert
      rw [Cont.get?_put]
      by_cases hy : y.1 = x.1
      · rw [if_pos hy, hy, hf]
        rfl
      · rw [if_neg hy]
    · intro y
      unfold edgeAt edge?
      rw [Cont.get?_put]
      by_cases hy : y.1 = x.1
      · rw [if_pos hy, hy, hf]
        simp only [Option.bind_eq_bind, Option.bind_some]
        by_cases hy2 : y.2 = x.2
        · rw [if_pos (Prod.ext hy hy2), hy2, List.getElem?_set_self (by rw [hl.2]; exact hx.2), he, Option.map_some]
        · rw [if_neg (fun h => hy2 (by rw [h])), List.getElem?_set_ne (Ne.symm hy2)]
      · rw [if_neg hy, if_neg (fun h => hy (by rw [h]))]

/-- Edges without a neighbour have no vertex of it either. -/
def Clean (s : File K) : Prop := ∀ x e, edgeAt s x = some e → e.neighbor = -1 → e.whichNot = -1

/-- No facet is its own neighbour. -/
def NoSelf (s : File K) : Prop := ∀ x e, edgeAt s x = some e → e.neighbor ≠ x.1

theorem link_edge {s : File K} {x : Int × Nat} {e : Edge} (he : edgeAt s x = some e) : link s x = if e.neighbor = -1 then none else some (e.neighbor, ((e.whichNot + 1) % 3).toNat) := by
  unfold edgeAt edge? at he
  simp only [Option.bind_eq_bind, Option.bind_eq_some_iff] at he
  obtain ⟨f, hf, he⟩ := he
  unfold link
  rw [hf, Option.bind_some, he, Option.bind_some]

theorem link_none {s : File K} {x : Int × Nat} (he : edgeAt s x = none) : link s x = none := by
  unfold edgeAt edge? at he
  unfold link
  cases hf : s.get? x.1 with
  | none => rfl
  | some f =>
    rw [hf] at he
    simp only [Option.bind_eq_bind, Option.bind_some] at he ⊢
    rw [he]
    rfl

/-- `Mutual`, told with `link`. -/
theorem mutual_iff {s : File K} (h : Good s) (hpos : ∀ id ∈ s.ids, 0 ≤ id) :
    Mutual s ↔ ∀ x e, edgeAt s x = some e → e.neighbor ≠ -1 → ∃ y, Corner s y ∧ e.neighbor = y.1 ∧ e.whichNot = (((y.2 + 2) % 3 : Nat) : Int) ∧ link s x = some y ∧ link s y = some x := by
  constructor
  · intro hm x e he hn
    have hl := link_edge he
    rw [if_neg hn] at hl
    obtain ⟨h1, h2, h3⟩ := link_symm hpos h.ok hm h.tri hl
    have hx := (edgeAt_some h x).1 ⟨e, he⟩
    unfold edgeAt edge? at he
    simp only [Option.bind_eq_bind, Option.bind_eq_some_iff] at he
    obtain ⟨f, hf, he⟩ := he
    obtain ⟨g, e', j', hj3, hg, hw, he', _, _⟩ := hm x.1 f x.2 e hf he hn
    refine ⟨_, ⟨(h.ok.2 _).2 ⟨g, hg⟩, h3⟩, rfl, ?_, hl, h1⟩
    simp only
    rw [hw]
    omega
  · intro H id f j e hf he hn
    have hea : edgeAt s (id, j) = some e := by simp only [edgeAt, edge?, hf, Option.bind_eq_bind, Option.bind_some, he]
    obtain ⟨y, hy, h1, h2, h3, h4⟩ := H (id, j) e hea hn
    obtain ⟨g, hg⟩ := (h.ok.2 _).1 hy.1
    have he' := List.getElem?_eq_getElem (l := g.edges) (i := y.2) (by rw [(h.tri _ g hg).2]; exact hy.2)
    generalize g.edges[y.2]'(by rw [(h.tri _ g hg).2]; exact hy.2) = e' at he'
    have hea' : edgeAt s y = some e' := by simp only [edgeAt, edge?, hg, Option.bind_eq_bind, Option.bind_some, he']
    have hl := link_edge hea'
    rw [h4] at hl
    split_ifs at hl with hn'
    obtain ⟨z, hz, z1, z2, z3, _⟩ := H y e' hea' hn'
    rw [h4, Option.some.injEq] at z3
    subst z3
    exact ⟨g, e', y.2, hy.2, h1 ▸ hg, h2, he', z1, z2⟩

end Stl
end ENigMA
