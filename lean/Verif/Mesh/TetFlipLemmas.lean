import Verif.Mesh.TetFlip
import Verif.Mesh.TetFlipSpec
import Verif.Mesh.TetSmoothLemmas

/-!
# Properties of `flipEdges32`
-/

set_option linter.unusedSectionVars false
set_option autoImplicit false

namespace ENigMA
variable {K : Type} [Field K] [LinearOrder K]

namespace TetFlip
open TetSmooth Space

/-! ### The same corners in another even order -/

/-- The second reads the corners of the first in another even order. -/
inductive Read {A : Type} : A × A × A × A → A × A × A × A → Prop
  | refl (s) : Read s s
  | turn {s a b c d} : Read s (a, b, c, d) → Read s (b, c, a, d)
  | swap {s a b c d} : Read s (a, b, c, d) → Read s (b, a, d, c)

section
variable {A : Type} {s : A × A × A × A} {a b c d : A}

theorem Read.twelve {a b c d : A} {t : A × A × A × A} (h : Read (a, b, c, d) t) :
    t = (a, b, c, d) ∨ t = (b, c, a, d) ∨ t = (c, a, b, d) ∨ t = (b, a, d, c) ∨ t = (a, d, b, c) ∨ t = (d, b, a, c) ∨
    t = (c, d, a, b) ∨ t = (d, a, c, b) ∨ t = (a, c, d, b) ∨ t = (d, c, b, a) ∨ t = (c, b, d, a) ∨ t = (b, d, c, a) := by
  induction h with
  | refl => simp
  | turn _ ih =>
    have := ih
    simp only [Prod.mk.injEq] at this ⊢
    rcases this with h | h | h | h | h | h | h | h | h | h | h | h <;> obtain ⟨rfl, rfl, rfl, rfl⟩ := h <;> simp
  | swap _ ih =>
    have := ih
    simp only [Prod.mk.injEq] at this ⊢
    rcases this with h | h | h | h | h | h | h | h | h | h | h | h <;> obtain ⟨rfl, rfl, rfl, rfl⟩ := h <;> simp

theorem Read.perm {t : A × A × A × A} (h : Read s t) : [t.1, t.2.1, t.2.2.1, t.2.2.2].Perm [s.1, s.2.1, s.2.2.1, s.2.2.2] := by
  induction h with
  | refl => exact List.Perm.refl _
  | @turn a b c d _ ih => exact (((List.Perm.cons b (List.Perm.swap a c [d])).trans (List.Perm.swap a b [c, d]))).trans ih
  | @swap a b c d _ ih => exact ((List.Perm.swap a b [d, c]).trans (List.Perm.cons a (List.Perm.cons b (List.Perm.swap c d [])))).trans ih

theorem Read.mem {t : A × A × A × A} (h : Read s t) (n : A) : (n = t.1 ∨ n = t.2.1 ∨ n = t.2.2.1 ∨ n = t.2.2.2) ↔ n ∈ [s.1, s.2.1, s.2.2.1, s.2.2.2] := by
  rw [← h.perm.mem_iff]; simp

theorem Read.trans {t u : A × A × A × A} (h1 : Read s t) (h2 : Read t u) : Read s u := by
  induction h2 with
  | refl => exact h1
  | turn _ ih => exact Read.turn ih
  | swap _ ih => exact Read.swap ih

theorem Read.symm {t : A × A × A × A} (h : Read s t) : Read t s := by
  induction h with
  | refl => exact Read.refl _
  | turn _ ih => exact (Read.turn (Read.turn (Read.refl _))).trans ih
  | swap _ ih => exact (Read.swap (Read.refl _)).trans ih

/-- Two of the corners read first. -/
theorem Read.edge {n1 n2 n3 n4 a b : A} (ha : a ∈ [n1, n2, n3, n4]) (hb : b ∈ [n1, n2, n3, n4]) (hab : a ≠ b) : ∃ c d, Read (n1, n2, n3, n4) (a, b, c, d) := by
  simp only [List.mem_cons, List.not_mem_nil, or_false] at ha hb
  have r0 := Read.refl (n1, n2, n3, n4)
  have r1 := r0.turn
  have r2 := r1.turn
  have s0 := r0.swap
  have s1 := r1.swap
  have s2 := r2.swap
  rcases ha with rfl | rfl | rfl | rfl <;> rcases hb with rfl | rfl | rfl | rfl <;> first
    | exact absurd rfl hab
    | exact ⟨_, _, r0⟩ | exact ⟨_, _, r1⟩ | exact ⟨_, _, r2⟩ | exact ⟨_, _, s0⟩ | exact ⟨_, _, s1⟩ | exact ⟨_, _, s2⟩
    | exact ⟨_, _, s0.turn⟩ | exact ⟨_, _, s1.turn⟩ | exact ⟨_, _, s2.turn⟩ | exact ⟨_, _, s0.turn.turn⟩ | exact ⟨_, _, s1.turn.turn⟩ | exact ⟨_, _, s2.turn.turn⟩

/-- The faces of four corners. -/
def fourFaces (t : A × A × A × A) : List (A × A × A) := [(t.1, t.2.1, t.2.2.1), (t.2.1, t.2.2.2, t.2.2.1), (t.1, t.2.2.2, t.2.1), (t.1, t.2.2.1, t.2.2.2)]

theorem Read.faces {t : A × A × A × A} (h : Read s t) : ∀ f ∈ fourFaces t, ∃ g ∈ fourFaces s, SameTri g f := by
  induction h with
  | refl => exact fun f hf => ⟨f, hf, SameTri.refl f⟩
  | @turn a b c d _ ih =>
    have key : ∀ f ∈ fourFaces (b, c, a, d), ∃ g ∈ fourFaces (a, b, c, d), SameTri g f := by
      simp only [fourFaces, List.forall_mem_cons, List.not_mem_nil, false_imp_iff, implies_true, and_true, List.exists_mem_cons_iff, SameTri, Prod.mk.injEq]
      simp
    intro f hf
    obtain ⟨g, hg, h1⟩ := key f hf
    obtain ⟨k, hk, h2⟩ := ih g hg
    exact ⟨k, hk, h2.trans h1⟩
  | @swap a b c d _ ih =>
    have key : ∀ f ∈ fourFaces (b, a, d, c), ∃ g ∈ fourFaces (a, b, c, d), SameTri g f := by
      simp only [fourFaces, List.forall_mem_cons, List.not_mem_nil, false_imp_iff, implies_true, and_true, List.exists_mem_cons_iff, SameTri, Prod.mk.injEq]
      simp
    intro f hf
    obtain ⟨g, hg, h1⟩ := key f hf
    obtain ⟨k, hk, h2⟩ := ih g hg
    exact ⟨k, hk, h2.trans h1⟩

/-- A face read first. -/
theorem Read.face {f : A × A × A} (hf : f ∈ fourFaces s) {g : A × A × A} (h : SameTri f g) : ∃ z, Read s (g.1, g.2.1, g.2.2, z) := by
  obtain ⟨a, b, c, d⟩ := s
  have r0 := Read.refl (a, b, c, d)
  have key : ∃ z, Read (a, b, c, d) (f.1, f.2.1, f.2.2, z) := by
    simp only [fourFaces, List.mem_cons, List.not_mem_nil, or_false] at hf
    rcases hf with rfl | rfl | rfl | rfl
    · exact ⟨_, r0⟩
    · exact ⟨_, r0.turn.swap.turn⟩
    · exact ⟨_, r0.swap.turn⟩
    · exact ⟨_, r0.turn.turn.swap⟩
  obtain ⟨z, hz⟩ := key
  unfold SameTri at h
  rcases h with rfl | rfl | rfl
  · exact ⟨z, hz⟩
  · exact ⟨z, hz.turn⟩
  · exact ⟨z, hz.turn.turn⟩

end

variable [IsStrictOrderedRing K]

/-- The positions of four corners. -/
def tetOf (f : Int → Vec3 K) (t : Int × Int × Int × Int) : Tet K := ⟨f t.1, f t.2.1, f t.2.2.1, f t.2.2.2⟩

theorem Read.alike (f : Int → Vec3 K) {s t : Int × Int × Int × Int} (h : Read s t) : Alike (tetOf f s) (tetOf f t) := by
  induction h with
  | refl => exact Alike.refl _
  | turn _ ih => exact Alike.turn ih
  | swap _ ih => exact Alike.swap ih

/-! ### Around an edge -/

/-- The element with its corners. -/
def At (m : Mesh K) (id : Int) (s : Int × Int × Int × Int) : Prop := ∃ fs, m.elements.get? id = some ⟨.tetrahedron, [s.1, s.2.1, s.2.2.1, s.2.2.2], fs⟩

variable {m : Mesh K}

theorem At.unique {id : Int} {s t : Int × Int × Int × Int} (h1 : At m id s) (h2 : At m id t) : s = t := by
  obtain ⟨fs, h1⟩ := h1
  obtain ⟨gs, h2⟩ := h2
  rw [h1] at h2
  simp only [Option.some.injEq, Elem.mk.injEq, List.cons.injEq, and_true, true_and] at h2
  obtain ⟨⟨e1, e2, e3, e4⟩, -⟩ := h2
  exact Prod.ext e1 (Prod.ext e2 (Prod.ext e3 e4))

theorem at_of (hm : m.Filling) {id : Int} (h : id ∈ m.elements.ids) : ∃ s, At m id s := by
  obtain ⟨e, he⟩ := (hm.wf.elements.2 id).1 h
  obtain ⟨a, b, c, d, fs, rfl, -⟩ := four_of hm he
  exact ⟨(a, b, c, d), fs, he⟩

theorem At.mem (hm : m.Filling) {id : Int} {s : Int × Int × Int × Int} (h : At m id s) : id ∈ m.elements.ids := by
  obtain ⟨fs, h⟩ := h
  exact (hm.wf.elements.2 id).2 ⟨_, h⟩

theorem At.nodes (hm : m.Filling) {id : Int} {s : Int × Int × Int × Int} (h : At m id s) : ∀ n ∈ [s.1, s.2.1, s.2.2.1, s.2.2.2], n ∈ m.nodes.ids := by
  obtain ⟨fs, h⟩ := h
  exact hm.wf.elemNodes _ _ h

theorem pos_of (hm : m.Filling) {n : Int} (hn : n ∈ m.nodes.ids) : m.nodes.get? n = some (Smooth.pos m.nodes n) := by
  obtain ⟨v, hv⟩ := (hm.wf.nodes.2 n).1 hn
  simp [Smooth.pos, hv]

theorem At.tet (hm : m.Filling) {id : Int} {s : Int × Int × Int × Int} (h : At m id s) : m.tetAt id = some (tetOf (Smooth.pos m.nodes) s) := by
  have hn := h.nodes hm
  obtain ⟨fs, h⟩ := h
  exact tetAt_mk h (pos_of hm (hn _ (by simp))) (pos_of hm (hn _ (by simp))) (pos_of hm (hn _ (by simp))) (pos_of hm (hn _ (by simp)))

theorem At.positive (hm : m.Filling) {id : Int} {s t : Int × Int × Int × Int} (h : At m id s) (hr : Read s t) : (tetOf (Smooth.pos m.nodes) t).Positive :=
  (positive_alike (hr.alike _)).2 (hm.positive _ (List.mem_filterMap.2 ⟨id, h.mem hm, h.tet hm⟩))

theorem At.distinct (hm : m.Filling) {id : Int} {s : Int × Int × Int × Int} {a b c d : Int} (h : At m id s) (hr : Read s (a, b, c, d)) :
    a ≠ b ∧ a ≠ c ∧ a ≠ d ∧ b ≠ c ∧ b ≠ d ∧ c ≠ d := by
  obtain ⟨h1, h2, h3, h4, h5, h6⟩ := Space.corners_ne (h.positive hm hr)
  simp only [tetOf] at h1 h2 h3 h4 h5 h6
  refine ⟨?_, ?_, ?_, ?_, ?_, ?_⟩
  · rintro rfl; exact h1 rfl
  · rintro rfl; exact h2 rfl
  · rintro rfl; exact h3 rfl
  · rintro rfl; exact h4 rfl
  · rintro rfl; exact h5 rfl
  · rintro rfl; exact h6 rfl

theorem At.has {id : Int} {s : Int × Int × Int × Int} (h : At m id s) (n : Int) : HasNode m n id ↔ n ∈ [s.1, s.2.1, s.2.2.1, s.2.2.2] := by
  obtain ⟨fs, h⟩ := h
  constructor
  · rintro ⟨e, he, hn⟩
    rw [h] at he
    obtain rfl := Option.some.inj he
    exact hn
  · intro hn
    exact ⟨_, h, hn⟩

theorem At.around (hm : m.Filling) {id : Int} {s : Int × Int × Int × Int} {a b c d : Int} (h : At m id s) (hr : Read s (a, b, c, d)) : id ∈ m.around a b := by
  refine List.mem_filter.2 ⟨h.mem hm, ?_⟩
  rw [decide_eq_true_iff, h.has, h.has]
  exact ⟨(hr.mem a).1 (by simp), (hr.mem b).1 (by simp)⟩

theorem around_comm (a b : Int) : m.around a b = m.around b a := by
  unfold Mesh.around
  congr 1
  funext x
  rw [decide_eq_decide]
  exact and_comm

theorem At.hasTet {id : Int} {s : Int × Int × Int × Int} {a b c d : Int} (h : At m id s) (hr : Read s (a, b, c, d)) : m.HasTet a b c d := by
  obtain ⟨fs, h⟩ := h
  exact ⟨id, _, h, hr.perm.symm⟩

/-- Two tetrahedra do not read the same corners in opposite orders. -/
theorem opposite (hm : m.Filling) {i j : Int} {s t : Int × Int × Int × Int} {a b c d : Int} (hi : At m i s) (hj : At m j t) (h1 : Read s (a, b, c, d))
    (h2 : Read t (a, b, d, c)) : False := by
  have p1 := hi.positive hm h1
  have p2 := hj.positive hm h2
  simp only [tetOf, Tet.Positive, behind, det3, Vec3.cross, Vec3.dot, Vec3.sub_x, Vec3.sub_y, Vec3.sub_z] at p1 p2
  linarith

/-- The tetrahedron on the other side of a face with a node inside. -/
theorem neighbour (hm : m.Filling) (hfit : m.TetFit) {id : Int} {s : Int × Int × Int × Int} {a b c d : Int} (h : At m id s) (hr : Read s (a, b, c, d))
    (hb : ¬ (m.OnBoundary a ∧ m.OnBoundary b)) : ∃ j t y, At m j t ∧ Read t (b, a, c, y) := by
  have hid := h.mem hm
  obtain ⟨fs, he⟩ := h
  obtain ⟨g, hg, hgs⟩ := hr.faces (a, b, c) (by simp [fourFaces])
  have hg' : g ∈ m.tetFaceIds := List.mem_flatMap.2 ⟨id, hid, by rw [he]; exact hg⟩
  obtain ⟨i, f, hf, hty, hfn⟩ := hfit.face g hg'
  have hmem := fun n => hgs.mem n
  have hp : f.hasPair = true := by
    by_contra hp
    apply hb
    have hn : ∀ n, (n = a ∨ n = b ∨ n = c) → m.OnBoundary n := fun n hn => ⟨i, f, hf, by simpa using hp, by
      rw [hfn]; have := (hmem n).2 hn; simpa using this⟩
    exact ⟨hn a (by simp), hn b (by simp)⟩
  obtain ⟨f', s1, t1, hf', hty', e1, e2, e3⟩ := hfit.pair i f hf hty hp
  obtain rfl : s1 = g := by
    rw [hfn] at e1
    simp only [List.cons.injEq, and_true] at e1
    exact Prod.ext e1.1.symm (Prod.ext e1.2.1.symm e1.2.2.symm)
  obtain ⟨e', he', hside⟩ := hfit.owner _ f' hf' hty'
  obtain ⟨p, q, r, w, fs', rfl, -⟩ := four_of hm he'
  obtain ⟨t2, ht2, e4⟩ := hside rfl
  obtain rfl : t1 = t2 := by
    rw [e4] at e2
    simp only [List.cons.injEq, and_true] at e2
    exact Prod.ext e2.1.symm (Prod.ext e2.2.1.symm e2.2.2.symm)
  have ht3 : t1 ∈ fourFaces (p, q, r, w) := ht2
  have hst : SameTri t1 (b, a, c) := e3.symm.trans hgs.turned
  obtain ⟨z, hz⟩ := Read.face ht3 hst
  exact ⟨_, (p, q, r, w), z, ⟨fs', he'⟩, hz⟩

/-- The three tetrahedra around an edge. -/
theorem ring (hm : m.Filling) (hfit : m.TetFit) {id : Int} {s : Int × Int × Int × Int} {a b c d : Int} (h : At m id s) (hr : Read s (a, b, c, d))
    (h3 : m.Three a b) : ∃ x j k t u, At m j t ∧ At m k u ∧ Read t (a, b, d, x) ∧ Read u (a, b, x, c) ∧ id ≠ j ∧ id ≠ k ∧ j ≠ k ∧
      (m.around a b).Perm [id, j, k] ∧ x ≠ a ∧ x ≠ b ∧ x ≠ c ∧ x ≠ d := by
  obtain ⟨hab', hb, hlen⟩ := h3
  obtain ⟨hab, hac, had, hbc, hbd, hcd⟩ := h.distinct hm hr
  obtain ⟨j, t, x, hj, ht⟩ := neighbour hm hfit h hr.swap (by rwa [and_comm])
  obtain ⟨k, u, y, hk, hu⟩ := neighbour hm hfit h hr hb
  have hu := hu.swap
  obtain ⟨-, -, hax, -, hbx, hdx⟩ := hj.distinct hm ht
  obtain ⟨-, hay, -, hby, -, hyc⟩ := hk.distinct hm hu
  have hxc : x ≠ c := by
    rintro rfl
    exact opposite hm h hj hr ht
  have hyd : y ≠ d := by
    rintro rfl
    exact opposite hm h hk hr hu
  have hij : id ≠ j := by
    rintro rfl
    obtain rfl := h.unique hj
    have := (ht.mem c).2 ((hr.mem c).1 (by simp))
    simp only at this
    rcases this with e | e | e | e
    · exact hac e.symm
    · exact hbc e.symm
    · exact hcd e
    · exact hxc e.symm
  have hik : id ≠ k := by
    rintro rfl
    obtain rfl := h.unique hk
    have := (hu.mem d).2 ((hr.mem d).1 (by simp))
    simp only at this
    rcases this with e | e | e | e
    · exact had e.symm
    · exact hbd e.symm
    · exact hyd e.symm
    · exact hcd e.symm
  have hjk : j ≠ k := by
    rintro rfl
    obtain rfl := hj.unique hk
    have := (ht.mem c).2 ((hu.mem c).1 (by simp))
    simp only at this
    rcases this with e | e | e | e
    · exact hac e.symm
    · exact hbc e.symm
    · exact hcd e
    · exact hxc e.symm
  have hnd : [id, j, k].Nodup := by simp [hij, hik, hjk]
  have hsub : [id, j, k] ⊆ m.around a b := by
    intro n hn
    simp only [List.mem_cons, List.not_mem_nil, or_false] at hn
    rcases hn with rfl | rfl | rfl
    · exact h.around hm hr
    · exact hj.around hm ht
    · exact hk.around hm hu
  have hperm : (m.around a b).Perm [id, j, k] := ((List.subperm_of_subset hnd hsub).perm_of_length_le (by rw [hlen]; rfl)).symm
  obtain ⟨l, v, z, hl, hv⟩ := neighbour hm hfit hj ht.swap (by rwa [and_comm])
  obtain ⟨-, -, haz, -, hbz, hxz⟩ := hl.distinct hm hv
  have hl' := hperm.subset (hl.around hm hv)
  simp only [List.mem_cons, List.not_mem_nil, or_false] at hl'
  have hxy : x = y := by
    rcases hl' with rfl | rfl | rfl
    · obtain rfl := h.unique hl
      have := (hr.mem x).2 ((hv.mem x).1 (by simp))
      simp only at this
      rcases this with e | e | e | e
      · exact absurd e.symm hax
      · exact absurd e.symm hbx
      · exact absurd e hxc
      · exact absurd e.symm hdx
    · obtain rfl := hj.unique hl
      have := (hv.mem d).2 ((ht.mem d).1 (by simp))
      simp only at this
      rcases this with e | e | e | e
      · exact absurd e.symm had
      · exact absurd e.symm hbd
      · exact absurd e hdx
      · subst e; exact (opposite hm hj hl ht hv).elim
    · obtain rfl := hk.unique hl
      have := (hu.mem x).2 ((hv.mem x).1 (by simp))
      simp only at this
      rcases this with e | e | e | e
      · exact absurd e.symm hax
      · exact absurd e.symm hbx
      · exact e
      · exact absurd e hxc
  subst hxy
  exact ⟨x, j, k, t, u, hj, hk, ht, hu, hij, hik, hjk, hperm, Ne.symm hax, Ne.symm hbx, hxc, Ne.symm hdx⟩

/-- The volume test accepts one edge only: that from the third corner to the fourth. -/
theorem which (hm : m.Filling) {i j k : Int} {n1 n2 n3 n4 a b c d x : Int} {t u : Int × Int × Int × Int} (h : At m i (n1, n2, n3, n4)) (hj : At m j t) (hk : At m k u)
    (hr : Read (n1, n2, n3, n4) (a, b, c, d)) (ht : Read t (a, b, d, x)) (hu : Read u (a, b, x, c))
    (v1 : (tetOf (Smooth.pos m.nodes) (n1, n2, x, n4)).Positive) (v2 : (tetOf (Smooth.pos m.nodes) (n1, n2, n3, x)).Positive) :
    (n1 = c ∧ n2 = d ∧ n3 = a ∧ n4 = b) ∨ (n1 = d ∧ n2 = c ∧ n3 = b ∧ n4 = a) := by
  have p1 := h.positive hm hr
  have p2 := hj.positive hm ht
  have p3 := hk.positive hm hu
  have := hr.symm.twelve
  simp only [Prod.mk.injEq] at this
  rcases this with e | e | e | e | e | e | e | e | e | e | e | e <;> obtain ⟨rfl, rfl, rfl, rfl⟩ := e <;> first
    | exact Or.inl ⟨rfl, rfl, rfl, rfl⟩
    | exact Or.inr ⟨rfl, rfl, rfl, rfl⟩
    | (exfalso
       simp only [tetOf, Tet.Positive, behind, det3, Vec3.cross, Vec3.dot, Vec3.sub_x, Vec3.sub_y, Vec3.sub_z] at p1 p2 p3 v1 v2
       linarith)

/-! ### Flips -/

variable {P : Par K}

/-- A flip: three tetrahedra around the line from `3` to `4` become two on the two sides of `1 2 5`. -/
def Flip (P : Par K) (l l' : List (Tet K)) : Prop :=
  ∃ (p1 p2 p3 p4 p5 : Vec3 K) (t1 t2 t3 : Tet K) (r : List (Tet K)), l.Perm (t1 :: t2 :: t3 :: r) ∧
    l'.Perm (⟨p1, p2, p5, p4⟩ :: ⟨p1, p2, p3, p5⟩ :: r) ∧
    Alike t1 ⟨p1, p2, p3, p4⟩ ∧ Alike t2 ⟨p1, p5, p4, p3⟩ ∧ Alike t3 ⟨p5, p2, p4, p3⟩ ∧ better P p1 p2 p3 p4 p5

theorem flip_hull {A : Type} [AddCommGroup A] {f : Tri K → A} (hf : Odd f) (p1 p2 p3 p4 p5 : Vec3 K) :
    hull f ⟨p1, p2, p3, p4⟩ + (hull f ⟨p1, p5, p4, p3⟩ + hull f ⟨p5, p2, p4, p3⟩) = hull f ⟨p1, p2, p5, p4⟩ + hull f ⟨p1, p2, p3, p5⟩ := by
  simp only [hull]
  have e1 : f ⟨p1, p4, p3⟩ = - f ⟨p1, p3, p4⟩ := TetSmooth.Odd.neg hf _ _ _
  have e2 : f ⟨p2, p3, p4⟩ = - f ⟨p2, p4, p3⟩ := TetSmooth.Odd.neg hf _ _ _
  have e3 : f ⟨p5, p4, p3⟩ = - f ⟨p5, p3, p4⟩ := TetSmooth.Odd.neg hf _ _ _
  have e4 : f ⟨p1, p5, p2⟩ = - f ⟨p1, p2, p5⟩ := TetSmooth.Odd.neg hf _ _ _
  have e5 : f ⟨p5, p2, p4⟩ = f ⟨p2, p4, p5⟩ := (hf.turn _ _ _).symm
  have e6 : f ⟨p5, p3, p2⟩ = f ⟨p2, p5, p3⟩ := hf.turn _ _ _
  rw [e1, e2, e3, e4, e5, e6]
  abel

theorem Flip.hull {l l' : List (Tet K)} (h : Flip P l l') : SameHull l l' := by
  obtain ⟨p1, p2, p3, p4, p5, t1, t2, t3, r, h1, h2, h3, h4, h5, -⟩ := h
  intro A _ f hf
  rw [(h1.map _).sum_eq, (h2.map _).sum_eq]
  simp only [List.map_cons, List.sum_cons, ← hull_alike hf h3, ← hull_alike hf h4, ← hull_alike hf h5]
  have := flip_hull hf p1 p2 p3 p4 p5
  rw [← add_assoc (Space.hull f ⟨p1, p2, p5, p4⟩), ← this]
  abel

theorem Flip.positive (ht : 0 ≤ P.tol) {l l' : List (Tet K)} (h : Flip P l l') (hl : ∀ t ∈ l, t.Positive) : ∀ t ∈ l', t.Positive := by
  obtain ⟨p1, p2, p3, p4, p5, t1, t2, t3, r, h1, h2, -, -, -, -, g1, g2⟩ := h
  intro t htt
  have h4 := h2.subset htt
  simp only [List.mem_cons] at h4
  rcases h4 with rfl | rfl | h4
  · exact large_positive ht g1
  · exact large_positive ht g2
  · exact hl t (h1.symm.subset (by simp [h4]))

theorem flips_hull {l l' : List (Tet K)} (h : Relation.ReflTransGen (Flip P) l l') : SameHull l l' := by
  induction h with
  | refl => exact fun _ _ _ _ => rfl
  | tail _ h2 ih => exact fun A _ f hf => (ih A f hf).trans (h2.hull A f hf)

theorem flips_positive (ht : 0 ≤ P.tol) {l l' : List (Tet K)} (h : Relation.ReflTransGen (Flip P) l l') (hl : ∀ t ∈ l, t.Positive) : ∀ t ∈ l', t.Positive := by
  induction h with
  | refl => exact hl
  | tail _ h2 ih => exact h2.positive ht ih

theorem flips_quality (hq : ∀ t u, Alike t u → P.quality u = P.quality t) {l l' : List (Tet K)} (h : Relation.ReflTransGen (Flip P) l l') (q : K)
    (h0 : ∀ t ∈ l, q ≤ P.quality t) : ∀ t ∈ l', q ≤ P.quality t := by
  induction h with
  | refl => exact h0
  | tail _ h2 ih =>
    obtain ⟨p1, p2, p3, p4, p5, t1, t2, t3, r, h1, h2, h3, h4, h5, h6, -⟩ := h2
    have k1 := ih t1 (h1.symm.subset (by simp))
    have k2 := ih t2 (h1.symm.subset (by simp))
    have k3 := ih t3 (h1.symm.subset (by simp))
    rw [← hq _ _ h3] at k1
    rw [← hq _ _ h4] at k2
    rw [← hq _ _ h5] at k3
    have hmin := lt_of_le_of_lt (le_min k1 (le_min k2 k3)) h6
    rw [lt_min_iff] at hmin
    intro t ht
    have := h2.subset ht
    simp only [List.mem_cons] at this
    rcases this with rfl | rfl | h6
    · exact hmin.1.le
    · exact hmin.2.le
    · exact ih t (h1.symm.subset (by simp [h6]))

/-! ### The loops -/

theorem find_one {l : List Int} {p : Int → Bool} {x : Int} (hx : x ∈ l) (hp : p x = true) (h : ∀ n ∈ l, p n = true → n = x) : l.find? p = some x := by
  cases hf : l.find? p with
  | none => exact absurd hp (List.find?_eq_none.1 hf x hx)
  | some y => rw [h y (List.mem_of_find?_eq_some hf) (List.find?_some hf)]

theorem foreign_spec {els : Cont Elem} {n1 n2 n3 n4 x : Int} (hx : x ∉ [n1, n2, n3, n4]) (l : List Int)
    (hl : ∀ i ∈ l, ∃ ns fs, els.get? i = some ⟨.tetrahedron, ns, fs⟩ ∧ ∀ n ∈ ns, n ∈ [n1, n2, n3, n4] ∨ n = x)
    (h : ∃ i ∈ l, ∃ e, els.get? i = some e ∧ x ∈ e.nodeIds) : foreign els n1 n2 n3 n4 l = some (some x) := by
  induction l with
  | nil => obtain ⟨i, hi, -⟩ := h; simp at hi
  | cons i l ih =>
    obtain ⟨ns, fs, he, hn⟩ := hl i (by simp)
    simp only [foreign, he, Option.bind_eq_bind, Option.bind_some, ne_eq, not_true_eq_false, if_false]
    have hp : (fun n => decide (n ≠ n1) && decide (n ≠ n2) && decide (n ≠ n3) && decide (n ≠ n4)) = fun n : Int => decide (n ∉ [n1, n2, n3, n4]) := by
      funext n
      simp [Bool.and_assoc]
    by_cases hxn : x ∈ ns
    · have hf := find_one (p := fun n => decide (n ∉ [n1, n2, n3, n4])) hxn (by simpa using hx) (fun n hn' hp => by
        simp only [decide_eq_true_eq] at hp
        exact (hn n hn').resolve_left hp)
      rw [← hp] at hf
      simp only [ne_eq] at hf
      rw [hf]
    · have hf : ns.find? (fun n => decide (n ∉ [n1, n2, n3, n4])) = none := by
        rw [List.find?_eq_none]
        intro n hn'
        simp only [decide_eq_true_eq, not_not]
        exact (hn n hn').resolve_right (fun e => hxn (e ▸ hn'))
      rw [← hp] at hf
      simp only [ne_eq] at hf
      rw [hf]
      refine ih (fun j hj => hl j (List.mem_cons_of_mem _ hj)) ?_
      obtain ⟨j, hj, e, he', hxe⟩ := h
      rcases List.mem_cons.1 hj with rfl | hj
      · rw [he] at he'
        obtain rfl := Option.some.inj he'
        exact absurd hxe hxn
      · exact ⟨j, hj, e, he', hxe⟩

/-- The elements that are not marked for removal. -/
def live (m : Mesh K) (s : St) : List Int := m.elements.ids.filter fun id => decide (s.del.find? id ≠ some true)

/-- What holds in the loops. -/
structure Inv (P : Par K) (m : Mesh K) (s : St) : Prop where
  ok : s.els.Ok
  ids : s.els.ids = m.elements.ids
  keys : ∀ id ∈ m.elements.ids, ∃ b, s.flipped.find? id = some b
  same : ∀ id, s.flipped.find? id = some false → s.els.get? id = m.elements.get? id
  tets : ∀ id e, s.els.get? id = some e → ∃ a b c d fs, e = ⟨.tetrahedron, [a, b, c, d], fs⟩ ∧ ∀ n ∈ [a, b, c, d], n ∈ m.nodes.ids
  group : ∀ id, s.flipped.find? id = some true → ∃ a b, m.Swappable a b ∧ id ∈ m.around a b ∧ ∀ j ∈ m.around a b, s.flipped.find? j = some true
  del : ∀ id, s.del.find? id = some true → id ∈ m.elements.ids ∧ s.flipped.find? id = some true
  flips : Relation.ReflTransGen (Flip P) m.tets ((live m s).filterMap (Mesh.tetAt { m with elements := s.els }))

theorem perm_three {l : List Int} {i j k : Int} (hi : i ∈ l) (hj : j ∈ l) (hk : k ∈ l) (hij : i ≠ j) (hik : i ≠ k) (hjk : j ≠ k) : ∃ r, l.Perm (i :: j :: k :: r) := by
  obtain ⟨r, hr⟩ := perm_two hi hj hij
  have hk' : k ∈ r := by
    have := hr.subset hk
    simp only [List.mem_cons] at this
    rcases this with h | h | h
    · exact absurd h.symm hik
    · exact absurd h.symm hjk
    · exact h
  exact ⟨r.erase k, hr.trans (List.Perm.cons _ (List.Perm.cons _ (List.perm_cons_erase hk')))⟩

theorem mem_around (hm : m.Filling) {i a b : Int} (h : i ∈ m.around a b) : i ∈ m.elements.ids := (List.mem_filter.1 h).1

theorem around_ends {a b c d : Int} (h : (c = a ∧ d = b) ∨ (c = b ∧ d = a)) : m.around c d = m.around a b := by
  rcases h with ⟨rfl, rfl⟩ | ⟨rfl, rfl⟩
  · rfl
  · exact around_comm _ _

set_option maxHeartbeats 1000000 in
theorem flipAround_spec (ht : 0 ≤ P.tol) (hm : m.Filling) (hfit : m.TetFit) (hiso : m.Isolated) {s : St} (hi : Inv P m s) {id n1 n2 n3 n4 a b : Int}
    (hat : At m id (n1, n2, n3, n4)) (hun : s.flipped.find? id = some false) (ha : a ∈ [n1, n2, n3, n4]) (hb : b ∈ [n1, n2, n3, n4]) (hab : a ≠ b)
    (hbd : ¬ (m.OnBoundary a ∧ m.OnBoundary b)) :
    ∃ s', flipAround P m.nodes s n1 n2 n3 n4 (m.around a b) = some s' ∧ Inv P m s' := by
  by_cases hlen : (m.around a b).length = 3
  swap
  · refine ⟨s, ?_, hi⟩
    unfold flipAround
    split
    · next h => rw [h] at hlen; exact absurd rfl hlen
    · rfl
  have h3 : m.Three a b := ⟨hab, hbd, hlen⟩
  obtain ⟨c, d, hr⟩ := Read.edge ha hb hab
  obtain ⟨x, j, k, t, u, hj, hk, htr, hur, hij, hik, hjk, hperm, hxa, hxb, hxc, hxd⟩ := ring hm hfit hat hr h3
  have hmemid : id ∈ m.around a b := hat.around hm hr
  -- none of the three is flipped
  have hfree : ∀ i ∈ m.around a b, s.flipped.find? i = some false := by
    intro i hi'
    obtain ⟨v, hv⟩ := hi.keys i (mem_around hm hi')
    cases v with
    | false => exact hv
    | true =>
      obtain ⟨a', b', h1, h2, h4⟩ := hi.group i hv
      have := h4 id (by rw [← around_ends (hiso i a' b' a b h1 h3 h2 hi')]; exact hmemid)
      rw [hun] at this
      simp at this
  have hels : ∀ i ∈ m.around a b, s.els.get? i = m.elements.get? i := fun i hi' => hi.same i (hfree i hi')
  have hdel : ∀ i ∈ m.around a b, s.del.find? i ≠ some true := by
    intro i hi' hd
    have := (hi.del i hd).2
    rw [hfree i hi'] at this
    simp at this
  have hnd : (m.around a b).Nodup := hm.wf.elements.1.filter _
  have hpi : id ∈ m.around a b ∧ j ∈ m.around a b ∧ k ∈ m.around a b := ⟨hmemid, hperm.symm.subset (by simp), hperm.symm.subset (by simp)⟩
  obtain ⟨i1, i2, i3, hl⟩ : ∃ i1 i2 i3, m.around a b = [i1, i2, i3] := by
    match h : m.around a b, hlen with
    | [i1, i2, i3], _ => exact ⟨i1, i2, i3, rfl⟩
  rw [hl] at hperm hfree hels hdel hnd
  have hxn : x ∉ [n1, n2, n3, n4] := by
    intro h
    have := (hr.mem x).2 h
    simp only at this
    rcases this with e | e | e | e
    · exact hxa e
    · exact hxb e
    · exact hxc e
    · exact hxd e
  have hcase : ∀ i ∈ [i1, i2, i3], i = id ∨ i = j ∨ i = k := fun i hi' => by
    have := hperm.subset hi'
    simpa using this
  have hfor : foreign s.els n1 n2 n3 n4 [i1, i2, i3] = some (some x) := by
    refine foreign_spec hxn _ ?_ ?_
    · intro i hi'
      rw [hels i hi']
      rcases hcase i hi' with rfl | rfl | rfl
      · obtain ⟨fs, he⟩ := hat
        exact ⟨_, fs, he, fun n hn => Or.inl hn⟩
      · obtain ⟨fs, he⟩ := hj
        refine ⟨_, fs, he, fun n hn => ?_⟩
        have := (htr.mem n).2 hn
        simp only at this
        rcases this with e | e | e | e
        · exact Or.inl (e ▸ ha)
        · exact Or.inl (e ▸ hb)
        · exact Or.inl ((hr.mem n).1 (by simp [e]))
        · exact Or.inr e
      · obtain ⟨fs, he⟩ := hk
        refine ⟨_, fs, he, fun n hn => ?_⟩
        have := (hur.mem n).2 hn
        simp only at this
        rcases this with e | e | e | e
        · exact Or.inl (e ▸ ha)
        · exact Or.inl (e ▸ hb)
        · exact Or.inr e
        · exact Or.inl ((hr.mem n).1 (by simp [e]))
    · have hj' : j ∈ [i1, i2, i3] := hperm.symm.subset (by simp)
      refine ⟨j, hj', ?_⟩
      rw [hels j hj']
      have := (htr.mem x).1 (by simp)
      obtain ⟨fs, he⟩ := hj
      exact ⟨_, he, this⟩
  have hnode := hat.nodes hm
  have hxnode : x ∈ m.nodes.ids := hj.nodes hm x ((htr.mem x).1 (by simp))
  simp only at hnode
  rw [hl]
  unfold flipAround
  simp only [hfor, Option.bind_eq_bind, Option.bind_some]
  unfold flipThree
  simp only [pos_of hm (hnode n1 (by simp)), pos_of hm (hnode n2 (by simp)), pos_of hm (hnode n3 (by simp)), pos_of hm (hnode n4 (by simp)), pos_of hm hxnode,
    Option.bind_eq_bind, Option.bind_some]
  set pos := Smooth.pos m.nodes with hposdef
  by_cases hbet : better P (pos n1) (pos n2) (pos n3) (pos n4) (pos x)
  swap
  · rw [if_neg hbet]; exact ⟨s, rfl, hi⟩
  rw [if_pos hbet]
  -- the elements after the flip
  simp only [List.nodup_cons, List.mem_cons, List.not_mem_nil, or_false, not_or, not_false_eq_true, List.nodup_nil, and_true] at hnd
  obtain ⟨⟨h12, h13⟩, h23⟩ := hnd
  have hget : ∀ i ∈ [i1, i2, i3], ∃ ns fs, s.els.get? i = some ⟨.tetrahedron, ns, fs⟩ ∧ ns.length = 4 := by
    intro i hi'
    obtain ⟨w, fs, hw⟩ := at_of hm (mem_around hm (by rw [hl]; exact hi'))
    exact ⟨_, fs, by rw [hels i hi']; exact hw, rfl⟩
  obtain ⟨ns1, fs1, g1, l1⟩ := hget i1 (by simp)
  obtain ⟨ns2, fs2, g2, l2⟩ := hget i2 (by simp)
  obtain ⟨ns3, fs3, g3, l3⟩ := hget i3 (by simp)
  have hset : ∀ (p q r w : Int) (ns fs : List Int), ns.length = 4 → setFour p q r w ⟨.tetrahedron, ns, fs⟩ = some ⟨.tetrahedron, [p, q, r, w], fs⟩ := by
    intro p q r w ns fs h
    have : ns.drop 4 = [] := List.drop_eq_nil_of_le (by omega)
    simp [setFour, h, this]
  rw [Cont.modify_eq g1 (hset n1 n2 x n4 ns1 fs1 l1)]
  simp only [Option.bind_some]
  rw [Cont.modify_eq (a := ⟨.tetrahedron, ns2, fs2⟩) (by rw [Cont.get?_put, if_neg (Ne.symm h12), g2]) (hset n1 n2 n3 x ns2 fs2 l2)]
  simp only [Option.bind_some]
  rw [Cont.modify_eq (a := ⟨.tetrahedron, ns3, fs3⟩) (by
    show (SMap.insert _ _ _).find? i3 = _
    rw [SMap.find?_insert, if_neg (Ne.symm h23), SMap.find?_insert, if_neg (Ne.symm h13)]
    exact g3) (hset n1 n1 n1 n1 ns3 fs3 l3)]
  simp only [Option.bind_some]
  refine ⟨_, rfl, ?_⟩
  generalize hE : Cont.mk (((s.els.map.insert i1 ⟨.tetrahedron, [n1, n2, x, n4], fs1⟩).insert i2 ⟨.tetrahedron, [n1, n2, n3, x], fs2⟩).insert i3 ⟨.tetrahedron, [n1, n1, n1, n1], fs3⟩) s.els.ids s.els.indices s.els.counter = E
  have hgetE : ∀ i, E.get? i = if i = i3 then some ⟨.tetrahedron, [n1, n1, n1, n1], fs3⟩ else if i = i2 then some ⟨.tetrahedron, [n1, n2, n3, x], fs2⟩ else
      if i = i1 then some ⟨.tetrahedron, [n1, n2, x, n4], fs1⟩ else s.els.get? i := by
    intro i
    rw [← hE]
    show (SMap.insert _ _ _).find? i = _
    rw [SMap.find?_insert, SMap.find?_insert, SMap.find?_insert]
    rfl
  have hEids : E.ids = s.els.ids := by rw [← hE]
  have hEok : E.Ok := by
    refine ⟨by rw [hEids]; exact hi.ok.1, fun i => ?_⟩
    rw [hgetE, hEids, hi.ok.2]
    split_ifs with z1 z2 z3
    · subst z1; simp [g3]
    · subst z2; simp [g2]
    · subst z3; simp [g1]
    · rfl
  clear hE
  have hfl : ∀ i, (((s.flipped.insert i1 true).insert i2 true).insert i3 true).find? i = if i ∈ [i1, i2, i3] then some true else s.flipped.find? i := by
    intro i
    rw [SMap.find?_insert, SMap.find?_insert, SMap.find?_insert]
    simp only [List.mem_cons, List.not_mem_nil, or_false]
    by_cases z1 : i = i1 <;> by_cases z2 : i = i2 <;> by_cases z3 : i = i3 <;> simp [z1, z2, z3]
  have hv1 : (tetOf pos (n1, n2, x, n4)).Positive := large_positive ht hbet.2.1
  have hv2 : (tetOf pos (n1, n2, n3, x)).Positive := large_positive ht hbet.2.2
  have hwhich := which hm hat hj hk hr htr hur hv1 hv2
  have hswap : m.Swappable a b := by
    refine ⟨h3, c, d, x, hat.hasTet hr, hj.hasTet htr, hk.hasTet hur, ?_⟩
    rcases hwhich with ⟨rfl, rfl, rfl, rfl⟩ | ⟨rfl, rfl, rfl, rfl⟩
    · exact ⟨hv1, hv2⟩
    · exact ⟨(positive_alike ((Read.refl (n1, n2, n3, x)).swap.alike pos)).2 hv2, (positive_alike ((Read.refl (n1, n2, x, n4)).swap.alike pos)).2 hv1⟩
  have hidsm : ∀ i ∈ [i1, i2, i3], i ∈ m.elements.ids := fun i hi' => mem_around hm (by rw [hl]; exact hi')
  have hsub : ∀ n ∈ [n1, n2, n3, n4, x], n ∈ m.nodes.ids := by
    intro n hn
    simp only [List.mem_cons, List.not_mem_nil, or_false] at hn
    rcases hn with rfl | rfl | rfl | rfl | rfl
    · exact hnode _ (by simp)
    · exact hnode _ (by simp)
    · exact hnode _ (by simp)
    · exact hnode _ (by simp)
    · exact hxnode
  refine ⟨hEok, hEids.trans hi.ids, ?_, ?_, ?_, ?_, ?_, hi.flips.tail ?_⟩
  · intro i hi'
    simp only
    rw [hfl]
    split_ifs
    · exact ⟨_, rfl⟩
    · exact hi.keys i hi'
  · intro i hf
    simp only at hf ⊢
    rw [hfl] at hf
    by_cases z : i ∈ [i1, i2, i3]
    · rw [if_pos z] at hf; simp at hf
    rw [if_neg z] at hf
    simp only [List.mem_cons, List.not_mem_nil, or_false, not_or] at z
    rw [hgetE, if_neg z.2.2, if_neg z.2.1, if_neg z.1]
    exact hi.same i hf
  · intro i e he
    simp only at he
    rw [hgetE] at he
    split_ifs at he
    · refine ⟨_, _, _, _, _, (Option.some.inj he).symm, fun n hn => hsub n ?_⟩
      simp only [List.mem_cons, List.not_mem_nil, or_false] at hn
      rcases hn with rfl | rfl | rfl | rfl <;> simp
    · refine ⟨_, _, _, _, _, (Option.some.inj he).symm, fun n hn => hsub n ?_⟩
      simp only [List.mem_cons, List.not_mem_nil, or_false] at hn
      rcases hn with rfl | rfl | rfl | rfl <;> simp
    · refine ⟨_, _, _, _, _, (Option.some.inj he).symm, fun n hn => hsub n ?_⟩
      simp only [List.mem_cons, List.not_mem_nil, or_false] at hn
      rcases hn with rfl | rfl | rfl | rfl <;> simp
    · exact hi.tets i e he
  · intro i hf
    simp only at hf ⊢
    rw [hfl] at hf
    by_cases z : i ∈ [i1, i2, i3]
    · refine ⟨a, b, hswap, by rw [hl]; exact z, fun i' hi' => ?_⟩
      rw [hl] at hi'
      rw [hfl, if_pos hi']
    · rw [if_neg z] at hf
      obtain ⟨a', b', w1, w2, w3⟩ := hi.group i hf
      refine ⟨a', b', w1, w2, fun i' hi' => ?_⟩
      rw [hfl]
      split_ifs
      · rfl
      · exact w3 i' hi'
  · intro i hd
    simp only at hd ⊢
    rw [SMap.find?_insert] at hd
    by_cases z : i = i3
    · subst z
      exact ⟨hidsm _ (by simp), by rw [hfl, if_pos (by simp)]⟩
    · rw [if_neg z] at hd
      obtain ⟨w1, w2⟩ := hi.del i hd
      refine ⟨w1, ?_⟩
      rw [hfl]
      split_ifs
      · rfl
      · exact w2
  · -- the tetrahedra
    have hlive : ∀ i ∈ [i1, i2, i3], i ∈ live m s := fun i hi' => List.mem_filter.2 ⟨hidsm i hi', by simpa using hdel i hi'⟩
    obtain ⟨r, hrp⟩ := perm_three (hlive i1 (by simp)) (hlive i2 (by simp)) (hlive i3 (by simp)) h12 h13 h23
    have hrnd := hrp.nodup_iff.1 (hm.wf.elements.1.filter _)
    simp only [List.nodup_cons, List.mem_cons, not_or] at hrnd
    obtain ⟨⟨-, -, r1⟩, ⟨-, r2⟩, r3, -⟩ := hrnd
    have hlive' : (live m ⟨E, ((s.flipped.insert i1 true).insert i2 true).insert i3 true, s.del.insert i3 true⟩).Perm (i1 :: i2 :: r) := by
      have e1 : live m ⟨E, ((s.flipped.insert i1 true).insert i2 true).insert i3 true, s.del.insert i3 true⟩ = (live m s).filter (fun i => decide (i ≠ i3)) := by
        unfold live
        rw [List.filter_filter]
        apply List.filter_congr
        intro i _
        rw [SMap.find?_insert]
        by_cases z : i = i3 <;> simp [z]
      rw [e1]
      refine (hrp.filter _).trans ?_
      rw [List.filter_cons_of_pos (by simpa using h13), List.filter_cons_of_pos (by simpa using h23), List.filter_cons_of_neg (by simp)]
      rw [List.filter_eq_self.2 (fun i hi' => by
        simp only [decide_eq_true_eq]
        rintro rfl
        exact r3 hi')]
    have hperm3 : (live m s).Perm (id :: j :: k :: r) := hrp.trans (List.Perm.append_right r hperm)
    have hsame : ∀ i ∈ m.around a b, Mesh.tetAt { m with elements := s.els } i = m.tetAt i := by
      intro i hi'
      refine tetAt_congr (m' := { m with elements := s.els }) (m := m) rfl ?_
      show Option.map _ (s.els.get? i) = _
      rw [hels i (by rw [← hl]; exact hi')]
    have ht1 := (hsame id hpi.1).trans (hat.tet hm)
    have ht2 := (hsame j hpi.2.1).trans (hj.tet hm)
    have ht3 := (hsame k hpi.2.2).trans (hk.tet hm)
    have hold : ((live m s).filterMap (Mesh.tetAt { m with elements := s.els })).Perm
        (tetOf pos (n1, n2, n3, n4) :: tetOf pos t :: tetOf pos u :: r.filterMap (Mesh.tetAt { m with elements := s.els })) := by
      refine (hperm3.filterMap _).trans ?_
      rw [List.filterMap_cons_some ht1, List.filterMap_cons_some ht2, List.filterMap_cons_some ht3]
    have hnew : ((live m ⟨E, ((s.flipped.insert i1 true).insert i2 true).insert i3 true, s.del.insert i3 true⟩).filterMap (Mesh.tetAt { m with elements := E })).Perm
        (⟨pos n1, pos n2, pos x, pos n4⟩ :: ⟨pos n1, pos n2, pos n3, pos x⟩ :: r.filterMap (Mesh.tetAt { m with elements := s.els })) := by
      refine (hlive'.filterMap _).trans ?_
      have k1 := tetAt_mk (m := { m with elements := E }) (fs := fs1) (by show E.get? i1 = _; rw [hgetE, if_neg h13, if_neg h12, if_pos rfl])
        (pos_of hm (hnode n1 (by simp))) (pos_of hm (hnode n2 (by simp))) (pos_of hm hxnode) (pos_of hm (hnode n4 (by simp)))
      have k2 := tetAt_mk (m := { m with elements := E }) (fs := fs2) (by show E.get? i2 = _; rw [hgetE, if_neg h23, if_pos rfl])
        (pos_of hm (hnode n1 (by simp))) (pos_of hm (hnode n2 (by simp))) (pos_of hm (hnode n3 (by simp))) (pos_of hm hxnode)
      rw [List.filterMap_cons_some k1, List.filterMap_cons_some k2]
      have k3 : r.filterMap (Mesh.tetAt { m with elements := E }) = r.filterMap (Mesh.tetAt { m with elements := s.els }) := by
        apply List.filterMap_congr
        intro i hi'
        refine tetAt_congr (m' := { m with elements := E }) (m := { m with elements := s.els }) rfl ?_
        show Option.map _ (E.get? i) = Option.map _ (s.els.get? i)
        have z1 : i ≠ i1 := fun h => r1 (h ▸ hi')
        have z2 : i ≠ i2 := fun h => r2 (h ▸ hi')
        have z3 : i ≠ i3 := fun h => r3 (h ▸ hi')
        rw [hgetE, if_neg z3, if_neg z2, if_neg z1]
      rw [k3]
    rcases hwhich with ⟨rfl, rfl, rfl, rfl⟩ | ⟨rfl, rfl, rfl, rfl⟩
    · refine ⟨pos n1, pos n2, pos n3, pos n4, pos x, _, _, _, _, hold.trans (List.Perm.cons _ (List.Perm.swap _ _ _)), hnew, Alike.refl _, ?_, ?_, hbet⟩
      · exact (hur.turn.swap.turn.turn).alike pos
      · exact (htr.turn.swap.turn.turn).alike pos
    · refine ⟨pos n1, pos n2, pos n3, pos n4, pos x, _, _, _, _, hold, hnew, Alike.refl _, ?_, ?_, hbet⟩
      · exact (htr.turn.turn.swap.turn).alike pos
      · exact (hur.turn.turn.swap.turn).alike pos

/-- What the loops get besides the mesh. -/
structure Args (m : Mesh K) (query : Int → Int → List Int) (boundary : SMap Int Bool) : Prop where
  query : ∀ a b, query a b = m.around a b
  keys : ∀ n ∈ m.nodes.ids, ∃ b, boundary.find? n = some b
  inner : ∀ n, boundary.find? n = some false → ¬ m.OnBoundary n

section
variable {query : Int → Int → List Int} {boundary : SMap Int Bool} (ht : 0 ≤ P.tol) (hm : m.Filling) (hfit : m.TetFit) (hiso : m.Isolated) (harg : Args m query boundary)
include ht hm hfit hiso harg

theorem flipEdge_spec {s : St} (hi : Inv P m s) {id n1 n2 n3 n4 : Int} (hat : At m id (n1, n2, n3, n4)) {f : Face} {g : Int × Int × Int}
    (hg : g ∈ fourFaces (n1, n2, n3, n4)) (hf : f.nodeIds = [g.1, g.2.1, g.2.2]) {k : Nat} (hk : k < 3) :
    ∃ s', flipEdge P query boundary m.nodes id n1 n2 n3 n4 f s k = some s' ∧ Inv P m s' := by
  obtain ⟨v, hv⟩ := hi.keys id (hat.mem hm)
  unfold flipEdge
  simp only [hv, Option.bind_eq_bind, Option.bind_some]
  cases v with
  | true => exact ⟨s, by simp, hi⟩
  | false =>
    obtain ⟨z, hz⟩ := Read.face hg (SameTri.refl g)
    obtain ⟨d1, d2, -, d3, -, -⟩ := hat.distinct hm hz
    have hmem := hz.mem
    obtain ⟨a, b, ea, eb, ha, hb, hab⟩ : ∃ a b, f.nodeIds[k % 3]? = some a ∧ f.nodeIds[(k + 1) % 3]? = some b ∧ a ∈ [n1, n2, n3, n4] ∧ b ∈ [n1, n2, n3, n4] ∧ a ≠ b := by
      rw [hf]
      have m1 := (hmem g.1).1 (by simp)
      have m2 := (hmem g.2.1).1 (by simp)
      have m3 := (hmem g.2.2).1 (by simp)
      match k, hk with
      | 0, _ => exact ⟨_, _, rfl, rfl, m1, m2, d1⟩
      | 1, _ => exact ⟨_, _, rfl, rfl, m2, m3, d3⟩
      | 2, _ => exact ⟨_, _, rfl, rfl, m3, m1, Ne.symm d2⟩
    simp only [ea, eb, Option.bind_some, Bool.false_eq_true, if_false]
    have hnode := hat.nodes hm
    obtain ⟨x, hx⟩ := harg.keys a (hnode a ha)
    obtain ⟨y, hy⟩ := harg.keys b (hnode b hb)
    rw [hx]
    simp only [Option.bind_some]
    cases x with
    | false =>
      simp only [Bool.false_eq_true, if_false, Option.bind_some, harg.query]
      exact flipAround_spec ht hm hfit hiso hi hat hv ha hb hab (fun h => harg.inner a hx h.1)
    | true =>
      simp only [if_true, hy, Option.bind_some]
      cases y with
      | true => exact ⟨s, by simp, hi⟩
      | false =>
        simp only [Bool.false_eq_true, if_false, harg.query]
        exact flipAround_spec ht hm hfit hiso hi hat hv ha hb hab (fun h => harg.inner b hy h.2)

theorem flipEdges_spec {id n1 n2 n3 n4 : Int} (hat : At m id (n1, n2, n3, n4)) {f : Face} {g : Int × Int × Int}
    (hg : g ∈ fourFaces (n1, n2, n3, n4)) (hf : f.nodeIds = [g.1, g.2.1, g.2.2]) (l : List Nat) (hl : ∀ k ∈ l, k < 3) :
    ∀ {s : St}, Inv P m s → ∃ s', flipEdges P query boundary m.nodes id n1 n2 n3 n4 f l s = some s' ∧ Inv P m s' := by
  induction l with
  | nil => intro s hi; exact ⟨s, rfl, hi⟩
  | cons k t ih =>
    intro s hi
    obtain ⟨s1, h1, h2⟩ := flipEdge_spec ht hm hfit hiso harg hi hat hg hf (hl k (by simp))
    obtain ⟨s2, h3, h4⟩ := ih (fun i hi => hl i (List.mem_cons_of_mem _ hi)) h2
    exact ⟨s2, by simp only [flipEdges, h1, Option.bind_eq_bind, Option.bind_some, h3], h4⟩

theorem flipFaces_spec {id n1 n2 n3 n4 : Int} (hat : At m id (n1, n2, n3, n4)) (l : List Int)
    (hl : ∀ fid ∈ l, ∃ f, m.faces.get? fid = some f ∧ f.elementId = id) :
    ∀ {s : St}, Inv P m s → ∃ s', flipFaces P query boundary m id n1 n2 n3 n4 l s = some s' ∧ Inv P m s' := by
  induction l with
  | nil => intro s hi; exact ⟨s, rfl, hi⟩
  | cons fid t ih =>
    intro s hi
    have ih := @ih (fun i hi => hl i (List.mem_cons_of_mem _ hi))
    obtain ⟨v, hv⟩ := hi.keys id (hat.mem hm)
    simp only [flipFaces, hv, Option.bind_eq_bind, Option.bind_some]
    cases v with
    | true => simp only [if_true]; exact ih hi
    | false =>
      obtain ⟨f, hf, hfe⟩ := hl fid (by simp)
      simp only [hf, Option.bind_some, Bool.false_eq_true, if_false]
      by_cases hty : f.faceType = .triangle
      swap
      · rw [if_pos hty]; exact ih hi
      rw [if_neg (not_not.2 hty)]
      obtain ⟨e, he, hside⟩ := hfit.owner fid f hf hty
      rw [hfe] at he
      have hat' := hat
      obtain ⟨fs, hat'⟩ := hat'
      rw [hat'] at he
      obtain rfl := Option.some.inj he
      obtain ⟨g, hg, hfn⟩ := hside rfl
      obtain ⟨s1, h1, h2⟩ := flipEdges_spec ht hm hfit hiso harg hat (f := f) (g := g) hg hfn (List.range f.nodeIds.length) (fun k hk => by
        rw [hfn] at hk; simpa using hk) hi
      obtain ⟨s2, h3, h4⟩ := ih h2
      exact ⟨s2, by simp only [h1, Option.bind_some, h3], h4⟩

theorem flipElement_spec (hown : m.Owned) {s : St} (hi : Inv P m s) {id : Int} (hid : id ∈ m.elements.ids) :
    ∃ s', flipElement P query boundary m s id = some s' ∧ Inv P m s' := by
  obtain ⟨v, hv⟩ := hi.keys id hid
  have hid' := hid
  rw [← hi.ids] at hid'
  obtain ⟨e, he⟩ := (hi.ok.2 id).1 hid'
  obtain ⟨a, b, c, d, fs, rfl, -⟩ := hi.tets id e he
  unfold flipElement
  simp only [he, hv, Option.bind_eq_bind, Option.bind_some, ne_eq, not_true_eq_false, if_false, List.getElem?_cons_zero, List.getElem?_cons_succ]
  cases v with
  | true => exact ⟨s, by simp, hi⟩
  | false =>
    simp only [Bool.false_eq_true, if_false]
    have he' := he
    rw [hi.same id hv] at he'
    exact flipFaces_spec ht hm hfit hiso harg ⟨fs, he'⟩ fs (hown id _ he') hi

theorem flipLoop_spec (hown : m.Owned) (l : List Int) (hl : ∀ i ∈ l, i ∈ m.elements.ids) :
    ∀ {s : St}, Inv P m s → ∃ s', flipLoop P query boundary m l s = some s' ∧ Inv P m s' := by
  induction l with
  | nil => intro s hi; exact ⟨s, rfl, hi⟩
  | cons a t ih =>
    intro s hi
    obtain ⟨s1, h1, h2⟩ := flipElement_spec ht hm hfit hiso harg hown hi (hl a (by simp))
    obtain ⟨s2, h3, h4⟩ := ih (fun i hi => hl i (List.mem_cons_of_mem _ hi)) h2
    exact ⟨s2, by simp only [flipLoop, h1, Option.bind_eq_bind, Option.bind_some, h3], h4⟩

end

theorem around_query (hm : m.elements.Ok) (hs : m.elements.ids.Pairwise (· < ·)) : ∃ q, MeshQuery.ofMesh m = some q ∧ ∀ a b, (q.sharingNodes a b).2 = m.around a b := by
  obtain ⟨q, h1, h2⟩ := query_at m hm
  refine ⟨q, h1, fun a b => ?_⟩
  show MeshQuery.setIntersection (q.touch a).2 (((q.touch a).1).touch b).2 = _
  rw [(MeshQuery.touch_at _ b).1, (MeshQuery.touch_at _ a).2, (MeshQuery.touch_at _ a).1, h2, h2, MeshQuery.setIntersection_eq _ _ (hs.filter _) (hs.filter _)]
  unfold Mesh.around
  rw [List.filter_filter]
  apply List.filter_congr
  intro x hx
  simp only [List.mem_filter, hx, true_and, decide_eq_true_eq, Bool.decide_and]
  rw [Bool.and_comm]

section
variable [FloorRing K]

theorem owned_faces {mc : HashGrid.Machine K} (hf : m.Filling) (hc : Smooth.Machine mc m) {tol : K} (ht : 0 ≤ tol) {m' : Mesh K} (h : m.generateFaces mc tol = some m') : m'.Owned := by
  obtain ⟨m1, h1, -, -, -, -, -, -, -, h9⟩ := C07_generateFaces_faces mc m hf.wf (full_of hf.all) (good_of hf hc) tol ht
  rw [h] at h1
  obtain rfl := Option.some.inj h1
  exact fun id e he fid hfid => (h9 id e he fid).1 hfid

theorem flip_core {mc : HashGrid.Machine K} (ht : 0 ≤ P.tol) (hm : m.Filling) (hfit : m.TetFit) (hown : m.Owned) (hs : m.elements.ids.Pairwise (· < ·))
    (hiso : m.Isolated) (hc : Smooth.Machine mc m) :
    ∃ m', flipEdges32 P mc m = some m' ∧ m'.Filling ∧ m'.TetFit ∧ m'.Owned ∧ m'.nodes = m.nodes ∧ m'.elements.ids.Sublist m.elements.ids ∧
      Relation.ReflTransGen (Flip P) m.tets m'.tets := by
  obtain ⟨b, h1, h2⟩ := Smooth.markBoundary_def hm.wf m.faces.ids (fun _ h => h) (Mesh.setAll false m.nodes.ids SMap.empty) (fun k hk => by
    rw [Mesh.setAll_find, if_pos hk]; exact ⟨_, rfl⟩)
  obtain ⟨q, hq, hat⟩ := around_query hm.wf.elements hs
  have hbd : ∀ n, b.find? n = some false → ¬ m.OnBoundary n := by
    rintro n hn ⟨i, f, g1, g2, g3⟩
    exact (Smooth.markBoundary_spec _ _ _ _ h1 n hn).2 i ((hm.wf.faces.2 i).2 ⟨f, g1⟩) f g1 g2 g3
  have harg : Args m (fun x y => (q.sharingNodes x y).2) b := ⟨hat, h2, hbd⟩
  have hno : ∀ k, (Mesh.setAll false m.elements.ids (SMap.empty : SMap Int Bool)).find? k ≠ some true := by
    intro k
    rw [Mesh.setAll_find]
    split_ifs
    · simp
    · intro h; exact absurd h (by simp [SMap.empty, SMap.find?, SMap.findL])
  have h0 : Inv P m ⟨m.elements, Mesh.setAll false m.elements.ids SMap.empty, Mesh.setAll false m.elements.ids SMap.empty⟩ := by
    refine ⟨hm.wf.elements, rfl, ?_, fun _ _ => rfl, ?_, fun id h => absurd h (hno id), fun id h => absurd h (hno id), ?_⟩
    · intro id hid
      simp only
      rw [Mesh.setAll_find, if_pos hid]
      exact ⟨_, rfl⟩
    · intro id e he
      obtain ⟨a, b, c, d, fs, rfl, -⟩ := four_of hm he
      exact ⟨a, b, c, d, fs, rfl, hm.wf.elemNodes id _ he⟩
    · have : live m ⟨m.elements, Mesh.setAll false m.elements.ids SMap.empty, Mesh.setAll false m.elements.ids SMap.empty⟩ = m.elements.ids := by
        unfold live
        rw [List.filter_eq_self]
        intro x _
        simpa using hno x
      rw [this]
      exact Relation.ReflTransGen.refl
  obtain ⟨s, hs', hi⟩ := flipLoop_spec ht hm hfit hiso harg hown m.elements.ids (fun _ h => h) h0
  obtain ⟨els, d1, d2, d3, d4, -⟩ := Mesh.deleteMap_spec s.del s.els hi.ok (fun id h => by rw [hi.ids]; exact (hi.del id h).1)
  have hlive : els.ids = live m s := by rw [d3, hi.ids]; rfl
  have htets : Mesh.tets { m with elements := els } = (live m s).filterMap (Mesh.tetAt { m with elements := s.els }) := by
    show els.ids.filterMap _ = _
    rw [hlive]
    apply List.filterMap_congr
    intro i hi'
    refine tetAt_congr (m' := { m with elements := els }) (m := { m with elements := s.els }) rfl ?_
    show Option.map _ (els.get? i) = Option.map _ (s.els.get? i)
    rw [d4, if_neg (by simpa using (List.mem_filter.1 hi').2)]
  have hsome : ∀ id e, els.get? id = some e → s.els.get? id = some e := by
    intro id e he
    rw [d4] at he
    split_ifs at he
    exact he
  have hflips := hi.flips
  rw [← htets] at hflips
  have hpos := flips_positive ht hflips hm.positive
  have hm1 : Mesh.Filling { m with elements := els } := by
    refine ⟨⟨hm.wf.nodes, hm.wf.faces, d2, hm.wf.faceNodes, ?_⟩, ?_, hpos, apart_same hm.positive hpos (flips_hull hflips) hm.apart⟩
    · intro id e he n hn
      obtain ⟨a, b, c, d, fs, rfl, h⟩ := hi.tets id e (hsome id e he)
      exact h n hn
    · intro id e he
      obtain ⟨a, b, c, d, fs, rfl, -⟩ := hi.tets id e (hsome id e he)
      exact ⟨rfl, rfl⟩
  have hc1 : Smooth.Machine mc { m with elements := els } := ⟨hc.eps, hc.big, hc.bounded⟩
  obtain ⟨m', g1, g2, g3, g4, g5, -, g7, -⟩ := faces_fit hm1 hc1 ht
  refine ⟨m', ?_, g2, g3, owned_faces hm1 hc1 ht g1, g4, ?_, by rw [g5]; exact hflips⟩
  · simp only [flipEdges32, h1, hq, hs', d1, Option.bind_eq_bind, Option.bind_some]
    exact g1
  · rw [g7]
    show els.ids.Sublist _
    rw [hlive]
    exact List.filter_sublist

end

end TetFlip
end ENigMA
