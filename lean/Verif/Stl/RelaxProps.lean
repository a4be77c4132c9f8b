import Verif.Stl.RelaxLemmas

/-!
# What moving vertices keeps
-/

set_option linter.unusedSectionVars false
set_option autoImplicit false

namespace ENigMA
namespace Stl
variable {K : Type}

/-! ### Sums over the edges -/

/-- A quantity of triangles that is the sum of a quantity of their edges, which changes its sign with the direction: the vector of the area, for example. -/
structure OfEdges {M : Type} [AddCommGroup M] (F : Vec3 K → Vec3 K → Vec3 K → M) (H : Vec3 K → Vec3 K → M) : Prop where
  sum : ∀ a b c, F a b c = H a b + H b c + H c a
  turn : ∀ a b, H b a = -H a b

/-- Its value for the edge of a corner. -/
def edgeValue {M : Type} [AddCommGroup M] (H : Vec3 K → Vec3 K → M) (s : File K) (x : Int × Nat) : M :=
  match ends s x with
  | (some a, some b) => H a b
  | _ => 0

theorem total_edges {M : Type} [AddCommGroup M] {F : Vec3 K → Vec3 K → Vec3 K → M} {H : Vec3 K → Vec3 K → M} (h : OfEdges F H) {s : File K} (hg : Good s) : total F s = ∑ x ∈ (corners s).toFinset, edgeValue H s x := by
  rw [List.sum_toFinset _ (corners_nodup hg.ok)]
  unfold total corners
  have key : ∀ l : List Int, (∀ id ∈ l, id ∈ s.ids) → (l.map fun id => match s.get? id with | some f => f.value F | none => 0).sum = ((l.flatMap fun id => [(id, 0), (id, 1), (id, 2)]).map (edgeValue H s)).sum := by
    intro l
    induction l with
    | nil => intro _; rfl
    | cons id l ih =>
      intro hl
      have hid := hl id (by simp)
      rw [List.map_cons, List.sum_cons, ih fun x hx => hl x (List.mem_cons_of_mem _ hx), List.flatMap_cons, List.map_append, List.sum_append]
      congr 1
      obtain ⟨f, hf⟩ := (hg.ok.2 id).1 hid
      obtain ⟨a, b, c, hv, -⟩ := verts_of hg.tri hf
      rw [hf]
      simp [Facet.value, hv, edgeValue, ends, after, vert, hf, h.sum]
      abel
  exact key s.ids fun _ h => h

theorem total_rim {M : Type} [AddCommGroup M] {F : Vec3 K → Vec3 K → Vec3 K → M} {H : Vec3 K → Vec3 K → M} (h : OfEdges F H) {s : File K} (hs : Sound s) :
    total F s = ∑ x ∈ (corners s).toFinset with link s x = none, edgeValue H s x := by
  classical
  rw [total_edges h hs.good, ← Finset.sum_filter_add_sum_filter_not _ (fun x => link s x = none)]
  refine add_eq_left.2 ?_
  refine Finset.sum_involution (fun x _ => (link s x).getD x) ?_ ?_ ?_ ?_
  · intro x hx
    obtain ⟨y, hy⟩ := Option.ne_none_iff_exists'.1 (Finset.mem_filter.1 hx).2
    simp only [hy, Option.getD_some]
    have := opposed_iff.1 (hs.opp x y hy)
    unfold edgeValue
    rw [this]
    obtain ⟨a, ha⟩ := (vert_some hs.good x).2 (hs.net.live hy).1
    obtain ⟨b, hb⟩ := (vert_some hs.good (after x)).2 ⟨(hs.net.live hy).1.1, Nat.mod_lt _ (by decide)⟩
    simp only [ends, ha, hb, Prod.swap]
    rw [h.turn a b]
    abel
  · intro x hx _
    obtain ⟨y, hy⟩ := Option.ne_none_iff_exists'.1 (Finset.mem_filter.1 hx).2
    simp only [hy, Option.getD_some]
    exact fun he => hs.net.self _ _ hy (congrArg Prod.fst he)
  · intro x hx
    obtain ⟨y, hy⟩ := Option.ne_none_iff_exists'.1 (Finset.mem_filter.1 hx).2
    simp only [hy, Option.getD_some]
    rw [Finset.mem_filter, List.mem_toFinset, mem_corners]
    exact ⟨(hs.net.live hy).2, by rw [hs.net.inv _ _ hy]; simp⟩
  · intro x hx
    obtain ⟨y, hy⟩ := Option.ne_none_iff_exists'.1 (Finset.mem_filter.1 hx).2
    simp only [hy, Option.getD_some, hs.net.inv _ _ hy]

/-- The edges of the rim stay where they are. -/
theorem Shift.rim {outline : Int × Nat → Bool} {s s' : File K} (h : Shift outline s s') {x : Int × Nat} (hc : Corner s x) (hx : link s x = none) : ends s' x = ends s x := by
  have h3 := hc.2
  unfold ends
  rw [h.fixed x x (Relation.EqvGen.refl _) (Or.inl hx), h.fixed (after x) (after x) (Relation.EqvGen.refl _) (Or.inr (Or.inl ?_))]
  rw [← hx]
  congr 1
  unfold after
  exact Prod.ext rfl (by simp only; omega)

theorem Shift.total {M : Type} [AddCommGroup M] {F : Vec3 K → Vec3 K → Vec3 K → M} {H : Vec3 K → Vec3 K → M} (hF : OfEdges F H) {outline : Int × Nat → Bool} {s s' : File K} (hs : Sound s) (h : Shift outline s s') : total F s' = total F s := by
  rw [total_rim hF hs, total_rim hF h.sound, link_of_edges h.edges]
  have : corners s' = corners s := by unfold corners; rw [h.ids]
  rw [this]
  refine Finset.sum_congr rfl fun x hx => ?_
  rw [Finset.mem_filter, List.mem_toFinset, mem_corners] at hx
  unfold edgeValue
  rw [h.rim hx.1 hx.2]

theorem Shift.one {outline : Int × Nat → Bool} {s s' : File K} (h : Shift outline s s') (h1 : OneCorner s) : OneCorner s' := by
  unfold OneCorner
  rw [nx_of_edges h.edges]
  exact h1

/-- If the corners of every facet are different, no facet has two corners at the same vertex. -/
theorem oneCorner_of {s : File K} (hs : Sound s) (h : ∀ x y, Corner s x → Corner s y → x.1 = y.1 → vert s x = vert s y → x = y) : OneCorner s := by
  have key : ∀ x y, Fan.Same (nx s) x y → x = y ∨ (Corner s x ∧ Corner s y ∧ vert s x = vert s y) := by
    intro x y hxy
    induction hxy with
    | rel x y hxy =>
      obtain ⟨h1, h2⟩ := nx_spec hs.ok hs.tri hs.joined hxy
      exact Or.inr ⟨nx_corner hs.ok hxy, h1, h2.symm⟩
    | refl x => exact Or.inl rfl
    | symm x y _ ih =>
      rcases ih with rfl | ⟨a, b, c⟩
      · exact Or.inl rfl
      · exact Or.inr ⟨b, a, c.symm⟩
    | trans x y z _ _ ih1 ih2 =>
      rcases ih1 with rfl | ⟨a, b, c⟩
      · exact ih2
      · rcases ih2 with rfl | ⟨a', b', c'⟩
        · exact Or.inr ⟨a, b, c⟩
        · exact Or.inr ⟨a, b', c.trans c'⟩
  intro x y hxy he
  rcases key x y hxy with rfl | ⟨a, b, c⟩
  · rfl
  · exact h x y a b he c

/-! ### The loops -/

theorem foldlM_inv {α σ : Type} {f : σ → α → Option σ} {P : σ → Prop} {R : σ → σ → Prop} (refl : ∀ s, P s → R s s) (trans : ∀ a b c, R a b → R b c → R a c) (l : List α) :
    ∀ {s : σ}, P s → (∀ s x, P s → x ∈ l → ∃ s', f s x = some s' ∧ P s' ∧ R s s') → ∃ s', l.foldlM f s = some s' ∧ P s' ∧ R s s' := by
  induction l with
  | nil => intro s hs _; exact ⟨s, rfl, hs, refl s hs⟩
  | cons a l ih =>
    intro s hs h
    obtain ⟨s1, e1, p1, r1⟩ := h s a hs (by simp)
    obtain ⟨s2, e2, p2, r2⟩ := ih p1 fun s x hs hx => h s x hs (List.mem_cons_of_mem _ hx)
    exact ⟨s2, by rw [List.foldlM_cons, e1]; exact e2, p2, trans _ _ _ r1 r2⟩

theorem mapM_some {α β : Type} {f : α → Option β} (l : List α) (h : ∀ x ∈ l, ∃ y, f x = some y) : ∃ r, l.mapM f = some r ∧ r.length = l.length ∧ ∀ y ∈ r, ∃ x ∈ l, f x = some y := by
  induction l with
  | nil => exact ⟨[], rfl, rfl, by simp⟩
  | cons a l ih =>
    obtain ⟨b, hb⟩ := h a (by simp)
    obtain ⟨r, h1, h2, h3⟩ := ih fun x hx => h x (List.mem_cons_of_mem _ hx)
    refine ⟨b :: r, by rw [List.mapM_cons, hb, h1]; rfl, by simp [h2], ?_⟩
    intro y hy
    rcases List.mem_cons.1 hy with rfl | hy
    · exact ⟨a, by simp, hb⟩
    · obtain ⟨x, hx, hy⟩ := h3 y hy
      exact ⟨x, List.mem_cons_of_mem _ hx, hy⟩

section
variable [Field K] [LinearOrder K] [IsStrictOrderedRing K]

theorem InHull.trans {T T' : List (Vec3 K)} (h : ∀ p ∈ T', InHull T p) {v : Vec3 K} (hv : InHull T' v) : InHull T v := fun n d hp => hv n d fun p hp' => h p hp' n d hp

theorem InHull.mean {T ps : List (Vec3 K)} (hne : ps ≠ []) (h : ∀ p ∈ ps, p ∈ T) : InHull T (ringMean ps) := by
  intro n d hp
  have key : ∀ (l : List (Vec3 K)) (a : Vec3 K), (∀ p ∈ l, n.x * p.x + n.y * p.y + n.z * p.z ≤ d) →
      n.x * (l.foldl (· + ·) a).x + n.y * (l.foldl (· + ·) a).y + n.z * (l.foldl (· + ·) a).z ≤ n.x * a.x + n.y * a.y + n.z * a.z + l.length * d := by
    intro l
    induction l with
    | nil => intro a _; simp
    | cons b l ih =>
      intro a hl
      have h1 := ih (a + b) fun p hp => hl p (List.mem_cons_of_mem _ hp)
      have h2 := hl b (by simp)
      rw [List.foldl_cons]
      simp only [Vec3.add_x, Vec3.add_y, Vec3.add_z] at h1
      push_cast [List.length_cons]
      linarith
  have h1 := key ps 0 fun p hp' => hp p (h p hp')
  simp only [Vec3.zero_x, Vec3.zero_y, Vec3.zero_z, mul_zero, zero_add, add_zero] at h1
  have hpos : (0 : K) < ps.length := by
    have : 0 < ps.length := List.length_pos_iff.2 hne
    exact_mod_cast this
  unfold ringMean
  simp only [Vec3.smul_x, Vec3.smul_y, Vec3.smul_z]
  generalize ps.foldl (· + ·) 0 = q at h1 ⊢
  rw [show n.x * ((ps.length : K)⁻¹ * q.x) + n.y * ((ps.length : K)⁻¹ * q.y) + n.z * ((ps.length : K)⁻¹ * q.z) = (ps.length : K)⁻¹ * (n.x * q.x + n.y * q.y + n.z * q.z) by ring, inv_mul_le_iff₀ hpos]
  exact h1

/-- All corners at the vertex of `x0` move to `p`, nothing else changes. -/
def MovesTo (s s' : File K) (x0 : Int × Nat) (p : Vec3 K) : Prop :=
  ∀ x, (Fan.Same (nx s) x0 x → vert s' x = some p) ∧ (¬ Fan.Same (nx s) x0 x → vert s' x = vert s x)

theorem movesTo_of {s s' : File K} (hs : Sound s) {S : List (Int × Nat)} (hS : Round s S) {x0 : Int × Nat} (h0 : x0 ∈ S) (hsame : ∀ y ∈ S, Fan.Same (nx s) x0 y) {p : Vec3 K}
    (hc : Change s s' (fun y => if y ∈ S then some p else vert s y) (edgeAt s)) : MovesTo s s' x0 p := by
  intro x
  have hx : x ∈ S ↔ Fan.Same (nx s) x0 x := ⟨hsame x, fun h => (closed_same hs hS h).1 h0⟩
  rw [hc.verts]
  beta_reduce
  exact ⟨fun h => if_pos (hx.2 h), fun h => if_neg fun h' => h (hx.1 h')⟩

/-- The mean of the ends of the edges that start at the vertex of `x0`. -/
def IsMean (s : File K) (x0 : Int × Nat) (p : Vec3 K) : Prop :=
  ∃ (S : List (Int × Nat)) (ps : List (Vec3 K)), S.Nodup ∧ (∀ x, x ∈ S ↔ Fan.Same (nx s) x0 x) ∧ S.map (fun x => vert s (after x)) = ps.map some ∧ p = ((ps.length : K)⁻¹) • ps.sum

theorem mapM_eq {α β : Type} {f : α → Option β} (l : List α) : ∀ {r : List β}, l.mapM f = some r → l.map f = r.map some := by
  induction l with
  | nil => intro r h; cases h; rfl
  | cons a l ih =>
    intro r h
    rw [List.mapM_cons] at h
    cases ha : f a with
    | none => rw [ha] at h; cases h
    | some b =>
      rw [ha] at h
      cases hl : l.mapM f with
      | none => rw [hl] at h; cases h
      | some t =>
        rw [hl] at h
        cases h
        rw [List.map_cons, List.map_cons, ih hl, ha]

theorem foldl_add (l : List (Vec3 K)) : ∀ a : Vec3 K, l.foldl (· + ·) a = a + l.sum := by
  induction l with
  | nil => intro a; simp
  | cons b l ih => intro a; rw [List.foldl_cons, ih, List.sum_cons, add_assoc]

/-- All corners lie in the hull of those before. -/
def Inside (s s' : File K) : Prop := ∀ p ∈ points s', InHull (points s) p

theorem relaxCorner_spec (outline : Int × Nat → Bool) (accept : List (Facet K × Nat) → Vec3 K → Bool) {s : File K} (hs : Sound s) (hone : OneCorner s) {i j : Nat} (hc : Corner s ((i : Int), j)) :
    ∃ s', relaxCorner outline accept s i (i : Int) j = some s' ∧ Shift outline s s' ∧ Inside s s' ∧ (s' = s ∨ ∃ p, IsMean s ((i : Int), j) p ∧ MovesTo s s' ((i : Int), j) p) := by
  have hrefl : Inside s s := fun p hp => InHull.of_mem hp
  unfold relaxCorner
  by_cases ho : outline ((i : Int), j) = true
  · rw [if_pos ho]; exact ⟨s, rfl, Shift.refl _ hs, hrefl, Or.inl rfl⟩
  rw [if_neg ho]
  obtain ⟨r, h1, -⟩ := ringWalk_spec hs outline i 100 (i : Int) j [] hc
  simp only [h1, Option.bind_eq_bind, Option.bind_some]
  cases r with
  | none => exact ⟨s, rfl, Shift.refl _ hs, hrefl, Or.inl rfl⟩
  | some ring =>
    obtain ⟨t1, t2, t3, t4, t5, t6⟩ := ring_closed hs hone hc h1
    obtain ⟨ps, p1, p2, p3⟩ := mapM_some (f := fun x : Int × Nat => vertexOf s x.1 x.2) ring fun x hx => by
      rw [vertexOf_eq hs.good (t2 x hx).1]
      exact (vert_some hs.good x).2 (t2 x hx).2
    obtain ⟨fs, f1, -⟩ := mapM_some (f := fun x : Int × Nat => (s.get? x.1).map fun f => (f, ((x.2 + 1) % 3 + 1) % 3)) ring fun x hx => by
      obtain ⟨f, hf⟩ := (hs.ok.2 _).1 (t2 x hx).2.1
      exact ⟨_, by rw [hf]; rfl⟩
    simp only [p1, f1, Option.bind_some]
    split_ifs
    · obtain ⟨s', m1, m2⟩ := moveRing_spec (s := s) (ringMean ps) ring hs.good fun x hx => (t2 x hx).2
      have hsh := move_shift hs t3 (fun x hx => (t5 x hx).1) m2
      refine ⟨s', m1, hsh, ?_, Or.inr ⟨ringMean ps, ⟨ring.map ringCorner, ps, t6, fun x => ⟨fun h => (t5 x h).2, fun h => (closed_same hs t3 h).1 t4⟩, ?_, ?_⟩, movesTo_of hs t3 t4 (fun y hy => (t5 y hy).2) m2⟩⟩
      rotate_left
      · rw [← mapM_eq ring p1, List.map_map]
        refine List.map_congr_left fun x hx => ?_
        have h3 := (t2 x hx).1
        rw [vertexOf_eq hs.good h3]
        simp only [Function.comp, ringCorner, after]
        rw [show ((x.2 + 2) % 3 + 1) % 3 = x.2 by omega]
      · unfold ringMean
        rw [foldl_add, zero_add]
      intro p hp
      obtain ⟨x, hx⟩ := (mem_points m2.good).1 hp
      rw [m2.verts] at hx
      beta_reduce at hx
      split_ifs at hx
      · rw [Option.some.injEq] at hx
        rw [← hx]
        refine InHull.mean ?_ ?_
        · rintro rfl
          exact t1 (List.length_eq_zero_iff.1 p2.symm)
        · intro q hq
          obtain ⟨x, hx, hq⟩ := p3 q hq
          rw [vertexOf_eq hs.good (t2 x hx).1] at hq
          exact (mem_points hs.good).2 ⟨_, hq⟩
      · exact InHull.of_mem ((mem_points hs.good).2 ⟨x, hx⟩)
    · exact ⟨s, rfl, Shift.refl _ hs, hrefl, Or.inl rfl⟩

theorem relaxVertices_spec (outline : Int × Nat → Bool) (accept : List (Facet K × Nat) → Vec3 K → Bool) {s : File K} (hs : Sound s) (hone : OneCorner s) : ∃ s', relaxVertices outline accept s = some s' ∧ Shift outline s s' ∧ Inside s s' := by
  have tr : ∀ a b c : File K, (Shift outline a b ∧ Inside a b) → (Shift outline b c ∧ Inside b c) → Shift outline a c ∧ Inside a c :=
    fun a b c h h' => ⟨h.1.trans h'.1, fun p hp => InHull.trans h.2 (h'.2 p hp)⟩
  have re : ∀ a : File K, (Sound a ∧ OneCorner a ∧ a.ids = s.ids) → Shift outline a a ∧ Inside a a := fun a h => ⟨Shift.refl _ h.1, fun p hp => InHull.of_mem hp⟩
  obtain ⟨s', h1, -, h2⟩ := foldlM_inv (P := fun a : File K => Sound a ∧ OneCorner a ∧ a.ids = s.ids) (R := fun a b => Shift outline a b ∧ Inside a b) re tr (List.range s.count)
    (f := fun s i => do
      let id ← s.idAt? i
      [0, 1, 2].foldlM (fun s j => relaxCorner outline accept s i id j) s) (s := s) ⟨hs, hone, rfl⟩ (by
      intro a i ha hi
      rw [List.mem_range] at hi
      have hcount : a.count = s.count := by unfold Cont.count; rw [ha.2.2]
      have hi' : i < a.count := by omega
      simp only [ha.1.plain.idAt hi', Option.bind_eq_bind, Option.bind_some]
      obtain ⟨b, h1, h2, h3⟩ := foldlM_inv (P := fun a : File K => Sound a ∧ OneCorner a ∧ a.ids = s.ids) (R := fun a b => Shift outline a b ∧ Inside a b) re tr [0, 1, 2]
        (f := fun s j => relaxCorner outline accept s i (i : Int) j) (s := a) ha (by
          intro c j hc hj
          have hj3 : j < 3 := by simp at hj; omega
          have hcc : c.count = s.count := by unfold Cont.count; rw [hc.2.2]
          obtain ⟨d, d1, d2, d3, -⟩ := relaxCorner_spec outline accept hc.1 hc.2.1 (i := i) (j := j) ⟨hc.1.plain.mem.2 ⟨by omega, by omega⟩, hj3⟩
          exact ⟨d, d1, ⟨d2.sound, d2.one hc.2.1, d2.ids.trans hc.2.2⟩, d2, d3⟩)
      exact ⟨b, h1, h2, h3⟩)
  exact ⟨s', h1, h2⟩

/-! ### Collapsing -/

/-- All corners are among those before. -/
def Among (s s' : File K) : Prop := ∀ p ∈ points s', p ∈ points s

theorem smallEdge_spec (g : Gauge K) (p0 p1 p2 : Vec3 K) : smallEdge g p0 p1 p2 < 3 ∧ ∀ j, g.norm (pick p0 p1 p2 (smallEdge g p0 p1 p2 + 1) - pick p0 p1 p2 (smallEdge g p0 p1 p2)) ≤ g.norm (pick p0 p1 p2 (j + 1) - pick p0 p1 p2 j) := by
  have h : ∀ c : K, (c ≤ g.norm (p1 - p0) ∧ c ≤ g.norm (p2 - p1) ∧ c ≤ g.norm (p0 - p2)) → ∀ j, c ≤ g.norm (pick p0 p1 p2 (j + 1) - pick p0 p1 p2 j) := by
    rintro c ⟨h0, h1, h2⟩ j
    unfold pick
    rcases (by omega : j % 3 = 0 ∨ j % 3 = 1 ∨ j % 3 = 2) with h | h | h
    · simpa [h, show (j + 1) % 3 = 1 by omega] using h0
    · simpa [h, show (j + 1) % 3 = 2 by omega] using h1
    · simpa [h, show (j + 1) % 3 = 0 by omega] using h2
  unfold smallEdge
  simp only
  split_ifs with c1 c2 c2 <;> refine ⟨by norm_num, h _ ?_⟩ <;> simp only [pick] at * <;> norm_num at * <;> (first | (refine ⟨?_, ?_, ?_⟩ <;> order) | (refine ⟨?_, ?_⟩ <;> order))

/-- A round of the loop over the facets. -/
structure Collapses (g : Gauge K) (least : K) (s s' : File K) (i : Nat) (marks marks' : List Int) : Prop where
  ex : ∃ p0 p1 p2 k p, k < 3 ∧ vert s ((i : Int), 0) = some p0 ∧ vert s ((i : Int), 1) = some p1 ∧ vert s ((i : Int), 2) = some p2 ∧ g.quality p0 p1 p2 ≤ least ∧
    (∀ j, g.norm (pick p0 p1 p2 (k + 1) - pick p0 p1 p2 k) ≤ g.norm (pick p0 p1 p2 (j + 1) - pick p0 p1 p2 j)) ∧ vert s ((i : Int), k) = some p ∧ (∃ y, link s ((i : Int), k) = some y ∧ (i : Int) ∉ marks ∧ marks' = (i : Int) :: y.1 :: marks) ∧ MovesTo s s' ((i : Int), (k + 1) % 3) p

theorem collapseFacet_spec (g : Gauge K) (least : K) (accept : List (Facet K × Nat) → Vec3 K → Bool) {s : File K} (marks : List Int) (hs : Sound s) (hone : OneCorner s) {i : Nat} (hi : i < s.count) :
    ∃ st', collapseFacet g least accept (s, marks) i = some st' ∧ Shift (fun _ => false) s st'.1 ∧ Among s st'.1 ∧ (st' = (s, marks) ∨ Collapses g least s st'.1 i marks st'.2) := by
  have hg := hs.good
  have hn := hs.net
  have hrefl : Among s s := fun p hp => hp
  have stay : ∃ st', some (s, marks) = some st' ∧ Shift (fun _ => false) s st'.1 ∧ Among s st'.1 ∧ (st' = (s, marks) ∨ Collapses g least s st'.1 i marks st'.2) := ⟨_, rfl, Shift.refl _ hs, hrefl, Or.inl rfl⟩
  have hm : (i : Int) ∈ s.ids := hs.plain.mem.2 ⟨by omega, by omega⟩
  obtain ⟨p0, h0⟩ := (vert_some hg ((i : Int), 0)).2 ⟨hm, by norm_num⟩
  obtain ⟨p1, h1⟩ := (vert_some hg ((i : Int), 1)).2 ⟨hm, by norm_num⟩
  obtain ⟨p2, h2⟩ := (vert_some hg ((i : Int), 2)).2 ⟨hm, by norm_num⟩
  unfold collapseFacet
  simp only [hs.plain.idAt hi, Option.bind_eq_bind, Option.bind_some, vertexOf_eq hg (show 0 < 3 by norm_num), vertexOf_eq hg (show 1 < 3 by norm_num), vertexOf_eq hg (show 2 < 3 by norm_num), h0, h1, h2]
  by_cases c1 : (i : Int) ∈ marks
  · rw [if_pos c1]; exact stay
  rw [if_neg c1]
  by_cases c2 : least < g.quality p0 p1 p2
  · rw [if_pos c2]; exact stay
  rw [if_neg c2]
  obtain ⟨k, hk, hke, hsm⟩ : ∃ k, k < 3 ∧ smallEdge g p0 p1 p2 = k ∧ ∀ j, g.norm (pick p0 p1 p2 (k + 1) - pick p0 p1 p2 k) ≤ g.norm (pick p0 p1 p2 (j + 1) - pick p0 p1 p2 j) :=
    ⟨_, (smallEdge_spec g p0 p1 p2).1, rfl, (smallEdge_spec g p0 p1 p2).2⟩
  rw [hke]
  obtain ⟨e, he, hp⟩ := hn.pts ((i : Int), k) ⟨hm, hk⟩
  have he' : edge? s (i : Int) k = some e := he
  simp only [he', Option.bind_some]
  cases hl : link s ((i : Int), k) with
  | none =>
    rw [hl] at hp
    rw [if_pos hp.1]; exact stay
  | some y =>
    rw [hl] at hp
    have hy := (hn.live hl).2
    rw [if_neg (by have := hs.plain.pos _ hy.1; rw [hp.1]; omega)]
    obtain ⟨q, hq⟩ := (vert_some hg (e.neighbor, 0)).2 ⟨by rw [hp.1]; exact hy.1, by norm_num⟩
    simp only [hq, Option.bind_some]
    have hc : Corner s ((i : Int), (k + 1) % 3) := ⟨hm, Nat.mod_lt _ (by decide)⟩
    obtain ⟨r, w1, -⟩ := ringWalk_spec hs (fun _ => false) i 100 (i : Int) ((k + 1) % 3) [] hc
    simp only [w1, Option.bind_some]
    cases r with
    | none => exact stay
    | some ring =>
      obtain ⟨t1, t2, t3, t4, t5, -⟩ := ring_closed hs hone hc w1
      obtain ⟨p, hpv⟩ := (vert_some hg ((i : Int), k)).2 ⟨hm, hk⟩
      obtain ⟨fs, f1, -⟩ := mapM_some (f := fun x : Int × Nat => (s.get? x.1).map fun f => (f, ((x.2 + 1) % 3 + 1) % 3)) ring fun x hx => by
        obtain ⟨f, hf⟩ := (hs.ok.2 _).1 (t2 x hx).2.1
        exact ⟨_, by rw [hf]; rfl⟩
      simp only [vertexOf_eq hg hk, hpv, f1, Option.bind_some]
      by_cases ca : accept fs p = true
      · rw [if_pos ca]
        obtain ⟨s', m1, m2⟩ := moveRing_spec (s := s) p ring hs.good fun x hx => (t2 x hx).2
        simp only [m1, Option.bind_some]
        refine ⟨_, rfl, move_shift hs t3 (fun _ _ => rfl) m2, ?_, Or.inr ⟨p0, p1, p2, k, p, hk, h0, h1, h2, not_lt.1 c2, hsm, hpv, ⟨y, hl, c1, by rw [← hp.1]⟩, movesTo_of hs t3 t4 (fun y hy => (t5 y hy).2) m2⟩⟩
        intro v hv
        obtain ⟨x, hx⟩ := (mem_points m2.good).1 hv
        rw [m2.verts] at hx
        beta_reduce at hx
        split_ifs at hx
        · exact (mem_points hg).2 ⟨_, hpv.trans hx⟩
        · exact (mem_points hg).2 ⟨x, hx⟩
      · rw [if_neg ca]; exact stay

theorem collapseEdges_spec (g : Gauge K) (least : K) (accept : List (Facet K × Nat) → Vec3 K → Bool) {s : File K} (hs : Sound s) (hone : OneCorner s) :
    ∃ s', collapseEdges g least accept s = some s' ∧ Shift (fun _ => false) s s' ∧ Among s s' := by
  obtain ⟨st, h1, -, h2⟩ := foldlM_inv (P := fun a : File K × List Int => Sound a.1 ∧ OneCorner a.1 ∧ a.1.ids = s.ids) (R := fun a b => Shift (fun _ => false) a.1 b.1 ∧ Among a.1 b.1)
    (fun a h => ⟨Shift.refl _ h.1, fun p hp => hp⟩) (fun a b c h h' => ⟨h.1.trans h'.1, fun p hp => h.2 p (h'.2 p hp)⟩) (List.range s.count)
    (f := fun st i => collapseFacet g least accept st i) (s := (s, [])) ⟨hs, hone, rfl⟩ (by
      rintro ⟨a, marks⟩ i ha hi
      rw [List.mem_range] at hi
      have hcount : a.count = s.count := congrArg List.length ha.2.2
      obtain ⟨st', d1, d2, d3, -⟩ := collapseFacet_spec g least accept marks ha.1 ha.2.1 (i := i) (show i < a.count by omega)
      exact ⟨st', d1, ⟨d2.sound, d2.one ha.2.1, d2.ids.trans ha.2.2⟩, d2, d3⟩)
  exact ⟨st.1, by unfold collapseEdges; rw [h1]; rfl, h2⟩

end
end Stl
end ENigMA
