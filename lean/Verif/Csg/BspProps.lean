import Verif.Csg.SplitProps

/-!
# C46: BSP trees, clipping and the boolean operations
-/

set_option linter.unusedSectionVars false

namespace ENigMA
namespace Csg

variable {K : Type} [Field K] [LinearOrder K] [IsStrictOrderedRing K]

/-! ## Specification -/

/-- The convex hull of points: the points reached by joining points of the hull. -/
inductive InHull (vs : List (Vec3 K)) : Vec3 K → Prop
  | vertex {v : Vec3 K} : v ∈ vs → InHull vs v
  | join {a b : Vec3 K} {s : K} : InHull vs a → InHull vs b → 0 ≤ s → s ≤ 1 → InHull vs (a + s • (b - a))

/-- `q` is cut out of `p`: same normal, and no vertex outside the hull of `p`. -/
def PieceOf (q p : Poly K) : Prop := q.normal = p.normal ∧ ∀ v ∈ q.vs, InHull p.vs v

/-- A proper polygon: it has vertices, all in one plane orthogonal to its nonzero normal. -/
def Proper (p : Poly K) : Prop :=
  p.vs ≠ [] ∧ p.normal ≠ 0 ∧ ∀ v ∈ p.vs, ∀ w ∈ p.vs, p.normal.dot v = p.normal.dot w

/-- Twice the vector area of those polygons that face in direction `m`. -/
def areaFacing (m : Vec3 K) (ps : List (Poly K)) : Vec3 K := areaSum (ps.filter fun p => p.normal = m)

/-- The polygons stored in a tree. -/
def Bsp.stored : Bsp K → List (Poly K)
  | .nil => []
  | .node _ ps f b => ps ++ f.stored ++ b.stored

/-- The closed region outside the solid a tree describes: the front side of a plane is outside where there is no
front child, the back side inside where there is no back child. -/
def Bsp.Outside : Bsp K → Vec3 K → Prop
  | .nil, _ => True
  | .node none _ _ _, _ => False
  | .node (some pl) _ f b, x =>
    (pl.d ≤ pl.normal.dot x ∧ f.Outside x) ∨ (pl.normal.dot x ≤ pl.d ∧ b ≠ .nil ∧ b.Outside x)

/-- The closed region inside the solid a tree describes. -/
def Bsp.Inside : Bsp K → Vec3 K → Prop
  | .nil, _ => True
  | .node none _ _ _, _ => False
  | .node (some pl) _ f b, x =>
    (pl.d ≤ pl.normal.dot x ∧ f ≠ .nil ∧ f.Inside x) ∨ (pl.normal.dot x ≤ pl.d ∧ b.Inside x)

/-- `x` lies on one of the planes of the tree. -/
def Bsp.OnPlane : Bsp K → Vec3 K → Prop
  | .nil, _ => False
  | .node pl _ f b, x => (∃ p, pl = some p ∧ p.normal.dot x = p.d) ∨ f.OnPlane x ∨ b.OnPlane x

/-- Every node of the tree has its plane. -/
def Bsp.Planed : Bsp K → Prop
  | .nil => True
  | .node pl _ f b => pl ≠ none ∧ f.Planed ∧ b.Planed

/-! ## Lemmas -/

theorem InHull.trans {vs ws : List (Vec3 K)} (h : ∀ v ∈ vs, InHull ws v) {x : Vec3 K} (hx : InHull vs x) :
    InHull ws x := by
  induction hx with
  | vertex hv => exact h _ hv
  | join _ _ h0 h1 ih1 ih2 => exact .join ih1 ih2 h0 h1

theorem PieceOf.refl (p : Poly K) : PieceOf p p := ⟨rfl, fun _ hv => .vertex hv⟩

theorem PieceOf.trans {p q r : Poly K} (h1 : PieceOf p q) (h2 : PieceOf q r) : PieceOf p r :=
  ⟨h1.1.trans h2.1, fun v hv => (h1.2 v hv).trans h2.2⟩

/-- A linear bound on the vertices holds on the hull. -/
theorem InHull.le {vs : List (Vec3 K)} {n : Vec3 K} {d : K} (h : ∀ v ∈ vs, n.dot v ≤ d) {x : Vec3 K}
    (hx : InHull vs x) : n.dot x ≤ d := by
  induction hx with
  | vertex hv => exact h _ hv
  | @join a b s _ _ h0 h1 ih1 ih2 =>
    rw [Vec3.dot_add, Vec3.dot_smul, Vec3.dot_sub]
    have e : n.dot a + s * (n.dot b - n.dot a) = (1 - s) * n.dot a + s * n.dot b := by ring
    rw [e]
    nlinarith

theorem InHull.ge {vs : List (Vec3 K)} {n : Vec3 K} {d : K} (h : ∀ v ∈ vs, d ≤ n.dot v) {x : Vec3 K}
    (hx : InHull vs x) : d ≤ n.dot x := by
  have := InHull.le (n := -n) (d := -d) (fun v hv => by rw [Vec3.neg_dot]; linarith [h v hv]) hx
  rw [Vec3.neg_dot] at this
  linarith

theorem OnEdge.inHull {vs : List (Vec3 K)} {v : Vec3 K} (h : OnEdge vs v) : InHull vs v := by
  obtain ⟨k, a, b, s, ha, hb, h0, h1, rfl⟩ := h
  exact .join (.vertex (List.mem_of_getElem? ha)) (.vertex (List.mem_of_getElem? hb)) h0.le h1.le

@[simp] theorem areaFacing_nil (m : Vec3 K) : areaFacing m [] = 0 := rfl
@[simp] theorem areaFacing_append (m : Vec3 K) (ps qs : List (Poly K)) :
    areaFacing m (ps ++ qs) = areaFacing m ps + areaFacing m qs := by simp [areaFacing]
theorem areaFacing_cons (m : Vec3 K) (p : Poly K) (ps : List (Poly K)) :
    areaFacing m (p :: ps) = areaFacing m [p] + areaFacing m ps := areaFacing_append m [p] ps

theorem areaFacing_same {m n : Vec3 K} {ps : List (Poly K)} (h : ∀ p ∈ ps, p.normal = n) :
    areaFacing m ps = if n = m then areaSum ps else 0 := by
  unfold areaFacing
  split_ifs with hnm
  · rw [List.filter_eq_self.2]
    intro p hp; simp [h p hp, hnm]
  · rw [List.filter_eq_nil_iff.2]
    · rfl
    · intro p hp; simp [h p hp, hnm]

theorem Poly.invert_invert (p : Poly K) : p.invert.invert = p := by
  cases p; simp [Poly.invert]

theorem areaFacing_invert (m : Vec3 K) (ps : List (Poly K)) :
    areaFacing m (ps.map Poly.invert) = -areaFacing (-m) ps := by
  induction ps with
  | nil => simp
  | cons p ps ih =>
    rw [List.map_cons, areaFacing_cons, areaFacing_cons (-m), ih, neg_add]
    congr 1
    rw [areaFacing_same (n := -p.normal) (by simp [Poly.invert]),
      areaFacing_same (n := p.normal) (by simp)]
    by_cases h : -p.normal = m
    · rw [if_pos h, if_pos (by rw [← h, neg_neg])]
      simp [Poly.invert, vecArea2_reverse]
    · rw [if_neg h, if_neg (fun h' => h (by rw [h', neg_neg])), neg_zero]

theorem proper_invert {p : Poly K} (h : Proper p) : Proper p.invert := by
  obtain ⟨h1, h2, h3⟩ := h
  refine ⟨by simpa [Poly.invert] using h1, by simpa [Poly.invert] using h2, ?_⟩
  intro v hv w hw
  simp only [Poly.invert, List.mem_reverse] at hv hw ⊢
  rw [Vec3.neg_dot, Vec3.neg_dot, h3 v hv w hw]

theorem inHull_reverse {vs : List (Vec3 K)} {x : Vec3 K} : InHull vs.reverse x ↔ InHull vs x :=
  ⟨fun h => h.trans fun _ hv => .vertex (List.mem_reverse.1 hv),
    fun h => h.trans fun _ hv => .vertex (List.mem_reverse.2 hv)⟩

theorem pieceOf_invert {q p : Poly K} (h : PieceOf q p) : PieceOf q.invert p.invert :=
  ⟨by simp [Poly.invert, h.1], fun v hv => inHull_reverse.2 (h.2 v (by simpa [Poly.invert] using hv))⟩

theorem split_pieceOf {tol : K} (ht : 0 ≤ tol) (pl : GPlane K) (p : Poly K) :
    ∀ q ∈ (splitPolygon tol pl p).pieces, PieceOf q p := by
  intro q hq
  obtain ⟨h1, h2⟩ := (split_sides ht pl p).2.2.2 q hq
  refine ⟨h1, fun v hv => ?_⟩
  rcases h2 v hv with h | ⟨_, h⟩
  · exact .vertex h
  · exact h.inHull

theorem split_nonempty {tol : K} (pl : GPlane K) (p : Poly K) (hp : p.vs ≠ []) :
    ∀ q ∈ (splitPolygon tol pl p).pieces, q.vs ≠ [] := by
  rcases splitPolygon_cases (tol := tol) pl p with ⟨h1, h2, h⟩ | ⟨h1, h2, h⟩ | ⟨h1, h2, h⟩ | ⟨h1, h2, h⟩ |
      ⟨h1, h2, v0, rest, hvs, h⟩ <;> rw [h]
  · simpa [Split.pieces] using hp
  · simpa [Split.pieces] using hp
  · simpa [Split.pieces] using hp
  · simpa [Split.pieces] using hp
  · simp only [Split.pieces, List.append_nil, List.nil_append, List.mem_append]
    rintro q (hq | hq) h0
    · have := (piece_mem hq).2.1; simp [h0] at this
    · have := (piece_mem hq).2.1; simp [h0] at this

theorem PieceOf.proper {q p : Poly K} (h : PieceOf q p) (hq : q.vs ≠ []) (hp : Proper p) : Proper q := by
  obtain ⟨h1, h2, h3⟩ := hp
  obtain ⟨v0, hv0⟩ := List.exists_mem_of_ne_nil _ h1
  have key : ∀ v ∈ q.vs, p.normal.dot v = p.normal.dot v0 := fun v hv =>
    le_antisymm (InHull.le (fun w hw => (h3 w hw v0 hv0).le) (h.2 v hv))
      (InHull.ge (fun w hw => (h3 v0 hv0 w hw).le) (h.2 v hv))
  refine ⟨hq, by rw [h.1]; exact h2, fun v hv w hw => ?_⟩
  rw [h.1, key v hv, key w hw]

theorem split_proper {tol : K} (ht : 0 ≤ tol) (pl : GPlane K) {p : Poly K} (hp : Proper p) :
    ∀ q ∈ (splitPolygon tol pl p).pieces, PieceOf q p ∧ Proper q := fun q hq =>
  ⟨split_pieceOf ht pl p q hq, (split_pieceOf ht pl p q hq).proper (split_nonempty pl p hp.1 q hq) hp⟩

theorem split_facing (pl : GPlane K) {p : Poly K} (hp : Proper p) (m : Vec3 K) :
    areaFacing m (splitPolygon 0 pl p).pieces = areaFacing m [p] := by
  obtain ⟨v0, hv0⟩ := List.exists_mem_of_ne_nil _ hp.1
  have h := (C45_split pl p p.normal (p.normal.dot v0) hp.2.1 fun v hv => hp.2.2 v hv v0 hv0)
  rw [areaFacing_same (n := p.normal) (fun q hq => (split_pieceOf (le_refl 0) pl p q hq).1),
    areaFacing_same (n := p.normal) (by simp)]
  have h5 := h.2.2.2.2
  rw [Split.pieces, h5]
  simp

theorem mem_pieces {s : Split K} {q : Poly K} :
    q ∈ s.pieces ↔ q ∈ s.coFront ∨ q ∈ s.coBack ∨ q ∈ s.front ∨ q ∈ s.back := by
  simp [Split.pieces, or_assoc]

/-- Sum over a list of splits, filed by list. -/
theorem splits_facing (pl : GPlane K) (m : Vec3 K) : ∀ (ps : List (Poly K)), (∀ p ∈ ps, Proper p) →
    areaFacing m ((ps.map (splitPolygon 0 pl)).flatMap Split.coFront) +
      areaFacing m ((ps.map (splitPolygon 0 pl)).flatMap Split.coBack) +
      areaFacing m ((ps.map (splitPolygon 0 pl)).flatMap Split.front) +
      areaFacing m ((ps.map (splitPolygon 0 pl)).flatMap Split.back) = areaFacing m ps := by
  intro ps
  induction ps with
  | nil => simp
  | cons p ps ih =>
    intro h
    have h1 := split_facing pl (h p (by simp)) m
    have h2 := ih fun q hq => h q (List.mem_cons_of_mem _ hq)
    rw [areaFacing_cons, ← h1, ← h2]
    simp only [List.map_cons, List.flatMap_cons, areaFacing_append, Split.pieces]
    abel

theorem facing_flatMap_append (m : Vec3 K) (ss : List (Split K)) (f g : Split K → List (Poly K)) :
    areaFacing m (ss.flatMap fun s => f s ++ g s) = areaFacing m (ss.flatMap f) + areaFacing m (ss.flatMap g) := by
  induction ss with
  | nil => simp
  | cons s ss ih => simp only [List.flatMap_cons, areaFacing_append, ih]; abel

namespace Bsp

theorem allPolygons_eq (t : Bsp K) : t.allPolygons.1 = t.stored := by
  induction t with
  | nil => rfl
  | node pl ps f b ihf ihb => simp only [allPolygons, stored, ihf, ihb]

theorem stored_invert (t : Bsp K) : ∀ q, q ∈ t.invert.stored ↔ q.invert ∈ t.stored := by
  induction t with
  | nil => intro q; simp [invert, stored]
  | node pl ps f b ihf ihb =>
    intro q
    have : q ∈ ps.map Poly.invert ↔ q.invert ∈ ps := by
      simp only [List.mem_map]
      constructor
      · rintro ⟨p, hp, rfl⟩; rwa [Poly.invert_invert]
      · intro h; exact ⟨_, h, Poly.invert_invert q⟩
    simp only [invert, stored, List.mem_append, ihf, ihb, this]
    tauto

theorem facing_invert (m : Vec3 K) (t : Bsp K) : areaFacing m t.invert.stored = -areaFacing (-m) t.stored := by
  induction t with
  | nil => simp [invert, stored]
  | node pl ps f b ihf ihb =>
    simp only [invert, stored, areaFacing_append, ihf, ihb, areaFacing_invert]
    abel

theorem invert_eq_nil {t : Bsp K} : t.invert = nil ↔ t = nil := by
  cases t <;> simp [invert]

theorem outside_invert (t : Bsp K) (x : Vec3 K) : t.invert.Outside x ↔ t.Inside x := by
  induction t with
  | nil => rfl
  | node pl ps f b ihf ihb =>
    cases pl with
    | none => simp [invert, Outside, Inside]
    | some pl =>
      simp only [invert, Option.map_some, Outside, Inside, GPlane.invert, Vec3.neg_dot, neg_le_neg_iff, Ne,
        invert_eq_nil, ihf, ihb]
      tauto

theorem inside_invert (t : Bsp K) (x : Vec3 K) : t.invert.Inside x ↔ t.Outside x := by
  induction t with
  | nil => rfl
  | node pl ps f b ihf ihb =>
    cases pl with
    | none => simp [invert, Outside, Inside]
    | some pl =>
      simp only [invert, Option.map_some, Outside, Inside, GPlane.invert, Vec3.neg_dot, neg_le_neg_iff, Ne,
        invert_eq_nil, ihf, ihb]
      tauto

theorem planed_invert (t : Bsp K) : t.invert.Planed ↔ t.Planed := by
  induction t with
  | nil => rfl
  | node pl ps f b ihf ihb => simp only [invert, Planed, ihf, ihb]; simp; tauto

theorem invert_invert (t : Bsp K) : t.invert.invert = t := by
  induction t with
  | nil => rfl
  | node pl ps f b ihf ihb =>
    simp only [invert, ihf, ihb, List.map_map]
    congr 1
    · cases pl <;> simp [GPlane.invert]
    · rw [List.map_congr_left (g := id)]
      · simp
      · intro p _; exact Poly.invert_invert p

/-! ### build -/

/-- One level of `build`, spelled out. -/
theorem build_cons (tol : K) (fuel : Nat) (t : Bsp K) (p : Poly K) (ps : List (Poly K)) (v : Vec3 K)
    (vs : List (Vec3 K)) (hv : p.vs = v :: vs) :
    build tol (fuel + 1) t (p :: ps) =
      let pl : GPlane K := ⟨p.normal, p.normal.dot v⟩
      let pieces := (p :: ps).map (splitPolygon tol pl)
      (if pieces.flatMap Split.front = [] then some t.parts.2.2.1 else
        build tol fuel t.parts.2.2.1 (pieces.flatMap Split.front)).bind fun f =>
      (if pieces.flatMap Split.back = [] then some t.parts.2.2.2 else
        build tol fuel t.parts.2.2.2 (pieces.flatMap Split.back)).bind fun b =>
      some (node (some pl) (t.parts.2.1 ++ pieces.flatMap fun s => s.coFront ++ s.coBack) f b) := by
  rw [build]
  simp only [hv]
  rfl

theorem stored_parts (t : Bsp K) :
    t.stored = t.parts.2.1 ++ t.parts.2.2.1.stored ++ t.parts.2.2.2.stored := by
  cases t <;> simp [parts, stored]

theorem build_spec (fuel : Nat) : ∀ (t : Bsp K) (ps : List (Poly K)) (t' : Bsp K), (∀ p ∈ ps, Proper p) →
    build 0 fuel t ps = some t' →
    (∀ m, areaFacing m t'.stored = areaFacing m t.stored + areaFacing m ps) ∧
    (∀ q ∈ t'.stored, q ∈ t.stored ∨ ∃ p ∈ ps, PieceOf q p ∧ Proper q) := by
  induction fuel with
  | zero => intro t ps t' _ h; simp [build] at h
  | succ fuel ih =>
    intro t ps t' hp h
    cases ps with
    | nil =>
      simp only [build, Option.some.injEq] at h
      subst h
      rw [stored_parts t]
      simp only [stored, areaFacing_nil, add_zero, implies_true, true_and]
      exact fun q hq => Or.inl hq
    | cons p ps =>
      obtain ⟨v, vs, hv⟩ := List.exists_cons_of_ne_nil (hp p (by simp)).1
      rw [build_cons 0 fuel t p ps v vs hv] at h
      simp only at h
      generalize hpl : (⟨p.normal, p.normal.dot v⟩ : GPlane K) = pl at h
      obtain ⟨f, hf, h⟩ := Option.bind_eq_some_iff.1 h
      obtain ⟨b, hb, h⟩ := Option.bind_eq_some_iff.1 h
      simp only [Option.some.injEq] at h
      have hmem : ∀ (g : Split K → List (Poly K)), (∀ s q, q ∈ g s → q ∈ s.pieces) →
          ∀ q ∈ ((p :: ps).map (splitPolygon 0 pl)).flatMap g, ∃ p' ∈ p :: ps, PieceOf q p' ∧ Proper q := by
        intro g hg q hq
        obtain ⟨s, hs, hq⟩ := List.mem_flatMap.1 hq
        obtain ⟨p', hp', rfl⟩ := List.mem_map.1 hs
        exact ⟨p', hp', split_proper (le_refl 0) pl (hp p' hp') q (hg _ q hq)⟩
      have mF := hmem Split.front fun s q hq => mem_pieces.2 (by tauto)
      have mB := hmem Split.back fun s q hq => mem_pieces.2 (by tauto)
      have mC := hmem (fun s => s.coFront ++ s.coBack) fun s q hq => mem_pieces.2 (by
        rw [List.mem_append] at hq; tauto)
      have hsub : ∀ (t0 t1 : Bsp K) (l : List (Poly K)),
          (∀ q ∈ l, ∃ p' ∈ p :: ps, PieceOf q p' ∧ Proper q) →
          (if l = [] then some t0 else build 0 fuel t0 l) = some t1 →
          (∀ m, areaFacing m t1.stored = areaFacing m t0.stored + areaFacing m l) ∧
          (∀ q ∈ t1.stored, q ∈ t0.stored ∨ ∃ p' ∈ p :: ps, PieceOf q p' ∧ Proper q) := by
        intro t0 t1 l hl h
        split_ifs at h with h0
        · simp only [Option.some.injEq] at h
          subst h
          rw [h0]; simp only [areaFacing_nil, add_zero, implies_true, true_and]
          exact fun q hq => Or.inl hq
        · obtain ⟨i1, i2⟩ := ih t0 l t1 (fun q hq => (hl q hq).choose_spec.2.2) h
          refine ⟨i1, fun q hq => ?_⟩
          rcases i2 q hq with h | ⟨p1, hp1, hq1, hq2⟩
          · exact Or.inl h
          · obtain ⟨p', hp', hq3, _⟩ := hl p1 hp1
            exact Or.inr ⟨p', hp', hq1.trans hq3, hq2⟩
      obtain ⟨f1, f2⟩ := hsub _ _ _ mF hf
      obtain ⟨b1, b2⟩ := hsub _ _ _ mB hb
      subst h
      rw [stored_parts t]
      constructor
      · intro m
        simp only [stored, areaFacing_append, f1, b1, facing_flatMap_append]
        rw [← splits_facing pl m (p :: ps) hp]
        abel
      · intro q hq
        simp only [stored, List.mem_append] at hq ⊢
        rcases hq with (hq | hq) | hq
        · rcases hq with hq | hq
          · tauto
          · exact Or.inr (mC q hq)
        · rcases f2 q hq with h | h
          · tauto
          · exact Or.inr h
        · rcases b2 q hq with h | h
          · tauto
          · exact Or.inr h

theorem piece_le_one (m : Vec3 K) (vs : List (Vec3 K)) : (piece m vs).length ≤ 1 := by
  unfold piece; split_ifs <;> simp

theorem split_le_one (tol : K) (pl : GPlane K) (p : Poly K) :
    (splitPolygon tol pl p).front.length ≤ 1 ∧ (splitPolygon tol pl p).back.length ≤ 1 := by
  rcases splitPolygon_cases (tol := tol) pl p with ⟨h1, h2, h⟩ | ⟨h1, h2, h⟩ | ⟨h1, h2, h⟩ | ⟨h1, h2, h⟩ |
      ⟨h1, h2, v0, rest, hvs, h⟩ <;> rw [h] <;> simp [piece_le_one]

theorem flatMap_length_le (f : Split K → List (Poly K)) (ss : List (Split K)) (h : ∀ s ∈ ss, (f s).length ≤ 1) :
    (ss.flatMap f).length ≤ ss.length := by
  induction ss with
  | nil => simp
  | cons s ss ih =>
    have := ih fun t ht => h t (List.mem_cons_of_mem _ ht)
    have := h s (by simp)
    simp only [List.flatMap_cons, List.length_append, List.length_cons]
    omega

/-- The polygon the plane is taken from is coplanar with it. -/
theorem split_own {tol : K} (ht : 0 ≤ tol) {p : Poly K} (hp : Proper p) {v : Vec3 K} (hv : v ∈ p.vs) :
    (splitPolygon tol ⟨p.normal, p.normal.dot v⟩ p).front = [] ∧
    (splitPolygon tol ⟨p.normal, p.normal.dot v⟩ p).back = [] := by
  have key : ∀ w ∈ p.vs, side tol ⟨p.normal, p.normal.dot v⟩ w = .coplanar := by
    intro w hw
    rw [side_coplanar]
    simp only [hp.2.2 w hw v hv, sub_self]
    exact ⟨by linarith, ht⟩
  rcases splitPolygon_cases (tol := tol) ⟨p.normal, p.normal.dot v⟩ p with ⟨h1, h2, h⟩ | ⟨h1, h2, h⟩ |
      ⟨⟨w, hw, h1⟩, h2, h⟩ | ⟨⟨w, hw, h1⟩, h2, h⟩ | ⟨⟨w, hw, h1⟩, h2, v0, rest, hvs, h⟩
  · rw [h]; simp
  · rw [h]; simp
  · rw [key w hw] at h1; simp at h1
  · rw [key w hw] at h1; simp at h1
  · rw [key w hw] at h1; simp at h1

theorem build_total {tol : K} (ht : 0 ≤ tol) (fuel : Nat) : ∀ (t : Bsp K) (ps : List (Poly K)),
    (∀ p ∈ ps, Proper p) → ps.length < fuel → ∃ t', build tol fuel t ps = some t' := by
  induction fuel with
  | zero => intro t ps _ h; omega
  | succ fuel ih =>
    intro t ps hp hlen
    cases ps with
    | nil => exact ⟨_, rfl⟩
    | cons p ps =>
      obtain ⟨v, vs, hv⟩ := List.exists_cons_of_ne_nil (hp p (by simp)).1
      rw [build_cons tol fuel t p ps v vs hv]
      simp only
      obtain ⟨o1, o2⟩ := split_own ht (hp p (by simp)) (v := v) (by simp [hv])
      generalize hpl : (⟨p.normal, p.normal.dot v⟩ : GPlane K) = pl at o1 o2
      have hsub : ∀ (t0 : Bsp K) (g : Split K → List (Poly K)), (∀ s q, q ∈ g s → q ∈ s.pieces) →
          (∀ q, (g (splitPolygon tol pl q)).length ≤ 1) → g (splitPolygon tol pl p) = [] →
          ∃ t1, (if ((p :: ps).map (splitPolygon tol pl)).flatMap g = [] then some t0 else
            build tol fuel t0 (((p :: ps).map (splitPolygon tol pl)).flatMap g)) = some t1 := by
        intro t0 g hg h1 h0
        split_ifs
        · exact ⟨_, rfl⟩
        · apply ih
          · intro q hq
            obtain ⟨s, hs, hq⟩ := List.mem_flatMap.1 hq
            obtain ⟨p', hp', rfl⟩ := List.mem_map.1 hs
            exact (split_proper ht pl (hp p' hp') q (hg _ q hq)).2
          · simp only [List.map_cons, List.flatMap_cons, h0, List.nil_append]
            have := flatMap_length_le g (ps.map (splitPolygon tol pl)) (by
              intro s hs
              obtain ⟨p', _, rfl⟩ := List.mem_map.1 hs
              exact h1 p')
            simp only [List.length_map] at this
            simp only [List.length_cons] at hlen
            omega
      obtain ⟨f, hf⟩ := hsub t.parts.2.2.1 Split.front (fun s q hq => mem_pieces.2 (by tauto))
        (fun q => (split_le_one tol pl q).1) o1
      obtain ⟨b, hb⟩ := hsub t.parts.2.2.2 Split.back (fun s q hq => mem_pieces.2 (by tauto))
        (fun q => (split_le_one tol pl q).2) o2
      rw [hf, hb]
      exact ⟨_, rfl⟩

/-- More levels do not change the result. -/
theorem build_mono (tol : K) (fuel : Nat) : ∀ (t : Bsp K) (ps : List (Poly K)) (t' : Bsp K),
    build tol fuel t ps = some t' → build tol (fuel + 1) t ps = some t' := by
  induction fuel with
  | zero => intro t ps t' h; simp [build] at h
  | succ fuel ih =>
    intro t ps t' h
    cases ps with
    | nil => simpa [build] using h
    | cons p ps =>
      cases hv : p.vs with
      | nil => simpa [build, hv] using h
      | cons v vs =>
        rw [build_cons tol _ t p ps v vs hv] at h ⊢
        simp only at h ⊢
        obtain ⟨f, hf, h⟩ := Option.bind_eq_some_iff.1 h
        obtain ⟨b, hb, h⟩ := Option.bind_eq_some_iff.1 h
        have e : ∀ (t0 t1 : Bsp K) (l : List (Poly K)),
            (if l = [] then some t0 else build tol fuel t0 l) = some t1 →
            (if l = [] then some t0 else build tol (fuel + 1) t0 l) = some t1 := by
          intro t0 t1 l h
          split_ifs at h ⊢
          · exact h
          · exact ih _ _ _ h
        rw [e _ _ _ hf, e _ _ _ hb]
        exact h

theorem build_mono_le (tol : K) {n m : Nat} (h : n ≤ m) {t : Bsp K} {ps : List (Poly K)} {t' : Bsp K}
    (hb : build tol n t ps = some t') : build tol m t ps = some t' := by
  induction h with
  | refl => exact hb
  | step _ ih => exact build_mono tol _ _ _ _ ih

/-- The built tree has all its planes. -/
theorem build_planed (tol : K) (fuel : Nat) : ∀ (t : Bsp K) (ps : List (Poly K)) (t' : Bsp K),
    t.Planed → ps ≠ [] → (∀ p ∈ ps, p.vs ≠ []) → build tol fuel t ps = some t' → t'.Planed ∧ t' ≠ nil := by
  induction fuel with
  | zero => intro t ps t' _ _ _ h; simp [build] at h
  | succ fuel ih =>
    intro t ps t' hpl hne hp h
    cases ps with
    | nil => simp at hne
    | cons p ps =>
      obtain ⟨v, vs, hv⟩ := List.exists_cons_of_ne_nil (hp p (by simp))
      rw [build_cons tol fuel t p ps v vs hv] at h
      simp only at h
      generalize hpp : (⟨p.normal, p.normal.dot v⟩ : GPlane K) = pl at h
      obtain ⟨f, hf, h⟩ := Option.bind_eq_some_iff.1 h
      obtain ⟨b, hb, h⟩ := Option.bind_eq_some_iff.1 h
      simp only [Option.some.injEq] at h
      have hsub : ∀ (t0 t1 : Bsp K) (g : Split K → List (Poly K)), (∀ s q, q ∈ g s → q ∈ s.pieces) → t0.Planed →
          (if ((p :: ps).map (splitPolygon tol pl)).flatMap g = [] then some t0 else
            build tol fuel t0 (((p :: ps).map (splitPolygon tol pl)).flatMap g)) = some t1 → t1.Planed := by
        intro t0 t1 g hg h0 h
        split_ifs at h with hn
        · simp only [Option.some.injEq] at h; rwa [← h]
        · refine (ih t0 _ t1 h0 hn ?_ h).1
          intro q hq
          obtain ⟨s, hs, hq⟩ := List.mem_flatMap.1 hq
          obtain ⟨p', hp', rfl⟩ := List.mem_map.1 hs
          exact split_nonempty pl p' (hp p' hp') q (hg _ q hq)
      have hpf : t.parts.2.2.1.Planed ∧ t.parts.2.2.2.Planed := by
        cases t with
        | nil => exact ⟨trivial, trivial⟩
        | node => exact ⟨hpl.2.1, hpl.2.2⟩
      have hf' := hsub _ _ Split.front (fun s q hq => mem_pieces.2 (by tauto)) hpf.1 hf
      have hb' := hsub _ _ Split.back (fun s q hq => mem_pieces.2 (by tauto)) hpf.2 hb
      subst h
      exact ⟨⟨by simp, hf', hb'⟩, by simp⟩

/-! ### clipping -/

theorem clip_spec (rm : Bool) (t : Bsp K) : ∀ (ps ks : List (Poly K)), (∀ p ∈ ps, Proper p) →
    clipPolygons 0 rm t ps = some ks →
    ∃ ds : List (Poly K),
      (∀ q ∈ ks, (∃ p ∈ ps, PieceOf q p) ∧ Proper q ∧ ∀ x, InHull q.vs x → t.Outside x) ∧
      (∀ q ∈ ds, (∃ p ∈ ps, PieceOf q p) ∧ Proper q ∧ (t ≠ nil ∧ ∀ x, InHull q.vs x → t.Inside x)) ∧
      ∀ m, areaFacing m ks + areaFacing m ds = areaFacing m ps := by
  induction t with
  | nil =>
    intro ps ks hp h
    simp only [clipPolygons, Option.some.injEq] at h
    subst h
    exact ⟨[], fun q hq => ⟨⟨q, hq, .refl q⟩, hp q hq, fun _ _ => trivial⟩, by simp, by simp⟩
  | node pl own f b ihf ihb =>
    intro ps ks hp h
    by_cases hps : ps = []
    · subst hps
      rw [clipPolygons] at h
      simp only [if_true, Option.bind_eq_bind, Option.bind_some, List.flatMap_nil] at h
      obtain ⟨kf, hkf, h⟩ := Option.bind_eq_some_iff.1 h
      obtain ⟨kb, hkb, h⟩ := Option.bind_eq_some_iff.1 h
      have e1 : kf = [] := by
        obtain ⟨ds, h1, _⟩ := ihf [] kf (by simp) hkf
        cases kf with
        | nil => rfl
        | cons q _ => obtain ⟨⟨_, hq, _⟩, _⟩ := h1 q (by simp); simp at hq
      have e2 : kb = [] := by
        cases b with
        | nil => simpa using hkb.symm
        | node pl' own' f' b' =>
          obtain ⟨ds, h1, _⟩ := ihb [] kb (by simp) hkb
          cases kb with
          | nil => rfl
          | cons q _ => obtain ⟨⟨_, hq, _⟩, _⟩ := h1 q (by simp); simp at hq
      subst e1 e2
      simp only [List.append_nil, Option.some.injEq] at h
      subst h
      exact ⟨[], by simp, by simp, by simp⟩
    · cases pl with
      | none => rw [clipPolygons] at h; simp [hps] at h
      | some pl =>
        rw [clipPolygons] at h
        simp only [hps, if_false, Option.map_some, Option.bind_eq_bind, Option.bind_some] at h
        obtain ⟨kf, hkf, h⟩ := Option.bind_eq_some_iff.1 h
        obtain ⟨kb, hkb, h⟩ := Option.bind_eq_some_iff.1 h
        simp only [Option.some.injEq] at h
        -- the two lists
        have memF : ∀ q ∈ (ps.map (splitPolygon 0 pl)).flatMap
            (fun s => (if rm then [] else s.coFront) ++ s.front),
            (∃ p ∈ ps, PieceOf q p) ∧ Proper q ∧ ∀ x, InHull q.vs x → pl.d ≤ pl.normal.dot x := by
          intro q hq
          obtain ⟨s, hs, hq⟩ := List.mem_flatMap.1 hq
          obtain ⟨p, hp', rfl⟩ := List.mem_map.1 hs
          have hq' : q ∈ (splitPolygon 0 pl p).coFront ∨ q ∈ (splitPolygon 0 pl p).front := by
            rw [List.mem_append] at hq
            split_ifs at hq <;> (try simp only [List.not_mem_nil, false_or] at hq) <;> tauto
          obtain ⟨r1, r2⟩ := split_proper (le_refl 0) pl (hp p hp') q (mem_pieces.2 (by tauto))
          refine ⟨⟨p, hp', r1⟩, r2, fun x hx => hx.ge fun v hv => ?_⟩
          obtain ⟨s1, s2, s3, s4⟩ := split_sides (le_refl (0 : K)) pl p
          rcases hq' with hq' | hq'
          · have := (s3 q (List.mem_append_left _ hq')).2 v hv
            exact (sub_eq_zero.1 (abs_eq_zero.1 (le_antisymm this (abs_nonneg _)))).ge
          · simpa using s1 q hq' v hv
        have memB : ∀ q ∈ (ps.map (splitPolygon 0 pl)).flatMap
            (fun s => (if rm then s.coFront else []) ++ s.coBack ++ s.back),
            (∃ p ∈ ps, PieceOf q p) ∧ Proper q ∧ ∀ x, InHull q.vs x → pl.normal.dot x ≤ pl.d := by
          intro q hq
          obtain ⟨s, hs, hq⟩ := List.mem_flatMap.1 hq
          obtain ⟨p, hp', rfl⟩ := List.mem_map.1 hs
          have hq' : q ∈ (splitPolygon 0 pl p).coFront ++ (splitPolygon 0 pl p).coBack ∨
              q ∈ (splitPolygon 0 pl p).back := by
            rw [List.mem_append, List.mem_append] at hq
            rw [List.mem_append]
            split_ifs at hq <;> (try simp only [List.not_mem_nil, false_or] at hq) <;> tauto
          obtain ⟨r1, r2⟩ := split_proper (le_refl 0) pl (hp p hp') q (mem_pieces.2 (by
            rw [List.mem_append] at hq'; tauto))
          refine ⟨⟨p, hp', r1⟩, r2, fun x hx => hx.le fun v hv => ?_⟩
          obtain ⟨s1, s2, s3, s4⟩ := split_sides (le_refl (0 : K)) pl p
          rcases hq' with hq' | hq'
          · have := (s3 q hq').2 v hv
            exact (sub_eq_zero.1 (abs_eq_zero.1 (le_antisymm this (abs_nonneg _)))).le
          · simpa using s2 q hq' v hv
        have areas : ∀ m, areaFacing m ((ps.map (splitPolygon 0 pl)).flatMap
            (fun s => (if rm then [] else s.coFront) ++ s.front)) +
            areaFacing m ((ps.map (splitPolygon 0 pl)).flatMap
            (fun s => (if rm then s.coFront else []) ++ s.coBack ++ s.back)) = areaFacing m ps := by
          intro m
          rw [← splits_facing pl m ps hp]
          cases rm
          · simp only [Bool.false_eq_true, if_false, List.nil_append, facing_flatMap_append]
            abel
          · simp only [if_true, List.nil_append, facing_flatMap_append]
            abel
        generalize (ps.map (splitPolygon 0 pl)).flatMap
          (fun s => (if rm then [] else s.coFront) ++ s.front) = sF at hkf memF areas
        generalize (ps.map (splitPolygon 0 pl)).flatMap
          (fun s => (if rm then s.coFront else []) ++ s.coBack ++ s.back) = sB at hkb memB areas
        obtain ⟨df, f1, f2, f3⟩ := ihf sF kf (fun q hq => (memF q hq).2.1) hkf
        have hb : ∃ ds : List (Poly K),
            (∀ q ∈ kb, (∃ p ∈ sB, PieceOf q p) ∧ Proper q ∧ (b ≠ nil ∧ ∀ x, InHull q.vs x → b.Outside x)) ∧
            (∀ q ∈ ds, (∃ p ∈ sB, PieceOf q p) ∧ Proper q ∧ ∀ x, InHull q.vs x → b.Inside x) ∧
            ∀ m, areaFacing m kb + areaFacing m ds = areaFacing m sB := by
          cases b with
          | nil =>
            simp only [Option.some.injEq] at hkb
            subst hkb
            exact ⟨sB, by simp, fun q hq => ⟨⟨q, hq, .refl q⟩, (memB q hq).2.1, fun _ _ => trivial⟩, by simp⟩
          | node pl' own' f' b' =>
            obtain ⟨ds, b1, b2, b3⟩ := ihb sB kb (fun q hq => (memB q hq).2.1) hkb
            exact ⟨ds, fun q hq => ⟨(b1 q hq).1, (b1 q hq).2.1, by simp, (b1 q hq).2.2⟩,
              fun q hq => ⟨(b2 q hq).1, (b2 q hq).2.1, (b2 q hq).2.2.2⟩, b3⟩
        obtain ⟨db, b1, b2, b3⟩ := hb
        subst h
        have upF : ∀ q, (∃ p ∈ sF, PieceOf q p) → (∃ p ∈ ps, PieceOf q p) ∧
            ∀ x, InHull q.vs x → pl.d ≤ pl.normal.dot x := by
          rintro q ⟨p, hp1, hq1⟩
          obtain ⟨⟨p2, hp2, hq2⟩, _, h3⟩ := memF p hp1
          exact ⟨⟨p2, hp2, hq1.trans hq2⟩, fun x hx => h3 x (hx.trans hq1.2)⟩
        have upB : ∀ q, (∃ p ∈ sB, PieceOf q p) → (∃ p ∈ ps, PieceOf q p) ∧
            ∀ x, InHull q.vs x → pl.normal.dot x ≤ pl.d := by
          rintro q ⟨p, hp1, hq1⟩
          obtain ⟨⟨p2, hp2, hq2⟩, _, h3⟩ := memB p hp1
          exact ⟨⟨p2, hp2, hq1.trans hq2⟩, fun x hx => h3 x (hx.trans hq1.2)⟩
        refine ⟨df ++ db, ?_, ?_, ?_⟩
        · intro q hq
          rcases List.mem_append.1 hq with hq | hq
          · obtain ⟨h1, h2, h3⟩ := f1 q hq
            exact ⟨(upF q h1).1, h2, fun x hx => Or.inl ⟨(upF q h1).2 x hx, h3 x hx⟩⟩
          · obtain ⟨h1, h2, h3, h4⟩ := b1 q hq
            exact ⟨(upB q h1).1, h2, fun x hx => Or.inr ⟨(upB q h1).2 x hx, h3, h4 x hx⟩⟩
        · intro q hq
          rcases List.mem_append.1 hq with hq | hq
          · obtain ⟨h1, h2, h3, h4⟩ := f2 q hq
            exact ⟨(upF q h1).1, h2, by simp, fun x hx => Or.inl ⟨(upF q h1).2 x hx, h3, h4 x hx⟩⟩
          · obtain ⟨h1, h2, h3⟩ := b2 q hq
            exact ⟨(upB q h1).1, h2, by simp, fun x hx => Or.inr ⟨(upB q h1).2 x hx, h3 x hx⟩⟩
        · intro m
          rw [areaFacing_append, areaFacing_append, ← areas m, ← f3 m, ← b3 m]
          abel

theorem clip_total (tol : K) (rm : Bool) (t : Bsp K) : t.Planed → ∀ ps : List (Poly K),
    ∃ ks, clipPolygons tol rm t ps = some ks := by
  induction t with
  | nil => intro _ ps; exact ⟨ps, rfl⟩
  | node pl own f b ihf ihb =>
    rintro ⟨hpl, hf, hb⟩ ps
    obtain ⟨pl, rfl⟩ := Option.ne_none_iff_exists'.1 hpl
    rw [clipPolygons]
    have : ∃ pieces, (if ps = [] then some [] else (some pl).map fun pl => ps.map (splitPolygon tol pl)) =
        some pieces := by split_ifs <;> exact ⟨_, rfl⟩
    obtain ⟨pieces, hpc⟩ := this
    rw [hpc]
    simp only [Option.bind_eq_bind, Option.bind_some]
    obtain ⟨kf, hkf⟩ := ihf hf (pieces.flatMap fun s => (if rm then [] else s.coFront) ++ s.front)
    rw [hkf]
    cases b with
    | nil => exact ⟨_, rfl⟩
    | node pl' own' f' b' =>
      obtain ⟨kb, hkb⟩ := ihb hb (pieces.flatMap fun s => (if rm then s.coFront else []) ++ s.coBack ++ s.back)
      simp only [hkb, Option.bind_some]
      exact ⟨_, rfl⟩

/-- `clipTo` keeps the planes; each stored polygon list is clipped. -/
theorem clipTo_spec (rm : Bool) (o : Bsp K) (t : Bsp K) : ∀ (t' : Bsp K), (∀ p ∈ t.stored, Proper p) →
    clipTo 0 o rm t = some t' →
    (t' = nil ↔ t = nil) ∧ (t'.Planed ↔ t.Planed) ∧ (∀ x, t'.Outside x ↔ t.Outside x) ∧
    (∀ x, t'.Inside x ↔ t.Inside x) ∧
    ∃ ds : List (Poly K),
      (∀ q ∈ t'.stored, (∃ p ∈ t.stored, PieceOf q p) ∧ Proper q ∧ ∀ x, InHull q.vs x → o.Outside x) ∧
      (∀ q ∈ ds, (∃ p ∈ t.stored, PieceOf q p) ∧ Proper q ∧ (o ≠ nil ∧ ∀ x, InHull q.vs x → o.Inside x)) ∧
      ∀ m, areaFacing m t'.stored + areaFacing m ds = areaFacing m t.stored := by
  induction t with
  | nil =>
    intro t' _ h
    simp only [clipTo, Option.some.injEq] at h
    subst h
    exact ⟨Iff.rfl, Iff.rfl, fun _ => Iff.rfl, fun _ => Iff.rfl, [], by simp [stored], by simp, by simp [stored]⟩
  | node pl own f b ihf ihb =>
    intro t' hp h
    simp only [clipTo, Option.bind_eq_bind] at h
    obtain ⟨ps, hps, h⟩ := Option.bind_eq_some_iff.1 h
    obtain ⟨f', hf, h⟩ := Option.bind_eq_some_iff.1 h
    obtain ⟨b', hb, h⟩ := Option.bind_eq_some_iff.1 h
    simp only [Option.some.injEq] at h
    subst h
    simp only [stored, List.mem_append] at hp
    obtain ⟨d1, c1, c2, c3⟩ := clip_spec rm o own ps (fun p hp' => hp p (by tauto)) hps
    obtain ⟨n2, p2, o2, i2, d2, f1, f2, f3⟩ := ihf f' (fun p hp' => hp p (by tauto)) hf
    obtain ⟨n3, p3, o3, i3, d3, b1, b2, b3⟩ := ihb b' (fun p hp' => hp p (by tauto)) hb
    refine ⟨by simp, by simp only [Planed, p2, p3], ?_, ?_, d1 ++ d2 ++ d3, ?_, ?_, ?_⟩
    · intro x; cases pl <;> simp only [Outside, o2, o3, Ne, n3]
    · intro x; cases pl <;> simp only [Inside, i2, i3, Ne, n2]
    · intro q hq
      simp only [stored, List.mem_append] at hq ⊢
      rcases hq with (hq | hq) | hq
      · obtain ⟨⟨p, hp', h1⟩, h2⟩ := c1 q hq; exact ⟨⟨p, by tauto, h1⟩, h2⟩
      · obtain ⟨⟨p, hp', h1⟩, h2⟩ := f1 q hq; exact ⟨⟨p, by tauto, h1⟩, h2⟩
      · obtain ⟨⟨p, hp', h1⟩, h2⟩ := b1 q hq; exact ⟨⟨p, by tauto, h1⟩, h2⟩
    · intro q hq
      simp only [stored, List.mem_append] at hq ⊢
      rcases hq with (hq | hq) | hq
      · obtain ⟨⟨p, hp', h1⟩, h2⟩ := c2 q hq; exact ⟨⟨p, by tauto, h1⟩, h2⟩
      · obtain ⟨⟨p, hp', h1⟩, h2⟩ := f2 q hq; exact ⟨⟨p, by tauto, h1⟩, h2⟩
      · obtain ⟨⟨p, hp', h1⟩, h2⟩ := b2 q hq; exact ⟨⟨p, by tauto, h1⟩, h2⟩
    · intro m
      simp only [stored, areaFacing_append]
      rw [← c3 m, ← f3 m, ← b3 m]
      abel

theorem clipTo_total (tol : K) (rm : Bool) (o : Bsp K) (ho : o.Planed) (t : Bsp K) :
    ∃ t', clipTo tol o rm t = some t' := by
  induction t with
  | nil => exact ⟨nil, rfl⟩
  | node pl own f b ihf ihb =>
    obtain ⟨ps, hps⟩ := clip_total tol rm o ho own
    obtain ⟨f', hf⟩ := ihf
    obtain ⟨b', hb⟩ := ihb
    exact ⟨node pl ps f' b', by simp only [clipTo, hps, hf, hb, Option.bind_eq_bind, Option.bind_some]⟩

theorem region_cover (t : Bsp K) (h : t.Planed) (x : Vec3 K) : t.Outside x ∨ t.Inside x := by
  induction t with
  | nil => exact Or.inl trivial
  | node pl own f b ihf ihb =>
    obtain ⟨hpl, hf, hb⟩ := h
    obtain ⟨pl, rfl⟩ := Option.ne_none_iff_exists'.1 hpl
    simp only [Outside, Inside]
    rcases le_total pl.d (pl.normal.dot x) with h0 | h0
    · rcases ihf hf with h | h
      · tauto
      · by_cases hn : f = nil
        · subst hn; left; left; exact ⟨h0, trivial⟩
        · tauto
    · rcases ihb hb with h | h
      · by_cases hn : b = nil
        · subst hn; right; right; exact ⟨h0, trivial⟩
        · tauto
      · tauto

theorem region_overlap (t : Bsp K) (hn : t ≠ nil) (x : Vec3 K) (h1 : t.Outside x) (h2 : t.Inside x) : t.OnPlane x := by
  induction t with
  | nil => exact absurd rfl hn
  | node pl own f b ihf ihb =>
    cases pl with
    | none => exact absurd h1 (by simp [Outside])
    | some pl =>
      simp only [Outside, Inside, OnPlane] at *
      rcases h1 with ⟨a1, a2⟩ | ⟨a1, a2, a3⟩ <;> rcases h2 with ⟨b1, b2⟩ | ⟨b1, b2⟩
      · exact Or.inr (Or.inl (ihf b2.1 a2 b2.2))
      · exact Or.inl ⟨pl, rfl, le_antisymm b1 a1⟩
      · exact Or.inl ⟨pl, rfl, le_antisymm a1 b1⟩
      · exact Or.inr (Or.inr (ihb a2 a3 b2))

/-- What a tree built from polygons knows about them. -/
theorem ofPolygons_spec {ps : List (Poly K)} (hne : ps ≠ []) (hp : ∀ p ∈ ps, Proper p) :
    ∃ t : Bsp K, (∀ fuel, ps.length < fuel → ofPolygons 0 fuel ps = some t) ∧ t.Planed ∧ t ≠ nil ∧
      (∀ m, areaFacing m t.stored = areaFacing m ps) ∧
      ∀ q ∈ t.stored, (∃ p ∈ ps, PieceOf q p) ∧ Proper q := by
  obtain ⟨t, ht⟩ := build_total (le_refl (0 : K)) (ps.length + 1) nil ps hp (by omega)
  obtain ⟨h1, h2⟩ := build_spec (ps.length + 1) nil ps t hp ht
  obtain ⟨h3, h4⟩ := build_planed 0 (ps.length + 1) nil ps t trivial hne (fun p h => (hp p h).1) ht
  refine ⟨t, fun fuel hf => build_mono_le 0 hf ht, h3, h4, fun m => by rw [h1 m]; simp [stored], fun q hq => ?_⟩
  rcases h2 q hq with h | ⟨p, hp', h5, h6⟩
  · simp [stored] at h
  · exact ⟨⟨p, hp', h5⟩, h6⟩

end Bsp
end Csg

open Csg Csg.Bsp

variable {K : Type} [Field K] [LinearOrder K] [IsStrictOrderedRing K]

/-- **C46.** Inverting a tree twice restores it. -/
theorem C46_invert_involution (t : Bsp K) : t.invert.invert = t := invert_invert t

/-- **C46.** `build` on proper polygons ends, and the tree stores nothing but pieces of them and all of them: for
every direction the vector area facing it is that of the input. -/
theorem C46_build (ps : List (Poly K)) (hp : ∀ p ∈ ps, Proper p) :
    ∃ t : Bsp K, (∀ fuel, ps.length < fuel → ofPolygons 0 fuel ps = some t) ∧
      (∀ m, areaFacing m t.allPolygons.1 = areaFacing m ps) ∧
      ∀ q ∈ t.allPolygons.1, ∃ p ∈ ps, PieceOf q p := by
  by_cases hne : ps = []
  · subst hne
    refine ⟨.node none [] .nil .nil, ?_, by simp [allPolygons], by simp [allPolygons]⟩
    intro fuel hf
    cases fuel with
    | zero => simp at hf
    | succ n => rfl
  · obtain ⟨t, h1, _, _, h4, h5⟩ := ofPolygons_spec hne hp
    refine ⟨t, h1, by rw [allPolygons_eq]; exact h4, by rw [allPolygons_eq]; exact fun q hq => (h5 q hq).1⟩

/-- **C46.** The same for polygons added to an existing tree. -/
theorem C46_build_more (t : Bsp K) (ps : List (Poly K)) (hp : ∀ p ∈ ps, Proper p) :
    ∃ t' : Bsp K, (∀ fuel, ps.length < fuel → t.build 0 fuel ps = some t') ∧
      (∀ m, areaFacing m t'.allPolygons.1 = areaFacing m t.allPolygons.1 + areaFacing m ps) ∧
      ∀ q ∈ t'.allPolygons.1, q ∈ t.allPolygons.1 ∨ ∃ p ∈ ps, PieceOf q p := by
  obtain ⟨t', ht⟩ := build_total (le_refl (0 : K)) (ps.length + 1) t ps hp (by omega)
  obtain ⟨h1, h2⟩ := build_spec (ps.length + 1) t ps t' hp ht
  refine ⟨t', fun fuel hf => build_mono_le 0 hf ht, by simpa only [allPolygons_eq] using h1, ?_⟩
  simp only [allPolygons_eq]
  intro q hq
  rcases h2 q hq with h | ⟨p, hp', h5, _⟩
  · exact Or.inl h
  · exact Or.inr ⟨p, hp', h5⟩

/-- **C46.** A tree that has its planes divides space into an outside and an inside that meet only on its planes,
and inverting it exchanges the two. -/
theorem C46_regions (t : Bsp K) (h : t.Planed) (hn : t ≠ .nil) (x : Vec3 K) :
    (t.Outside x ∨ t.Inside x) ∧ (t.Outside x → t.Inside x → t.OnPlane x) ∧
    (t.invert.Outside x ↔ t.Inside x) ∧ (t.invert.Inside x ↔ t.Outside x) :=
  ⟨region_cover t h x, region_overlap t hn x, outside_invert t x, inside_invert t x⟩

/-- **C46.** `clipPolygons` keeps pieces that lie outside the solid of the tree, all else (`dropped`) lies inside
it, and the two together have the area of the input. -/
theorem C46_clip (rm : Bool) (t : Bsp K) (h : t.Planed) (hn : t ≠ .nil) (ps : List (Poly K))
    (hp : ∀ p ∈ ps, Proper p) :
    ∃ kept dropped : List (Poly K), clipPolygons 0 rm t ps = some kept ∧
      (∀ q ∈ kept, (∃ p ∈ ps, PieceOf q p) ∧ ∀ x, InHull q.vs x → t.Outside x) ∧
      (∀ q ∈ dropped, (∃ p ∈ ps, PieceOf q p) ∧ ∀ x, InHull q.vs x → t.Inside x) ∧
      ∀ m, areaFacing m kept + areaFacing m dropped = areaFacing m ps := by
  obtain ⟨ks, hk⟩ := clip_total 0 rm t h ps
  obtain ⟨ds, h1, h2, h3⟩ := clip_spec rm t ps ks hp hk
  exact ⟨ks, ds, hk, fun q hq => ⟨(h1 q hq).1, (h1 q hq).2.2⟩, fun q hq => ⟨(h2 q hq).1, (h2 q hq).2.2.2⟩, h3⟩

/-- **C46.** Union: the result consists of pieces of the first solid's faces outside the second and of the second's
outside the first; what is dropped lies inside the other solid; nothing else is lost. -/
theorem C46_add (pa pb : List (Poly K)) (ha : pa ≠ []) (hb : pb ≠ []) (hpa : ∀ p ∈ pa, Proper p)
    (hpb : ∀ p ∈ pb, Proper p) :
    ∃ (N : Nat) (A B : Bsp K) (r dropped : List (Poly K)),
      (∀ fuel, N ≤ fuel → ofPolygons 0 fuel pa = some A ∧ ofPolygons 0 fuel pb = some B ∧
        add 0 fuel pa pb = some r) ∧
      (∀ q ∈ r, ((∃ p ∈ pa, PieceOf q p) ∧ ∀ x, InHull q.vs x → B.Outside x) ∨
        ((∃ p ∈ pb, PieceOf q p) ∧ ∀ x, InHull q.vs x → A.Outside x)) ∧
      (∀ q ∈ dropped, ((∃ p ∈ pa, PieceOf q p) ∧ ∀ x, InHull q.vs x → B.Inside x) ∨
        ((∃ p ∈ pb, PieceOf q p) ∧ ∀ x, InHull q.vs x → A.Inside x)) ∧
      ∀ m, areaFacing m r + areaFacing m dropped = areaFacing m pa + areaFacing m pb := by
  obtain ⟨A, A1, A2, A3, A4, A5⟩ := ofPolygons_spec ha hpa
  obtain ⟨B, B1, B2, B3, B4, B5⟩ := ofPolygons_spec hb hpb
  obtain ⟨a1, ea1⟩ := clipTo_total (0 : K) false B B2 A
  obtain ⟨n1, p1, o1, i1, d1, k1, k1', s1⟩ := clipTo_spec false B A a1 (fun q hq => (A5 q hq).2) ea1
  obtain ⟨b1, eb1⟩ := clipTo_total (0 : K) false a1 (p1.2 A2) B
  obtain ⟨n2, p2, o2, i2, d2, k2, k2', s2⟩ := clipTo_spec false a1 B b1 (fun q hq => (B5 q hq).2) eb1
  obtain ⟨b2, eb2⟩ := clipTo_total (0 : K) false a1 (p1.2 A2) b1.invert
  obtain ⟨n3, p3, o3, i3, d3, k3, k3', s3⟩ := clipTo_spec false a1 b1.invert b2 (fun q hq => by
    have := (k2 _ ((stored_invert b1 q).1 hq)).2.1
    have h := proper_invert this
    rwa [Poly.invert_invert] at h) eb2
  have hb3 : ∀ q ∈ b2.invert.stored, (∃ p ∈ pb, PieceOf q p) ∧ Proper q ∧ ∀ x, InHull q.vs x → A.Outside x := by
    intro q hq
    obtain ⟨⟨p, hp, hq1⟩, hq2, hq3⟩ := k3 _ ((stored_invert b2 q).1 hq)
    obtain ⟨⟨p', hp', h1⟩, _, _⟩ := k2 _ ((stored_invert b1 p).1 hp)
    obtain ⟨⟨p'', hp'', h2⟩, _⟩ := B5 p' hp'
    have e1 := pieceOf_invert hq1
    rw [Poly.invert_invert] at e1
    have e2 := proper_invert hq2
    rw [Poly.invert_invert] at e2
    refine ⟨⟨p'', hp'', (e1.trans h1).trans h2⟩, e2, fun x hx => (o1 x).1 (hq3 x ?_)⟩
    simp only [Poly.invert]
    exact inHull_reverse.2 hx
  obtain ⟨a2, ea2⟩ := build_total (le_refl (0 : K)) (b2.invert.stored.length + 1) a1 b2.invert.stored
    (fun q hq => (hb3 q hq).2.1) (by omega)
  obtain ⟨s4, k4⟩ := build_spec _ a1 b2.invert.stored a2 (fun q hq => (hb3 q hq).2.1) ea2
  refine ⟨max (max (pa.length + 1) (pb.length + 1)) (b2.invert.stored.length + 1), A, B, a2.stored,
    d1 ++ d2 ++ d3.map Poly.invert, ?_, ?_, ?_, ?_⟩
  · intro fuel hf
    have h1 := A1 fuel (by omega)
    have h2 := B1 fuel (by omega)
    refine ⟨h1, h2, ?_⟩
    simp only [add, h1, h2, ea1, eb1, eb2, Option.bind_eq_bind, Option.bind_some, allPolygons_eq]
    rw [build_mono_le 0 (by omega) ea2]
    rfl
  · intro q hq
    rcases k4 q hq with h | ⟨p, hp, h1, h2⟩
    · obtain ⟨⟨p, hp, h1⟩, h2, h3⟩ := k1 q h
      obtain ⟨⟨p', hp', h4⟩, _⟩ := A5 p hp
      exact Or.inl ⟨⟨p', hp', h1.trans h4⟩, h3⟩
    · obtain ⟨⟨p', hp', h4⟩, _, h5⟩ := hb3 p hp
      exact Or.inr ⟨⟨p', hp', h1.trans h4⟩, fun x hx => h5 x (hx.trans h1.2)⟩
  · intro q hq
    simp only [List.mem_append] at hq
    rcases hq with (hq | hq) | hq
    · obtain ⟨⟨p, hp, h1⟩, h2, _, h3⟩ := k1' q hq
      obtain ⟨⟨p', hp', h4⟩, _⟩ := A5 p hp
      exact Or.inl ⟨⟨p', hp', h1.trans h4⟩, h3⟩
    · obtain ⟨⟨p, hp, h1⟩, h2, _, h3⟩ := k2' q hq
      obtain ⟨⟨p', hp', h4⟩, _⟩ := B5 p hp
      exact Or.inr ⟨⟨p', hp', h1.trans h4⟩, fun x hx => (i1 x).1 (h3 x hx)⟩
    · obtain ⟨u, hu, rfl⟩ := List.mem_map.1 hq
      obtain ⟨⟨p, hp, h1⟩, h2, _, h3⟩ := k3' u hu
      obtain ⟨⟨p', hp', h4⟩, _, _⟩ := k2 _ ((stored_invert b1 p).1 hp)
      obtain ⟨⟨p'', hp'', h5⟩, _⟩ := B5 p' hp'
      refine Or.inr ⟨⟨p'', hp'', ((pieceOf_invert h1).trans h4).trans h5⟩, fun x hx => (i1 x).1 (h3 x ?_)⟩
      exact inHull_reverse.1 hx
  · intro m
    have e3 := s3 (-m)
    rw [facing_invert, neg_neg] at e3
    simp only [areaFacing_append, areaFacing_invert]
    rw [s4 m, facing_invert, ← A4 m, ← B4 m, ← s1 m, ← s2 m]
    have : areaFacing m b1.stored = -areaFacing (-m) b2.stored - areaFacing (-m) d3 := by
      rw [← neg_neg (areaFacing m b1.stored), ← e3]; abel
    rw [this]
    abel

/-- **C46.** Difference: pieces of the first solid's faces outside the second and, inverted, of the second's faces
inside the first. -/
theorem C46_subtract (pa pb : List (Poly K)) (ha : pa ≠ []) (hb : pb ≠ []) (hpa : ∀ p ∈ pa, Proper p)
    (hpb : ∀ p ∈ pb, Proper p) :
    ∃ (N : Nat) (A B : Bsp K) (r dropped : List (Poly K)),
      (∀ fuel, N ≤ fuel → ofPolygons 0 fuel pa = some A ∧ ofPolygons 0 fuel pb = some B ∧
        subtract 0 fuel pa pb = some r) ∧
      (∀ q ∈ r, ((∃ p ∈ pa, PieceOf q p) ∧ ∀ x, InHull q.vs x → B.Outside x) ∨
        ((∃ p ∈ pb, PieceOf q p.invert) ∧ ∀ x, InHull q.vs x → A.Inside x)) ∧
      (∀ q ∈ dropped, ((∃ p ∈ pa, PieceOf q p) ∧ ∀ x, InHull q.vs x → B.Inside x) ∨
        ((∃ p ∈ pb, PieceOf q p.invert) ∧ ∀ x, InHull q.vs x → A.Outside x)) ∧
      ∀ m, areaFacing m r + areaFacing m dropped = areaFacing m pa + areaFacing m (pb.map Poly.invert) := by
  obtain ⟨A, A1, A2, A3, A4, A5⟩ := ofPolygons_spec ha hpa
  obtain ⟨B, B1, B2, B3, B4, B5⟩ := ofPolygons_spec hb hpb
  have hAi : ∀ q ∈ A.invert.stored, (∃ p ∈ pa, PieceOf q.invert p) ∧ Proper q := by
    intro q hq
    obtain ⟨h1, h2⟩ := A5 _ ((stored_invert A q).1 hq)
    have h := proper_invert h2
    rw [Poly.invert_invert] at h
    exact ⟨h1, h⟩
  obtain ⟨a1, ea1⟩ := clipTo_total (0 : K) false B B2 A.invert
  obtain ⟨n1, p1, o1, i1, d1, k1, k1', s1⟩ := clipTo_spec false B A.invert a1 (fun q hq => (hAi q hq).2) ea1
  obtain ⟨b1, eb1⟩ := clipTo_total (0 : K) true a1 (p1.2 ((planed_invert A).2 A2)) B
  obtain ⟨n2, p2, o2, i2, d2, k2, k2', s2⟩ := clipTo_spec true a1 B b1 (fun q hq => (B5 q hq).2) eb1
  obtain ⟨a2, ea2⟩ := build_total (le_refl (0 : K)) (b1.stored.length + 1) a1 b1.stored
    (fun q hq => (k2 q hq).2.1) (by omega)
  obtain ⟨s4, k4⟩ := build_spec _ a1 b1.stored a2 (fun q hq => (k2 q hq).2.1) ea2
  refine ⟨max (max (pa.length + 1) (pb.length + 1)) (b1.stored.length + 1), A, B, a2.invert.stored,
    d1.map Poly.invert ++ d2.map Poly.invert, ?_, ?_, ?_, ?_⟩
  · intro fuel hf
    have h1 := A1 fuel (by omega)
    have h2 := B1 fuel (by omega)
    refine ⟨h1, h2, ?_⟩
    simp only [subtract, h1, h2, ea1, eb1, Option.bind_eq_bind, Option.bind_some, allPolygons_eq]
    rw [build_mono_le 0 (by omega) ea2]
    rfl
  · intro q hq
    have hq' := (stored_invert a2 q).1 hq
    rcases k4 _ hq' with h | ⟨p, hp, h1, h2⟩
    · obtain ⟨⟨p, hp, h1⟩, h2, h3⟩ := k1 _ h
      obtain ⟨⟨p', hp', h4⟩, _⟩ := hAi p hp
      have e := pieceOf_invert h1
      rw [Poly.invert_invert] at e
      exact Or.inl ⟨⟨p', hp', e.trans h4⟩, fun x hx => h3 x (inHull_reverse.2 hx)⟩
    · obtain ⟨⟨p', hp', h4⟩, _, h5⟩ := k2 p hp
      obtain ⟨⟨p'', hp'', h6⟩, _⟩ := B5 p' hp'
      have e := pieceOf_invert ((h1.trans h4).trans h6)
      rw [Poly.invert_invert] at e
      refine Or.inr ⟨⟨p'', hp'', e⟩, fun x hx => ?_⟩
      exact (outside_invert A x).1 ((o1 x).1 (h5 x (InHull.trans h1.2 (inHull_reverse.2 hx))))
  · intro q hq
    simp only [List.mem_append] at hq
    rcases hq with hq | hq
    · obtain ⟨u, hu, rfl⟩ := List.mem_map.1 hq
      obtain ⟨⟨p, hp, h1⟩, h2, _, h3⟩ := k1' u hu
      obtain ⟨⟨p', hp', h4⟩, _⟩ := hAi p hp
      exact Or.inl ⟨⟨p', hp', (pieceOf_invert h1).trans h4⟩, fun x hx => h3 x (inHull_reverse.1 hx)⟩
    · obtain ⟨u, hu, rfl⟩ := List.mem_map.1 hq
      obtain ⟨⟨p, hp, h1⟩, h2, _, h3⟩ := k2' u hu
      obtain ⟨⟨p', hp', h4⟩, _⟩ := B5 p hp
      exact Or.inr ⟨⟨p', hp', pieceOf_invert (h1.trans h4)⟩, fun x hx =>
        (inside_invert A x).1 ((i1 x).1 (h3 x (inHull_reverse.1 hx)))⟩
  · intro m
    have e1 := s1 (-m)
    rw [facing_invert, neg_neg] at e1
    have e2 := s2 (-m)
    simp only [areaFacing_append, areaFacing_invert]
    rw [facing_invert, s4 (-m), ← A4 m, ← B4 (-m), ← e2]
    have : areaFacing m A.stored = -areaFacing (-m) a1.stored - areaFacing (-m) d1 := by
      rw [← neg_neg (areaFacing m A.stored), ← e1]; abel
    rw [this]
    abel

/-- **C46.** Intersection: pieces of either solid's faces inside the other. -/
theorem C46_intersect (pa pb : List (Poly K)) (ha : pa ≠ []) (hb : pb ≠ []) (hpa : ∀ p ∈ pa, Proper p)
    (hpb : ∀ p ∈ pb, Proper p) :
    ∃ (N : Nat) (A B : Bsp K) (r dropped : List (Poly K)),
      (∀ fuel, N ≤ fuel → ofPolygons 0 fuel pa = some A ∧ ofPolygons 0 fuel pb = some B ∧
        intersect 0 fuel pa pb = some r) ∧
      (∀ q ∈ r, ((∃ p ∈ pa, PieceOf q p) ∧ ∀ x, InHull q.vs x → B.Inside x) ∨
        ((∃ p ∈ pb, PieceOf q p) ∧ ∀ x, InHull q.vs x → A.Inside x)) ∧
      (∀ q ∈ dropped, ((∃ p ∈ pa, PieceOf q p) ∧ ∀ x, InHull q.vs x → B.Outside x) ∨
        ((∃ p ∈ pb, PieceOf q p) ∧ ∀ x, InHull q.vs x → A.Outside x)) ∧
      ∀ m, areaFacing m r + areaFacing m dropped = areaFacing m pa + areaFacing m pb := by
  obtain ⟨A, A1, A2, A3, A4, A5⟩ := ofPolygons_spec ha hpa
  obtain ⟨B, B1, B2, B3, B4, B5⟩ := ofPolygons_spec hb hpb
  have hAi : ∀ q ∈ A.invert.stored, (∃ p ∈ pa, PieceOf q.invert p) ∧ Proper q := by
    intro q hq
    obtain ⟨h1, h2⟩ := A5 _ ((stored_invert A q).1 hq)
    have h := proper_invert h2
    rw [Poly.invert_invert] at h
    exact ⟨h1, h⟩
  obtain ⟨b1, eb1⟩ := clipTo_total (0 : K) false A.invert ((planed_invert A).2 A2) B
  obtain ⟨n1, p1, o1, i1, d1, k1, k1', s1⟩ := clipTo_spec false A.invert B b1 (fun q hq => (B5 q hq).2) eb1
  have hb1i : ∀ q ∈ b1.invert.stored, (∃ p ∈ pb, PieceOf q.invert p) ∧ Proper q ∧
      ∀ x, InHull q.vs x → A.Inside x := by
    intro q hq
    obtain ⟨⟨p, hp, h1⟩, h2, h3⟩ := k1 _ ((stored_invert b1 q).1 hq)
    obtain ⟨⟨p', hp', h4⟩, _⟩ := B5 p hp
    have h := proper_invert h2
    rw [Poly.invert_invert] at h
    exact ⟨⟨p', hp', h1.trans h4⟩, h, fun x hx => (outside_invert A x).1 (h3 x (inHull_reverse.2 hx))⟩
  have hpb1 : b1.invert.Planed := (planed_invert b1).2 (p1.2 B2)
  obtain ⟨a1, ea1⟩ := clipTo_total (0 : K) false b1.invert hpb1 A.invert
  obtain ⟨n2, p2, o2, i2, d2, k2, k2', s2⟩ := clipTo_spec false b1.invert A.invert a1 (fun q hq => (hAi q hq).2) ea1
  obtain ⟨b2, eb2⟩ := clipTo_total (0 : K) false a1 (p2.2 ((planed_invert A).2 A2)) b1.invert
  obtain ⟨n3, p3, o3, i3, d3, k3, k3', s3⟩ := clipTo_spec false a1 b1.invert b2 (fun q hq => (hb1i q hq).2.1) eb2
  obtain ⟨a2, ea2⟩ := build_total (le_refl (0 : K)) (b2.stored.length + 1) a1 b2.stored
    (fun q hq => (k3 q hq).2.1) (by omega)
  obtain ⟨s4, k4⟩ := build_spec _ a1 b2.stored a2 (fun q hq => (k3 q hq).2.1) ea2
  refine ⟨max (max (pa.length + 1) (pb.length + 1)) (b2.stored.length + 1), A, B, a2.invert.stored,
    d1 ++ d2.map Poly.invert ++ d3.map Poly.invert, ?_, ?_, ?_, ?_⟩
  · intro fuel hf
    have h1 := A1 fuel (by omega)
    have h2 := B1 fuel (by omega)
    refine ⟨h1, h2, ?_⟩
    simp only [intersect, h1, h2, ea1, eb1, eb2, Option.bind_eq_bind, Option.bind_some, allPolygons_eq]
    rw [build_mono_le 0 (by omega) ea2]
    rfl
  · intro q hq
    have hq' := (stored_invert a2 q).1 hq
    rcases k4 _ hq' with h | ⟨p, hp, h1, h2⟩
    · obtain ⟨⟨p, hp, h1⟩, h2, h3⟩ := k2 _ h
      obtain ⟨⟨p', hp', h4⟩, _⟩ := hAi p hp
      have e := pieceOf_invert h1
      rw [Poly.invert_invert] at e
      exact Or.inl ⟨⟨p', hp', e.trans h4⟩, fun x hx =>
        (i1 x).1 ((outside_invert b1 x).1 (h3 x (inHull_reverse.2 hx)))⟩
    · obtain ⟨⟨p', hp', h4⟩, _, h5⟩ := k3 p hp
      obtain ⟨⟨p'', hp'', h6⟩, _, h7⟩ := hb1i p' hp'
      have e := pieceOf_invert (h1.trans h4)
      rw [Poly.invert_invert] at e
      exact Or.inr ⟨⟨p'', hp'', e.trans h6⟩, fun x hx =>
        h7 x (InHull.trans (h1.trans h4).2 (inHull_reverse.2 hx))⟩
  · intro q hq
    simp only [List.mem_append] at hq
    rcases hq with (hq | hq) | hq
    · obtain ⟨⟨p, hp, h1⟩, h2, _, h3⟩ := k1' q hq
      obtain ⟨⟨p', hp', h4⟩, _⟩ := B5 p hp
      exact Or.inr ⟨⟨p', hp', h1.trans h4⟩, fun x hx => (inside_invert A x).1 (h3 x hx)⟩
    · obtain ⟨u, hu, rfl⟩ := List.mem_map.1 hq
      obtain ⟨⟨p, hp, h1⟩, h2, _, h3⟩ := k2' u hu
      obtain ⟨⟨p', hp', h4⟩, _⟩ := hAi p hp
      exact Or.inl ⟨⟨p', hp', (pieceOf_invert h1).trans h4⟩, fun x hx =>
        (o1 x).1 ((inside_invert b1 x).1 (h3 x (inHull_reverse.1 hx)))⟩
    · obtain ⟨u, hu, rfl⟩ := List.mem_map.1 hq
      obtain ⟨⟨p, hp, h1⟩, h2, _, h3⟩ := k3' u hu
      obtain ⟨⟨p', hp', h4⟩, _⟩ := hb1i p hp
      exact Or.inr ⟨⟨p', hp', (pieceOf_invert h1).trans h4⟩, fun x hx =>
        (inside_invert A x).1 ((i2 x).1 (h3 x (inHull_reverse.1 hx)))⟩
  · intro m
    have e2 := s2 (-m)
    rw [facing_invert, neg_neg] at e2
    have e3 := s3 (-m)
    rw [facing_invert, neg_neg] at e3
    simp only [areaFacing_append, areaFacing_invert]
    rw [facing_invert, s4 (-m), ← A4 m, ← B4 m, ← s1 m]
    have t1 : areaFacing m A.stored = -areaFacing (-m) a1.stored - areaFacing (-m) d2 := by
      rw [← neg_neg (areaFacing m A.stored), ← e2]; abel
    have t2 : areaFacing m b1.stored = -areaFacing (-m) b2.stored - areaFacing (-m) d3 := by
      rw [← neg_neg (areaFacing m b1.stored), ← e3]; abel
    rw [t1, t2]
    abel

/-- `q` lies behind the plane of `p`, not entirely on it. -/
def Behind (p q : Poly K) : Prop :=
  (∀ v ∈ q.vs, ∀ w ∈ p.vs, p.normal.dot v ≤ p.normal.dot w) ∧
    ∃ v ∈ q.vs, ∀ w ∈ p.vs, p.normal.dot v < p.normal.dot w

theorem split_behind {p q : Poly K} (h : Behind p q) {v : Vec3 K} (hv : v ∈ p.vs) :
    splitPolygon 0 ⟨p.normal, p.normal.dot v⟩ q = { back := [q] } := by
  obtain ⟨h1, w, hw, h2⟩ := h
  have hb : side 0 ⟨p.normal, p.normal.dot v⟩ w = .back := by
    rw [side_back]; have := h2 v hv; simp only; linarith
  have hf : ∀ u ∈ q.vs, side 0 ⟨p.normal, p.normal.dot v⟩ u ≠ .front := by
    intro u hu
    rw [Ne, side_front (le_refl _)]
    have := h1 u hu v hv
    simp only; linarith
  rcases splitPolygon_cases (tol := 0) ⟨p.normal, p.normal.dot v⟩ q with ⟨a1, a2, a⟩ | ⟨a1, a2, a⟩ |
      ⟨⟨u, hu, a1⟩, a2, a⟩ | ⟨_, a2, a⟩ | ⟨⟨u, hu, a1⟩, a2, v0, rest, hvs, a⟩
  · rw [a1 w hw] at hb; simp at hb
  · rw [a1 w hw] at hb; simp at hb
  · exact absurd a1 (hf u hu)
  · exact a
  · exact absurd a1 (hf u hu)

theorem split_self {p : Poly K} (hp : Proper p) {v : Vec3 K} (hv : v ∈ p.vs) :
    splitPolygon 0 ⟨p.normal, p.normal.dot v⟩ p = { coFront := [p] } := by
  have hn : 0 < p.normal.dot p.normal := by
    have h0 := Vec3.normSq_nonneg p.normal
    rcases lt_or_eq_of_le h0 with h | h
    · exact h
    · exact absurd (Vec3.normSq_eq_zero.1 h.symm) hp.2.1
  have key : ∀ w ∈ p.vs, side 0 ⟨p.normal, p.normal.dot v⟩ w = .coplanar := by
    intro w hw
    rw [side_coplanar]
    simp only [hp.2.2 w hw v hv, sub_self]
    exact ⟨by simp, le_refl _⟩
  rcases splitPolygon_cases (tol := 0) ⟨p.normal, p.normal.dot v⟩ p with ⟨a1, a2, a⟩ | ⟨a1, a2, a⟩ |
      ⟨⟨u, hu, a1⟩, a2, a⟩ | ⟨⟨u, hu, a1⟩, a2, a⟩ | ⟨⟨u, hu, a1⟩, a2, v0, rest, hvs, a⟩
  · exact a
  · exact absurd hn a2
  · rw [key u hu] at a1; simp at a1
  · rw [key u hu] at a1; simp at a1
  · rw [key u hu] at a1; simp at a1

/-- **C46.** For the faces of a convex solid (outward normals, each face behind the planes of the faces before it)
the tree's inside is the intersection of the half spaces behind the faces, its outside the union of the half
spaces in front of them, and the stored polygons are the faces themselves, uncut. -/
theorem C46_convex_solid (ps : List (Poly K)) (hne : ps ≠ []) (hp : ∀ p ∈ ps, Proper p) (hc : ps.Pairwise Behind) :
    ∃ t : Bsp K, (∀ fuel, ps.length < fuel → ofPolygons 0 fuel ps = some t) ∧ t.allPolygons.1 = ps ∧
      (∀ x, t.Inside x ↔ ∀ p ∈ ps, ∀ v ∈ p.vs, p.normal.dot x ≤ p.normal.dot v) ∧
      (∀ x, t.Outside x ↔ ∃ p ∈ ps, ∃ v ∈ p.vs, p.normal.dot v ≤ p.normal.dot x) := by
  simp only [allPolygons_eq]
  induction ps with
  | nil => exact absurd rfl hne
  | cons p ps ih =>
    obtain ⟨v, vs, hv⟩ := List.exists_cons_of_ne_nil (hp p (by simp)).1
    have hvm : v ∈ p.vs := by simp [hv]
    have hP := hp p (by simp)
    obtain ⟨hc1, hc2⟩ := List.pairwise_cons.1 hc
    have hrest : ∀ (g : Split K → List (Poly K)),
        (ps.map (splitPolygon 0 ⟨p.normal, p.normal.dot v⟩)).flatMap g =
        ps.flatMap fun q => g { back := [q] } := by
      intro g
      rw [List.flatMap_map]
      exact List.flatMap_congr fun q hq => by rw [split_behind (hc1 q hq) hvm]
    have e1 : ((p :: ps).map (splitPolygon 0 ⟨p.normal, p.normal.dot v⟩)).flatMap Split.front = [] := by
      rw [List.map_cons, List.flatMap_cons, split_self hP hvm, hrest]
      simp
    have e2 : ((p :: ps).map (splitPolygon 0 ⟨p.normal, p.normal.dot v⟩)).flatMap Split.back = ps := by
      rw [List.map_cons, List.flatMap_cons, split_self hP hvm, hrest]
      simp
    have e3 : ((p :: ps).map (splitPolygon 0 ⟨p.normal, p.normal.dot v⟩)).flatMap
        (fun s => s.coFront ++ s.coBack) = [p] := by
      rw [List.map_cons, List.flatMap_cons, split_self hP hvm, hrest]
      simp
    have hpv : ∀ w ∈ p.vs, p.normal.dot w = p.normal.dot v := fun w hw => hP.2.2 w hw v hvm
    have iP : ∀ x, p.normal.dot x ≤ p.normal.dot v ↔ ∀ w ∈ p.vs, p.normal.dot x ≤ p.normal.dot w := by
      intro x
      exact ⟨fun h w hw => by rw [hpv w hw]; exact h, fun h => h v hvm⟩
    have oP : ∀ x, p.normal.dot v ≤ p.normal.dot x ↔ ∃ w ∈ p.vs, p.normal.dot w ≤ p.normal.dot x := by
      intro x
      exact ⟨fun h => ⟨v, hvm, h⟩, fun ⟨w, hw, h⟩ => by rw [← hpv w hw]; exact h⟩
    by_cases hps : ps = []
    · subst hps
      refine ⟨.node (some ⟨p.normal, p.normal.dot v⟩) [p] .nil .nil, ?_, ?_, ?_, ?_⟩
      · intro fuel hf
        obtain ⟨n, rfl⟩ : ∃ n, fuel = n + 1 := ⟨fuel - 1, by simp at hf; omega⟩
        rw [ofPolygons, build_cons 0 n .nil p [] v vs hv]
        simp only [e1, e2, e3]
        rfl
      · simp [stored]
      · intro x; simp only [Inside, ne_eq, not_true, false_and, and_false, and_true, false_or]
        rw [iP]; simp
      · intro x; simp only [Outside, ne_eq, not_true, false_and, and_false, and_true, or_false]
        rw [oP]; simp
    · obtain ⟨t, h1, h2, h3, h4⟩ := ih hps (fun q hq => hp q (List.mem_cons_of_mem _ hq)) hc2
      have htn : t ≠ .nil := by
        rintro rfl
        simp [stored] at h2
        exact hps h2
      refine ⟨.node (some ⟨p.normal, p.normal.dot v⟩) [p] .nil t, ?_, ?_, ?_, ?_⟩
      · intro fuel hf
        obtain ⟨n, rfl⟩ : ∃ n, fuel = n + 1 := ⟨fuel - 1, by simp at hf; omega⟩
        rw [ofPolygons, build_cons 0 n .nil p ps v vs hv]
        simp only [e1, e2, e3, if_true, if_neg hps, parts, Option.bind_some]
        have := h1 n (by simp at hf; omega)
        rw [ofPolygons] at this
        rw [this]
        rfl
      · simp [stored, h2]
      · intro x
        simp only [Inside, ne_eq, not_true, false_and, and_false, false_or, h3, iP, List.mem_cons, forall_eq_or_imp]
      · intro x
        simp only [Outside, and_true, h4, oP, List.mem_cons, exists_eq_or_imp]
        constructor
        · rintro (h | ⟨_, _, h⟩)
          · exact Or.inl h
          · exact Or.inr h
        · rintro (h | h)
          · exact Or.inl h
          · rcases le_total (p.normal.dot v) (p.normal.dot x) with h0 | h0
            · exact Or.inl ((oP x).1 h0)
            · exact Or.inr ⟨h0, htn, h⟩

/-! ### Where the code does not do what the property says -/

/-- A polygon whose normal does not fit its vertices makes `build` recurse without end. -/
theorem C46_build_diverges (fuel : Nat) :
    ofPolygons (0 : ℚ) fuel [⟨[⟨0, 0, 0⟩, ⟨1, 0, 0⟩, ⟨0, 1, 0⟩, ⟨0, 0, 0⟩], ⟨1, 0, 0⟩⟩] = none := by
  have key : ∀ fuel t, t = .nil → build (0 : ℚ) fuel t
      [⟨[⟨0, 0, 0⟩, ⟨1, 0, 0⟩, ⟨0, 1, 0⟩, ⟨0, 0, 0⟩], ⟨1, 0, 0⟩⟩] = none := by
    intro fuel
    induction fuel with
    | zero => intro t _; rfl
    | succ n ih =>
      rintro t rfl
      rw [build_cons 0 n .nil _ _ _ _ rfl]
      simp only
      have e : List.flatMap Split.front (List.map (splitPolygon (0 : ℚ)
          ⟨⟨1, 0, 0⟩, Vec3.dot ⟨1, 0, 0⟩ ⟨0, 0, 0⟩⟩)
          [⟨[⟨0, 0, 0⟩, ⟨1, 0, 0⟩, ⟨0, 1, 0⟩, ⟨0, 0, 0⟩], ⟨1, 0, 0⟩⟩]) =
          [⟨[⟨0, 0, 0⟩, ⟨1, 0, 0⟩, ⟨0, 1, 0⟩, ⟨0, 0, 0⟩], ⟨1, 0, 0⟩⟩] := by decide +kernel
      rw [e, if_neg (by simp), show (Bsp.nil : Bsp ℚ).parts.2.2.1 = .nil from rfl, ih _ rfl]
      rfl
  exact key fuel .nil rfl

/-- A first polygon without vertices makes `build` drop all the others. -/
theorem C46_empty_first_polygon (tol : K) (fuel : Nat) (m : Vec3 K) (ps : List (Poly K)) :
    ofPolygons tol (fuel + 1) (⟨[], m⟩ :: ps) = some (.node none [] .nil .nil) := rfl

/-- `allPolygons` stores what it returns: a second call returns the children's polygons again. -/
theorem C46_allPolygons_twice (pl : Option (GPlane K)) (ps : List (Poly K)) (f b : Bsp K) :
    (Bsp.node pl ps f b).allPolygons.2.allPolygons.1 =
      (Bsp.node pl ps f b).allPolygons.1 ++ f.allPolygons.2.allPolygons.1 ++ b.allPolygons.2.allPolygons.1 := by
  simp only [allPolygons]

/-- An empty operand: the plane of its tree is never set, and comparing with it reads an uninitialised value. -/
theorem C46_add_empty (tol : K) (fuel : Nat) (p : Poly K) (ps : List (Poly K)) (A : Bsp K)
    (h : ofPolygons tol (fuel + 1) (p :: ps) = some A) (hs : ∃ pl own f b, A = .node pl own f b ∧ own ≠ []) :
    add tol (fuel + 1) (p :: ps) [] = none := by
  obtain ⟨pl, own, f, b, rfl, ho⟩ := hs
  have hb : ofPolygons tol (fuel + 1) ([] : List (Poly K)) = some (.node none [] .nil .nil) := rfl
  simp only [add, h, hb, Option.bind_eq_bind, Option.bind_some]
  have : clipTo tol (.node none [] .nil .nil) false (.node pl own f b) = none := by
    simp [clipTo, clipPolygons, ho]
  rw [this]
  rfl

end ENigMA
