import Verif.Fvm.ClippedVolume
import Verif.Geometry.ClipFractionProps

/-!
# Lemmas on the caches of a control volume
-/

set_option linter.unusedSectionVars false
set_option autoImplicit false

namespace ENigMA

variable {K : Type} [Field K] [LinearOrder K] [IsStrictOrderedRing K]

namespace Polygon

/-- `b` is `a` after some of its caches have been filled. -/
def Filled (nrm : Vec3 K → K) (eps : K) (a b : Polygon K) : Prop :=
  b = a ∨ b = a.calculateNormal nrm eps false ∨ b = a.calculateArea nrm eps false ∨ b = (a.calculateArea nrm eps false).calculateNormal nrm eps false

theorem areaWith_short (nrm : Vec3 K → K) (eps : K) (n : Vec3 K) (vs : List (Vec3 K)) (h : ¬ 1 < vs.length) : areaWith nrm eps n vs = 0 := by
  unfold areaWith; rw [if_neg h]

theorem Filled.vs {nrm : Vec3 K → K} {eps : K} {a b : Polygon K} (h : Filled nrm eps a b) : b.vs = a.vs := by
  have hn : ∀ c : Polygon K, (c.calculateNormal nrm eps false).vs = c.vs := by
    intro c; unfold calculateNormal; split_ifs <;> rfl
  have ha : ∀ c : Polygon K, (c.calculateArea nrm eps false).vs = c.vs := by
    intro c; unfold calculateArea
    split_ifs
    · exact hn c
    · rfl
    · rfl
  rcases h with rfl | rfl | rfl | rfl
  · rfl
  · exact hn _
  · exact ha _
  · rw [hn, ha]

theorem Filled.normal {nrm : Vec3 K → K} {eps : K} {a b : Polygon K} (ha : a.bArea = false) (h : Filled nrm eps a b) (re : Bool)
    (hre : re = true → a.bNormal = false) : Filled nrm eps a (b.calculateNormal nrm eps re) := by
  obtain ⟨vs, n, bn, ar, ba⟩ := a
  subst ha
  by_cases hl : 1 < vs.length <;> cases bn <;> cases re <;> simp at hre <;>
    rcases h with rfl | rfl | rfl | rfl <;> simp [Filled, calculateNormal, calculateArea, hl]

theorem Filled.area {nrm : Vec3 K → K} {eps : K} {a b : Polygon K} (ha : a.bArea = false) (h : Filled nrm eps a b) (re : Bool)
    (hre : re = true → a.bNormal = false) : Filled nrm eps a (b.calculateArea nrm eps re) := by
  obtain ⟨vs, n, bn, ar, ba⟩ := a
  subst ha
  by_cases hl : 1 < vs.length <;> cases bn <;> cases re <;> simp at hre <;>
    rcases h with rfl | rfl | rfl | rfl <;> simp [Filled, calculateNormal, calculateArea, hl, areaWith_short]

theorem Filled.m_area {nrm : Vec3 K → K} {eps : K} {a b : Polygon K} (ha : a.bArea = false) (h : Filled nrm eps a b) :
    (b.calculateArea nrm eps false).m_area = (a.calculateArea nrm eps false).m_area := by
  obtain ⟨vs, n, bn, ar, ba⟩ := a
  subst ha
  by_cases hl : 1 < vs.length <;> cases bn <;>
    rcases h with rfl | rfl | rfl | rfl <;> simp [calculateNormal, calculateArea, hl, areaWith_short]

theorem Filled.m_normal {nrm : Vec3 K → K} {eps : K} {a b : Polygon K} (ha : a.bArea = false) (h : Filled nrm eps a b) :
    (b.calculateNormal nrm eps false).m_normal = (a.calculateNormal nrm eps false).m_normal := by
  obtain ⟨vs, n, bn, ar, ba⟩ := a
  subst ha
  by_cases hl : 1 < vs.length <;> cases bn <;>
    rcases h with rfl | rfl | rfl | rfl <;> simp [calculateNormal, calculateArea, hl]

/-- A recalculation of the area of a polygon without caches gives the area of the first calculation. -/
theorem Filled.m_area_re {nrm : Vec3 K → K} {eps : K} {a b : Polygon K} (ha : a.bArea = false) (h : Filled nrm eps a b) (re : Bool)
    (hre : re = true → a.bNormal = false) : (b.calculateArea nrm eps re).m_area = (a.calculateArea nrm eps false).m_area := by
  obtain ⟨vs, n, bn, ar, ba⟩ := a
  subst ha
  by_cases hl : 1 < vs.length <;> cases bn <;> cases re <;> simp at hre <;>
    rcases h with rfl | rfl | rfl | rfl <;> simp [calculateNormal, calculateArea, hl, areaWith_short]

theorem Filled.m_normal_re {nrm : Vec3 K → K} {eps : K} {a b : Polygon K} (ha : a.bArea = false) (h : Filled nrm eps a b) (re : Bool)
    (hre : re = true → a.bNormal = false) : (b.calculateNormal nrm eps re).m_normal = (a.calculateNormal nrm eps false).m_normal := by
  obtain ⟨vs, n, bn, ar, ba⟩ := a
  subst ha
  by_cases hl : 1 < vs.length <;> cases bn <;> cases re <;> simp at hre <;>
    rcases h with rfl | rfl | rfl | rfl <;> simp [calculateNormal, calculateArea, hl]

theorem Filled.volumeTerm {nrm : Vec3 K → K} {eps : K} {a b : Polygon K} (ha : a.bArea = false) (h : Filled nrm eps a b) (v0 : Vec3 K) :
    Polyhedron.volumeTerm nrm eps v0 b = Polyhedron.volumeTerm nrm eps v0 a := by
  obtain ⟨vs, n, bn, ar, ba⟩ := a
  subst ha
  cases vs with
  | nil => rcases h with rfl | rfl | rfl | rfl <;> cases bn <;> simp [Polyhedron.volumeTerm, calculateNormal, calculateArea]
  | cons v l =>
    cases l with
    | nil => rcases h with rfl | rfl | rfl | rfl <;> cases bn <;> simp [Polyhedron.volumeTerm, calculateNormal, calculateArea, areaWith_short]
    | cons w l => rcases h with rfl | rfl | rfl | rfl <;> cases bn <;> simp [Polyhedron.volumeTerm, calculateNormal, calculateArea]

end Polygon

namespace Polyhedron

/-- A polyhedron no polygon of which has its area cached, and whose ids all have a polygon. -/
structure Ref (p : Polyhedron K) : Prop where
  area : ∀ k a, p.polygons.find? k = some a → a.bArea = false
  ids : ∀ i ∈ p.ids, (p.polygons.find? i).isSome

theorem Ref.empty : Ref (Polyhedron.empty : Polyhedron K) := ⟨fun k a h => by simp [Polyhedron.empty] at h, fun i h => by simp [Polyhedron.empty] at h⟩

theorem Ref.add {p : Polyhedron K} (h : Ref p) (id : Int) (q : Polygon K) (hq : q.bArea = false) : Ref (p.addPolygon id q) := by
  refine ⟨fun k a hk => ?_, fun i hi => ?_⟩
  · rw [addPolygon, SMap.find?_insert] at hk
    split_ifs at hk with hh
    · simp at hk; rw [← hk]; exact hq
    · exact h.area k a hk
  · rw [addPolygon, SMap.find?_insert]
    split_ifs with hh
    · rfl
    · simp [addPolygon] at hi
      rcases hi with hi | hi
      · exact h.ids i hi
      · exact absurd hi hh

theorem Ref.adds : ∀ (l : List (Int × Polygon K)) {p : Polyhedron K}, Ref p → (∀ e ∈ l, e.2.bArea = false) → Ref (p.addPolygons l)
  | [], _, h, _ => h
  | e :: t, _, h, hl => Ref.adds t (h.add e.1 e.2 (hl e (by simp))) (fun e' he' => hl e' (by simp [he']))

theorem Ref.calculateVolume {p : Polyhedron K} (h : Ref p) (nrm : Vec3 K → K) (eps : K) (re : Bool) : Ref (p.calculateVolume nrm eps re) := by
  unfold Polyhedron.calculateVolume
  split_ifs
  · exact ⟨h.area, h.ids⟩
  · exact h

/-- The clip by a plane: the polygons and the new one have no cached area. -/
theorem Ref.clip (nrm : Vec3 K → K) (eps : K) (np : Polygon K) (hnp : np.bArea = false) (id : Int) (pl : GPlane K) (tol : K) (p : Polyhedron K) :
    (p.clip nrm eps np id pl tol).1.bArea = false ∧ Ref (p.clip nrm eps np id pl tol).2 := by
  have h0 : Ref (Polyhedron.empty.addPolygons (p.clipFaces nrm pl tol)) := by
    refine Ref.adds _ Ref.empty fun e he => ?_
    rw [clipFaces, List.mem_filter, List.mem_map] at he
    obtain ⟨⟨e', -, rfl⟩, -⟩ := he
    rfl
  have hn : ∀ (q : Polygon K) (re : Bool), q.bArea = false → (q.calculateNormal nrm eps re).bArea = false := by
    intro q re hq; unfold Polygon.calculateNormal; split_ifs <;> exact hq
  have hq := hn (np.setPolyline (Polyline.setLines nrm true tol ((Polyhedron.empty.addPolygons (p.clipFaces nrm pl tol)).planeLines pl tol))) true hnp
  unfold Polyhedron.clip Polyhedron.close
  dsimp only
  split_ifs
  · exact ⟨hq, h0.add id _ hq⟩
  · exact ⟨hq, h0.add id _ hq⟩
  · exact ⟨hnp, h0⟩

/-- The volume cached by a clipped polyhedron is its volume. -/
def VolOk (nrm : Vec3 K → K) (eps : K) (p : Polyhedron K) : Prop :=
  (p.bVolume = true → p.m_volume = p.volumeOf nrm eps) ∧ p.bSurfaceArea = false

theorem addPolygons_flags (l : List (Int × Polygon K)) : ∀ p : Polyhedron K, (p.addPolygons l).bVolume = p.bVolume ∧ (p.addPolygons l).bSurfaceArea = p.bSurfaceArea := by
  induction l with
  | nil => intro p; exact ⟨rfl, rfl⟩
  | cons e t ih => intro p; exact ih _

theorem volumeOf_calculate (nrm : Vec3 K → K) (eps : K) (re : Bool) (p : Polyhedron K) : (p.calculateVolume nrm eps re).volumeOf nrm eps = p.volumeOf nrm eps := by
  unfold calculateVolume
  split_ifs <;> rfl

theorem VolOk.clip (nrm : Vec3 K → K) (eps : K) (np : Polygon K) (id : Int) (pl : GPlane K) (tol : K) (p : Polyhedron K) :
    VolOk nrm eps ((p.clip nrm eps np id pl tol).2.calculateVolume nrm eps true) := by
  have h := addPolygons_flags (p.clipFaces nrm pl tol) (Polyhedron.empty : Polyhedron K)
  refine ⟨fun _ => by rw [volumeOf_calculate]; simp [calculateVolume], ?_⟩
  simp only [calculateVolume, Bool.or_true, if_true]
  unfold Polyhedron.clip Polyhedron.close
  dsimp only
  split_ifs <;> exact h.2

theorem Brent.loop_ref (nrm : Vec3 K → K) (eps : K) (p : Polyhedron K) (id : Int) (n : Vec3 K) (req vt tol : K) :
    ∀ (k i : Nat) (st : Brent K), st.np.bArea = false → Ref st.poly → VolOk nrm eps st.poly →
      Ref (Brent.loop nrm eps p id n req vt tol k i st).1.poly ∧ VolOk nrm eps (Brent.loop nrm eps p id n req vt tol k i st).1.poly := by
  intro k
  induction k with
  | zero => intro i st _ h h'; exact ⟨h, h'⟩
  | succ k ih =>
    intro i st h1 h2 h3
    unfold Brent.loop
    split_ifs with hb
    · exact ⟨h2, h3⟩
    · have hr := Ref.clip nrm eps st.np h1 id ⟨n, (st.next tol).1⟩ tol p
      exact ih _ _ hr.1 (hr.2.calculateVolume nrm eps true) (VolOk.clip nrm eps st.np id ⟨n, (st.next tol).1⟩ tol p)

/-- The clip by volume fraction of a polyhedron without caches. -/
theorem Ref.clipFraction (nrm : Vec3 K → K) (eps big : K) (np : Polygon K) (hnp : np.bArea = false) (id : Int) (pl : GPlane K) (req : K) (nMax : Nat) (tol : K)
    (p : Polyhedron K) (hp : Ref p) : Ref (p.clipFraction nrm eps big np id pl req nMax tol).poly ∧
      VolOk nrm eps (p.clipFraction nrm eps big np id pl req nMax tol).poly := by
  have he : VolOk nrm eps (Polyhedron.empty : Polyhedron K) := ⟨fun h => by simp [Polyhedron.empty] at h, rfl⟩
  unfold Polyhedron.clipFraction
  split_ifs with h1 h2
  · exact ⟨Ref.empty, he⟩
  · have h := addPolygons_flags p.polygons.entries (Polyhedron.empty : Polyhedron K)
    refine ⟨Ref.adds _ Ref.empty fun e he' => hp.area e.1 e.2 ((SMap.find?_eq_some_iff _ _ _).2 he'), fun hh => ?_, h.2⟩
    rw [show (⟨Polyhedron.empty.addPolygons p.polygons.entries, 1, 0, pl.d, np⟩ : FractionResult K).poly.bVolume = false from h.1] at hh
    simp at hh
  · exact Brent.loop_ref nrm eps p id pl.normal req _ tol nMax 0 _ hnp Ref.empty he

/-- `q` is the polyhedron `p` after some of its caches have been filled, with right values. -/
structure PFilled (nrm : Vec3 K → K) (eps : K) (p q : Polyhedron K) : Prop where
  ids : q.ids = p.ids
  find : ∀ k, (p.polygons.find? k = none ∧ q.polygons.find? k = none) ∨
    ∃ a b, p.polygons.find? k = some a ∧ q.polygons.find? k = some b ∧ Polygon.Filled nrm eps a b
  vol : q.bVolume = true → q.m_volume = p.volumeOf nrm eps
  area : q.bSurfaceArea = true → q.m_surfaceArea = (p.polygons.entries.map fun e => (e.2.calculateArea nrm eps false).m_area).sum

theorem PFilled.refl {nrm : Vec3 K → K} {eps : K} {p : Polyhedron K} (h : VolOk nrm eps p) : PFilled nrm eps p p := by
  refine ⟨rfl, fun k => ?_, h.1, fun hh => by rw [h.2] at hh; simp at hh⟩
  cases hk : p.polygons.find? k with
  | none => exact Or.inl ⟨rfl, rfl⟩
  | some a => exact Or.inr ⟨a, a, rfl, rfl, Or.inl rfl⟩

/-- A function of the polygons that does not see the caches has the same values. -/
theorem PFilled.mapVal {nrm : Vec3 K → K} {eps : K} {p q : Polyhedron K} (h : PFilled nrm eps p q) {β : Type} (g : Polygon K → β)
    (hg : ∀ k a b, p.polygons.find? k = some a → Polygon.Filled nrm eps a b → g b = g a) :
    q.polygons.mapVal (fun _ x => g x) = p.polygons.mapVal (fun _ x => g x) := by
  refine SMap.ext_find fun k => ?_
  rw [SMap.find?_mapVal, SMap.find?_mapVal]
  rcases h.find k with ⟨h1, h2⟩ | ⟨a, b, h1, h2, h3⟩
  · rw [h1, h2]
  · rw [h1, h2, Option.map_some, Option.map_some, hg k a b h1 h3]

theorem PFilled.entries {nrm : Vec3 K → K} {eps : K} {p q : Polyhedron K} (h : PFilled nrm eps p q) {β : Type} (g : Polygon K → β)
    (hg : ∀ k a b, p.polygons.find? k = some a → Polygon.Filled nrm eps a b → g b = g a) :
    q.polygons.entries.map (fun e => (e.1, g e.2)) = p.polygons.entries.map (fun e => (e.1, g e.2)) :=
  congrArg SMap.entries (h.mapVal g hg)

theorem PFilled.vs {nrm : Vec3 K → K} {eps : K} {p q : Polyhedron K} (h : PFilled nrm eps p q) :
    q.polygons.entries.map (fun e => (e.1, e.2.vs)) = p.polygons.entries.map (fun e => (e.1, e.2.vs)) :=
  h.entries (·.vs) fun _ _ _ _ hf => hf.vs

theorem PFilled.polygon {nrm : Vec3 K → K} {eps : K} {p q : Polyhedron K} (h : PFilled nrm eps p q) (i : Int) :
    Polygon.Filled nrm eps (p.polygon i) (q.polygon i) := by
  unfold Polyhedron.polygon
  rcases h.find i with ⟨h1, h2⟩ | ⟨a, b, h1, h2, h3⟩
  · rw [h1, h2]; exact Or.inl rfl
  · rw [h1, h2]; exact h3

theorem Ref.polygon {p : Polyhedron K} (h : Ref p) (i : Int) : (p.polygon i).bArea = false := by
  unfold Polyhedron.polygon
  cases hk : p.polygons.find? i with
  | none => rfl
  | some a => exact h.area i a hk

theorem PFilled.volumeOf {nrm : Vec3 K → K} {eps : K} {p q : Polyhedron K} (hp : Ref p) (h : PFilled nrm eps p q) :
    q.volumeOf nrm eps = p.volumeOf nrm eps := by
  have hl : q.polygons.entries.length = p.polygons.entries.length := by simpa using congrArg List.length h.vs
  have hf : ∀ v0 (t : List Int) (acc : K), t.foldl (fun acc i => acc + volumeTerm nrm eps v0 (q.polygon i)) acc =
      t.foldl (fun acc i => acc + volumeTerm nrm eps v0 (p.polygon i)) acc := by
    intro v0 t
    induction t with
    | nil => intro acc; rfl
    | cons i t ih => intro acc; rw [List.foldl_cons, List.foldl_cons, (h.polygon i).volumeTerm (hp.polygon i), ih]
  unfold Polyhedron.volumeOf
  rw [hl, h.ids]
  cases p.ids with
  | nil => rfl
  | cons i0 t =>
    dsimp only
    rw [(h.polygon i0).vs]
    cases (p.polygon i0).vs with
    | nil => rfl
    | cons v0 r => dsimp only; rw [hf]

theorem PFilled.calculateVolume {nrm : Vec3 K → K} {eps : K} {p q : Polyhedron K} (hp : Ref p) (h : PFilled nrm eps p q) (re : Bool) :
    PFilled nrm eps p (q.calculateVolume nrm eps re) ∧ (q.calculateVolume nrm eps re).m_volume = p.volumeOf nrm eps := by
  unfold Polyhedron.calculateVolume
  split_ifs with hb
  · exact ⟨⟨h.ids, h.find, fun _ => h.volumeOf hp, h.area⟩, h.volumeOf hp⟩
  · simp at hb
    exact ⟨h, h.vol hb.1⟩

theorem foldl_sum {α : Type} (g : α → K) : ∀ (l : List α) (acc : K), l.foldl (fun acc e => acc + g e) acc = acc + (l.map g).sum
  | [], acc => by simp
  | a :: l, acc => by rw [List.foldl_cons, foldl_sum g l]; simp; ring

/-- The surface area of a polyhedron without caches. -/
theorem PFilled.calculateSurfaceArea {nrm : Vec3 K → K} {eps : K} {p q : Polyhedron K} (hp : Ref p) (h : PFilled nrm eps p q) :
    PFilled nrm eps p (q.calculateSurfaceArea nrm eps false) ∧
      (q.calculateSurfaceArea nrm eps false).m_surfaceArea = (p.polygons.entries.map fun e => (e.2.calculateArea nrm eps false).m_area).sum := by
  unfold Polyhedron.calculateSurfaceArea
  split_ifs with hb
  · dsimp only
    have hs : (q.polygons.mapVal fun _ x => x.calculateArea nrm eps false).entries.foldl (fun acc e => acc + e.2.m_area) 0 =
        (p.polygons.entries.map fun e => (e.2.calculateArea nrm eps false).m_area).sum := by
      rw [foldl_sum (fun e : Int × Polygon K => e.2.m_area), zero_add]
      have := congrArg (List.map Prod.snd) (h.entries (fun x => (x.calculateArea nrm eps false).m_area) fun k a b hk hf => hf.m_area (hp.area k a hk))
      simp only [List.map_map, Function.comp_def] at this
      rw [← this]
      simp [SMap.mapVal, Function.comp_def]
    refine ⟨⟨h.ids, fun k => ?_, h.vol, fun _ => hs⟩, hs⟩
    rw [SMap.find?_mapVal]
    rcases h.find k with ⟨h1, h2⟩ | ⟨a, b, h1, h2, h3⟩
    · left; exact ⟨h1, by rw [h2]; rfl⟩
    · right; exact ⟨a, _, h1, by rw [h2]; rfl, h3.area (hp.area k a h1) false (by simp)⟩
  · simp at hb
    exact ⟨h, h.area hb⟩

theorem PFilled.insert {nrm : Vec3 K → K} {eps : K} {p q : Polyhedron K} (hp : Ref p) (h : PFilled nrm eps p q) (id : Int) (hid : id ∈ p.ids) (b : Polygon K)
    (hb : Polygon.Filled nrm eps (p.polygon id) b) : PFilled nrm eps p { q with polygons := q.polygons.insert id b } := by
  refine ⟨h.ids, fun k => ?_, h.vol, h.area⟩
  dsimp only
  rw [SMap.find?_insert]
  split_ifs with hk
  · subst hk
    obtain ⟨a, ha⟩ := Option.isSome_iff_exists.1 (hp.ids k hid)
    right
    refine ⟨a, b, ha, rfl, ?_⟩
    rw [Polyhedron.polygon, ha] at hb
    exact hb
  · exact h.find k

theorem PFilled.clip {nrm : Vec3 K → K} {eps : K} {p q : Polyhedron K} (h : PFilled nrm eps p q) (np : Polygon K) (id : Int) (pl : GPlane K) (tol : K) :
    q.clip nrm eps np id pl tol = p.clip nrm eps np id pl tol := by
  have : q.clipFaces nrm pl tol = p.clipFaces nrm pl tol := by
    unfold clipFaces
    congr 1
    exact h.entries (fun x => x.clip nrm pl tol) fun _ _ _ _ hf => by unfold Polygon.clip; rw [hf.vs]
  unfold Polyhedron.clip
  rw [this]

theorem Brent.loop_congr (nrm : Vec3 K → K) (eps : K) (p q : Polyhedron K) (id : Int) (n : Vec3 K) (req vt tol : K)
    (h : ∀ np pl, q.clip nrm eps np id pl tol = p.clip nrm eps np id pl tol) :
    ∀ (k i : Nat) (st : Brent K), Brent.loop nrm eps q id n req vt tol k i st = Brent.loop nrm eps p id n req vt tol k i st := by
  intro k
  induction k with
  | zero => intro i st; rfl
  | succ k ih =>
    intro i st
    have hu : st.update nrm eps q id n req vt tol = st.update nrm eps p id n req vt tol := by
      unfold Brent.update
      dsimp only
      rw [h]
    unfold Brent.loop
    rw [hu, ih]

theorem adds_filled (nrm : Vec3 K → K) (eps : K) : ∀ (l l' : List (Int × Polygon K)) (p q : Polyhedron K),
    List.Forall₂ (fun e e' => e'.1 = e.1 ∧ Polygon.Filled nrm eps e.2 e'.2) l l' → PFilled nrm eps p q → p.bVolume = false → p.bSurfaceArea = false →
    q.bVolume = false → q.bSurfaceArea = false → PFilled nrm eps (p.addPolygons l) (q.addPolygons l') := by
  intro l l' p q hl
  induction hl generalizing p q with
  | nil => intro h _ _ _ _; exact h
  | @cons e e' t t' hh ht ih =>
    intro h h1 h2 h3 h4
    refine ih _ _ ⟨by simp [addPolygon, h.ids, hh.1], fun k => ?_, fun hv => ?_, fun hv => ?_⟩ h1 h2 h3 h4
    · simp only [addPolygon, SMap.find?_insert, hh.1]
      by_cases hk : k = e.1
      · rw [if_pos hk, if_pos hk]; exact Or.inr ⟨e.2, e'.2, rfl, rfl, hh.2⟩
      · rw [if_neg hk, if_neg hk]; exact h.find k
    · rw [show (q.addPolygon e'.1 e'.2).bVolume = q.bVolume from rfl, h3] at hv; simp at hv
    · rw [show (q.addPolygon e'.1 e'.2).bSurfaceArea = q.bSurfaceArea from rfl, h4] at hv; simp at hv

theorem PFilled.forall₂ {nrm : Vec3 K → K} {eps : K} {p q : Polyhedron K} (h : PFilled nrm eps p q) :
    List.Forall₂ (fun e e' => e'.1 = e.1 ∧ Polygon.Filled nrm eps e.2 e'.2) p.polygons.entries q.polygons.entries := by
  have hk : q.polygons.entries.map (·.1) = p.polygons.entries.map (·.1) := by
    have := congrArg (List.map Prod.fst) h.vs
    simpa [Function.comp_def] using this
  rw [List.forall₂_iff_get]
  have hl : p.polygons.entries.length = q.polygons.entries.length := by simpa using (congrArg List.length hk).symm
  refine ⟨hl, fun i h1 h2 => ?_⟩
  simp only [List.get_eq_getElem]
  have hki : (q.polygons.entries[i]'h2).1 = (p.polygons.entries[i]'h1).1 := by
    have := List.getElem_of_eq hk (i := i) (by simpa using h2)
    simpa using this
  refine ⟨hki, ?_⟩
  have e1 := (SMap.find?_eq_some_iff p.polygons (p.polygons.entries[i]'h1).1 (p.polygons.entries[i]'h1).2).2 (List.getElem_mem h1)
  have e2 := (SMap.find?_eq_some_iff q.polygons (q.polygons.entries[i]'h2).1 (q.polygons.entries[i]'h2).2).2 (List.getElem_mem h2)
  rw [hki] at e2
  rcases h.find (p.polygons.entries[i]'h1).1 with ⟨h3, -⟩ | ⟨a, b, h3, h4, h5⟩
  · rw [e1] at h3; simp at h3
  · rw [e1] at h3; rw [e2] at h4
    simp at h3 h4
    rw [h3, h4]; exact h5

/-- The clip by volume fraction does not see the caches of the polyhedron, if they are right. -/
theorem PFilled.clipFraction {nrm : Vec3 K → K} {eps : K} (big : K) {p q : Polyhedron K} (hp : Ref p) (hv : VolOk nrm eps p) (h : PFilled nrm eps p q) (np : Polygon K)
    (hnp : np.bArea = false) (id : Int) (pl : GPlane K) (req : K) (nMax : Nat) (tol : K) :
    PFilled nrm eps (p.clipFraction nrm eps big np id pl req nMax tol).poly (q.clipFraction nrm eps big np id pl req nMax tol).poly ∧
    (q.clipFraction nrm eps big np id pl req nMax tol).act = (p.clipFraction nrm eps big np id pl req nMax tol).act ∧
    (q.clipFraction nrm eps big np id pl req nMax tol).iterations = (p.clipFraction nrm eps big np id pl req nMax tol).iterations ∧
    (q.clipFraction nrm eps big np id pl req nMax tol).np = (p.clipFraction nrm eps big np id pl req nMax tol).np := by
  have hR := (Ref.clipFraction nrm eps big np hnp id pl req nMax tol p hp).2
  by_cases h1 : req ≤ 0
  · have e1 : ∀ x : Polyhedron K, x.clipFraction nrm eps big np id pl req nMax tol = ⟨Polyhedron.empty, 0, 0, pl.d, np⟩ := by
      intro x; unfold Polyhedron.clipFraction; rw [if_pos h1]
    rw [e1] at hR
    rw [e1, e1]
    exact ⟨PFilled.refl hR, rfl, rfl, rfl⟩
  · by_cases h2 : 1 ≤ req
    · have e1 : ∀ x : Polyhedron K, x.clipFraction nrm eps big np id pl req nMax tol = ⟨Polyhedron.empty.addPolygons x.polygons.entries, 1, 0, pl.d, np⟩ := by
        intro x; unfold Polyhedron.clipFraction; rw [if_neg h1, if_pos h2]
      rw [e1, e1]
      refine ⟨adds_filled nrm eps _ _ _ _ h.forall₂ (PFilled.refl ⟨fun hh => by simp [Polyhedron.empty] at hh, rfl⟩) rfl rfl rfl rfl, rfl, rfl, rfl⟩
    · have hvt : (q.calculateVolume nrm eps false).m_volume = (p.calculateVolume nrm eps false).m_volume := by
        rw [(h.calculateVolume hp false).2, ((PFilled.refl hv).calculateVolume hp false).2]
      have hoff : q.offsets big pl.normal = p.offsets big pl.normal := by
        unfold offsets
        have : q.polygons.entries.flatMap (fun e => e.2.vs) = p.polygons.entries.flatMap (fun e => e.2.vs) := by
          have := congrArg (List.flatMap Prod.snd) h.vs
          simpa [List.flatMap_map] using this
        rw [this]
      have e : q.clipFraction nrm eps big np id pl req nMax tol = p.clipFraction nrm eps big np id pl req nMax tol := by
        unfold Polyhedron.clipFraction
        rw [if_neg h1, if_neg h2, if_neg h1, if_neg h2]
        dsimp only
        rw [hvt, hoff, Brent.loop_congr nrm eps p q id pl.normal req _ tol (fun np' pl' => h.clip np' id pl' tol)]
      rw [e]
      exact ⟨PFilled.refl hR, rfl, rfl, rfl⟩

end Polyhedron
end ENigMA
