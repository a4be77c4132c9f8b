import Verif.Geometry.Clip
import Verif.Geometry.PolyhedronProps

/-!
# C51: clipping by volume fraction
-/

set_option linter.unusedSectionVars false
set_option autoImplicit false

namespace ENigMA

variable {K : Type} [Field K] [LinearOrder K] [IsStrictOrderedRing K]

namespace Polyhedron

/-- The offset tried next lies between the two ends of the interval. -/
theorem Brent.next_between (tol : K) (st : Brent K) (lo hi : K) (ha : lo ≤ st.a ∧ st.a ≤ hi) (hb : lo ≤ st.b ∧ st.b ≤ hi) :
    lo ≤ (st.next tol).1 ∧ (st.next tol).1 ≤ hi := by
  have key : ∀ s : K, ((3 * st.a + st.b) / 4 < s ∧ s < st.b) ∨ (s < (3 * st.a + st.b) / 4 ∧ st.b < s) → lo ≤ s ∧ s ≤ hi := by
    rintro s (⟨h1, h2⟩ | ⟨h1, h2⟩) <;> constructor <;> linarith [ha.1, ha.2, hb.1, hb.2]
  have hm : lo ≤ (st.a + st.b) * (1 / 2) ∧ (st.a + st.b) * (1 / 2) ≤ hi := by constructor <;> linarith [ha.1, ha.2, hb.1, hb.2]
  unfold Brent.next
  generalize (if st.fa ≠ st.fc ∧ st.fb ≠ st.fc then
      st.a * st.fb * st.fc / (st.fa - st.fb) / (st.fa - st.fc) + st.b * st.fa * st.fc / (st.fb - st.fa) / (st.fb - st.fc) +
        st.e * st.fa * st.fb / (st.fc - st.fa) / (st.fc - st.fb)
    else st.b - st.fb * (st.b - st.a) / (st.fb - st.fa)) = s
  dsimp only
  split_ifs with h
  · exact hm
  · rw [not_or, not_not] at h
    exact key s h.1

/-- What holds after at least one iteration. -/
structure Brent.Inv (nrm : Vec3 K → K) (eps : K) (this : Polyhedron K) (id : Int) (n : Vec3 K) (req vt tol lo hi : K) (st : Brent K) : Prop where
  a_mem : lo ≤ st.a ∧ st.a ≤ hi
  b_mem : lo ≤ st.b ∧ st.b ≤ hi
  d_mem : lo ≤ st.d ∧ st.d ≤ hi
  sign : st.fa * st.fb ≤ 0
  strict : st.fb ≠ 0 → st.fa * st.fb < 0
  last : st.vs / vt - req = st.fa ∨ st.vs / vt - req = st.fb
  zero : st.fb = 0 → st.vs / vt - req = 0
  clip : ∃ np, (st.np, st.poly) = ((this.clip nrm eps np id ⟨n, st.d⟩ tol).1, (this.clip nrm eps np id ⟨n, st.d⟩ tol).2.calculateVolume nrm eps true)
  vol : st.vs = st.poly.m_volume

theorem Brent.update_inv (nrm : Vec3 K → K) (eps : K) (this : Polyhedron K) (id : Int) (n : Vec3 K) (req vt tol lo hi : K) (st : Brent K)
    (ha : lo ≤ st.a ∧ st.a ≤ hi) (hb : lo ≤ st.b ∧ st.b ≤ hi) (hs : st.fa * st.fb < 0) :
    Brent.Inv nrm eps this id n req vt tol lo hi (st.update nrm eps this id n req vt tol) := by
  have hd := Brent.next_between tol st lo hi ha hb
  unfold Brent.update
  generalize st.next tol = sm at hd
  obtain ⟨s, mf⟩ := sm
  dsimp only at hd ⊢
  generalize hP : (this.clip nrm eps st.np id ⟨n, s⟩ tol).2.calculateVolume nrm eps true = poly
  have hc : ∃ np, ((this.clip nrm eps st.np id ⟨n, s⟩ tol).1, poly) =
      ((this.clip nrm eps np id ⟨n, s⟩ tol).1, (this.clip nrm eps np id ⟨n, s⟩ tol).2.calculateVolume nrm eps true) := ⟨st.np, by rw [hP]⟩
  generalize hfs : poly.m_volume / vt - req = fs
  by_cases h1 : st.fa * fs < 0
  · rw [if_pos h1]
    dsimp only
    by_cases h2 : |st.fa| < |fs|
    · rw [if_pos h2]
      have h3 : fs * st.fa < 0 := by rwa [mul_comm] at h1
      refine ⟨hd, ha, hd, h3.le, fun _ => h3, Or.inl hfs, ?_, hc, rfl⟩
      intro h; dsimp only at h; rw [h] at h1; simp at h1
    · rw [if_neg h2]
      refine ⟨ha, hd, hd, h1.le, fun _ => h1, Or.inr hfs, ?_, hc, rfl⟩
      intro h; dsimp only at h ⊢; rw [hfs]; exact h
  · rw [if_neg h1]
    dsimp only
    have hsign : fs * st.fb ≤ 0 ∧ (fs ≠ 0 → fs * st.fb < 0) := by
      rw [not_lt] at h1
      rcases mul_neg_iff.1 hs with ⟨h2, h3⟩ | ⟨h2, h3⟩
      · have h4 : 0 ≤ fs := by by_contra h; push Not at h; nlinarith
        refine ⟨by nlinarith, fun h => ?_⟩
        have : 0 < fs := lt_of_le_of_ne h4 (Ne.symm h)
        nlinarith
      · have h4 : fs ≤ 0 := by by_contra h; push Not at h; nlinarith
        refine ⟨by nlinarith, fun h => ?_⟩
        have : fs < 0 := lt_of_le_of_ne h4 h
        nlinarith
    by_cases h2 : |fs| < |st.fb|
    · rw [if_pos h2]
      refine ⟨hb, hd, hd, by dsimp only; linarith [hsign.1, mul_comm fs st.fb], fun h => by
        have := hsign.2 h; dsimp only; linarith [mul_comm fs st.fb], Or.inr hfs, ?_, hc, rfl⟩
      intro h; dsimp only at h ⊢; rw [hfs]; exact h
    · rw [if_neg h2]
      have hb0 : st.fb ≠ 0 := by rintro h; rw [h] at hs; simp at hs
      refine ⟨hd, hb, hd, hsign.1, fun _ => hsign.2 ?_, Or.inl hfs, ?_, hc, rfl⟩
      · rintro rfl
        rw [abs_zero, abs_pos] at h2
        exact h2 hb0
      · intro h; exact absurd h hb0

/-- The loop, started in a state that meets the invariant. -/
theorem Brent.loop_inv (nrm : Vec3 K → K) (eps : K) (this : Polyhedron K) (id : Int) (n : Vec3 K) (req vt tol lo hi : K) :
    ∀ (k i : Nat) (st : Brent K), Brent.Inv nrm eps this id n req vt tol lo hi st →
      Brent.Inv nrm eps this id n req vt tol lo hi (Brent.loop nrm eps this id n req vt tol k i st).1 ∧
      (Brent.loop nrm eps this id n req vt tol k i st).2 ≤ i + k ∧
      ((Brent.loop nrm eps this id n req vt tol k i st).2 < i + k →
        (Brent.loop nrm eps this id n req vt tol k i st).1.fb = 0 ∨
          |(Brent.loop nrm eps this id n req vt tol k i st).1.fa - (Brent.loop nrm eps this id n req vt tol k i st).1.fb| ≤ tol) := by
  intro k
  induction k with
  | zero => intro i st h; exact ⟨h, by simp [Brent.loop], fun hh => by simp [Brent.loop] at hh⟩
  | succ k ih =>
    intro i st h
    unfold Brent.loop
    by_cases hb : st.fb = 0 ∨ |st.fa - st.fb| ≤ tol
    · rw [if_pos hb]
      exact ⟨h, by simp, fun _ => hb⟩
    · rw [if_neg hb]
      obtain ⟨h1, h2, h3⟩ := ih (i + 1) _ (Brent.update_inv nrm eps this id n req vt tol lo hi st h.a_mem h.b_mem (h.strict (fun hh => hb (Or.inl hh))))
      exact ⟨h1, by omega, fun hh => h3 (by omega)⟩

/-- The interval of offsets contains the offset of every vertex, and is made of offsets of vertices when there are any. -/
theorem offsets_spec (big : K) (n : Vec3 K) (p : Polyhedron K) (hne : ∃ e ∈ p.polygons.entries, e.2.vs ≠ [])
    (hbig : ∀ e ∈ p.polygons.entries, ∀ v ∈ e.2.vs, -big ≤ v.dot n ∧ v.dot n ≤ big) :
    (∃ e ∈ p.polygons.entries, ∃ v ∈ e.2.vs, (p.offsets big n).1 = v.dot n) ∧ (∃ e ∈ p.polygons.entries, ∃ v ∈ e.2.vs, (p.offsets big n).2 = v.dot n) ∧
      ∀ e ∈ p.polygons.entries, ∀ v ∈ e.2.vs, (p.offsets big n).1 ≤ v.dot n ∧ v.dot n ≤ (p.offsets big n).2 := by
  have key : ∀ (l : List (Vec3 K)) (ab : K × K),
      let r := l.foldl (fun ab v => (min ab.1 (v.dot n), max ab.2 (v.dot n))) ab
      (r.1 = ab.1 ∨ ∃ v ∈ l, r.1 = v.dot n) ∧ (r.2 = ab.2 ∨ ∃ v ∈ l, r.2 = v.dot n) ∧ r.1 ≤ ab.1 ∧ ab.2 ≤ r.2 ∧ ∀ v ∈ l, r.1 ≤ v.dot n ∧ v.dot n ≤ r.2 := by
    intro l
    induction l with
    | nil => intro ab; simp
    | cons w l ih =>
      intro ab
      obtain ⟨h1, h2, h3, h4, h5⟩ := ih (min ab.1 (w.dot n), max ab.2 (w.dot n))
      dsimp only at h1 h2 h3 h4 h5 ⊢
      rw [List.foldl_cons]
      refine ⟨?_, ?_, h3.trans (min_le_left _ _), (le_max_left _ _).trans h4, ?_⟩
      · rcases h1 with h1 | ⟨v, hv, h1⟩
        · rcases min_choice ab.1 (w.dot n) with h | h
          · exact Or.inl (h1.trans h)
          · exact Or.inr ⟨w, by simp, h1.trans h⟩
        · exact Or.inr ⟨v, by simp [hv], h1⟩
      · rcases h2 with h2 | ⟨v, hv, h2⟩
        · rcases max_choice ab.2 (w.dot n) with h | h
          · exact Or.inl (h2.trans h)
          · exact Or.inr ⟨w, by simp, h2.trans h⟩
        · exact Or.inr ⟨v, by simp [hv], h2⟩
      · intro v hv
        rcases List.mem_cons.1 hv with rfl | hv
        · exact ⟨h3.trans (min_le_right _ _), (le_max_right _ _).trans h4⟩
        · exact h5 v hv
  obtain ⟨h1, h2, -, -, h5⟩ := key (p.polygons.entries.flatMap fun e => e.2.vs) (big, -big)
  change ((p.offsets big n).1 = big ∨ _) at h1
  change ((p.offsets big n).2 = -big ∨ _) at h2
  change ∀ v : Vec3 K, v ∈ _ → (p.offsets big n).1 ≤ v.dot n ∧ v.dot n ≤ (p.offsets big n).2 at h5
  have hm : ∀ v, v ∈ (p.polygons.entries.flatMap fun e => e.2.vs) ↔ ∃ e ∈ p.polygons.entries, v ∈ e.2.vs := fun v => List.mem_flatMap
  obtain ⟨e0, he0, hv0⟩ := hne
  obtain ⟨v0, hv0⟩ := List.exists_mem_of_ne_nil _ hv0
  have h50 := h5 v0 ((hm _).2 ⟨e0, he0, hv0⟩)
  have hb0 := hbig e0 he0 v0 hv0
  refine ⟨?_, ?_, fun e he v hv => h5 v ((hm v).2 ⟨e, he, hv⟩)⟩
  · rcases h1 with h1 | ⟨v, hv, h1⟩
    · exact ⟨e0, he0, v0, hv0, le_antisymm h50.1 (by rw [h1]; exact hb0.2)⟩
    · obtain ⟨e, he, hv⟩ := (hm v).1 hv
      exact ⟨e, he, v, hv, h1⟩
  · rcases h2 with h2 | ⟨v, hv, h2⟩
    · exact ⟨e0, he0, v0, hv0, le_antisymm (by rw [h2]; exact hb0.1) h50.2⟩
    · obtain ⟨e, he, hv⟩ := (hm v).1 hv
      exact ⟨e, he, v, hv, h2⟩

end Polyhedron

open Polyhedron

/-- **C51**, fractions outside the open unit interval: nothing for a fraction of at most 0, all polygons for at least 1, without any iteration and without
moving the plane. -/
theorem C51_outside (nrm : Vec3 K → K) (eps big : K) (np : Polygon K) (id : Int) (pl : GPlane K) (req : K) (nMax : Nat) (tol : K) (p : Polyhedron K) :
    (req ≤ 0 → p.clipFraction nrm eps big np id pl req nMax tol = ⟨empty, 0, 0, pl.d, np⟩) ∧
    (1 ≤ req → (p.clipFraction nrm eps big np id pl req nMax tol).poly.polygons = p.polygons ∧
      (p.clipFraction nrm eps big np id pl req nMax tol).poly.ids = p.polygons.keys ∧
      (p.clipFraction nrm eps big np id pl req nMax tol).act = 1 ∧ (p.clipFraction nrm eps big np id pl req nMax tol).iterations = 0 ∧
      (p.clipFraction nrm eps big np id pl req nMax tol).d = pl.d) := by
  constructor
  · intro h; unfold clipFraction; rw [if_pos h]
  · intro h
    unfold clipFraction
    rw [if_neg (by linarith [zero_lt_one (α := K)] : ¬ req ≤ 0), if_pos h]
    obtain ⟨h1, h2, h3, -⟩ := addPolygons_spec p.polygons.entries empty p.polygons.keys_nodup (fun _ _ => rfl)
    refine ⟨SMap.ext_find fun k => ?_, by simpa [empty, SMap.keys] using h1, rfl, rfl, rfl⟩
    dsimp only
    cases hk : p.polygons.find? k with
    | some v => exact h2 (k, v) ((SMap.find?_eq_some_iff _ _ _).1 hk)
    | none =>
      rw [h3 k (fun hm => by
        have := (SMap.mem_keys p.polygons k).1 hm
        rw [hk] at this; simp at this)]
      rfl

/-- **C51.** For every polyhedron with a vertex, every requested fraction strictly between 0 and 1, every tolerance below 1 and every positive iteration limit:
* at most `nMaxIterations` iterations are reported;
* the polyhedron returned is the clip by the plane with its final offset, and that offset lies between the smallest and the largest offset of a vertex;
* `volumeFractionAct` is the volume of the polyhedron returned divided by the volume of the polyhedron clipped;
* if fewer than `nMaxIterations` iterations are reported, `volumeFractionAct` differs from the requested fraction by at most the tolerance. -/
theorem C51_clip (nrm : Vec3 K → K) (eps big : K) (np : Polygon K) (id : Int) (pl : GPlane K) (req : K) (nMax : Nat) (tol : K) (p : Polyhedron K)
    (hne : ∃ e ∈ p.polygons.entries, e.2.vs ≠ []) (hbig : ∀ e ∈ p.polygons.entries, ∀ v ∈ e.2.vs, -big ≤ v.dot pl.normal ∧ v.dot pl.normal ≤ big)
    (hreq : 0 < req ∧ req < 1) (htol : 0 ≤ tol ∧ tol < 1) (hmax : 0 < nMax) :
    let r := p.clipFraction nrm eps big np id pl req nMax tol
    r.iterations ≤ nMax ∧
    (∃ np', r.poly = (p.clip nrm eps np' id ⟨pl.normal, r.d⟩ tol).2.calculateVolume nrm eps true) ∧
    ((∃ e ∈ p.polygons.entries, ∃ v ∈ e.2.vs, v.dot pl.normal ≤ r.d) ∧ ∃ e ∈ p.polygons.entries, ∃ v ∈ e.2.vs, r.d ≤ v.dot pl.normal) ∧
    r.act = (r.poly.calculateVolume nrm eps true).m_volume / (p.calculateVolume nrm eps false).m_volume ∧
    (r.iterations < nMax → |r.act - req| ≤ tol) := by
  intro r
  obtain ⟨k, rfl⟩ := Nat.exists_eq_succ_of_ne_zero (Nat.pos_iff_ne_zero.1 hmax)
  obtain ⟨ho1, ho2, ho3⟩ := offsets_spec big pl.normal p hne hbig
  set vt := (p.calculateVolume nrm eps false).m_volume with hvt
  set ab := p.offsets big pl.normal with hab
  have hle : ab.1 ≤ ab.2 := by
    obtain ⟨e, he, v, hv, -⟩ := ho1
    exact (ho3 e he v hv).1.trans (ho3 e he v hv).2
  set st0 : Brent K := ⟨ab.1, ab.2, ab.1, big, 0 - req, 1 - req, 0 - req, 0, true, pl.d, np, empty⟩ with hst0
  have hr : r = ⟨(Brent.loop nrm eps p id pl.normal req vt tol (k + 1) 0 st0).1.poly, (Brent.loop nrm eps p id pl.normal req vt tol (k + 1) 0 st0).1.vs / vt,
      (Brent.loop nrm eps p id pl.normal req vt tol (k + 1) 0 st0).2, (Brent.loop nrm eps p id pl.normal req vt tol (k + 1) 0 st0).1.d,
      (Brent.loop nrm eps p id pl.normal req vt tol (k + 1) 0 st0).1.np⟩ := by
    show p.clipFraction nrm eps big np id pl req (k + 1) tol = _
    unfold clipFraction
    rw [if_neg (by linarith [hreq.1] : ¬ req ≤ 0), if_neg (by linarith [hreq.2] : ¬ 1 ≤ req)]
  have hloop : Brent.loop nrm eps p id pl.normal req vt tol (k + 1) 0 st0 =
      Brent.loop nrm eps p id pl.normal req vt tol k 1 (st0.update nrm eps p id pl.normal req vt tol) := by
    rw [Brent.loop, if_neg]
    rintro (h | h)
    · have : (1 : K) - req = 0 := h
      linarith [hreq.2]
    · have h' : |(0 - req) - (1 - req)| ≤ tol := h
      rw [show (0 - req) - (1 - req) = (-1 : K) by ring, abs_neg, abs_one] at h'
      linarith [htol.2]
  have hinv := Brent.update_inv nrm eps p id pl.normal req vt tol ab.1 ab.2 st0 ⟨le_rfl, hle⟩ ⟨hle, le_rfl⟩
    (by show (0 - req) * (1 - req) < 0; nlinarith [hreq.1, hreq.2])
  obtain ⟨h1, h2, h3⟩ := Brent.loop_inv nrm eps p id pl.normal req vt tol ab.1 ab.2 k 1 _ hinv
  rw [← hloop] at h1 h2 h3
  generalize Brent.loop nrm eps p id pl.normal req vt tol (k + 1) 0 st0 = L at *
  obtain ⟨np', hc⟩ := h1.clip
  have hpoly : L.1.poly = (p.clip nrm eps np' id ⟨pl.normal, L.1.d⟩ tol).2.calculateVolume nrm eps true := congrArg Prod.snd hc
  rw [hr]
  refine ⟨by dsimp only; omega, ⟨np', hpoly⟩, ⟨?_, ?_⟩, ?_, ?_⟩
  · obtain ⟨e, he, v, hv, h⟩ := ho1
    exact ⟨e, he, v, hv, by rw [← h]; exact h1.d_mem.1⟩
  · obtain ⟨e, he, v, hv, h⟩ := ho2
    exact ⟨e, he, v, hv, by rw [← h]; exact h1.d_mem.2⟩
  · dsimp only
    rw [h1.vol, hpoly]
    simp [calculateVolume, volumeOf, polygon]
  · intro hlt
    dsimp only at hlt ⊢
    rcases h3 (by omega) with h | h
    · rw [h1.zero h, abs_zero]; exact htol.1
    · have hs := h1.sign
      rw [abs_le] at h
      rcases h1.last with hl | hl <;> rw [hl, abs_le]
      · constructor
        · by_contra hh; push Not at hh; nlinarith [htol.1]
        · by_contra hh; push Not at hh; nlinarith [htol.1]
      · constructor
        · by_contra hh; push Not at hh; nlinarith [htol.1]
        · by_contra hh; push Not at hh; nlinarith [htol.1]

/-- The unit cube with its faces pointing outwards. -/
def clipCube : Polyhedron ℚ :=
  ofHex (fun v => |v.x| + |v.y| + |v.z|) ⟨⟨0, 0, 0⟩, ⟨0, 1, 0⟩, ⟨1, 1, 0⟩, ⟨1, 0, 0⟩, ⟨0, 0, 1⟩, ⟨0, 1, 1⟩, ⟨1, 1, 1⟩, ⟨1, 0, 1⟩⟩

/-- The hypotheses of `C51_clip` are met by the unit cube, whose volume is 1. -/
example : (∃ e ∈ clipCube.polygons.entries, e.2.vs ≠ []) ∧
    (∀ e ∈ clipCube.polygons.entries, ∀ v ∈ e.2.vs, -100 ≤ v.dot ⟨0, 0, 1⟩ ∧ v.dot ⟨0, 0, 1⟩ ≤ 100) ∧
    (clipCube.calculateVolume (fun v => |v.x| + |v.y| + |v.z|) (1 / 1000) false).m_volume = 1 := by decide +kernel

/-- Asked for 3/10 of it, the function stops in the third iteration with the plane at height 3/10 and that fraction. -/
example : (let r := clipCube.clipFraction (fun v => |v.x| + |v.y| + |v.z|) (1 / 1000) 100 (Polygon.ofPolyline []) 99 ⟨⟨0, 0, 1⟩, 0⟩ (3 / 10) 50 (1 / 100)
    [r.act, r.iterations, r.d] = [3 / 10, 3, 3 / 10]) := by decide +kernel

/-- The unit cube in the vertex order of the library's own block mesher; `CGeoPolyhedron(hexahedron)` gives it faces pointing inwards. -/
def clipCubeIn : Polyhedron ℚ :=
  ofHex (fun v => |v.x| + |v.y| + |v.z|) ⟨⟨0, 0, 0⟩, ⟨1, 0, 0⟩, ⟨1, 1, 0⟩, ⟨0, 1, 0⟩, ⟨0, 0, 1⟩, ⟨1, 0, 1⟩, ⟨1, 1, 1⟩, ⟨0, 1, 1⟩⟩

/-- For that cube the volume of a clip is not the volume of the part below the plane: `close` orients the new face along the normal of the plane, against the
other faces. At height 1/2 the ratio of the volumes is 1/6, and asked for one half of the cube the search moves the plane to 317/320 of its height in seven
iterations and reports 317/960. -/
theorem C51_inward :
    (clipCubeIn.calculateVolume (fun v => |v.x| + |v.y| + |v.z|) (1 / 1000) false).m_volume = -1 ∧
    ((clipCubeIn.clip (fun v => |v.x| + |v.y| + |v.z|) (1 / 1000) (Polygon.ofPolyline []) 99 ⟨⟨0, 0, 1⟩, 1 / 2⟩ 0).2.calculateVolume
      (fun v => |v.x| + |v.y| + |v.z|) (1 / 1000) false).m_volume = -1 / 6 ∧
    (let r := clipCubeIn.clipFraction (fun v => |v.x| + |v.y| + |v.z|) (1 / 1000) 100 (Polygon.ofPolyline []) 99 ⟨⟨0, 0, 1⟩, 0⟩ (1 / 2) 7 0
     r.act = 317 / 960 ∧ r.iterations = 7 ∧ r.d = 317 / 320) := by
  decide +kernel

/-! ### C67: cutting in two -/

/-- **C67** fails: for every polyhedron and plane, the two polyhedra of `cut` are the same, the part on the negative side of the plane. -/
theorem C67_cut_same (nrm : Vec3 K → K) (eps : K) (np : Polygon K) (id : Int) (pl : GPlane K) (tol : K) (p : Polyhedron K) :
    (p.cut nrm eps np id pl tol).2 = (p.cut nrm eps np id pl tol).1 ∧ (p.cut nrm eps np id pl tol).1 = (p.clip nrm eps np id pl tol).2 := by
  refine ⟨?_, rfl⟩
  have key : ∀ (q : Polyhedron K), (q.close nrm eps (q.close nrm eps np id pl tol).1 id pl tol).2 = (q.close nrm eps np id pl tol).2 := by
    intro q
    unfold Polyhedron.close
    dsimp only
    by_cases h : 2 < (q.planeLines pl tol).length
    · simp only [if_pos h]
      have hn : ∀ (a b : Polygon K), a.m_area = b.m_area → a.bArea = b.bArea → ∀ vs,
          (a.setPolyline vs).calculateNormal nrm eps true = (b.setPolyline vs).calculateNormal nrm eps true := by
        intro a b h1 h2 vs
        simp [Polygon.calculateNormal, Polygon.setPolyline, h1, h2]
      rw [hn _ np]
      · split_ifs <;> simp [Polygon.calculateNormal, Polygon.setPolyline, Polygon.invert]
      · split_ifs <;> simp [Polygon.calculateNormal, Polygon.setPolyline, Polygon.invert]
    · simp only [if_neg h]
  exact key _

/-- The two parts of the cube cut at height 1/4 have volume 1/4 each. -/
theorem C67_cut_cube :
    (let r := clipCube.cut (fun v => |v.x| + |v.y| + |v.z|) (1 / 1000) (Polygon.ofPolyline []) 99 ⟨⟨0, 0, 1⟩, 1 / 4⟩ 0
     (r.1.calculateVolume (fun v => |v.x| + |v.y| + |v.z|) (1 / 1000) false).m_volume = 1 / 4 ∧
     (r.2.calculateVolume (fun v => |v.x| + |v.y| + |v.z|) (1 / 1000) false).m_volume = 1 / 4) := by
  decide +kernel

end ENigMA
