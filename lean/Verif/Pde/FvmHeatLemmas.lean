import Verif.Pde.FvmHeat
import Verif.Pde.FdmHeatLemmas

/-!
# Lemmas for C146 and C147
-/

set_option linter.unusedSectionVars false
set_option autoImplicit false

namespace ENigMA
namespace FvmHeat
open FvmOp
variable {K : Type} [Field K] [LinearOrder K] [IsStrictOrderedRing K]

/-- Area over distance. -/
def trans (nrm : Vec3 K → K) (eps : K) (c : Ctx K) (fid : Int) : K := areaOf nrm eps c.mesh fid / distOf nrm c fid

/-- The flux with the prescribed values replaced by zero. -/
def flux0 (nrm : Vec3 K → K) (eps : K) (c : Ctx K) (z : Nat → K) (i : Nat) (fid : Int) : K :=
  match acrossOf c fid, prescribed c fid with
  | some j, _ => trans nrm eps c fid * (z j.toNat - z i)
  | none, some _ => trans nrm eps c fid * (0 - z i)
  | none, none => 0

/-- Its sum over the faces of a cell. -/
def net0 (nrm : Vec3 K → K) (eps : K) (c : Ctx K) (z : Nat → K) (i : Nat) : K := ((facesAt c.mesh i).map (flux0 nrm eps c z i)).sum

/-- The sum of the fluxes into a cell. -/
def net (nrm : Vec3 K → K) (eps : K) (c : Ctx K) (x : Nat → K) (i : Nat) : K := ((facesAt c.mesh i).map (fluxInto nrm eps c x i)).sum

theorem sum_map_add' {α : Type} (l : List α) (f g h : α → K) (e : ∀ a ∈ l, h a = f a + g a) : (l.map h).sum = (l.map f).sum + (l.map g).sum := by
  induction l with
  | nil => simp
  | cons a t ih => simp only [List.map_cons, List.sum_cons, ih fun b hb => e b (by simp [hb]), e a (by simp)]; ring

theorem sum_map_mul' {α : Type} (l : List α) (k : K) (f h : α → K) (e : ∀ a ∈ l, h a = k * f a) : (l.map h).sum = k * (l.map f).sum := by
  induction l with
  | nil => simp
  | cons a t ih => simp only [List.map_cons, List.sum_cons, ih fun b hb => e b (by simp [hb]), e a (by simp)]; ring

theorem sum_map_le' {α : Type} (l : List α) (f g : α → K) (e : ∀ a ∈ l, f a ≤ g a) : (l.map f).sum ≤ (l.map g).sum := by
  induction l with
  | nil => simp
  | cons a t ih => simp only [List.map_cons, List.sum_cons]; exact add_le_add (e a (by simp)) (ih fun b hb => e b (by simp [hb]))

theorem sum_nonpos' (l : List K) (h : ∀ y ∈ l, y ≤ 0) : l.sum ≤ 0 := by
  induction l with
  | nil => simp
  | cons a t ih => rw [List.sum_cons]; have := h a (by simp); have := ih fun b hb => h b (by simp [hb]); linarith

theorem net_split (nrm : Vec3 K → K) (eps : K) (c : Ctx K) (x y : Nat → K) (i : Nat) : net nrm eps c x i = net0 nrm eps c (fun j => x j - y j) i + net nrm eps c y i := by
  refine sum_map_add' _ _ _ _ fun fid _ => ?_
  unfold fluxInto flux0 trans
  cases acrossOf c fid <;> cases prescribed c fid <;> simp only <;> ring

theorem net0_smul (nrm : Vec3 K → K) (eps : K) (c : Ctx K) (k : K) (z : Nat → K) (i : Nat) : net0 nrm eps c (fun j => k * z j) i = k * net0 nrm eps c z i := by
  refine sum_map_mul' _ _ _ _ fun fid _ => ?_
  unfold flux0
  cases acrossOf c fid <;> cases prescribed c fid <;> simp only <;> ring

theorem net0_add (nrm : Vec3 K → K) (eps : K) (c : Ctx K) (y z : Nat → K) (i : Nat) :
    net0 nrm eps c (fun j => y j + z j) i = net0 nrm eps c y i + net0 nrm eps c z i := by
  refine sum_map_add' _ _ _ _ fun fid _ => ?_
  unfold flux0
  cases acrossOf c fid <;> cases prescribed c fid <;> simp only <;> ring

theorem facesAt_eq {c : Ctx K} {i : Nat} {id : Int} {e : Elem} (h1 : c.mesh.elements.idAt? i = some id) (h2 : c.mesh.elements.get? id = some e) :
    facesAt c.mesh i = e.faceIds := by simp [facesAt, h1, h2]

/-- The `i`-th cell. -/
theorem cell {c : Ctx K} (hm : Regular c.mesh) {i : Nat} (hi : i < c.mesh.elements.count) :
    ∃ id e, c.mesh.elements.idAt? i = some id ∧ c.mesh.elements.get? id = some e ∧ facesAt c.mesh i = e.faceIds := by
  have h1 : c.mesh.elements.idAt? i = some (c.mesh.elements.ids[i]'hi) := List.getElem?_eq_getElem hi
  obtain ⟨e, he⟩ := (hm.wf.elements.2 _).1 (List.getElem_mem hi)
  exact ⟨_, e, h1, he, facesAt_eq h1 he⟩

theorem idAt_lt {c : Ctx K} {i : Nat} {id : Int} (h : c.mesh.elements.idAt? i = some id) : i < c.mesh.elements.count := (List.getElem?_eq_some_iff.1 h).1

/-- A face of a cell is a face of the mesh. -/
theorem face_of {c : Ctx K} (hm : Regular c.mesh) {i : Nat} (hi : i < c.mesh.elements.count) {fid : Int} (h : fid ∈ facesAt c.mesh i) :
    ∃ f, c.mesh.faces.get? fid = some f ∧ fid ∈ c.mesh.faces.ids ∧ c.mesh.elements.idAt? i = some f.elementId := by
  obtain ⟨id, e, h1, h2, h3⟩ := cell hm hi
  rw [h3] at h
  obtain ⟨f, hf, hid⟩ := ((hm.owner id e h2).2 fid).1 h
  exact ⟨f, hf, (hm.wf.faces.2 fid).2 ⟨f, hf⟩, hid ▸ h1⟩

/-- The cell across a face is a cell of the mesh. -/
theorem across_lt {c : Ctx K} (hm : Regular c.mesh) {fid j : Int} (h : acrossOf c fid = some j) : ∃ k : Nat, j = k ∧ k < c.mesh.elements.count := by
  simp only [acrossOf, Option.bind_eq_bind] at h
  obtain ⟨f, h1, h⟩ := Option.bind_eq_some_iff.1 h
  split_ifs at h with hp
  obtain ⟨g, h2, h⟩ := Option.bind_eq_some_iff.1 h
  obtain ⟨k, k1, k2⟩ := hm.indices.2 _ (hm.owned _ g h2)
  rw [k1] at h
  exact ⟨k, (Option.some.inj h).symm, idAt_lt k2⟩

theorem trans_pos {nrm : Vec3 K → K} {eps : K} {c : Ctx K} {out : Bool} (g : Cells nrm eps out c) {fid : Int} (h : fid ∈ c.mesh.faces.ids) (ha : acrossOf c fid ≠ none ∨ prescribed c fid ≠ none) :
    0 < trans nrm eps c fid := div_pos (g.area fid h) (g.apart fid h ha)

/-- Comparison: a vector that is not driven upwards by anything is not positive. -/
theorem compare {nrm : Vec3 K → K} {eps : K} {c : Ctx K} {out : Bool} (g : Cells nrm eps out c) (k : K) (hk : 0 ≤ k) (a z : Nat → K)
    (ha : (∀ i < c.mesh.elements.count, 0 < a i) ∨ (0 < k ∧ (∀ i < c.mesh.elements.count, 0 ≤ a i) ∧ ∀ i < c.mesh.elements.count, Anchored c i))
    (h : ∀ i < c.mesh.elements.count, a i * z i ≤ k * net0 nrm eps c z i) : ∀ i < c.mesh.elements.count, z i ≤ 0 := by
  intro i0 hi0
  obtain ⟨m, hm, hmax⟩ := Finset.exists_max_image (Finset.range c.mesh.elements.count) z ⟨i0, Finset.mem_range.2 hi0⟩
  rw [Finset.mem_range] at hm
  have hmax : ∀ j < c.mesh.elements.count, z j ≤ z m := fun j hj => hmax j (Finset.mem_range.2 hj)
  refine (hmax i0 hi0).trans ?_
  by_contra hlt
  rw [not_le] at hlt
  -- every term at a largest value is at most zero
  have hterm : ∀ i < c.mesh.elements.count, z i = z m → ∀ fid ∈ facesAt c.mesh i, flux0 nrm eps c z i fid ≤ 0 := by
    intro i hi he fid hf
    obtain ⟨f, -, hid, -⟩ := face_of g.regular hi hf
    unfold flux0
    cases hA : acrossOf c fid with
    | some j =>
      obtain ⟨n, rfl, hn⟩ := across_lt g.regular hA
      refine mul_nonpos_of_nonneg_of_nonpos (trans_pos g hid (Or.inl (by rw [hA]; simp))).le ?_
      have := hmax n hn
      simp only [Int.toNat_natCast]; linarith
    | none =>
      cases hP : prescribed c fid with
      | some v => exact mul_nonpos_of_nonneg_of_nonpos (trans_pos g hid (Or.inr (by rw [hP]; simp))).le (by linarith)
      | none => exact le_rfl
  have hsum : ∀ i < c.mesh.elements.count, z i = z m → net0 nrm eps c z i ≤ 0 := fun i hi he => by
    refine sum_nonpos' _ fun y hy => ?_
    obtain ⟨fid, hf, rfl⟩ := List.mem_map.1 hy
    exact hterm i hi he fid hf
  rcases ha with ha | ⟨hk0, ha, hanch⟩
  · have h1 := h m hm
    have h2 := mul_nonpos_of_nonneg_of_nonpos hk (hsum m hm rfl)
    have h3 := mul_pos (ha m hm) hlt
    linarith
  · have hzero : ∀ i < c.mesh.elements.count, z i = z m → ∀ fid ∈ facesAt c.mesh i, flux0 nrm eps c z i fid = 0 := by
      intro i hi he fid hf
      by_contra hne
      have hneg : flux0 nrm eps c z i fid < 0 := lt_of_le_of_ne (hterm i hi he fid hf) hne
      have hs : net0 nrm eps c z i < 0 := by
        obtain ⟨l1, l2, hl⟩ := List.append_of_mem hf
        unfold net0
        rw [hl]
        simp only [List.map_append, List.map_cons, List.sum_append, List.sum_cons]
        have s1 : (l1.map (flux0 nrm eps c z i)).sum ≤ 0 := sum_nonpos' _ fun y hy => by
          obtain ⟨fid', hf', rfl⟩ := List.mem_map.1 hy
          exact hterm i hi he fid' (hl ▸ List.mem_append_left _ hf')
        have s2 : (l2.map (flux0 nrm eps c z i)).sum ≤ 0 := sum_nonpos' _ fun y hy => by
          obtain ⟨fid', hf', rfl⟩ := List.mem_map.1 hy
          exact hterm i hi he fid' (hl ▸ List.mem_append_right _ (List.mem_cons_of_mem _ hf'))
        linarith
      have h1 := h i hi
      have h2 := mul_neg_of_pos_of_neg hk0 hs
      have h3 := mul_nonneg (ha i hi) (he ▸ hlt.le)
      linarith
    have key : ∀ i, Anchored c i → i < c.mesh.elements.count → z i ≠ z m := by
      intro i hA
      induction hA with
      | face i fid v hf hv =>
        intro hi he
        obtain ⟨f, h1, hid, -⟩ := face_of g.regular hi hf
        have hz := hzero i hi he fid hf
        have hno : acrossOf c fid = none := by
          simp only [prescribed, h1, Option.bind_eq_bind, Option.bind_some] at hv
          split_ifs at hv with hp
          simp [acrossOf, h1, hp]
        simp only [flux0, hno, hv] at hz
        rcases mul_eq_zero.1 hz with hz | hz
        · exact (trans_pos g hid (Or.inr (by rw [hv]; simp))).ne' hz
        · linarith
      | across i j fid hf hA' hj ih =>
        intro hi he
        obtain ⟨f, h1, hid, -⟩ := face_of g.regular hi hf
        have hz := hzero i hi he fid hf
        obtain ⟨n, hn, hn'⟩ := across_lt g.regular hA'
        have hn : j = n := by exact_mod_cast hn
        subst hn
        simp only [flux0, hA'] at hz
        rcases mul_eq_zero.1 hz with hz | hz
        · exact (trans_pos g hid (Or.inl (by rw [hA']; simp))).ne' hz
        · refine ih hn' ?_
          simp only [Int.toNat_natCast] at hz
          linarith
    exact key m (hanch m hm) hm rfl

/-- Only the zero vector solves the equations without sources. -/
theorem kernel {nrm : Vec3 K → K} {eps : K} {c : Ctx K} {out : Bool} (g : Cells nrm eps out c) (k : K) (hk : 0 ≤ k) (a z : Nat → K)
    (ha : (∀ i < c.mesh.elements.count, 0 < a i) ∨ (0 < k ∧ (∀ i < c.mesh.elements.count, 0 ≤ a i) ∧ ∀ i < c.mesh.elements.count, Anchored c i))
    (h : ∀ i < c.mesh.elements.count, a i * z i = k * net0 nrm eps c z i) : ∀ i < c.mesh.elements.count, z i = 0 := by
  intro i hi
  refine le_antisymm (compare g k hk a z ha (fun i hi => (h i hi).le) i hi) ?_
  have := compare g k hk a (fun j => -1 * z j) ha (fun i hi => by rw [net0_smul]; have := h i hi; linarith) i hi
  linarith

/-! ### The operators succeed -/

theorem mapM_length {α β : Type} (f : α → Option β) (l : List α) (r : List β) (h : l.mapM f = some r) : r.length = l.length := by
  induction l generalizing r with
  | nil => simp at h; simp [h]
  | cons a t ih =>
    simp only [List.mapM_cons, Option.bind_eq_bind, Option.pure_def] at h
    obtain ⟨b, -, h⟩ := Option.bind_eq_some_iff.1 h
    obtain ⟨r', h1, h2⟩ := Option.bind_eq_some_iff.1 h
    cases h2
    simp [ih r' h1]

theorem elCentroid_some {nrm : Vec3 K → K} {eps : K} {c : Ctx K} {out : Bool} (g : Cells nrm eps out c) {id : Int} (h : id ∈ c.mesh.elements.ids) : ∃ p, c.elCentroid id = some p := by
  obtain ⟨k, k1, k2⟩ := g.regular.indices.2 id h
  have hl := mapM_length _ _ _ g.elementCentroid
  have hk : k < c.elementCentroid.length := hl ▸ idAt_lt k2
  exact ⟨c.elementCentroid[k], by simp [Ctx.elCentroid, k1, Mesh.atIdx, List.getElem?_eq_getElem hk]⟩

theorem controlVolume_some {c : Ctx K} (hm : Regular c.mesh) (l : List Int) (hl : ∀ fid ∈ l, ∃ f, c.mesh.faces.get? fid = some f) : ∀ cv : ControlVolume K,
    ∃ cv', controlVolume c.mesh l cv = some cv' := by
  induction l with
  | nil => intro cv; exact ⟨cv, rfl⟩
  | cons a t ih =>
    intro cv
    obtain ⟨f, hf⟩ := hl a (by simp)
    have : ∃ vs, f.nodeIds.mapM c.mesh.nodes.get? = some vs := by
      refine ⟨f.nodeIds.map fun n => (c.mesh.nodes.get? n).getD 0, mapM_option_eq fun n hn => ?_⟩
      obtain ⟨v, hv⟩ := (hm.wf.nodes.2 n).1 (hm.wf.faceNodes a f hf n hn)
      simp [hv]
    obtain ⟨vs, hvs⟩ := this
    obtain ⟨cv', h⟩ := ih (fun fid hfid => hl fid (by simp [hfid])) (cv.addFace a { vs := vs })
    exact ⟨cv', by simp only [controlVolume, hf, hvs, Option.bind_eq_bind, Option.bind_some, h]⟩

/-- The sign of the volumes. -/
def sgn (out : Bool) : K := if out then 1 else -1

theorem Cells.abs {nrm : Vec3 K → K} {eps : K} {c : Ctx K} {out : Bool} (g : Cells nrm eps out c) {i : Nat} (hi : i < c.mesh.elements.count) :
    |volumeOf nrm eps c.mesh i| = sgn out * volumeOf nrm eps c.mesh i := by
  have := g.volume i hi
  cases out
  · simp only [Bool.false_eq_true, if_false] at this
    simp [sgn, abs_of_neg this]
  · simp only [if_true] at this
    simp [sgn, abs_of_pos this]

theorem Cells.size {nrm : Vec3 K → K} {eps : K} {c : Ctx K} {out : Bool} (g : Cells nrm eps out c) (i : Nat) (hi : i < c.mesh.elements.count) : 0 < |volumeOf nrm eps c.mesh i| := by
  have := g.volume i hi
  cases out
  · simp only [Bool.false_eq_true, if_false] at this
    exact abs_pos.2 this.ne
  · simp only [if_true] at this
    exact abs_pos.2 this.ne'

theorem sgn_sq (out : Bool) : sgn out * sgn out = (1 : K) := by cases out <;> simp [sgn]

/-- One face. -/
theorem laplacianFace_some {nrm : Vec3 K → K} {eps : K} {c : Ctx K} {out : Bool} (g : Cells nrm eps out c) {i : Nat} (hi : i < c.mesh.elements.count) {id : Int} {e : Elem}
    (h1 : c.mesh.elements.idAt? i = some id) (h2 : c.mesh.elements.get? id = some e) {cv : ControlVolume K} (hcv : controlVolume c.mesh e.faceIds (ControlVolume.new 0) = some cv)
    {fid : Int} (hf : fid ∈ e.faceIds) : ∃ out, laplacianFace nrm eps c i id cv fid = some out ∧ ∀ st ∈ out, st.Ok c.mesh.elements.count := by
  obtain ⟨f, hf1, hid, hf2⟩ := face_of g.regular hi (facesAt_eq h1 h2 ▸ hf)
  rw [h1] at hf2
  have hf2 := Option.some.inj hf2
  have hV : volume nrm eps cv ≠ 0 := by
    have := g.size i hi
    simp only [volumeOf, h1, h2, hcv, Option.bind_some, Option.map_some, Option.getD_some] at this
    exact abs_pos.1 this
  have hs : ∃ out, laplacianFace nrm eps c i id cv fid = some out := by
    by_cases hp : f.hasPair
    · obtain ⟨-, q, hq, hq1, hq2⟩ := g.regular.pairs fid f hf1 hp
      obtain ⟨k, k1, k2⟩ := g.regular.indices.2 _ (g.regular.owned _ q hq)
      obtain ⟨p1, hp1⟩ := elCentroid_some g (g.regular.owned _ q hq)
      obtain ⟨p2, hp2⟩ := elCentroid_some g (g.regular.owned _ f hf1)
      have hA : acrossOf c fid = some (k : Int) := by simp [acrossOf, hf1, hp, hq, k1]
      have hd := g.apart fid hid (Or.inl (by rw [hA]; simp))
      simp only [distOf, hf1, hp, hq, hp1, hp2, if_true, Option.bind_eq_bind, Option.bind_some, Option.pure_def, Option.getD_some] at hd
      rw [← hf2] at hp2
      exact ⟨_, by
        simp only [laplacianFace, hf1, hp, if_true, hq, k1, hp1, hp2, Option.bind_eq_bind, Option.bind_some, hd.ne', hV, or_self, if_false]; rfl⟩
    · cases hv : fixedValue c.field fid with
      | none => exact ⟨[], by simp [laplacianFace, hf1, hp, hv]⟩
      | some v =>
        have hP : prescribed c fid = some v := by simp [prescribed, hf1, hp, hv]
        have hd := g.apart fid hid (Or.inr (by rw [hP]; simp))
        obtain ⟨p2, hp2⟩ := elCentroid_some g (g.regular.owned _ f hf1)
        cases hc : c.fcCentroid fid with
        | none => simp [distOf, hf1, hp, hp2, hc] at hd
        | some q =>
          simp only [distOf, hf1, hp, hp2, hc, Bool.false_eq_true, if_false, Option.bind_eq_bind, Option.bind_some, Option.pure_def, Option.getD_some] at hd
          rw [← hf2] at hp2
          exact ⟨_, by
            simp only [laplacianFace, hf1, hp, hv, hp2, hc, Bool.false_eq_true, if_false, Option.bind_eq_bind, Option.bind_some, hd.ne', hV, or_self]; rfl⟩
  obtain ⟨out, ho⟩ := hs
  refine ⟨out, ho, ?_⟩
  rcases laplacianFace_spec nrm eps c i id e.faceIds cv hcv fid hf ⟨f, hf1, hf2.symm⟩ out ho with ⟨j, a1, -, -, -, rfl⟩ | ⟨v, -, -, -, -, rfl⟩ | ⟨-, -, rfl⟩
  · obtain ⟨k, rfl, hk⟩ := across_lt g.regular a1
    simp [Stamp.Ok, Equation.InRange, hi, hk]
  · simp [Stamp.Ok, Equation.InRange, hi]
  · simp

/-- `laplacian` succeeds. -/
theorem laplacian_some {nrm : Vec3 K → K} {eps : K} {c : Ctx K} {out : Bool} (g : Cells nrm eps out c) : ∃ s, laplacian nrm eps c = some s ∧ s.n = c.mesh.elements.count ∧ s.kind = .sparse ∧
    ∀ x, ∀ i < c.mesh.elements.count, volumeOf nrm eps c.mesh i * s.residual x i = net nrm eps c x i := by
  have hg : ∀ i ∈ List.range c.mesh.elements.count, ∃ o, elementRow c (fun id cv fid => laplacianFace nrm eps c i id cv fid) i = some o ∧
      ∀ st ∈ o, st.Ok (Sys.zero .sparse c.mesh.elements.count : Sys K).n := by
    intro i hi
    have hi := List.mem_range.1 hi
    obtain ⟨id, e, h1, h2, h3⟩ := cell g.regular hi
    obtain ⟨cv, hcv⟩ := controlVolume_some g.regular e.faceIds (fun fid hf => by
      obtain ⟨f, hf1, -⟩ := face_of g.regular hi (h3 ▸ hf)
      exact ⟨f, hf1⟩) (ControlVolume.new 0)
    have hids := (controlVolume_spec _ _ _ _ hcv).1
    simp only [ControlVolume.new, Polyhedron.empty, List.nil_append] at hids
    have hout := fun fid (hf : fid ∈ e.faceIds) => laplacianFace_some g hi h1 h2 hcv hf
    choose! o ho ho' using hout
    refine ⟨e.faceIds.flatMap o, ?_, ?_⟩
    · simp only [elementRow, h1, h2, hcv, Option.bind_eq_bind, Option.bind_some, hids]
      exact FemOp.collect_map _ _ o ho
    · intro st hst
      obtain ⟨fid, hf, hst⟩ := List.mem_flatMap.1 hst
      exact ho' fid hf st hst
  choose! o h1 h2 using hg
  obtain ⟨s, hs, -⟩ := Sys.assemble_spec ((List.range c.mesh.elements.count).flatMap o) (Sys.zero .sparse c.mesh.elements.count) (by
    intro st hst
    obtain ⟨i, hi, hst⟩ := List.mem_flatMap.1 hst
    exact h2 i hi st hst)
  have hl : laplacian nrm eps c = some s := by
    simp only [laplacian, FemOp.collect_map _ _ o h1, Option.bind_eq_bind, Option.bind_some, hs]
  obtain ⟨a1, a2⟩ := C22_flux nrm eps c g.regular s hl
  exact ⟨s, hl, a1, (Sys.assemble_kind _ _ _ hs).trans rfl, fun x i hi => a2 x i (a1 ▸ hi)⟩

/-- `ddt` succeeds. -/
theorem ddt_some {c : Ctx K} (hm : Regular c.mesh) : ∃ s, ddt c = some s ∧ s.n = c.mesh.elements.count ∧ s.kind = .sparse ∧
    ∀ x, ∀ i < c.mesh.elements.count, s.residual x i = x i - start c c.u i := by
  obtain ⟨s, hs⟩ := Option.isSome_iff_exists.1 (C66_ddt_defined c hm.wf.elements)
  obtain ⟨a1, a2⟩ := C66_ddt c s hs
  refine ⟨s, hs, a1, ?_, fun x i hi => a2 i (a1 ▸ hi) x⟩
  simp only [ddt, Option.bind_eq_bind] at hs
  obtain ⟨l, -, h⟩ := Option.bind_eq_some_iff.1 hs
  exact (Sys.assemble_kind _ _ _ h).trans rfl

theorem cells_with {nrm : Vec3 K → K} {eps : K} {c : Ctx K} {out : Bool} (g : Cells nrm eps out c) (u : Nat → K) : Cells nrm eps out { c with u := u } :=
  ⟨g.regular, g.elementCentroid, g.faceCentroid, g.volume, g.area, g.pair, g.apart⟩

theorem plain_ok {f : EqField K} (h : Plain f) (n : Nat) : IndicesOk f.uFixed n := by
  intro i v hv
  have := (f.uFixed.find?_eq_some_iff i v).1 hv
  rw [h] at this
  cases this

theorem plain_none {f : EqField K} (h : Plain f) (i : Nat) : Equation.prescribed f i = none := by
  cases hp : Equation.prescribed f i with
  | none => rfl
  | some v =>
    have := (f.uFixed.find?_eq_some_iff (i : Int) v).1 hp
    rw [h] at this
    cases this

/-- A system that has at most one solution: the field holds it. -/
theorem solve_run (solver : Sys K → Nat → K) (hS : FdmHeat.Sound solver) (junk : Nat → K) (s : Sys K) (hk : s.kind ≠ .unknown) (f : EqField K) (hf : Plain f)
    (hu : ∀ z : Nat → K, (∀ i < s.n, s.row z i = 0) → ∀ i < s.n, z i = 0) :
    ∃ u : EVec K, (Equation.new (s.assignReal 0)).solve solver junk f = some { f with u := u } ∧ u.size = s.n ∧ s.Solves u.at' := by
  rw [FdmHeat.assignZero]
  obtain ⟨u, h1, h2, h3⟩ := Equation.solve_plain solver junk s f hk (plain_ok hf _)
  refine ⟨u, h1, h2, ?_⟩
  have : u.at' = solver s := funext fun i => by rw [h3 i, plain_none hf]; rfl
  rw [this]
  exact hS s (Sys.exists_of_trivial s hu)

theorem residual_row (s : Sys K) (z : Nat → K) (i : Nat) : s.row z i = s.residual z i - s.residual (fun _ => 0) i := by
  simp [Sys.residual, Sys.row]

theorem solves_residual (s : Sys K) (x : Nat → K) : s.Solves x ↔ ∀ i < s.n, s.residual x i = 0 := by
  simp only [Sys.Solves, Sys.residual, sub_eq_zero]

/-- The system of `steady`. -/
theorem steady_run {nrm : Vec3 K → K} {eps : K} (solver : Sys K → Nat → K) (hS : FdmHeat.Sound solver) (junk : Nat → K) {c : Ctx K} {out : Bool} (g : Cells nrm eps out c)
    (ha : ∀ i < c.mesh.elements.count, Anchored c i) (f : EqField K) (hf : Plain f) :
    ∃ u : EVec K, steady nrm eps solver junk c f = some { f with u := u } ∧ u.size = c.mesh.elements.count ∧ Balanced nrm eps c u.at' ∧
      ∀ y, Balanced nrm eps c y → ∀ i < c.mesh.elements.count, y i = u.at' i := by
  obtain ⟨l, l1, l2, l3, l4⟩ := laplacian_some (cells_with g f.u.at')
  have l2 : l.n = c.mesh.elements.count := l2
  have l4 : ∀ x, ∀ i < c.mesh.elements.count, volumeOf nrm eps c.mesh i * l.residual x i = net nrm eps c x i := l4
  obtain ⟨u, h1, h2, h3⟩ := solve_run solver hS junk l (by rw [l3]; simp) f hf (by
    intro z hz
    rw [l2] at hz ⊢
    refine kernel g 1 zero_le_one (fun _ => 0) z (Or.inr ⟨one_pos, fun _ _ => le_rfl, ha⟩) fun i hi => ?_
    have := hz i hi
    rw [residual_row] at this
    have e1 := l4 z i hi
    have e2 := l4 (fun _ => 0) i hi
    have e3 := net_split nrm eps c z (fun _ => 0) i
    simp only [sub_zero] at e3
    linear_combination e3 - volumeOf nrm eps c.mesh i * this + e1 - e2)
  refine ⟨u, ?_, h2.trans l2, ?_, ?_⟩
  · simp only [steady, l1, Option.bind_eq_bind, Option.bind_some]; exact h1
  · intro i hi
    have := (solves_residual l _).1 h3 i (l2 ▸ hi)
    have e := l4 u.at' i hi
    rw [this, mul_zero] at e
    exact e.symm
  · intro y hy i hi
    have hz := kernel g 1 zero_le_one (fun _ => 0) (fun j => y j - u.at' j) (Or.inr ⟨one_pos, fun _ _ => le_rfl, ha⟩) (fun i hi => by
      have e3 := net_split nrm eps c y u.at' i
      have e1 : net nrm eps c y i = 0 := hy i hi
      have e2 : net nrm eps c u.at' i = 0 := by
        have := (solves_residual l _).1 h3 i (l2 ▸ hi)
        rw [← l4 u.at' i hi, this, mul_zero]
      linear_combination e3 - e1 + e2) i hi
    exact sub_eq_zero.1 hz

/-- The system of `step`. -/
theorem step_sys {nrm : Vec3 K → K} {eps : K} (solver : Sys K → Nat → K) (junk : Nat → K) {c : Ctx K} {out : Bool} (g : Cells nrm eps out c) (minus : Bool) (P : FdmHeat.Par K) (f : EqField K) :
    ∃ s : Sys K, step nrm eps solver junk c minus P f = (Equation.new (s.assignReal 0)).solve solver junk f ∧ s.n = c.mesh.elements.count ∧ s.kind = .sparse ∧
      (∀ x, ∀ i < c.mesh.elements.count, |volumeOf nrm eps c.mesh i| * s.residual x i =
        P.rc / P.dt * |volumeOf nrm eps c.mesh i| * (x i - start c f.u.at' i) - sgn minus * sgn out * P.k * net nrm eps c x i) ∧
      ∀ x, s.Solves x ↔ Stored nrm eps c { P with k := sgn minus * sgn out * P.k } (start c f.u.at') x := by
  obtain ⟨l, l1, l2, l3, l4⟩ := laplacian_some (cells_with g f.u.at')
  have l2 : l.n = c.mesh.elements.count := l2
  have l4 : ∀ x, ∀ i < c.mesh.elements.count, volumeOf nrm eps c.mesh i * l.residual x i = net nrm eps c x i := l4
  obtain ⟨d, d1, d2, d3, d4⟩ := ddt_some (c := { c with u := f.u.at' }) g.regular
  have d2 : d.n = c.mesh.elements.count := d2
  have d4 : ∀ x, ∀ i < c.mesh.elements.count, d.residual x i = x i - start c f.u.at' i := d4
  have hn : (Sys.smul (P.rc / P.dt) d).n = (Sys.smul P.k l).n := show d.n = l.n by rw [l2, d2]
  have hop : ∃ s, (if minus then (Sys.smul (P.rc / P.dt) d).sub (Sys.smul P.k l) else (Sys.smul (P.rc / P.dt) d).add (Sys.smul P.k l)) = some s ∧ s.n = d.n ∧ s.kind = .sparse ∧
      ∀ x i, s.residual x i = P.rc / P.dt * d.residual x i - sgn minus * P.k * l.residual x i := by
    have r1 := fun x i => (C18_residuals d l (show d.n = l.n by rw [l2, d2]) (P.rc / P.dt) (fun _ => 0) x).2.2.1.2 i
    have r2 := fun x i => (C18_residuals l l rfl P.k (fun _ => 0) x).2.2.1.2 i
    cases minus
    · obtain ⟨s, e1, e2, -⟩ := (C18_residuals (Sys.smul (P.rc / P.dt) d) (Sys.smul P.k l) hn 0 (fun _ => 0) (fun _ => 0)).1
      refine ⟨s, e1, e2, ?_, fun x i => ?_⟩
      · unfold Sys.add at e1
        rw [if_pos hn, Option.some.injEq] at e1
        rw [← e1]
        simp only [Sys.smul, d3, l3]
        rfl
      · obtain ⟨s', a1, -, a3⟩ := (C18_residuals (Sys.smul (P.rc / P.dt) d) (Sys.smul P.k l) hn 0 (fun _ => 0) x).1
        rw [e1, Option.some.injEq] at a1
        subst a1
        rw [a3 i, r1, r2]
        simp [sgn]
    · obtain ⟨s, e1, e2, -⟩ := (C18_residuals (Sys.smul (P.rc / P.dt) d) (Sys.smul P.k l) hn 0 (fun _ => 0) (fun _ => 0)).2.1
      refine ⟨s, e1, e2, ?_, fun x i => ?_⟩
      · unfold Sys.sub at e1
        rw [if_pos hn, Option.some.injEq] at e1
        rw [← e1]
        simp only [Sys.smul, d3, l3]
        rfl
      · obtain ⟨s', a1, -, a3⟩ := (C18_residuals (Sys.smul (P.rc / P.dt) d) (Sys.smul P.k l) hn 0 (fun _ => 0) x).2.1
        rw [e1, Option.some.injEq] at a1
        subst a1
        rw [a3 i, r1, r2]
        simp [sgn]
  obtain ⟨s, e1, e2, hkind, e3⟩ := hop
  have hn' : s.n = c.mesh.elements.count := by rw [e2]; exact d2
  have hres : ∀ x, ∀ i < c.mesh.elements.count, |volumeOf nrm eps c.mesh i| * s.residual x i =
      P.rc / P.dt * |volumeOf nrm eps c.mesh i| * (x i - start c f.u.at' i) - sgn minus * sgn out * P.k * net nrm eps c x i := fun x i hi => by
    rw [e3, d4 x i hi, ← l4 x i hi, g.abs hi]
    linear_combination -sgn minus * P.k * volumeOf nrm eps c.mesh i * l.residual x i * (1 - 1 : K)
  have hstored : ∀ x, s.Solves x ↔ Stored nrm eps c { P with k := sgn minus * sgn out * P.k } (start c f.u.at') x := fun x => by
    rw [solves_residual, hn']
    refine forall₂_congr fun i hi => ?_
    have hV := (g.size i hi).ne'
    have := hres x i hi
    constructor
    · intro h0
      rw [h0, mul_zero] at this
      show _ = sgn minus * sgn out * P.k * net nrm eps c x i
      rw [← sub_eq_zero.1 this.symm]
      ring
    · intro h0
      have h0 : _ = sgn minus * sgn out * P.k * net nrm eps c x i := h0
      refine (mul_eq_zero.1 (this.trans ?_)).resolve_left hV
      rw [← h0]; ring
  refine ⟨s, ?_, hn', hkind, hres, hstored⟩
  cases minus
  · simp only [Bool.false_eq_true, if_false] at e1
    simp only [step, d1, l1, e1, Option.bind_eq_bind, Option.bind_some, Bool.false_eq_true, if_false]
  · simp only [if_true] at e1
    simp only [step, d1, l1, e1, Option.bind_eq_bind, Option.bind_some, if_true]

/-- A step has exactly one result. -/
theorem step_run {nrm : Vec3 K → K} {eps : K} (solver : Sys K → Nat → K) (hS : FdmHeat.Sound solver) (junk : Nat → K) {c : Ctx K} {out : Bool} (g : Cells nrm eps out c)
    (P : FdmHeat.Par K) (hrc : 0 < P.rc) (hdt : 0 < P.dt) (hk : 0 ≤ P.k) (f : EqField K) (hf : Plain f) :
    ∃ u : EVec K, step nrm eps solver junk c out P f = some { f with u := u } ∧ u.size = c.mesh.elements.count ∧ Stored nrm eps c P (start c f.u.at') u.at' ∧
      ∀ y, Stored nrm eps c P (start c f.u.at') y → ∀ i < c.mesh.elements.count, y i = u.at' i := by
  obtain ⟨s, e1, hn', hkind, hres, hstored⟩ := step_sys solver junk g out P f
  simp only [sgn_sq, one_mul] at hres hstored
  have hstored : ∀ x, s.Solves x ↔ Stored nrm eps c P (start c f.u.at') x := hstored
  have hc : 0 < P.rc / P.dt := div_pos hrc hdt
  have hker : ∀ z : Nat → K, (∀ i < s.n, s.row z i = 0) → ∀ i < s.n, z i = 0 := by
    intro z hz
    rw [hn'] at hz ⊢
    refine kernel g P.k hk (fun i => P.rc / P.dt * |volumeOf nrm eps c.mesh i|) z (Or.inl fun i hi => mul_pos hc (g.size i hi)) fun i hi => ?_
    have h0 := hz i hi
    rw [residual_row] at h0
    have e1 := hres z i hi
    have e2 := hres (fun _ => 0) i hi
    have e3 := net_split nrm eps c z (fun _ => 0) i
    simp only [sub_zero] at e3
    linear_combination |volumeOf nrm eps c.mesh i| * h0 - e1 + e2 + P.k * e3
  obtain ⟨u, h1, h2, h3⟩ := solve_run solver hS junk s (by rw [hkind]; simp) f hf hker
  refine ⟨u, ?_, h2.trans hn', (hstored _).1 h3, ?_⟩
  · rw [e1]; exact h1
  · intro y hy i hi
    have hy := (hstored y).2 hy
    have := hker (fun j => y j - u.at' j) (fun i hi => by
      have a := hy i hi
      have b := h3 i hi
      have : s.row (fun j => y j - u.at' j) i = s.row y i - s.row u.at' i := by
        simp only [Sys.row, mul_sub, Finset.sum_sub_distrib]
      rw [this, a, b, sub_self]) i (hn' ▸ hi)
    exact sub_eq_zero.1 this

end FvmHeat
end ENigMA
