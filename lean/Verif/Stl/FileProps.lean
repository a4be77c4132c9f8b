import Verif.Stl.File
import Verif.Mesh.RemeshProps

/-!
# Facets of a surface: taking them from a mesh, joining files, bounds, cleaning
-/

set_option linter.unusedSectionVars false
set_option autoImplicit false

namespace ENigMA
namespace Stl
variable {K : Type}

theorem lt_nextId {α : Type} {c : Cont α} {id : Int} {a : α} (h : c.get? id = some a) : id < c.nextId := by
  have hk : id ∈ c.map.keys := (SMap.mem_keys _ _).2 (by unfold Cont.get? at h; rw [h]; rfl)
  unfold Cont.nextId
  cases hm : c.map.maxKey? with
  | none =>
    rw [SMap.maxKey?_none] at hm
    rw [SMap.mem_keys] at hk
    unfold Cont.get? at h
    have := (SMap.find?_eq_some_iff _ _ _).1 h
    rw [hm] at this
    simp at this
  | some k => have := SMap.le_of_maxKey? _ hm hk; simp only; omega

theorem nextId_add {α : Type} (c : Cont α) (a : α) : (c.add c.nextId a).nextId = c.nextId + 1 := by
  have h : (c.add c.nextId a).map.maxKey? = some c.nextId := by
    cases hm : (c.add c.nextId a).map.maxKey? with
    | none =>
      rw [SMap.maxKey?_none] at hm
      have := (SMap.find?_eq_some_iff (c.add c.nextId a).map c.nextId a).1 (by simp only [Cont.add]; rw [SMap.find?_insert_self])
      rw [hm] at this
      simp at this
    | some k =>
      have h1 : c.nextId ≤ k := SMap.le_of_maxKey? _ hm ((SMap.mem_keys _ _).2 (by simp only [Cont.add]; rw [SMap.find?_insert_self]; rfl))
      obtain ⟨b, hb⟩ := Remesh.mem_of_maxKey hm
      by_cases hk : k = c.nextId
      · rw [hk]
      · have : c.get? k = some b := by
          have hb' : (c.add c.nextId a).get? k = some b := hb
          rw [Cont.get?_add, if_neg hk] at hb'
          exact hb'
        have := lt_nextId this
        omega
  rw [Cont.nextId, h]

theorem setLoop_spec [Zero K] {m : Mesh K} (hm : m.WF) (l : List Int) : ∀ s : File K, s.Ok → l.Nodup → (∀ id ∈ l, id ∈ m.elements.ids ∧ id ∉ s.ids) →
    ∃ s', setLoop m l s = some s' ∧ s'.Ok ∧ s'.ids = s.ids ++ l.filter (fun id => (m.elements.get? id).map (·.elementType) = some .triangle) ∧
      (∀ id ∉ l, s'.get? id = s.get? id) ∧
      ∀ id ∈ l, ∀ e, m.elements.get? id = some e → e.elementType = .triangle → ∃ f, s'.get? id = some f ∧ f.verts.map some = m.coords e.nodeIds ∧ f.normal = ⟨0, 0, 0⟩ ∧ f.extra = (0, 0) ∧ f.edges = [{}, {}, {}] := by
  induction l with
  | nil => intro s h _ _; exact ⟨s, rfl, h, by simp, fun _ _ => rfl, by simp⟩
  | cons a t ih =>
    intro s h hnd hl
    rw [List.nodup_cons] at hnd
    obtain ⟨e, he⟩ := (hm.elements.2 a).1 (hl a (by simp)).1
    by_cases hty : e.elementType = .triangle
    · have hvs : ∃ vs, e.nodeIds.mapM m.nodes.get? = some vs ∧ vs.map some = m.coords e.nodeIds := by
        refine ⟨e.nodeIds.map fun n => (m.nodes.get? n).getD ⟨0, 0, 0⟩, ?_, ?_⟩
        · apply mapM_option_eq
          intro n hn
          obtain ⟨v, hv⟩ := (hm.nodes.2 n).1 (hm.elemNodes a e he n hn)
          simp [hv]
        · rw [List.map_map]
          unfold Mesh.coords
          apply List.map_congr_left
          intro n hn
          obtain ⟨v, hv⟩ := (hm.nodes.2 n).1 (hm.elemNodes a e he n hn)
          simp [hv]
      obtain ⟨vs, hv1, hv2⟩ := hvs
      have hok := Cont.add_ok h (⟨vs, ⟨0, 0, 0⟩, (0, 0), [{}, {}, {}]⟩ : Facet K) (hl a (by simp)).2
      obtain ⟨s', r1, r2, r3, r4, r5⟩ := ih _ hok hnd.2 (fun id hid => ⟨(hl id (List.mem_cons_of_mem _ hid)).1, by
        simp only [Cont.add, List.mem_append, List.mem_singleton, not_or]
        exact ⟨(hl id (List.mem_cons_of_mem _ hid)).2, fun h => hnd.1 (h ▸ hid)⟩⟩)
      refine ⟨s', ?_, r2, ?_, ?_, ?_⟩
      · simp only [setLoop, he, hv1, Option.bind_eq_bind, Option.bind_some]
        rw [if_neg (by simp [hty])]
        exact r1
      · rw [r3]
        simp [Cont.add, he, hty]
      · intro id hid
        rw [List.mem_cons, not_or] at hid
        rw [r4 id hid.2, Cont.get?_add, if_neg hid.1]
      · intro id hid e' he' hty'
        rcases List.mem_cons.1 hid with rfl | hid
        · rw [he] at he'
          simp only [Option.some.injEq] at he'
          subst he'
          refine ⟨_, (r4 id hnd.1).trans (by rw [Cont.get?_add, if_pos rfl]), hv2, rfl, rfl, rfl⟩
        · exact r5 id hid e' he' hty'
    · obtain ⟨s', r1, r2, r3, r4, r5⟩ := ih s h hnd.2 fun id hid => hl id (List.mem_cons_of_mem _ hid)
      refine ⟨s', ?_, r2, ?_, fun id hid => r4 id fun h => hid (List.mem_cons_of_mem _ h), ?_⟩
      · simp only [setLoop, he, Option.bind_eq_bind, Option.bind_some]
        rw [if_pos hty]
        exact r1
      · rw [r3]
        simp [he, hty]
      · intro id hid e' he' hty'
        rcases List.mem_cons.1 hid with rfl | hid
        · rw [he] at he'
          simp only [Option.some.injEq] at he'
          exact absurd (he' ▸ hty') hty
        · exact r5 id hid e' he' hty'

theorem addLoop_spec {b : File K} (l : List Int) : ∀ s : File K, s.Ok → (∀ id ∈ l, ∃ f, b.get? id = some f) →
    ∃ s', addLoop b l s = some s' ∧ s'.Ok ∧ s'.ids = s.ids ++ (List.range l.length).map (fun k : Nat => s.nextId + k) ∧
      (∀ id < s.nextId, s'.get? id = s.get? id) ∧ ∀ (k : Nat) id, l[k]? = some id → s'.get? (s.nextId + k) = b.get? id := by
  induction l with
  | nil => intro s h _; exact ⟨s, rfl, h, by simp, fun _ _ => rfl, by simp⟩
  | cons a t ih =>
    intro s h hl
    obtain ⟨f, hf⟩ := hl a (by simp)
    have hn := nextId_add s f
    obtain ⟨s', r1, r2, r3, r4, r5⟩ := ih (s.add s.nextId f) (Cont.add_ok h f (Cont.nextId_not_mem h)) fun id hid => hl id (List.mem_cons_of_mem _ hid)
    refine ⟨s', ?_, r2, ?_, ?_, ?_⟩
    · simp only [addLoop, hf, Option.bind_eq_bind, Option.bind_some]
      exact r1
    · rw [r3, hn, List.length_cons, List.range_succ_eq_map]
      simp only [Cont.add, List.append_assoc, List.map_cons, List.map_map, Int.ofNat_zero, Nat.cast_zero, add_zero, List.cons_append, List.nil_append]
      congr 2
      apply List.map_congr_left
      intro k _
      simp only [Function.comp, Nat.cast_succ]; ring
    · intro id hid
      rw [r4 id (by omega), Cont.get?_add, if_neg (by omega)]
    · intro k id hk
      cases k with
      | zero =>
        simp only [List.getElem?_cons_zero, Option.some.injEq] at hk
        subst hk
        rw [Nat.cast_zero, add_zero, r4 _ (by omega), Cont.get?_add, if_pos rfl, hf]
      | succ k =>
        rw [List.getElem?_cons_succ] at hk
        have := r5 k id hk
        rw [hn] at this
        rw [← this]
        congr 1
        push_cast; ring

theorem addSelf_none : ∀ (fuel i : Nat) (s : File K), s.Ok → i < s.count → addSelf fuel i s = none := by
  intro fuel
  induction fuel with
  | zero => intro i s _ h; simp [addSelf, h]
  | succ fuel ih =>
    intro i s hs h
    have hi : s.idAt? i = some s.ids[i] := List.getElem?_eq_getElem h
    obtain ⟨f, hf⟩ := (hs.2 _).1 (List.getElem_mem h)
    simp only [addSelf, hi, hf, Option.bind_eq_bind, Option.bind_some]
    apply ih _ _ (Cont.add_ok hs f (Cont.nextId_not_mem hs))
    simp only [Cont.count, Cont.add, List.length_append, List.length_cons, List.length_nil] at h ⊢
    omega

/-- Every facet has three vertices. -/
def Triangular (s : File K) : Prop := ∀ id f, s.get? id = some f → f.verts.length = 3 ∧ f.edges.length = 3

/-- The vertices of a facet with three of them. -/
theorem verts_of {s : File K} (h : Triangular s) {id : Int} {f : Facet K} (hf : s.get? id = some f) :
    ∃ a b c, f.verts = [a, b, c] ∧ f.vertex? 0 = some a ∧ f.vertex? 1 = some b ∧ f.vertex? 2 = some c := by
  obtain ⟨a, b, c, h⟩ := List.length_eq_three.1 (h id f hf).1
  refine ⟨a, b, c, h, ?_, ?_, ?_⟩ <;> simp [Facet.vertex?, h]

/-- A point of the surface: a vertex of one of the facets in the list. -/
def VertexOf (s : File K) (l : List Int) (v : Vec3 K) : Prop := ∃ id ∈ l, ∃ f, s.get? id = some f ∧ v ∈ f.verts

section
variable [LinearOrder K]

/-- The box is the least one that contains the points. -/
structure LeastBox (P : Vec3 K → Prop) (b : Vec3 K × Vec3 K) : Prop where
  x : IsLeast {x | ∃ v, P v ∧ v.x = x} b.1.x ∧ IsGreatest {x | ∃ v, P v ∧ v.x = x} b.2.x
  y : IsLeast {x | ∃ v, P v ∧ v.y = x} b.1.y ∧ IsGreatest {x | ∃ v, P v ∧ v.y = x} b.2.y
  z : IsLeast {x | ∃ v, P v ∧ v.z = x} b.1.z ∧ IsGreatest {x | ∃ v, P v ∧ v.z = x} b.2.z

theorem least_aux {P : Vec3 K → Prop} {c : Vec3 K → K} {lo hi : K} (h : IsLeast {x | ∃ v, P v ∧ c v = x} lo ∧ IsGreatest {x | ∃ v, P v ∧ c v = x} hi) (v : Vec3 K) :
    IsLeast {x | ∃ w, (P w ∨ w = v) ∧ c w = x} (min lo (c v)) ∧ IsGreatest {x | ∃ w, (P w ∨ w = v) ∧ c w = x} (max hi (c v)) := by
  obtain ⟨⟨⟨a, ha, h1⟩, h2⟩, ⟨b, hb, h3⟩, h4⟩ := h
  refine ⟨⟨?_, ?_⟩, ?_, ?_⟩
  · rcases min_choice lo (c v) with h | h
    · rw [h]; exact ⟨a, Or.inl ha, h1⟩
    · rw [h]; exact ⟨v, Or.inr rfl, rfl⟩
  · rintro x ⟨w, hw | rfl, rfl⟩
    · exact (min_le_left _ _).trans (h2 ⟨w, hw, rfl⟩)
    · exact min_le_right _ _
  · rcases max_choice hi (c v) with h | h
    · rw [h]; exact ⟨b, Or.inl hb, h3⟩
    · rw [h]; exact ⟨v, Or.inr rfl, rfl⟩
  · rintro x ⟨w, hw | rfl, rfl⟩
    · exact (h4 ⟨w, hw, rfl⟩).trans (le_max_left _ _)
    · exact le_max_right _ _

theorem LeastBox.grow {P : Vec3 K → Prop} {b : Vec3 K × Vec3 K} (h : LeastBox P b) (v : Vec3 K) : LeastBox (fun w => P w ∨ w = v) (Stl.grow b v) :=
  ⟨least_aux (c := Vec3.x) h.x v, least_aux (c := Vec3.y) h.y v, least_aux (c := Vec3.z) h.z v⟩

theorem LeastBox.congr {P Q : Vec3 K → Prop} {b : Vec3 K × Vec3 K} (h : LeastBox P b) (hPQ : ∀ v, P v ↔ Q v) : LeastBox Q b := by
  have : P = Q := funext fun v => propext (hPQ v)
  exact this ▸ h

theorem statLoop_spec {s : File K} (ht : Triangular s) (l : List Int) : ∀ (P : Vec3 K → Prop) (b : Vec3 K × Vec3 K), LeastBox P b → (∀ id ∈ l, ∃ f, s.get? id = some f) →
    ∃ b', statLoop s l b = some b' ∧ LeastBox (fun v => P v ∨ VertexOf s l v) b' := by
  induction l with
  | nil => intro P b h _; exact ⟨b, rfl, h.congr fun v => by simp [VertexOf]⟩
  | cons a t ih =>
    intro P b h hl
    obtain ⟨f, hf⟩ := hl a (by simp)
    obtain ⟨v0, v1, v2, hv, g0, g1, g2⟩ := verts_of ht hf
    obtain ⟨b', r1, r2⟩ := ih _ _ (((h.grow v0).grow v1).grow v2) fun id hid => hl id (List.mem_cons_of_mem _ hid)
    refine ⟨b', ?_, r2.congr fun v => ?_⟩
    · simp only [statLoop, hf, g0, g1, g2, Option.bind_eq_bind, Option.bind_some]
      exact r1
    · constructor
      · rintro ((((h | rfl) | rfl) | rfl) | ⟨id, hid, g, hg, hv'⟩)
        · exact Or.inl h
        · exact Or.inr ⟨a, by simp, f, hf, by rw [hv]; simp⟩
        · exact Or.inr ⟨a, by simp, f, hf, by rw [hv]; simp⟩
        · exact Or.inr ⟨a, by simp, f, hf, by rw [hv]; simp⟩
        · exact Or.inr ⟨id, List.mem_cons_of_mem _ hid, g, hg, hv'⟩
      · rintro (h | ⟨id, hid, g, hg, hv'⟩)
        · exact Or.inl (Or.inl (Or.inl (Or.inl h)))
        · rcases List.mem_cons.1 hid with rfl | hid
          · rw [hf] at hg
            simp only [Option.some.injEq] at hg
            subst hg
            rw [hv] at hv'
            simp only [List.mem_cons, List.not_mem_nil, or_false] at hv'
            rcases hv' with h | h | h
            · exact Or.inl (Or.inl (Or.inl (Or.inr h)))
            · exact Or.inl (Or.inl (Or.inr h))
            · exact Or.inl (Or.inr h)
          · exact Or.inr ⟨id, hid, g, hg, hv'⟩
end

/-! ### Cleaning -/

section
variable [Field K] [LinearOrder K]

/-- A facet that stays: no two corners closer than the tolerance, not all edges naked. -/
def Valid (nrm : Vec3 K → K) (tol : K) (f : Facet K) : Prop :=
  (∀ a b c, f.verts = [a, b, c] → tol ≤ nrm (b - a) ∧ tol ≤ nrm (c - b) ∧ tol ≤ nrm (a - c)) ∧ ∃ e ∈ f.edges, e.naked = false

theorem invalid_spec (nrm : Vec3 K → K) (tol : K) {s : File K} (ht : Triangular s) {id : Int} {f : Facet K} (hf : s.get? id = some f) :
    ∃ b, invalid nrm tol f = some b ∧ (b = false ↔ Valid nrm tol f) := by
  obtain ⟨v0, v1, v2, hv, g0, g1, g2⟩ := verts_of ht hf
  obtain ⟨e0, e1, e2, he⟩ := List.length_eq_three.1 (ht id f hf).2
  refine ⟨(decide (nrm (v1 - v0) < tol) || decide (nrm (v2 - v1) < tol) || decide (nrm (v0 - v2) < tol) || e0.naked && e1.naked && e2.naked), by simp only [invalid, g0, g1, g2, he, List.getElem?_cons_zero, List.getElem?_cons_succ, Option.bind_eq_bind, Option.bind_some, Option.pure_def], ?_⟩
  simp only [Valid, he, hv, Bool.or_eq_false_iff, decide_eq_false_iff_not, not_lt, List.mem_cons, List.not_mem_nil, or_false, List.cons.injEq, and_true]
  constructor
  · rintro ⟨⟨⟨h1, h2⟩, h3⟩, h4⟩
    refine ⟨?_, ?_⟩
    · rintro a b c ⟨rfl, rfl, rfl⟩; exact ⟨h1, h2, h3⟩
    · rw [Bool.and_eq_false_iff, Bool.and_eq_false_iff] at h4
      rcases h4 with (h | h) | h
      · exact ⟨e0, by simp, h⟩
      · exact ⟨e1, by simp, h⟩
      · exact ⟨e2, by simp, h⟩
  · rintro ⟨h1, e, he, h2⟩
    obtain ⟨h3, h4, h5⟩ := h1 v0 v1 v2 ⟨rfl, rfl, rfl⟩
    refine ⟨⟨⟨h3, h4⟩, h5⟩, ?_⟩
    rcases he with rfl | rfl | rfl <;> simp [h2]

theorem removeInvalid_spec (nrm : Vec3 K → K) (tol : K) : ∀ (fuel i : Nat) (s : File K), s.Ok → Triangular s → s.count ≤ fuel + i → i ≤ s.count →
    (∀ id ∈ s.ids.take i, ∀ f, s.get? id = some f → Valid nrm tol f) →
    ∃ s', removeInvalid nrm tol fuel i s = some s' ∧ s'.Ok ∧ s'.ids.Sublist s.ids ∧ (∀ id f, s'.get? id = some f ↔ s.get? id = some f ∧ Valid nrm tol f) := by
  intro fuel
  induction fuel with
  | zero =>
    intro i s h ht hc hi hv
    have hic : i = s.count := by omega
    refine ⟨s, by simp [removeInvalid, hic], h, List.Sublist.refl _, fun id f => ⟨fun hf => ⟨hf, ?_⟩, fun h => h.1⟩⟩
    apply hv id _ f hf
    rw [hic, Cont.count, List.take_length]
    exact (h.2 id).2 ⟨f, hf⟩
  | succ fuel ih =>
    intro i s h ht hc hi hv
    rcases Nat.lt_or_ge i s.count with hlt | hge
    · have hid : s.idAt? i = some s.ids[i] := List.getElem?_eq_getElem hlt
      obtain ⟨f, hf⟩ := (h.2 _).1 (List.getElem_mem hlt)
      obtain ⟨b, hb1, hb2⟩ := invalid_spec nrm tol ht hf
      cases b with
      | false =>
        obtain ⟨s', r1, r2⟩ := ih (i + 1) s h ht (by omega) hlt (by
          intro id hid g hg
          rw [List.take_add_one, List.mem_append] at hid
          rcases hid with hid | hid
          · exact hv id hid g hg
          · rw [List.getElem?_eq_getElem hlt] at hid
            simp only [Option.toList_some, List.mem_singleton] at hid
            subst hid
            rw [hf] at hg
            simp only [Option.some.injEq] at hg
            exact hg ▸ hb2.1 rfl)
        refine ⟨s', ?_, r2⟩
        simp only [removeInvalid, hid, hf, hb1, Option.bind_eq_bind, Option.bind_some]
        exact r1
      | true =>
        have hrem : s.remove s.ids[i] = some (Cont.mk (s.map.erase s.ids[i]) (s.ids.erase s.ids[i]) (s.indices.erase s.ids[i]) s.counter) := by
          unfold Cont.remove; rw [if_pos (List.getElem_mem hlt)]
        have hg : ∀ k, (Cont.mk (s.map.erase s.ids[i]) (s.ids.erase s.ids[i]) (s.indices.erase s.ids[i]) s.counter).get? k = if k = s.ids[i] then none else s.get? k := by
          intro k; simp only [Cont.get?]; rw [SMap.find?_erase]
        have hok := Cont.remove_ok h hrem
        have hlen : (s.ids.erase s.ids[i]).length = s.ids.length - 1 := List.length_erase_of_mem (List.getElem_mem hlt)
        have herase : s.ids.erase s.ids[i] = s.ids.eraseIdx i := by
          exact List.Nodup.erase_getElem h.1 i hlt
        generalize hs1 : (Cont.mk (s.map.erase s.ids[i]) (s.ids.erase s.ids[i]) (s.indices.erase s.ids[i]) s.counter) = s1 at hg hok hrem
        have hids : s1.ids = s.ids.erase s.ids[i] := by rw [← hs1]
        have hcount : s1.count = s.count - 1 := by rw [Cont.count, hids, hlen]; rfl
        obtain ⟨s', r1, r2, r3, r4⟩ := ih i s1 hok (fun id f hf => by
          rw [hg] at hf
          split_ifs at hf
          exact ht id f hf) (by omega) (by omega) (by
          intro id hid f hf
          rw [hg] at hf
          split_ifs at hf with hk
          refine hv id ?_ f hf
          rw [hids, herase, List.take_eraseIdx_eq_take_of_le _ _ _ (le_refl i)] at hid
          exact hid)
        refine ⟨s', ?_, r2, r3.trans (hids ▸ List.erase_sublist), fun id f' => ?_⟩
        · simp only [removeInvalid, hid, hf, hb1, hrem, Option.bind_eq_bind, Option.bind_some, if_true]
          exact r1
        · rw [r4, hg]
          constructor
          · rintro ⟨h1, h2⟩
            split_ifs at h1
            exact ⟨h1, h2⟩
          · rintro ⟨h1, h2⟩
            refine ⟨?_, h2⟩
            rw [if_neg]
            · exact h1
            · rintro rfl
              rw [hf] at h1
              simp only [Option.some.injEq] at h1
              have := hb2.2 (h1 ▸ h2)
              cases this
    · have hic : i = s.count := by omega
      refine ⟨s, ?_, h, List.Sublist.refl _, fun id f => ⟨fun hf => ⟨hf, ?_⟩, fun h => h.1⟩⟩
      · have : s.idAt? i = none := List.getElem?_eq_none (by rw [hic]; exact le_refl _)
        simp [removeInvalid, this]
      · apply hv id _ f hf
        rw [hic, Cont.count, List.take_length]
        exact (h.2 id).2 ⟨f, hf⟩


theorem centroid_measured {nrm : Vec3 K → K} {f g : Facet K} (h : f.measured nrm = some g) : g.verts = f.verts ∧ g.edges = f.edges := by
  unfold Facet.measured at h
  cases hc : f.cross with
  | none => simp [hc] at h
  | some c => simp [hc] at h; subst h; exact ⟨rfl, rfl⟩

theorem cross_some {f : Facet K} (h : f.verts.length = 3) : ∃ c, f.cross = some c := by
  obtain ⟨a, b, c, h⟩ := List.length_eq_three.1 h
  apply Option.isSome_iff_exists.1
  simp only [Facet.cross, h, List.getElem?_cons_zero, List.getElem?_cons_succ, Option.bind_eq_bind, Option.bind_some, Option.pure_def]
  rfl

theorem centroid_some {f : Facet K} (h : f.verts.length = 3) : ∃ c, f.centroid = some c := by
  obtain ⟨a, b, c, h⟩ := List.length_eq_three.1 h
  apply Option.isSome_iff_exists.1
  simp only [Facet.centroid, h, List.getElem?_cons_zero, List.getElem?_cons_succ, Option.bind_eq_bind, Option.bind_some, Option.pure_def]
  rfl

theorem measured_some (nrm : Vec3 K → K) {f : Facet K} (h : f.verts.length = 3) : ∃ g, f.measured nrm = some g := by
  obtain ⟨c, hc⟩ := cross_some h
  apply Option.isSome_iff_exists.1
  simp only [Facet.measured, hc, Option.bind_eq_bind, Option.bind_some, Option.pure_def]
  rfl

theorem area_congr (nrm : Vec3 K → K) {f g : Facet K} (h : f.verts = g.verts) : f.area nrm = g.area nrm := by
  simp [Facet.area, Facet.cross, h]

theorem centroid_congr {f g : Facet K} (h : f.verts = g.verts) : f.centroid = g.centroid := by
  simp [Facet.centroid, h]

theorem area_some (nrm : Vec3 K → K) {f : Facet K} (h : f.verts.length = 3) : ∃ r, f.area nrm = some r := by
  obtain ⟨c, hc⟩ := cross_some h
  apply Option.isSome_iff_exists.1
  simp only [Facet.area, hc, Option.bind_eq_bind, Option.bind_some, Option.pure_def]
  rfl

/-- The facets of `s'` are those of `s` with an id in the list; only normals differ. -/
def Part (s s' : File K) : Prop :=
  s'.Ok ∧ ∀ id g, s'.get? id = some g → ∃ f, s.get? id = some f ∧ g.verts = f.verts ∧ g.edges = f.edges ∧ g.extra = f.extra

theorem Part.refl {s : File K} (h : s.Ok) : Part s s := ⟨h, fun _ g hg => ⟨g, hg, rfl, rfl, rfl⟩⟩

theorem Part.modify (nrm : Vec3 K → K) {s s' : File K} (ht : Triangular s) (h : Part s s') {id : Int} (hid : id ∈ s'.ids) :
    ∃ s1 g, s'.modify id (Facet.measured nrm) = some s1 ∧ Part s s1 ∧ s1.ids = s'.ids ∧ s1.get? id = some g := by
  obtain ⟨f, hf⟩ := (h.1.2 id).1 hid
  obtain ⟨f0, h0, hv, he, hx⟩ := h.2 id f hf
  obtain ⟨g, hg⟩ := measured_some nrm (f := f) (by rw [hv]; exact (ht id f0 h0).1)
  obtain ⟨g1, g2⟩ := centroid_measured hg
  have g3 : g.extra = f.extra := by
    unfold Facet.measured at hg
    cases hc : f.cross with
    | none => simp [hc] at hg
    | some c => simp [hc] at hg; subst hg; rfl
  refine ⟨_, g, Cont.modify_eq hf hg, ⟨Cont.put_ok h.1 hf, ?_⟩, rfl, by rw [Cont.get?_put, if_pos rfl]⟩
  intro k k' hk
  rw [Cont.get?_put] at hk
  split_ifs at hk with hki
  · simp only [Option.some.injEq] at hk
    subst hk; subst hki
    exact ⟨f0, h0, g1.trans hv, g2.trans he, g3.trans hx⟩
  · exact h.2 k k' hk

theorem Part.remove {s s' : File K} (h : Part s s') {id : Int} (hid : id ∈ s'.ids) :
    ∃ s1, s'.remove id = some s1 ∧ Part s s1 ∧ s1.ids = s'.ids.erase id ∧ s1.get? id = none := by
  have hrem : s'.remove id = some (Cont.mk (s'.map.erase id) (s'.ids.erase id) (s'.indices.erase id) s'.counter) := by
    unfold Cont.remove; rw [if_pos hid]
  have hg : ∀ k, (Cont.mk (s'.map.erase id) (s'.ids.erase id) (s'.indices.erase id) s'.counter).get? k = if k = id then none else s'.get? k := by
    intro k; simp only [Cont.get?]; rw [SMap.find?_erase]
  refine ⟨_, hrem, ⟨Cont.remove_ok h.1 hrem, fun k g hk => ?_⟩, rfl, by rw [hg, if_pos rfl]⟩
  rw [hg] at hk
  split_ifs at hk
  exact h.2 k g hk

variable {nrm : Vec3 K → K} {tol : K} {find : Vec3 K → Option (List Int)}

/-- One round of the loop for a facet whose search finds only itself. -/
theorem duplicate_alone {s s' : File K} (ht : Triangular s) (h : Part s s') {i : Nat} (hi : i < s'.count)
    (hone : ∀ f c, s.get? s'.ids[i] = some f → f.centroid = some c → find c = some [s'.ids[i]]) (fuel : Nat) :
    ∃ s1, duplicateLoop nrm tol find (fuel + 1) i s' = duplicateLoop nrm tol find fuel (i + 1 : Nat) s1 ∧ Part s s1 ∧ s1.ids = s'.ids := by
  obtain ⟨s1, g, hm, hp, hids, hg⟩ := h.modify nrm ht (id := s'.ids[i]) (List.getElem_mem hi)
  refine ⟨s1, ?_, hp, hids⟩
  have hat : s'.idAt? (i : Int).toNat = some s'.ids[i] := by rw [Int.toNat_natCast]; exact List.getElem?_eq_getElem hi
  obtain ⟨f, hf, hv, _⟩ := hp.2 _ g hg
  obtain ⟨c, hc⟩ := centroid_some (f := f) (ht _ f hf).1
  have hc' : g.centroid = some c := (centroid_congr hv).trans hc
  have hfind := hone f c hf hc
  simp only [duplicateLoop]
  rw [if_pos (by exact_mod_cast hi), if_pos (by omega)]
  simp only [hat, Option.bind_eq_bind, Option.bind_some, hm, hg, hc', hfind, List.drop_succ_cons, List.drop_zero, duplicateInner]
  push_cast
  rfl

theorem duplicateLoop_alone {s : File K} (ht : Triangular s) (hone : ∀ id f c, s.get? id = some f → f.centroid = some c → find c = some [id]) :
    ∀ (fuel i : Nat) (s' : File K), Part s s' → s'.count ≤ fuel + i → ∃ s1, duplicateLoop nrm tol find fuel i s' = some s1 ∧ Part s s1 ∧ s1.ids = s'.ids := by
  intro fuel
  induction fuel with
  | zero =>
    intro i s' h hc
    exact ⟨s', by simp only [duplicateLoop]; rw [if_neg (by exact_mod_cast (by omega : ¬ i < s'.count))], h, rfl⟩
  | succ fuel ih =>
    intro i s' h hc
    rcases Nat.lt_or_ge i s'.count with hi | hi
    · obtain ⟨s1, r1, r2, r3⟩ := duplicate_alone (nrm := nrm) (tol := tol) (find := find) ht h hi (fun f c hf hc => hone _ f c hf hc) fuel
      obtain ⟨s2, q1, q2, q3⟩ := ih (i + 1) s1 r2 (by rw [Cont.count, r3]; unfold Cont.count at hc; omega)
      exact ⟨s2, r1.trans q1, q2, q3.trans r3⟩
    · refine ⟨s', ?_, h, rfl⟩
      simp only [duplicateLoop]
      rw [if_neg (by exact_mod_cast (by omega : ¬ i < s'.count))]

variable [IsStrictOrderedRing K]

/-- Two facets `a`, `b` with the same centroid and area, all others alone; the search of their centroid gives both. -/
structure Double (nrm : Vec3 K → K) (find : Vec3 K → Option (List Int)) (s : File K) (a b : Int) (ca : Vec3 K) (ar : K) (l : List Int) : Prop where
  ne : a ≠ b
  cent : ∀ id f, s.get? id = some f → id = a ∨ id = b → f.centroid = some ca ∧ f.area nrm = some ar
  alone : ∀ id f c, s.get? id = some f → id ≠ a → id ≠ b → f.centroid = some c → find c = some [id]
  found : find ca = some l

/-- When the second facet of the list is gone, the round for the first one throws. -/
theorem double_stop {s s' : File K} (ht : Triangular s) (h : Part s s') {x y : Int} {ca : Vec3 K} {i : Nat} (hi : i < s'.count) (hx : s'.ids[i] = x)
    (hcx : ∀ f, s.get? x = some f → f.centroid = some ca) (hl : find ca = some [x, y]) (hy : y ∉ s'.ids) (fuel : Nat) :
    duplicateLoop nrm tol find fuel i s' = none := by
  cases fuel with
  | zero => simp only [duplicateLoop]; rw [if_pos (by exact_mod_cast hi)]
  | succ fuel =>
    obtain ⟨s1, g, hm, hp, hids, hg⟩ := h.modify nrm ht (id := x) (hx ▸ List.getElem_mem hi)
    have hat : s'.idAt? (i : Int).toNat = some x := by rw [Int.toNat_natCast, ← hx]; exact List.getElem?_eq_getElem hi
    obtain ⟨f, hf, hv, _⟩ := hp.2 _ g hg
    have hc' : g.centroid = some ca := (centroid_congr hv).trans (hcx f hf)
    have hno : s1.modify y (Facet.measured nrm) = none := by
      have : s1.get? y = none := by
        cases hq : s1.get? y with
        | none => rfl
        | some q => exact absurd ((hp.1.2 y).2 ⟨q, hq⟩) (hids ▸ hy)
      simp [Cont.modify, this]
    simp only [duplicateLoop]
    rw [if_pos (by exact_mod_cast hi), if_pos (by omega)]
    simp only [hat, Option.bind_eq_bind, Option.bind_some, hm, hg, hc', hl, List.drop_succ_cons, List.drop_zero, duplicateInner, hno, Option.bind_none]

/-- Once the facet `y` has removed itself, the round for `x` throws. -/
theorem double_after {s : File K} (ht : Triangular s) {a b x y : Int} {ca : Vec3 K} {ar : K} (hxy : x = a ∧ y = b ∨ x = b ∧ y = a)
    (hd : Double nrm find s a b ca ar [x, y]) : ∀ (fuel i : Nat) (s' : File K), Part s s' → y ∉ s'.ids → x ∈ s'.ids.drop i → duplicateLoop nrm tol find fuel i s' = none := by
  intro fuel
  induction fuel with
  | zero =>
    intro i s' _ _ hx
    have hi : i < s'.count := by
      by_contra hge
      rw [List.drop_eq_nil_of_le (by unfold Cont.count at hge; omega)] at hx
      simp at hx
    simp only [duplicateLoop]; rw [if_pos (by exact_mod_cast hi)]
  | succ fuel ih =>
    intro i s' h hy hx
    have hi : i < s'.count := by
      by_contra hge
      rw [List.drop_eq_nil_of_le (by unfold Cont.count at hge; omega)] at hx
      simp at hx
    by_cases hc : s'.ids[i] = x
    · exact double_stop ht h hi hc (fun f hf => (hd.cent x f hf (by tauto)).1) hd.found hy _
    · have hiy : s'.ids[i] ≠ y := fun e => hy (e ▸ List.getElem_mem hi)
      obtain ⟨s1, r1, r2, r3⟩ := duplicate_alone (nrm := nrm) (tol := tol) (find := find) ht h hi (fun f c hf hc' => hd.alone _ f c hf (by rcases hxy with ⟨rfl, rfl⟩ | ⟨rfl, rfl⟩ <;> assumption) (by rcases hxy with ⟨rfl, rfl⟩ | ⟨rfl, rfl⟩ <;> assumption) hc') fuel
      rw [r1]
      apply ih _ _ r2 (r3 ▸ hy)
      rw [r3]
      rw [List.drop_eq_getElem_cons hi] at hx
      rcases List.mem_cons.1 hx with h | h
      · exact absurd h.symm hc
      · exact h

theorem double_loop (htol : 0 < tol) {s : File K} (ht : Triangular s) {a b x y : Int} {ca : Vec3 K} {ar : K} (hxy : x = a ∧ y = b ∨ x = b ∧ y = a)
    (hd : Double nrm find s a b ca ar [x, y]) : ∀ (fuel i : Nat) (s' : File K), Part s s' → x ∈ s'.ids.drop i → y ∈ s'.ids.drop i → duplicateLoop nrm tol find fuel i s' = none := by
  intro fuel
  have hne : x ≠ y := by rcases hxy with ⟨rfl, rfl⟩ | ⟨rfl, rfl⟩ <;> [exact hd.ne; exact hd.ne.symm]
  induction fuel with
  | zero =>
    intro i s' _ hx _
    have hi : i < s'.count := by
      by_contra hge
      rw [List.drop_eq_nil_of_le (by unfold Cont.count at hge; omega)] at hx
      simp at hx
    simp only [duplicateLoop]; rw [if_pos (by exact_mod_cast hi)]
  | succ fuel ih =>
    intro i s' h hx hy
    have hi : i < s'.count := by
      by_contra hge
      rw [List.drop_eq_nil_of_le (by unfold Cont.count at hge; omega)] at hx
      simp at hx
    have hdrop := List.drop_eq_getElem_cons hi
    have hat : s'.idAt? (i : Int).toNat = some s'.ids[i] := by rw [Int.toNat_natCast]; exact List.getElem?_eq_getElem hi
    have hsq : (0 : K) < tol * tol := mul_pos htol htol
    -- the round for one of the two facets removes `y`
    have key : s'.ids[i] = x ∨ s'.ids[i] = y → ∃ s1, duplicateLoop nrm tol find (fuel + 1) i s' = duplicateLoop nrm tol find fuel i s1 ∧ Part s s1 ∧ s1.ids = s'.ids.erase y := by
      intro hz
      have hz' : s'.ids[i] = a ∨ s'.ids[i] = b := by rcases hxy with ⟨rfl, rfl⟩ | ⟨rfl, rfl⟩ <;> tauto
      obtain ⟨s1, g, hm, hp, hids, hg⟩ := h.modify nrm ht (id := s'.ids[i]) (List.getElem_mem hi)
      obtain ⟨f, hf, hv, _⟩ := hp.2 _ g hg
      have hc' : g.centroid = some ca := (centroid_congr hv).trans (hd.cent _ f hf hz').1
      obtain ⟨s2, gy, hm2, hp2, hids2, hgy⟩ := hp.modify nrm ht (id := y) (hids ▸ List.mem_of_mem_drop hy)
      obtain ⟨fy, hfy, hvy, _⟩ := hp2.2 _ gy hgy
      have hary : gy.area nrm = some ar := (area_congr nrm hvy).trans (hd.cent _ fy hfy (by tauto)).2
      obtain ⟨gz, hgz⟩ := (hp2.1.2 s'.ids[i]).1 (by rw [hids2, hids]; exact List.getElem_mem hi)
      obtain ⟨fz, hfz, hvz, _⟩ := hp2.2 _ gz hgz
      have harz : gz.area nrm = some ar := (area_congr nrm hvz).trans (hd.cent _ fz hfz hz').2
      obtain ⟨s3, hm3, hp3, hids3, _⟩ := hp2.remove (id := y) (by rw [hids2, hids]; exact List.mem_of_mem_drop hy)
      refine ⟨s3, ?_, hp3, by rw [hids3, hids2, hids]⟩
      rw [duplicateLoop]
      rw [if_pos (by exact_mod_cast hi), if_pos (by omega)]
      simp only [hat, Option.bind_eq_bind, Option.bind_some, hm, hg, hc', hd.found, List.drop_succ_cons, List.drop_zero, duplicateInner, hm2, hgz, hgy, harz, hary, sub_self, abs_zero, hm3, sub_add_cancel]
      rw [if_pos hsq]
      simp only [Option.bind_some, sub_add_cancel]
    by_cases hcx : s'.ids[i] = x
    · obtain ⟨s1, r1, r2, r3⟩ := key (Or.inl hcx)
      rw [r1]
      have hyi : y ∈ s'.ids.drop (i + 1) := by
        rw [hdrop] at hy
        rcases List.mem_cons.1 hy with h | h
        · exact absurd (hcx.symm.trans h.symm) hne
        · exact h
      obtain ⟨k, hk, hky⟩ := List.mem_iff_getElem.1 hyi
      rw [List.length_drop] at hk
      rw [List.getElem_drop] at hky
      have herase : s1.ids = s'.ids.eraseIdx (i + 1 + k) := by rw [r3, ← hky]; exact List.Nodup.erase_getElem h.1.1 _ _
      have hi1 : i < s1.count := by
        unfold Cont.count; rw [herase, List.length_eraseIdx]
        split_ifs <;> omega
      refine double_stop ht r2 hi1 ?_ (fun f hf => (hd.cent x f hf (by tauto)).1) hd.found (by rw [r3]; exact h.1.1.not_mem_erase) _
      have : s1.ids[i]? = some x := by
        rw [herase, List.getElem?_eraseIdx, if_pos (by omega), List.getElem?_eq_getElem hi, hcx]
      rw [List.getElem?_eq_getElem hi1] at this
      simpa using this
    · by_cases hcy : s'.ids[i] = y
      · obtain ⟨s1, r1, r2, r3⟩ := key (Or.inr hcy)
        rw [r1]
        refine double_after ht hxy hd _ _ _ r2 (by rw [r3]; exact h.1.1.not_mem_erase) ?_
        have herase : s1.ids = s'.ids.eraseIdx i := by rw [r3, ← hcy]; exact List.Nodup.erase_getElem h.1.1 _ _
        rw [herase]
        rw [hdrop] at hx
        rcases List.mem_cons.1 hx with h | h
        · exact absurd h.symm hcx
        · rw [List.eraseIdx_eq_take_drop_succ, List.drop_append, List.drop_eq_nil_of_le (by simp)]
          rw [List.length_take, min_eq_left (by unfold Cont.count at hi; omega), Nat.sub_self]
          simpa using h
      · obtain ⟨s1, r1, r2, r3⟩ := duplicate_alone (nrm := nrm) (tol := tol) (find := find) ht h hi (fun f c hf hc' => hd.alone _ f c hf (by rcases hxy with ⟨rfl, rfl⟩ | ⟨rfl, rfl⟩ <;> assumption) (by rcases hxy with ⟨rfl, rfl⟩ | ⟨rfl, rfl⟩ <;> assumption) hc') fuel
        rw [r1]
        rw [hdrop] at hx hy
        apply ih _ _ r2
        · rw [r3]
          rcases List.mem_cons.1 hx with h | h
          · exact absurd h.symm hcx
          · exact h
        · rw [r3]
          rcases List.mem_cons.1 hy with h | h
          · exact absurd h.symm hcy
          · exact h

end

/-- A facet with the corners given. -/
def mk3 (a b c : Vec3 ℚ) (n : Bool := false) : Facet ℚ := ⟨[a, b, c], ⟨0, 0, 0⟩, (0, 0), [⟨-1, -1, n⟩, ⟨-1, -1, n⟩, ⟨-1, -1, n⟩]⟩

/-- Two nodes apart: a square of two triangles and a beam. -/
def plate : Mesh ℚ :=
  { nodes := (((Cont.empty.add 0 ⟨0, 0, 0⟩).add 1 ⟨2, 0, 0⟩).add 2 ⟨2, 1, 0⟩).add 3 ⟨0, 1, 5⟩
    faces := Cont.empty
    elements := ((Cont.empty.add 4 ⟨.triangle, [0, 1, 2], []⟩).add 7 ⟨.beam, [0, 1], []⟩).add 5 ⟨.triangle, [0, 2, 3], []⟩
    nbBoundary := 0 }

/-- The facets of `plate`, and facet 4 once more with the vertices in another order. -/
def doubled : File ℚ :=
  ((Cont.empty.add 4 (mk3 ⟨0, 0, 0⟩ ⟨2, 0, 0⟩ ⟨2, 1, 0⟩)).add 5 (mk3 ⟨0, 0, 0⟩ ⟨2, 1, 0⟩ ⟨0, 1, 5⟩)).add 9 (mk3 ⟨2, 0, 0⟩ ⟨2, 1, 0⟩ ⟨0, 0, 0⟩)

/-- Two triangles of different size about the same centre, and one elsewhere. -/
def nested : File ℚ :=
  ((Cont.empty.add 0 (mk3 ⟨-1, -1, 0⟩ ⟨1, -1, 0⟩ ⟨0, 2, 0⟩)).add 1 (mk3 ⟨-2, -2, 0⟩ ⟨2, -2, 0⟩ ⟨0, 4, 0⟩)).add 2 (mk3 ⟨9, 0, 0⟩ ⟨12, 0, 0⟩ ⟨9, 3, 0⟩)

/-- The facets 4 and 5 of `plate`. -/
def plateFile : File ℚ := (Cont.empty.add 4 (mk3 ⟨0, 0, 0⟩ ⟨2, 0, 0⟩ ⟨2, 1, 0⟩)).add 5 (mk3 ⟨0, 0, 0⟩ ⟨2, 1, 0⟩ ⟨0, 1, 5⟩)

end Stl

open Stl

/-- C96: after `set(mesh)` the file has one facet per triangle of the mesh, in the order of the mesh and under the same id, with the positions of the triangle's nodes as vertices. The stored normal is zero. -/
theorem C96_set {K : Type} [Zero K] {m : Mesh K} (hm : m.WF) :
    ∃ s, Stl.set m = some s ∧ s.Ok ∧ s.ids = m.elements.ids.filter (fun id => (m.elements.get? id).map (·.elementType) = some .triangle) ∧
      ∀ id e, m.elements.get? id = some e → e.elementType = .triangle → ∃ f, s.get? id = some f ∧ f.verts.map some = m.coords e.nodeIds ∧ f.normal = ⟨0, 0, 0⟩ ∧ f.extra = (0, 0) ∧ f.edges = [{}, {}, {}] := by
  obtain ⟨s, h1, h2, h3, _, h5⟩ := setLoop_spec hm m.elements.ids Cont.empty Cont.empty_ok hm.elements.1 (fun id h => ⟨h, by simp [Cont.empty]⟩)
  exact ⟨s, h1, h2, by simpa [Cont.empty] using h3, fun id e he => h5 id ((hm.elements.2 id).2 ⟨e, he⟩) e he⟩

example : plate.WF ∧ ∃ s, Stl.set plate = some s ∧ s.ids = [4, 5] := by
  refine ⟨Mesh.wf_of_check (by decide +kernel), _, rfl, by decide +kernel⟩

/-- C96: `add` keeps the facets of the file and appends a copy of each facet of the other one, in order, under the ids that follow the greatest one in use. -/
theorem C96_add {K : Type} {s b : File K} (hs : s.Ok) (hb : b.Ok) :
    ∃ s', Stl.add s b = some s' ∧ s'.Ok ∧ s'.ids = s.ids ++ (List.range b.ids.length).map (fun k : Nat => s.nextId + k) ∧
      (∀ id ∈ s.ids, s'.get? id = s.get? id) ∧ ∀ (k : Nat) id, b.ids[k]? = some id → s'.get? (s.nextId + k) = b.get? id := by
  obtain ⟨s', h1, h2, h3, h4, h5⟩ := addLoop_spec b.ids s hs fun id h => (hb.2 id).1 h
  exact ⟨s', h1, h2, h3, fun id hid => by
    obtain ⟨f, hf⟩ := (hs.2 id).1 hid
    exact h4 id (lt_nextId hf), h5⟩

example : plateFile.Ok ∧ ∃ s, Stl.add plateFile plateFile = some s ∧ s.ids = [4, 5, 6, 7] := by
  refine ⟨Cont.add_ok (Cont.add_ok Cont.empty_ok _ (by decide +kernel)) _ (by decide +kernel), _, rfl, by decide +kernel⟩

/-- C96: a file that is not empty cannot be added to itself: the loop never ends, whatever the number of rounds. -/
theorem C96_add_itself {K : Type} {s : File K} (hs : s.Ok) (hne : s.ids ≠ []) (fuel : Nat) : Stl.addSelf fuel 0 s = none :=
  addSelf_none fuel 0 s hs (List.length_pos_iff.2 hne)

/-- C96: the bounds that `calculateStatistics` sets are the least box that contains every vertex. -/
theorem C96_bounds {K : Type} [LinearOrder K] {s : File K} (hs : s.Ok) (ht : Stl.Triangular s) (hne : s.ids ≠ []) (old : Vec3 K × Vec3 K) :
    ∃ b, Stl.statistics s old = some b ∧ Stl.LeastBox (fun v => ∃ id f, s.get? id = some f ∧ v ∈ f.verts) b := by
  obtain ⟨a, t, hat⟩ : ∃ a t, s.ids = a :: t := List.exists_cons_of_ne_nil hne
  obtain ⟨f, hf⟩ := (hs.2 a).1 (by rw [hat]; simp)
  obtain ⟨v0, v1, v2, hv, g0, _, _⟩ := verts_of ht hf
  have hstart : LeastBox (fun w => w = v0) (v0, v0) := by
    constructor <;> (constructor <;> refine ⟨⟨v0, rfl, rfl⟩, ?_⟩ <;> rintro x ⟨w, rfl, rfl⟩ <;> exact le_refl _)
  obtain ⟨b, h1, h2⟩ := statLoop_spec ht s.ids _ _ hstart fun id h => (hs.2 id).1 h
  refine ⟨b, ?_, h2.congr fun v => ?_⟩
  · have h0 : Stl.start s old = some (v0, v0) := by
      unfold Stl.start
      rw [hat]
      simp only [hf, g0, Option.bind_eq_bind, Option.bind_some, Option.pure_def]
    simp only [Stl.statistics, h0, Option.bind_eq_bind, Option.bind_some]
    exact h1
  · constructor
    · rintro (rfl | ⟨id, _, g, hg, hv⟩)
      · exact ⟨a, f, hf, by rw [hv]; simp⟩
      · exact ⟨id, g, hg, hv⟩
    · rintro ⟨id, g, hg, hv⟩
      exact Or.inr ⟨id, (hs.2 id).2 ⟨g, hg⟩, g, hg, hv⟩

theorem Stl.triangular_of {K : Type} {s : File K} (hs : s.Ok) (h : ∀ id ∈ s.ids, ∃ f, s.get? id = some f ∧ f.verts.length = 3 ∧ f.edges.length = 3) : Triangular s := by
  intro id f hf
  obtain ⟨g, hg, h⟩ := h id ((hs.2 id).2 ⟨f, hf⟩)
  rw [hf] at hg
  simp only [Option.some.injEq] at hg
  exact hg ▸ h

theorem Stl.plateFile_ok : plateFile.Ok ∧ Triangular plateFile := by
  have : plateFile.Ok := Cont.add_ok (Cont.add_ok Cont.empty_ok _ (by decide +kernel)) _ (by decide +kernel)
  refine ⟨this, triangular_of this ?_⟩
  intro id hid
  have : id = 4 ∨ id = 5 := by simpa [plateFile, Cont.add, Cont.empty] using hid
  rcases this with rfl | rfl
  · exact ⟨mk3 ⟨0, 0, 0⟩ ⟨2, 0, 0⟩ ⟨2, 1, 0⟩, by decide +kernel, rfl, rfl⟩
  · exact ⟨mk3 ⟨0, 0, 0⟩ ⟨2, 1, 0⟩ ⟨0, 1, 5⟩, by decide +kernel, rfl, rfl⟩

example : Stl.statistics plateFile (⟨9, 9, 9⟩, ⟨9, 9, 9⟩) = some (⟨0, 0, 0⟩, ⟨2, 1, 5⟩) := by decide +kernel

/-- C97: `removeInvalidFacets` keeps exactly the facets whose corners are no closer than the tolerance and that have an edge with a neighbour, in their order and unchanged. -/
theorem C97_removeInvalid {K : Type} [Field K] [LinearOrder K] (nrm : Vec3 K → K) (tol : K) {s : File K} (hs : s.Ok) (ht : Stl.Triangular s) :
    ∃ s', Stl.removeInvalid nrm tol s.count 0 s = some s' ∧ s'.Ok ∧ s'.ids.Sublist s.ids ∧
      ∀ id f, s'.get? id = some f ↔ s.get? id = some f ∧ Stl.Valid nrm tol f :=
  removeInvalid_spec nrm tol s.count 0 s hs ht (by omega) (by omega) (by simp)

example : (Stl.removeInvalid supNorm (1 / 10) 4 0
    ((((Cont.empty.add 1 (mk3 ⟨0, 0, 0⟩ ⟨0, 0, 0⟩ ⟨2, 1, 0⟩)).add 3 (mk3 ⟨0, 0, 0⟩ ⟨2, 0, 0⟩ ⟨2, 1, 0⟩)).add 0 (mk3 ⟨0, 0, 0⟩ ⟨2, 0, 0⟩ ⟨2, 1, 0⟩ true)).add 2
      (mk3 ⟨0, 0, 0⟩ ⟨2, 1, 0⟩ ⟨0, 1, 5⟩))).map (·.ids) = some [3, 2] := by decide +kernel

section
variable {K : Type} [Field K] [LinearOrder K] [IsStrictOrderedRing K] [FloorRing K]

/-- The centroid of a facet with three vertices. -/
def Stl.CentroidOf (s : File K) (id : Int) (c : Vec3 K) : Prop := ∃ a b d f, s.get? id = some f ∧ f.verts = [a, b, d] ∧ c = (3 : K)⁻¹ • (a + b + d)

theorem Stl.centroidOf_iff {s : File K} {id : Int} {f : Facet K} (ht : Triangular s) (hf : s.get? id = some f) (c : Vec3 K) : CentroidOf s id c ↔ f.centroid = some c := by
  obtain ⟨a, b, d, hv⟩ := List.length_eq_three.1 (ht id f hf).1
  have : f.centroid = some ((3 : K)⁻¹ • (a + b + d)) := by
    simp only [Facet.centroid, hv, List.getElem?_cons_zero, List.getElem?_cons_succ, Option.bind_eq_bind, Option.bind_some, Option.pure_def]
  rw [this, Option.some.injEq]
  constructor
  · rintro ⟨a', b', d', f', hf', hv', rfl⟩
    rw [hf, Option.some.injEq] at hf'
    subst hf'
    rw [hv] at hv'
    simp only [List.cons.injEq, and_true] at hv'
    obtain ⟨rfl, rfl, rfl⟩ := hv'
    rfl
  · rintro rfl
    exact ⟨a, b, d, f, hf, hv, rfl⟩

/-- The centroids of a file can be put in a hash grid (C13). -/
def Stl.CentroidsGridable (mc : HashGrid.Machine K) (s : File K) : Prop :=
  0 < mc.eps ∧ 0 < mc.big ∧ (∀ id c, CentroidOf s id c → c.Bounded mc.big) ∧
  (mc.bad ≠ none ∨ s.ids = [] ∨ ∃ i j c d, CentroidOf s i c ∧ CentroidOf s j d ∧ c ≠ d)

theorem Stl.grid_of {mc : HashGrid.Machine K} {s : File K} (hs : s.Ok) (ht : Triangular s) (hg : CentroidsGridable mc s) (tol : K) :
    ∃ objs g, (s.ids.mapM fun id => do
        let f ← s.get? id
        let c ← f.centroid
        return (id, c)) = some objs ∧ HashGrid.ofList mc objs = some g ∧
      ∀ q, ∃ r, g.find mc q tol = some r ∧ r.Nodup ∧ ∀ k, k ∈ r ↔ ∃ c, CentroidOf s k c ∧ Vec3.Within c q tol := by
  have hcent : ∀ id ∈ s.ids, ∃ f c, s.get? id = some f ∧ f.centroid = some c := by
    intro id hid
    obtain ⟨f, hf⟩ := (hs.2 id).1 hid
    obtain ⟨c, hc⟩ := centroid_some (f := f) (ht id f hf).1
    exact ⟨f, c, hf, hc⟩
  let pos : Int → Vec3 K := fun id => ((s.get? id).bind Facet.centroid).getD ⟨0, 0, 0⟩
  have hpos : ∀ id ∈ s.ids, CentroidOf s id (pos id) := by
    intro id hid
    obtain ⟨f, c, hf, hc⟩ := hcent id hid
    rw [centroidOf_iff ht hf]
    simp [pos, hf, hc]
  have huniq : ∀ id c, CentroidOf s id c → id ∈ s.ids ∧ c = pos id := by
    intro id c h
    obtain ⟨a, b, d, f, hf, hv, h'⟩ := h
    refine ⟨(hs.2 id).2 ⟨f, hf⟩, ?_⟩
    have := (centroidOf_iff ht hf c).1 ⟨a, b, d, f, hf, hv, h'⟩
    simp [pos, hf, this]
  have hobjs : (s.ids.mapM fun id => do
        let f ← s.get? id
        let c ← f.centroid
        return (id, c)) = some (s.ids.map fun id => (id, pos id)) := by
    apply mapM_option_eq
    intro id hid
    obtain ⟨f, c, hf, hc⟩ := hcent id hid
    simp [pos, hf, hc]
  have hgrid : Mesh.Gridable mc (s.ids.map fun id => (id, pos id)) := by
    refine ⟨hg.1, hg.2.1, ?_, ?_⟩
    · rintro o ho
      obtain ⟨id, hid, rfl⟩ := List.mem_map.1 ho
      exact hg.2.2.1 id _ (hpos id hid)
    · rcases hg.2.2.2 with h | h | ⟨i, j, c, d, hc, hd, hne⟩
      · exact Or.inl h
      · exact Or.inr (Or.inl (by rw [h]; rfl))
      · refine Or.inr (Or.inr ⟨(i, pos i), List.mem_map.2 ⟨i, (huniq i c hc).1, rfl⟩, (j, pos j), List.mem_map.2 ⟨j, (huniq j d hd).1, rfl⟩, ?_⟩)
        simp only
        rw [← (huniq i c hc).2, ← (huniq j d hd).2]
        exact hne
  obtain ⟨g, h1, h2⟩ := Mesh.grid_exact hgrid tol
  refine ⟨_, g, hobjs, h1, fun q => ?_⟩
  obtain ⟨r, hr, hmem, hnd⟩ := h2 q
  refine ⟨r, hr, hnd (by rw [List.map_map]; simpa [Function.comp_def] using hs.1), fun k => ?_⟩
  rw [hmem]
  constructor
  · rintro ⟨p, hp, hw⟩
    obtain ⟨id, hid, he⟩ := List.mem_map.1 hp
    simp only [Prod.mk.injEq] at he
    obtain ⟨rfl, rfl⟩ := he
    exact ⟨_, hpos id hid, hw⟩
  · rintro ⟨c, hc, hw⟩
    obtain ⟨hid, rfl⟩ := huniq k c hc
    exact ⟨_, List.mem_map.2 ⟨k, hid, rfl⟩, hw⟩

theorem Stl.single_of {r : List Int} {x : Int} (hn : r.Nodup) (h : ∀ k, k ∈ r ↔ k = x) : r = [x] := by
  have : r.Perm [x] := (List.perm_ext_iff_of_nodup hn (by simp)).2 fun k => by simp [h]
  exact List.perm_singleton.1 this

theorem Stl.pair_of {r : List Int} {x y : Int} (hxy : x ≠ y) (hn : r.Nodup) (h : ∀ k, k ∈ r ↔ k = x ∨ k = y) : r = [x, y] ∨ r = [y, x] := by
  have hp : r.Perm [x, y] := (List.perm_ext_iff_of_nodup hn (by simp [hxy])).2 fun k => by simp [h]
  have hlen := hp.length_eq
  match r, hlen, hn, h with
  | [p, q], _, hn, h =>
    have hpq : p ≠ q := by simpa using hn
    have h1 := (h p).1 (by simp)
    have h2 := (h q).1 (by simp)
    rcases h1 with rfl | rfl <;> rcases h2 with rfl | rfl
    · exact absurd rfl hpq
    · exact Or.inl rfl
    · exact Or.inr rfl
    · exact absurd rfl hpq

/-- A file is well formed when each of its facets is there and has three vertices and three edges. -/
theorem Stl.ok_of_adds {s : File K} (hs : s.Ok) (h : ∀ id ∈ s.ids, (s.get? id).map (fun f => (f.verts.length, f.edges.length)) = some (3, 3)) : Triangular s := by
  apply triangular_of hs
  intro id hid
  have := h id hid
  cases hf : s.get? id with
  | none => simp [hf] at this
  | some f => simp [hf] at this; exact ⟨f, rfl, this⟩

/-- The centroids of a file, by computation. -/
theorem Stl.centroids {s : File K} (hs : s.Ok) (ht : Triangular s) {l : List (Int × Vec3 K)} (hl : (s.ids.mapM fun id => ((s.get? id).bind Facet.centroid).map fun c => (id, c)) = some l)
    {id : Int} {c : Vec3 K} : CentroidOf s id c ↔ (id, c) ∈ l := by
  have hl' : s.ids.map (fun id => ((s.get? id).bind Facet.centroid).map fun c => (id, c)) = l.map some := by
    have : ∀ (t : List Int) (l : List (Int × Vec3 K)), (t.mapM fun id => ((s.get? id).bind Facet.centroid).map fun c => (id, c)) = some l →
        t.map (fun id => ((s.get? id).bind Facet.centroid).map fun c => (id, c)) = l.map some := by
      intro t
      induction t with
      | nil => intro l h; simp at h; subst h; rfl
      | cons a t ih =>
        intro l h
        rw [List.mapM_cons] at h
        simp only [Option.bind_eq_bind, Option.pure_def, Option.bind_eq_some_iff, Option.some.injEq] at h
        obtain ⟨x, hx, y, hy, rfl⟩ := h
        simp only [List.map_cons, ih y hy, hx]
    exact this _ _ hl
  constructor
  · intro h
    have h0 := h
    obtain ⟨_, _, _, f, hf, _⟩ := h0
    have hc := (centroidOf_iff ht hf c).1 h
    have : some (id, c) ∈ l.map some := by
      rw [← hl', List.mem_map]
      exact ⟨id, (hs.2 id).2 ⟨f, hf⟩, by simp [hf, hc]⟩
    simpa using this
  · intro h
    have : some (id, c) ∈ l.map some := List.mem_map.2 ⟨_, h, rfl⟩
    rw [← hl', List.mem_map] at this
    obtain ⟨k, hk, he⟩ := this
    obtain ⟨f, hf⟩ := (hs.2 k).1 hk
    rw [hf] at he
    simp only [Option.bind_some, Option.map_eq_some_iff, Prod.mk.injEq] at he
    obtain ⟨c', hc', rfl, rfl⟩ := he
    exact (centroidOf_iff ht hf c').2 hc'

/-- C97, partial: when no two facets have centroids within the tolerance, `removeDuplicateFacets` keeps every facet, in order, with its vertices and edges; only stored normals change.
Missing: what it does when there are duplicates, which `C97_duplicates_throw` shows to be wrong. -/
theorem C97_noDuplicates_partial (nrm : Vec3 K → K) {mc : HashGrid.Machine K} {s : File K} (hs : s.Ok) (ht : Stl.Triangular s) {tol : K} (htol : 0 ≤ tol)
    (hg : Stl.CentroidsGridable mc s) (hapart : ∀ i j c d, Stl.CentroidOf s i c → Stl.CentroidOf s j d → Vec3.Within c d tol → i = j) :
    ∃ s', Stl.removeDuplicates nrm mc s.count s tol = some s' ∧ s'.ids = s.ids ∧
      ∀ id f, s.get? id = some f → ∃ g, s'.get? id = some g ∧ g.verts = f.verts ∧ g.edges = f.edges ∧ g.extra = f.extra := by
  obtain ⟨objs, g, h1, h2, h3⟩ := grid_of hs ht hg tol
  obtain ⟨s', r1, r2, r3⟩ := duplicateLoop_alone (nrm := nrm) (tol := tol) (find := fun q => g.find mc q tol) ht (by
    intro id f c hf hc
    obtain ⟨r, hr, hn, hmem⟩ := h3 c
    have hcid := (centroidOf_iff ht hf c).2 hc
    simp only [hr, Option.some.injEq]
    apply single_of hn
    intro k
    rw [hmem]
    constructor
    · rintro ⟨d, hd, hw⟩; exact hapart k id d c hd hcid hw
    · rintro rfl; exact ⟨c, hcid, by simpa [Vec3.Within, Vec3.normSq, Vec3.dot] using ⟨htol, mul_nonneg htol htol⟩⟩) s.count 0 s (Part.refl hs) (by omega)
  refine ⟨s', ?_, r3, fun id f hf => ?_⟩
  · unfold Stl.removeDuplicates
    rw [h1]
    simp only [Option.bind_eq_bind, Option.bind_some, h2]
    exact r1
  · obtain ⟨q, hq⟩ := (r2.1.2 id).1 (by rw [r3]; exact (hs.2 id).2 ⟨f, hf⟩)
    obtain ⟨f', hf', h⟩ := r2.2 id q hq
    rw [hf, Option.some.injEq] at hf'
    subst hf'
    exact ⟨q, hq, h⟩

/-- C97, the code departs from the property: whenever exactly two facets have the same centroid and the same area, `removeDuplicateFacets` does not remove one of them;
it throws (or reads past a vector), because the search still finds the facet removed. -/
theorem C97_duplicates_throw (nrm : Vec3 K → K) {mc : HashGrid.Machine K} {s : File K} (hs : s.Ok) (ht : Stl.Triangular s) {tol : K} (htol : 0 < tol)
    (hg : Stl.CentroidsGridable mc s) {a b : Int} (hab : a ≠ b) {fa fb : Facet K} (ha : s.get? a = some fa) (hb : s.get? b = some fb)
    {ca : Vec3 K} (hca : Stl.CentroidOf s a ca) (hcb : Stl.CentroidOf s b ca) (harea : fa.area nrm = fb.area nrm)
    (hapart : ∀ i j c d, Stl.CentroidOf s i c → Stl.CentroidOf s j d → Vec3.Within c d tol → i = j ∨ i = a ∧ j = b ∨ i = b ∧ j = a) (fuel : Nat) :
    Stl.removeDuplicates nrm mc fuel s tol = none := by
  have htol' := htol.le
  have hself : ∀ c : Vec3 K, Vec3.Within c c tol := fun c => by simpa [Vec3.Within, Vec3.normSq, Vec3.dot] using ⟨htol', mul_nonneg htol' htol'⟩
  obtain ⟨objs, g, h1, h2, h3⟩ := grid_of hs ht hg tol
  obtain ⟨ar, har⟩ := area_some nrm (f := fa) (ht a fa ha).1
  obtain ⟨r, hr, hn, hmem⟩ := h3 ca
  have hr' : r = [a, b] ∨ r = [b, a] := by
    apply pair_of hab hn
    intro k
    rw [hmem]
    constructor
    · rintro ⟨d, hd, hw⟩
      rcases hapart k a d ca hd hca hw with h | h | h
      · exact Or.inl h
      · exact Or.inl h.1
      · exact Or.inr h.1
    · rintro (rfl | rfl)
      · exact ⟨ca, hca, hself _⟩
      · exact ⟨ca, hcb, hself _⟩
  have hd : Double nrm (fun q => g.find mc q tol) s a b ca ar r := by
    refine ⟨hab, ?_, ?_, hr⟩
    · rintro id f hf (rfl | rfl)
      · rw [ha, Option.some.injEq] at hf; subst hf
        exact ⟨(centroidOf_iff ht ha ca).1 hca, har⟩
      · rw [hb, Option.some.injEq] at hf; subst hf
        exact ⟨(centroidOf_iff ht hb ca).1 hcb, harea ▸ har⟩
    · intro id f c hf hna hnb hc
      obtain ⟨r', hr', hn', hmem'⟩ := h3 c
      simp only [hr', Option.some.injEq]
      have hcid := (centroidOf_iff ht hf c).2 hc
      apply single_of hn'
      intro k
      rw [hmem']
      constructor
      · rintro ⟨d, hd, hw⟩
        rcases hapart k id d c hd hcid hw with h | h | h
        · exact h
        · exact absurd h.2 hnb
        · exact absurd h.2 hna
      · rintro rfl; exact ⟨c, hcid, hself _⟩
  have haid : a ∈ s.ids := (hs.2 a).2 ⟨_, ha⟩
  have hbid : b ∈ s.ids := (hs.2 b).2 ⟨_, hb⟩
  unfold Stl.removeDuplicates
  rw [h1]
  simp only [Option.bind_eq_bind, Option.bind_some, h2]
  rcases hr' with rfl | rfl
  · exact double_loop htol ht (Or.inl ⟨rfl, rfl⟩) hd fuel 0 s (Part.refl hs) (by simpa using haid) (by simpa using hbid)
  · exact double_loop htol ht (Or.inr ⟨rfl, rfl⟩) hd fuel 0 s (Part.refl hs) (by simpa using hbid) (by simpa using haid)

end

theorem Stl.plateFile_centroids {id : Int} {c : Vec3 ℚ} : CentroidOf plateFile id c ↔ (id, c) ∈ [((4 : Int), (⟨4 / 3, 1 / 3, 0⟩ : Vec3 ℚ)), (5, ⟨2 / 3, 2 / 3, 5 / 3⟩)] :=
  centroids plateFile_ok.1 plateFile_ok.2 (by decide +kernel)

/-- The hypotheses of `C97_noDuplicates_partial` hold for the two facets of `plate`. -/
example : Stl.CentroidsGridable smallMachine plateFile ∧
    (∀ i j c d, Stl.CentroidOf plateFile i c → Stl.CentroidOf plateFile j d → Vec3.Within c d (1 / 10) → i = j) := by
  refine ⟨⟨by norm_num [smallMachine], by norm_num [smallMachine], ?_, Or.inr (Or.inr ⟨4, 5, ⟨4 / 3, 1 / 3, 0⟩, ⟨2 / 3, 2 / 3, 5 / 3⟩, ?_, ?_, by decide +kernel⟩)⟩, ?_⟩
  · intro id c h
    rw [plateFile_centroids] at h
    have : ∀ p ∈ [((4 : Int), (⟨4 / 3, 1 / 3, 0⟩ : Vec3 ℚ)), (5, ⟨2 / 3, 2 / 3, 5 / 3⟩)], Vec3.Bounded smallMachine.big p.2 := by unfold Vec3.Bounded; decide +kernel
    exact this _ h
  · rw [plateFile_centroids]; decide +kernel
  · rw [plateFile_centroids]; decide +kernel
  · intro i j c d hc hd
    rw [plateFile_centroids] at hc hd
    have : ∀ p ∈ [((4 : Int), (⟨4 / 3, 1 / 3, 0⟩ : Vec3 ℚ)), (5, ⟨2 / 3, 2 / 3, 5 / 3⟩)], ∀ q ∈ [((4 : Int), (⟨4 / 3, 1 / 3, 0⟩ : Vec3 ℚ)), (5, ⟨2 / 3, 2 / 3, 5 / 3⟩)],
        Vec3.Within p.2 q.2 (1 / 10) → p.1 = q.1 := by unfold Vec3.Within; decide +kernel
    exact this _ hc _ hd

theorem Stl.doubled_ok : doubled.Ok ∧ Triangular doubled := by
  have h : doubled.Ok := Cont.add_ok (Cont.add_ok (Cont.add_ok Cont.empty_ok _ (by decide +kernel)) _ (by decide +kernel)) _ (by decide +kernel)
  exact ⟨h, ok_of_adds h (by decide +kernel)⟩

theorem Stl.doubled_centroids {id : Int} {c : Vec3 ℚ} :
    CentroidOf doubled id c ↔ (id, c) ∈ [((4 : Int), (⟨4 / 3, 1 / 3, 0⟩ : Vec3 ℚ)), (5, ⟨2 / 3, 2 / 3, 5 / 3⟩), (9, ⟨4 / 3, 1 / 3, 0⟩)] :=
  centroids doubled_ok.1 doubled_ok.2 (by decide +kernel)

/-- The hypotheses of `C97_duplicates_throw` hold for a plate with one facet twice. -/
example (fuel : Nat) : Stl.removeDuplicates supNorm smallMachine fuel doubled (1 / 10) = none := by
  refine C97_duplicates_throw supNorm doubled_ok.1 doubled_ok.2 (by norm_num)
    ⟨by norm_num [smallMachine], by norm_num [smallMachine], ?_, Or.inr (Or.inr ⟨4, 5, ⟨4 / 3, 1 / 3, 0⟩, ⟨2 / 3, 2 / 3, 5 / 3⟩, ?_, ?_, by decide +kernel⟩)⟩
    (a := 4) (b := 9) (by decide) (fa := mk3 ⟨0, 0, 0⟩ ⟨2, 0, 0⟩ ⟨2, 1, 0⟩) (fb := mk3 ⟨2, 0, 0⟩ ⟨2, 1, 0⟩ ⟨0, 0, 0⟩) (by decide +kernel) (by decide +kernel)
    (ca := ⟨4 / 3, 1 / 3, 0⟩) ?_ ?_ (by decide +kernel) ?_ fuel
  · intro id c h
    rw [doubled_centroids] at h
    have : ∀ p ∈ [((4 : Int), (⟨4 / 3, 1 / 3, 0⟩ : Vec3 ℚ)), (5, ⟨2 / 3, 2 / 3, 5 / 3⟩), (9, ⟨4 / 3, 1 / 3, 0⟩)], Vec3.Bounded smallMachine.big p.2 := by
      unfold Vec3.Bounded; decide +kernel
    exact this _ h
  · rw [doubled_centroids]; decide +kernel
  · rw [doubled_centroids]; decide +kernel
  · rw [doubled_centroids]; decide +kernel
  · rw [doubled_centroids]; decide +kernel
  · intro i j c d hc hd
    rw [doubled_centroids] at hc hd
    have : ∀ p ∈ [((4 : Int), (⟨4 / 3, 1 / 3, 0⟩ : Vec3 ℚ)), (5, ⟨2 / 3, 2 / 3, 5 / 3⟩), (9, ⟨4 / 3, 1 / 3, 0⟩)],
        ∀ q ∈ [((4 : Int), (⟨4 / 3, 1 / 3, 0⟩ : Vec3 ℚ)), (5, ⟨2 / 3, 2 / 3, 5 / 3⟩), (9, ⟨4 / 3, 1 / 3, 0⟩)],
        Vec3.Within p.2 q.2 (1 / 10) → p.1 = q.1 ∨ p.1 = 4 ∧ q.1 = 9 ∨ p.1 = 9 ∧ q.1 = 4 := by unfold Vec3.Within; decide +kernel
    exact this _ hc _ hd

/-- C97, the code departs from the property: of two facets about the same centre, of which one is four times as large as the other, `removeDuplicateFacets` removes one,
because the facet is compared with itself. -/
theorem C97_nested_removed : (Stl.removeDuplicates supNorm smallMachine 5 nested (1 / 10)).map (·.ids) = some [0, 2] := by decide +kernel

end ENigMA
