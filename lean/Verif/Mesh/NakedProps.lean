import Verif.Mesh.Naked
import Verif.Mesh.MeshLemmas
import Verif.Geometry.BBoxProps
import Verif.Base.Norm
import Mathlib.Order.Bounds.Basic

/-!
# What closing unpaired edges does to a mesh
-/

set_option linter.unusedSectionVars false
set_option autoImplicit false

namespace ENigMA
namespace Mesh
variable {K : Type} [Field K] [LinearOrder K] [IsStrictOrderedRing K]

/-- The face `id` of the mesh is an edge from node `a` to node `b` and has no partner. -/
def NakedEdge (m : Mesh K) (id a b : Int) : Prop :=
  ∃ f, m.faces.get? id = some f ∧ f.faceType = .line ∧ f.hasPair = false ∧ f.nodeIds[0]? = some a ∧ f.nodeIds[1]? = some b

/-- The lengths of the edges without a partner. -/
def nakedLengths (nrm : Vec3 K → K) (m : Mesh K) : Set K :=
  {d | ∃ id a b p q, m.NakedEdge id a b ∧ m.nodes.get? a = some p ∧ m.nodes.get? b = some q ∧ d = nrm (q - p)}

/-- Edges have two ends. -/
def EdgesHaveEnds (m : Mesh K) : Prop := ∀ id f, m.faces.get? id = some f → f.faceType = .line → 2 ≤ f.nodeIds.length

theorem NakedEdge.unique {m : Mesh K} {id a b a' b' : Int} (h : m.NakedEdge id a b) (h' : m.NakedEdge id a' b') : a = a' ∧ b = b' := by
  obtain ⟨f, h1, _, _, h2, h3⟩ := h
  obtain ⟨g, g1, _, _, g2, g3⟩ := h'
  rw [h1] at g1
  obtain rfl := Option.some.inj g1
  rw [h2] at g2
  rw [h3] at g3
  exact ⟨Option.some.inj g2, Option.some.inj g3⟩

theorem NakedEdge.ends {m : Mesh K} (hm : m.WF) {id a b : Int} (h : m.NakedEdge id a b) : ∃ p q, m.nodes.get? a = some p ∧ m.nodes.get? b = some q := by
  obtain ⟨f, h1, _, _, h2, h3⟩ := h
  obtain ⟨p, hp⟩ := (hm.nodes.2 a).1 (hm.faceNodes id f h1 a (List.mem_of_getElem? h2))
  obtain ⟨q, hq⟩ := (hm.nodes.2 b).1 (hm.faceNodes id f h1 b (List.mem_of_getElem? h3))
  exact ⟨p, q, hp, hq⟩

/-- What the first loop finds: exactly the edges without a partner, each once, and the least of their lengths. -/
def NakedFound (nrm : Vec3 K → K) (m : Mesh K) (l : List Int) (s : List Int × K) : Prop :=
    ∃ new d, nakedLoop nrm m l s = some (s.1 ++ new, d) ∧ new.Nodup ∧ (∀ id, id ∈ new ↔ id ∈ l ∧ ∃ a b, m.NakedEdge id a b) ∧ d ≤ s.2 ∧
      (∀ id ∈ l, ∀ a b p q, m.NakedEdge id a b → m.nodes.get? a = some p → m.nodes.get? b = some q → d ≤ nrm (q - p)) ∧ (d = s.2 ∨ d ∈ nakedLengths nrm m)

/-- What the first loop finds. -/
theorem nakedLoop_spec (nrm : Vec3 K → K) (m : Mesh K) (hm : m.WF) (he : m.EdgesHaveEnds) (l : List Int) : ∀ s : List Int × K, (∀ id ∈ l, id ∈ m.faces.ids) → l.Nodup → NakedFound nrm m l s := by
  induction l with
  | nil => intro s _ _; exact ⟨[], s.2, by simp [nakedLoop], List.nodup_nil, by simp, le_rfl, by simp, Or.inl rfl⟩
  | cons id t ih =>
    intro s hl hn
    rw [List.nodup_cons] at hn
    obtain ⟨f, hf⟩ := (hm.faces.2 id).1 (hl id (by simp))
    have ht : ∀ i ∈ t, i ∈ m.faces.ids := fun i hi => hl i (List.mem_cons_of_mem _ hi)
    have skip : (¬ ∃ a b, m.NakedEdge id a b) → nakedLoop nrm m (id :: t) s = nakedLoop nrm m t s → NakedFound nrm m (id :: t) s := fun hno heq => by
      obtain ⟨new, d, h1, h2, h3, h4, h5, h6⟩ := ih s ht hn.2
      refine ⟨new, d, heq.trans h1, h2, ?_, h4, ?_, h6⟩
      · intro i
        rw [h3, List.mem_cons]
        constructor
        · rintro ⟨hi, h⟩; exact ⟨Or.inr hi, h⟩
        · rintro ⟨rfl | hi, h⟩
          · exact absurd h hno
          · exact ⟨hi, h⟩
      · intro i hi a b p q hab
        rcases List.mem_cons.1 hi with rfl | hi
        · exact absurd ⟨a, b, hab⟩ hno
        · exact h5 i hi a b p q hab
    by_cases h1 : f.faceType ≠ .line
    · refine skip ?_ ?_
      · rintro ⟨a, b, g, hg, hg2, _⟩
        rw [hf] at hg
        obtain rfl := Option.some.inj hg
        exact h1 hg2
      · simp only [nakedLoop, hf, Option.bind_eq_bind, Option.bind_some]
        rw [if_pos h1]
    · by_cases h2 : f.hasPair = true
      · refine skip ?_ ?_
        · rintro ⟨a, b, g, hg, _, hg2, _⟩
          rw [hf] at hg
          obtain rfl := Option.some.inj hg
          rw [h2] at hg2
          exact absurd hg2 (by decide)
        · simp only [nakedLoop, hf, Option.bind_eq_bind, Option.bind_some]
          rw [if_neg h1, if_pos h2]
      · have hlen := he id f hf (not_not.1 h1)
        have hab : m.NakedEdge id f.nodeIds[0] f.nodeIds[1] :=
          ⟨f, hf, not_not.1 h1, by simpa using h2, List.getElem?_eq_getElem (by omega), List.getElem?_eq_getElem (by omega)⟩
        obtain ⟨p, q, hp, hq⟩ := hab.ends hm
        obtain ⟨new, d, g1, g2, g3, g4, g5, g6⟩ := ih (s.1 ++ [id], min s.2 (nrm (q - p))) ht hn.2
        refine ⟨id :: new, d, ?_, ?_, ?_, g4.trans (min_le_left _ _), ?_, ?_⟩
        · simp only [nakedLoop, hf, Option.bind_eq_bind, Option.bind_some]
          rw [if_neg h1, if_neg h2, List.getElem?_eq_getElem (show 0 < f.nodeIds.length by omega), List.getElem?_eq_getElem (show 1 < f.nodeIds.length by omega)]
          simp only [Option.bind_some, hp, hq]
          rw [g1]
          simp
        · rw [List.nodup_cons]
          exact ⟨fun h => hn.1 ((g3 id).1 h).1, g2⟩
        · intro i
          rw [List.mem_cons, List.mem_cons, g3]
          constructor
          · rintro (rfl | ⟨hi, h⟩)
            · exact ⟨Or.inl rfl, _, _, hab⟩
            · exact ⟨Or.inr hi, h⟩
          · rintro ⟨rfl | hi, h⟩
            · exact Or.inl rfl
            · exact Or.inr ⟨hi, h⟩
        · intro i hi a b p' q' hab' hp' hq'
          rcases List.mem_cons.1 hi with rfl | hi
          · obtain ⟨rfl, rfl⟩ := hab.unique hab'
            rw [hp] at hp'
            rw [hq] at hq'
            obtain rfl := Option.some.inj hp'
            obtain rfl := Option.some.inj hq'
            exact g4.trans (min_le_right _ _)
          · exact g5 i hi a b p' q' hab' hp' hq'
        · rcases g6 with g6 | g6
          · rcases le_total s.2 (nrm (q - p)) with h | h
            · left; rw [g6]; exact min_eq_left h
            · right; rw [g6]; simp only [min_eq_right h]; exact ⟨id, _, _, p, q, hab, hp, hq, rfl⟩
          · exact Or.inr g6

/-- One step of the second loop. -/
theorem closeLoop_cons (nrm : Vec3 K → K) (m : Mesh K) (d : K) {id a b : Int} (hab : m.NakedEdge id a b) (t : List Int) (nodes : Cont (Vec3 K)) {p q : Vec3 K}
    (hp : nodes.get? a = some p) (hq : nodes.get? b = some q) : closeLoop nrm m.faces d (id :: t) nodes =
      closeLoop nrm m.faces d t (if nrm (q - p) < d then { nodes with map := nodes.map.insert a q } else nodes) := by
  obtain ⟨f, h1, _, _, h2, h3⟩ := hab
  simp only [closeLoop, h1, h2, h3, hp, hq, Option.bind_eq_bind, Option.bind_some]
  by_cases h : nrm (q - p) < d
  · rw [if_pos h, if_pos h, Cont.modify_eq (a' := q) hp rfl]
    rfl
  · rw [if_neg h, if_neg h]

/-- The second loop runs to its end and keeps every property that the single moves keep. -/
theorem closeLoop_induct (nrm : Vec3 K → K) (m : Mesh K) (hm : m.WF) (d : K) (I : Cont (Vec3 K) → Prop) (l : List Int)
    (hstep : ∀ nodes, nodes.Ok → nodes.ids = m.nodes.ids → I nodes → ∀ id ∈ l, ∀ a b p q, m.NakedEdge id a b → nodes.get? a = some p → nodes.get? b = some q →
      nrm (q - p) < d → I { nodes with map := nodes.map.insert a q }) :
    ∀ nodes : Cont (Vec3 K), nodes.Ok → nodes.ids = m.nodes.ids → I nodes → (∀ id ∈ l, ∃ a b, m.NakedEdge id a b) →
      ∃ nodes', closeLoop nrm m.faces d l nodes = some nodes' ∧ nodes'.Ok ∧ nodes'.ids = m.nodes.ids ∧ I nodes' := by
  induction l with
  | nil => intro nodes h1 h2 h3 _; exact ⟨nodes, rfl, h1, h2, h3⟩
  | cons id t ih =>
    intro nodes h1 h2 h3 h4
    have ih := ih fun nodes n1 n2 n3 i hi => hstep nodes n1 n2 n3 i (List.mem_cons_of_mem _ hi)
    have ht : ∀ i ∈ t, ∃ a b, m.NakedEdge i a b := fun i hi => h4 i (List.mem_cons_of_mem _ hi)
    obtain ⟨a, b, hab⟩ := h4 id (by simp)
    obtain ⟨p0, q0, hp0, hq0⟩ := hab.ends hm
    obtain ⟨p, hp⟩ := (h1.2 a).1 (h2 ▸ (hm.nodes.2 a).2 ⟨p0, hp0⟩)
    obtain ⟨q, hq⟩ := (h1.2 b).1 (h2 ▸ (hm.nodes.2 b).2 ⟨q0, hq0⟩)
    rw [closeLoop_cons nrm m d hab t nodes hp hq]
    by_cases h : nrm (q - p) < d
    · rw [if_pos h]
      exact ih _ (Cont.put_ok h1 hp) h2 (hstep nodes h1 h2 h3 id (by simp) a b p q hab hp hq h) ht
    · rw [if_neg h]
      exact ih nodes h1 h2 h3 ht

theorem closeLoop_append (nrm : Vec3 K → K) (faces : Cont Face) (d : K) (l₁ l₂ : List Int) : ∀ nodes : Cont (Vec3 K),
    closeLoop nrm faces d (l₁ ++ l₂) nodes = (closeLoop nrm faces d l₁ nodes).bind (closeLoop nrm faces d l₂) := by
  induction l₁ with
  | nil => intro nodes; rfl
  | cons id t ih =>
    intro nodes
    simp only [List.cons_append, closeLoop, Option.bind_eq_bind, Option.bind_assoc]
    refine congrArg _ (funext fun f => congrArg _ (funext fun n1 => congrArg _ (funext fun n2 => congrArg _ (funext fun p1 => congrArg _ (funext fun p2 => ?_)))))
    split_ifs
    · rw [Option.bind_assoc]
      exact congrArg _ (funext fun nodes => ih nodes)
    · exact ih nodes

/-- Nodes at which no edge of the list begins stay where they are. -/
theorem closeLoop_stay (nrm : Vec3 K → K) (m : Mesh K) (hm : m.WF) (d : K) (l : List Int) (nodes : Cont (Vec3 K)) (h1 : nodes.Ok) (h2 : nodes.ids = m.nodes.ids)
    (h3 : ∀ id ∈ l, ∃ a b, m.NakedEdge id a b) : ∃ nodes', closeLoop nrm m.faces d l nodes = some nodes' ∧ nodes'.Ok ∧ nodes'.ids = m.nodes.ids ∧
      ∀ n, (∀ id ∈ l, ∀ b, ¬ m.NakedEdge id n b) → nodes'.get? n = nodes.get? n := by
  refine closeLoop_induct nrm m hm d (fun c => ∀ n, (∀ id ∈ l, ∀ b, ¬ m.NakedEdge id n b) → c.get? n = nodes.get? n) l ?_ nodes h1 h2 (fun _ _ => rfl) h3
  intro c _ _ hI id hid a b p q hab hp hq _ n hn
  have hna : n ≠ a := fun h => hn id hid b (h ▸ hab)
  rw [Cont.get?_put, if_neg (by exact hna)]
  exact hI n hn

/-- The call in terms of its two loops. -/
theorem collapse_run (nrm : Vec3 K → K) (big : K) (m : Mesh K) (tol : K) (hm : m.WF) (he : m.EdgesHaveEnds) :
    ∃ l d, nakedLoop nrm m m.faces.ids ([], big) = some (l, d) ∧ l.Nodup ∧ (∀ id, id ∈ l ↔ ∃ a b, m.NakedEdge id a b) ∧ d ≤ big ∧
      (∀ x ∈ nakedLengths nrm m, d ≤ x) ∧ (d = big ∨ d ∈ nakedLengths nrm m) ∧
      collapseNakedEdges nrm big m tol = (closeLoop nrm m.faces (d + tol) l m.nodes).bind fun nodes => some { m with nodes := nodes } := by
  obtain ⟨l, d, h1, h2, h3, h4, h5, h6⟩ := nakedLoop_spec nrm m hm he m.faces.ids ([], big) (fun _ h => h) hm.faces.1
  have hmem : ∀ id a b, m.NakedEdge id a b → id ∈ m.faces.ids := fun id a b ⟨f, hf, _⟩ => (hm.faces.2 id).2 ⟨f, hf⟩
  rw [List.nil_append] at h1
  refine ⟨l, d, h1, h2, ?_, h4, ?_, h6, ?_⟩
  · intro id
    rw [h3]
    exact ⟨fun h => h.2, fun ⟨a, b, h⟩ => ⟨hmem id a b h, a, b, h⟩⟩
  · rintro x ⟨id, a, b, p, q, hab, hp, hq, rfl⟩
    exact h5 id (hmem id a b hab) a b p q hab hp hq
  · simp [collapseNakedEdges, h1]

/-- The bound used by the call, when there is an edge without a partner. -/
theorem bound_eq (nrm : Vec3 K → K) {big : K} {m : Mesh K} {d μ : K} (hμ : IsLeast (nakedLengths nrm m) μ) (hb : μ ≤ big) (h1 : d ≤ big)
    (h2 : ∀ x ∈ nakedLengths nrm m, d ≤ x) (h3 : d = big ∨ d ∈ nakedLengths nrm m) : d = μ := by
  apply le_antisymm (h2 μ hμ.1)
  rcases h3 with rfl | h3
  · exact hb
  · exact hμ.2 h3

end Mesh

open Mesh
variable {K : Type} [Field K] [LinearOrder K] [IsStrictOrderedRing K]

/-- **C136 (only positions).** On every mesh, `collapseNakedEdges` keeps all nodes, faces and elements and their ids. A node at which no unpaired edge begins
stays where it is, and every node ends at a place where some node was before. -/
theorem C136_positions (nrm : Vec3 K → K) (big : K) (m : Mesh K) (tol : K) (hm : m.WF) (he : m.EdgesHaveEnds) :
    ∃ m', collapseNakedEdges nrm big m tol = some m' ∧ m'.WF ∧ m'.faces = m.faces ∧ m'.elements = m.elements ∧ m'.nodes.ids = m.nodes.ids ∧
      (∀ n, (∀ id b, ¬ m.NakedEdge id n b) → m'.nodes.get? n = m.nodes.get? n) ∧
      ∀ n p, m'.nodes.get? n = some p → ∃ k, m.nodes.get? k = some p := by
  obtain ⟨l, d, _, h2, h3, _, _, _, h7⟩ := collapse_run nrm big m tol hm he
  obtain ⟨nodes', g1, g2, g3, g4, g5⟩ := closeLoop_induct nrm m hm (d + tol)
    (fun c => (∀ n, (∀ id b, ¬ m.NakedEdge id n b) → c.get? n = m.nodes.get? n) ∧ ∀ n p, c.get? n = some p → ∃ k, m.nodes.get? k = some p) l
    (by
      intro c _ _ ⟨i1, i2⟩ id hid a b p q hab hp hq _
      constructor
      · intro n hn
        rw [Cont.get?_put, if_neg fun h : n = a => hn id b (h ▸ hab)]
        exact i1 n hn
      · intro n r
        rw [Cont.get?_put]
        split_ifs
        · intro h
          obtain rfl := Option.some.inj h
          exact i2 b q hq
        · exact i2 n r)
    m.nodes hm.nodes rfl ⟨fun _ _ => rfl, fun n p h => ⟨n, h⟩⟩ (fun id hid => (h3 id).1 hid)
  refine ⟨{ m with nodes := nodes' }, by rw [h7, g1]; rfl, ⟨g2, hm.faces, hm.elements, ?_, ?_⟩, rfl, rfl, g3, g4, g5⟩
  · intro id f hf n hn
    show n ∈ nodes'.ids
    rw [g3]
    exact hm.faceNodes id f hf n hn
  · intro id e hf n hn
    show n ∈ nodes'.ids
    rw [g3]
    exact hm.elemNodes id e hf n hn

/-- **C136 (tolerance).** With a tolerance that is not positive nothing moves. -/
theorem C136_no_tolerance (nrm : Vec3 K → K) (big : K) (m m' : Mesh K) (tol : K) (hm : m.WF) (he : m.EdgesHaveEnds) (ht : tol ≤ 0)
    (h : collapseNakedEdges nrm big m tol = some m') : ∀ n, m'.nodes.get? n = m.nodes.get? n := by
  obtain ⟨l, d, _, h2, h3, _, h5, _, h7⟩ := collapse_run nrm big m tol hm he
  obtain ⟨nodes', g1, g2, g3, g4⟩ := closeLoop_induct nrm m hm (d + tol) (fun c => ∀ n, c.get? n = m.nodes.get? n) l
    (by
      intro c _ _ hI id hid a b p q hab hp hq hlt
      exfalso
      have := h5 (nrm (q - p)) ⟨id, a, b, p, q, hab, by rw [← hI, hp], by rw [← hI, hq], rfl⟩
      linarith)
    m.nodes hm.nodes rfl (fun _ => rfl) (fun id hid => (h3 id).1 hid)
  rw [h7, g1] at h
  obtain rfl := Option.some.inj h
  exact g4

/-- **C136 (how far).** A node at which a single unpaired edge begins moves by less than the shortest unpaired edge plus the tolerance, if it moves at all. -/
theorem C136_short_moves (nrm : Vec3 K → K) (big : K) (m m' : Mesh K) (tol μ : K) (hm : m.WF) (he : m.EdgesHaveEnds)
    (hμ : IsLeast (nakedLengths nrm m) μ) (hb : μ ≤ big) (h : collapseNakedEdges nrm big m tol = some m')
    (n : Int) (hn : ∀ id b id' b', m.NakedEdge id n b → m.NakedEdge id' n b' → id = id') (p p' : Vec3 K)
    (hp : m.nodes.get? n = some p) (hp' : m'.nodes.get? n = some p') : p' = p ∨ nrm (p' - p) < μ + tol := by
  obtain ⟨l, d, _, h2, h3, h4, h5, h6, h7⟩ := collapse_run nrm big m tol hm he
  obtain rfl := bound_eq nrm hμ hb h4 h5 h6
  by_cases hex : ∃ id b, m.NakedEdge id n b
  · obtain ⟨id, b, hab⟩ := hex
    obtain ⟨l₁, l₂, rfl⟩ := List.append_of_mem ((h3 id).2 ⟨n, b, hab⟩)
    have hnd := h2
    rw [List.nodup_append] at hnd
    have hno1 : ∀ i ∈ l₁, ∀ b', ¬ m.NakedEdge i n b' := fun i hi b' hi' => hnd.2.2 i hi id (by simp) (hn i b' id b hi' hab)
    have hno2 : ∀ i ∈ l₂, ∀ b', ¬ m.NakedEdge i n b' := fun i hi b' hi' =>
      (List.nodup_cons.1 hnd.2.1).1 ((hn i b' id b hi' hab) ▸ hi)
    obtain ⟨c₁, a1, a2, a3, a4⟩ := closeLoop_stay nrm m hm (d + tol) l₁ m.nodes hm.nodes rfl fun i hi => (h3 i).1 (by simp [hi])
    have hq0 := a4 n hno1
    obtain ⟨_, q0, _, hq0'⟩ := hab.ends hm
    obtain ⟨q, hq⟩ := (a2.2 b).1 (a3 ▸ (hm.nodes.2 b).2 ⟨q0, hq0'⟩)
    rw [hp] at hq0
    rw [closeLoop_append, a1, Option.bind_some, closeLoop_cons nrm m (d + tol) hab l₂ c₁ hq0 hq] at h7
    have key : ∀ c₂ : Cont (Vec3 K), c₂.Ok → c₂.ids = m.nodes.ids → collapseNakedEdges nrm big m tol =
        ((closeLoop nrm m.faces (d + tol) l₂ c₂).bind fun nodes => some { m with nodes := nodes }) → c₂.get? n = some p' := by
      intro c₂ b1 b2 b3
      obtain ⟨c₃, e1, _, _, e4⟩ := closeLoop_stay nrm m hm (d + tol) l₂ c₂ b1 b2 fun i hi => (h3 i).1 (by simp [hi])
      rw [b3, e1] at h
      obtain rfl := Option.some.inj h
      rw [← e4 n hno2]
      exact hp'
    by_cases hlt : nrm (q - p) < d + tol
    · rw [if_pos hlt] at h7
      have := key _ (Cont.put_ok a2 hq0) a3 h7
      rw [Cont.get?_put, if_pos rfl] at this
      obtain rfl := Option.some.inj this
      exact Or.inr hlt
    · rw [if_neg hlt] at h7
      have := key _ a2 a3 h7
      rw [hq0] at this
      exact Or.inl (Option.some.inj this).symm
  · obtain ⟨c, a1, a2, a3, a4⟩ := closeLoop_stay nrm m hm (d + tol) l m.nodes hm.nodes rfl fun i hi => (h3 i).1 hi
    rw [h7, a1] at h
    obtain rfl := Option.some.inj h
    have := a4 n fun i _ b' hi' => hex ⟨i, b', hi'⟩
    have hp'' : c.get? n = some p' := hp'
    rw [this, hp] at hp''
    exact Or.inl (Option.some.inj hp'').symm

/-- **C136 (edges apart).** If no two unpaired edges share a node, exactly those shorter than the shortest one plus the tolerance are closed, by moving
their first node onto their second; the other edges keep their ends. -/
theorem C136_closed_partial (nrm : Vec3 K → K) (big : K) (m m' : Mesh K) (tol μ : K) (hm : m.WF) (he : m.EdgesHaveEnds)
    (hμ : IsLeast (nakedLengths nrm m) μ) (hb : μ ≤ big) (h : collapseNakedEdges nrm big m tol = some m')
    (hapart : ∀ id a b id' a' b', m.NakedEdge id a b → m.NakedEdge id' a' b' → id ≠ id' → a ≠ a' ∧ a ≠ b' ∧ b ≠ a' ∧ b ≠ b')
    (hends : ∀ id a b, m.NakedEdge id a b → a ≠ b) (id a b : Int) (hab : m.NakedEdge id a b) (p q : Vec3 K)
    (hp : m.nodes.get? a = some p) (hq : m.nodes.get? b = some q) :
    m'.nodes.get? b = some q ∧ m'.nodes.get? a = some (if nrm (q - p) < μ + tol then q else p) := by
  obtain ⟨l, d, _, h2, h3, h4, h5, h6, h7⟩ := collapse_run nrm big m tol hm he
  obtain rfl := bound_eq nrm hμ hb h4 h5 h6
  obtain ⟨l₁, l₂, rfl⟩ := List.append_of_mem ((h3 id).2 ⟨a, b, hab⟩)
  have hnd := h2
  rw [List.nodup_append] at hnd
  have hne1 : ∀ i ∈ l₁, i ≠ id := fun i hi => hnd.2.2 i hi id (by simp)
  have hne2 : ∀ i ∈ l₂, i ≠ id := fun i hi hii => (List.nodup_cons.1 hnd.2.1).1 (hii ▸ hi)
  have ha : ∀ i, i ≠ id → ∀ b', ¬ m.NakedEdge i a b' := fun i hi b' h' => (hapart id a b i a b' hab h' (Ne.symm hi)).1 rfl
  have hbb : ∀ i, i ≠ id → ∀ b', ¬ m.NakedEdge i b b' := fun i hi b' h' => (hapart id a b i b b' hab h' (Ne.symm hi)).2.2.1 rfl
  obtain ⟨c₁, a1, a2, a3, a4⟩ := closeLoop_stay nrm m hm (d + tol) l₁ m.nodes hm.nodes rfl fun i hi => (h3 i).1 (by simp [hi])
  have hp1 := (a4 a fun i hi => ha i (hne1 i hi)).trans hp
  have hq1 := (a4 b fun i hi => hbb i (hne1 i hi)).trans hq
  rw [closeLoop_append, a1, Option.bind_some, closeLoop_cons nrm m (d + tol) hab l₂ c₁ hp1 hq1] at h7
  have hok : (if nrm (q - p) < d + tol then { c₁ with map := c₁.map.insert a q } else c₁).Ok := by
    split_ifs
    · exact Cont.put_ok a2 hp1
    · exact a2
  have hids : (if nrm (q - p) < d + tol then { c₁ with map := c₁.map.insert a q } else c₁).ids = m.nodes.ids := by
    split_ifs <;> exact a3
  obtain ⟨c₃, e1, _, _, e4⟩ := closeLoop_stay nrm m hm (d + tol) l₂ _ hok hids fun i hi => (h3 i).1 (by simp [hi])
  rw [h7, e1] at h
  obtain rfl := Option.some.inj h
  constructor
  · refine (e4 b fun i hi => hbb i (hne2 i hi)).trans ?_
    split_ifs
    · rw [Cont.get?_put, if_neg (hends id a b hab).symm]; exact hq1
    · exact hq1
  · refine (e4 a fun i hi => ha i (hne2 i hi)).trans ?_
    split_ifs
    · rw [Cont.get?_put, if_pos rfl]
    · exact hp1

/-- An edge without a partner. -/
def nakedFace (a b : Int) : Face := { faceType := .line, nodeIds := [a, b] }

/-- A single triangle: its three edges have no partner. -/
def loneTriangle (p0 p1 p2 : Vec3 K) : Mesh K where
  nodes := ((Cont.empty.add 0 p0).add 1 p1).add 2 p2
  faces := ((Cont.empty.add 0 (nakedFace 0 1)).add 1 (nakedFace 1 2)).add 2 (nakedFace 2 0)
  elements := Cont.empty
  nbBoundary := 0

/-- **C136 (edges that follow each other).** The edges around a triangle, all short enough to be closed: the call goes round and leaves two of them as long
as the second edge was. Closing an edge moves the end of the edge before it away again. -/
theorem C136_round_trip (nrm : Vec3 K → K) (hN : IsNorm nrm) (big tol : K) (p0 p1 p2 : Vec3 K)
    (h01 : nrm (p1 - p0) < min (min (min big (nrm (p1 - p0))) (nrm (p2 - p1))) (nrm (p0 - p2)) + tol)
    (h12 : nrm (p2 - p1) < min (min (min big (nrm (p1 - p0))) (nrm (p2 - p1))) (nrm (p0 - p2)) + tol) :
    ∃ m', collapseNakedEdges nrm big (loneTriangle p0 p1 p2) tol = some m' ∧
      m'.nodes.get? 0 = some p1 ∧ m'.nodes.get? 1 = some p2 ∧ m'.nodes.get? 2 = some p1 := by
  have h21 : nrm (p1 - p2) = nrm (p2 - p1) := by
    apply hN.eq_of_sq (hN.nonneg _)
    rw [hN.sq]
    simp only [Vec3.normSq, Vec3.dot, Vec3.sub_x, Vec3.sub_y, Vec3.sub_z]
    ring
  have hf0 : (loneTriangle p0 p1 p2).faces.get? 0 = some (nakedFace 0 1) := rfl
  have hf1 : (loneTriangle p0 p1 p2).faces.get? 1 = some (nakedFace 1 2) := rfl
  have hf2 : (loneTriangle p0 p1 p2).faces.get? 2 = some (nakedFace 2 0) := rfl
  have e0 : (loneTriangle p0 p1 p2).NakedEdge 0 0 1 := ⟨_, hf0, rfl, rfl, rfl, rfl⟩
  have e1 : (loneTriangle p0 p1 p2).NakedEdge 1 1 2 := ⟨_, hf1, rfl, rfl, rfl, rfl⟩
  have e2 : (loneTriangle p0 p1 p2).NakedEdge 2 2 0 := ⟨_, hf2, rfl, rfl, rfl, rfl⟩
  have g0 : (loneTriangle p0 p1 p2).nodes.get? 0 = some p0 := rfl
  have g1 : (loneTriangle p0 p1 p2).nodes.get? 1 = some p1 := rfl
  have g2 : (loneTriangle p0 p1 p2).nodes.get? 2 = some p2 := rfl
  have hs : nakedLoop nrm (loneTriangle p0 p1 p2) (loneTriangle p0 p1 p2).faces.ids ([], big) =
      some ([0, 1, 2], min (min (min big (nrm (p1 - p0))) (nrm (p2 - p1))) (nrm (p0 - p2))) := by
    have hids : (loneTriangle p0 p1 p2).faces.ids = [0, 1, 2] := rfl
    rw [hids]
    simp [nakedLoop, hf0, hf1, hf2, nakedFace, g0, g1, g2]
  refine ⟨{ loneTriangle p0 p1 p2 with
      nodes := { (loneTriangle p0 p1 p2).nodes with map := (((loneTriangle p0 p1 p2).nodes.map.insert 0 p1).insert 1 p2).insert 2 p1 } }, ?_, ?_, ?_, ?_⟩
  · rw [collapseNakedEdges, hs]
    simp only [Option.bind_eq_bind, Option.bind_some]
    rw [closeLoop_cons nrm _ _ e0 _ _ g0 g1, if_pos h01,
      closeLoop_cons nrm _ _ e1 _ _ (p := p1) (q := p2) (by rw [Cont.get?_put]; exact g1) (by rw [Cont.get?_put]; exact g2), if_pos h12,
      closeLoop_cons nrm _ _ e2 _ _ (p := p2) (q := p1) (by simp only [Cont.get?_put]; exact g2) (by simp only [Cont.get?_put]; rfl), if_pos (by rw [h21]; exact h12)]
    rfl
  · simp only [Cont.get?_put]; rfl
  · simp only [Cont.get?_put]; rfl
  · simp only [Cont.get?_put]; rfl

end ENigMA
