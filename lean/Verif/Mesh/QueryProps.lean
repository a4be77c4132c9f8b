import Verif.Mesh.Query
import Verif.Mesh.MeshLemmas
import Mathlib.Algebra.Order.Ring.Rat

/-! # C34: the node-to-element queries -/

set_option linter.unusedSectionVars false

namespace ENigMA
namespace MeshQuery

/-- What is stored for a node, nothing being an empty vector. -/
def at' (q : MeshQuery) (n : Int) : List Int := (q.nodeToElement.find? n).getD []

theorem addOne_at (eid : Int) (q : MeshQuery) (n k : Int) : (addOne eid q n).at' k =
    if k = n ∧ eid ∉ q.at' n then q.at' k ++ [eid] else q.at' k := by
  unfold addOne at'
  cases h : q.nodeToElement.find? n with
  | none =>
    simp only [SMap.find?_insert, Option.getD_none, List.not_mem_nil, not_false_eq_true, and_true]
    by_cases hk : k = n
    · subst hk; rw [if_pos rfl, if_pos rfl, h]; rfl
    · rw [if_neg hk, if_neg hk]
  | some l =>
    simp only [Option.getD_some]
    by_cases hl : eid ∈ l
    · simp [hl]
    · simp only [hl, if_false, not_false_eq_true, and_true, SMap.find?_insert]
      by_cases hk : k = n
      · subst hk; rw [if_pos rfl, if_pos rfl, h]; rfl
      · rw [if_neg hk, if_neg hk]

theorem foldl_at (eid : Int) (l : List Int) : ∀ (q : MeshQuery), ∀ k, (l.foldl (addOne eid) q).at' k =
    if k ∈ l ∧ eid ∉ q.at' k then q.at' k ++ [eid] else q.at' k := by
  induction l with
  | nil => intro q k; simp
  | cons a t ih =>
    intro q k
    rw [List.foldl_cons, ih, addOne_at]
    by_cases h1 : k = a
    · subst h1
      by_cases h2 : eid ∈ q.at' k <;> simp [h2]
    · simp [h1]

theorem loop_at (els : Cont Elem) (l : List Int) (hl : l.Nodup) (hg : ∀ x ∈ l, ∃ e, els.get? x = some e) :
    ∀ (q : MeshQuery), (∀ x ∈ l, ∀ k, x ∉ q.at' k) → ∃ q', loop els l q = some q' ∧
      ∀ k, q'.at' k = q.at' k ++ l.filter fun x => decide (∃ e, els.get? x = some e ∧ k ∈ e.nodeIds) := by
  induction l with
  | nil => intro q _; exact ⟨q, rfl, by simp⟩
  | cons a t ih =>
    intro q hq
    rw [List.nodup_cons] at hl
    obtain ⟨e, he⟩ := hg a (by simp)
    have hat : ∀ k, (e.nodeIds.foldl (addOne a) q).at' k = q.at' k ++ if k ∈ e.nodeIds then [a] else [] := by
      intro k
      rw [foldl_at]
      have := hq a (by simp) k
      by_cases hk : k ∈ e.nodeIds <;> simp [hk, this]
    obtain ⟨q', h1, h2⟩ := ih hl.2 (fun x hx => hg x (by simp [hx])) (e.nodeIds.foldl (addOne a) q) (by
      intro x hx k
      rw [hat]
      have h3 := hq x (by simp [hx]) k
      have h4 : x ≠ a := fun h => hl.1 (h ▸ hx)
      by_cases hk : k ∈ e.nodeIds <;> simp [hk, h3, h4])
    refine ⟨q', by simp [loop, he, h1], fun k => ?_⟩
    rw [h2, hat]
    by_cases hk : k ∈ e.nodeIds <;> simp [hk, he, List.filter_cons]

theorem touch_at (q : MeshQuery) (n : Int) : (q.touch n).2 = q.at' n ∧ ∀ k, (q.touch n).1.at' k = q.at' k := by
  unfold touch at'
  cases h : q.nodeToElement.find? n with
  | some l => simp
  | none =>
    refine ⟨rfl, fun k => ?_⟩
    simp only [SMap.find?_insert]
    split_ifs with hk
    · subst hk; simp [h]
    · rfl

theorem exec_at (q : MeshQuery) (c : Call) (k : Int) : (q.exec c).at' k = q.at' k := by
  cases c with
  | one n => exact (touch_at q n).2 k
  | two n1 n2 =>
    show ((q.touch n1).1.touch n2).1.at' k = _
    rw [(touch_at _ n2).2, (touch_at q n1).2]

theorem execs_at (cs : List Call) : ∀ (q : MeshQuery) (k : Int), (cs.foldl exec q).at' k = q.at' k := by
  induction cs with
  | nil => intro q k; rfl
  | cons c t ih => intro q k; rw [List.foldl_cons, ih, exec_at]

theorem setIntersection_nil (t : List Int) : setIntersection [] t = [] := by unfold setIntersection; rfl

/-- The merge of two increasing lists is their intersection. -/
theorem setIntersection_eq (s t : List Int) (hs : s.Pairwise (· < ·)) (ht : t.Pairwise (· < ·)) :
    setIntersection s t = s.filter (· ∈ t) := by
  induction s, t using setIntersection.induct with
  | case1 t => rw [setIntersection_nil]; rfl
  | case2 a s => simp [setIntersection]
  | case3 a s b t hab ih =>
    rw [setIntersection, if_pos hab, ih (List.pairwise_cons.1 hs).2 ht]
    have : a ∉ b :: t := by
      intro h
      rcases List.mem_cons.1 h with rfl | h
      · omega
      · have := (List.pairwise_cons.1 ht).1 a h; omega
    rw [List.filter_cons_of_neg (by simpa using this)]
  | case4 a s b t h1 hba ih =>
    rw [setIntersection, if_neg h1, if_pos hba, ih hs (List.pairwise_cons.1 ht).2]
    apply List.filter_congr
    intro x hx
    have : x ≠ b := by
      rintro rfl
      rcases List.mem_cons.1 hx with rfl | h
      · omega
      · have := (List.pairwise_cons.1 hs).1 x h; omega
    simp [this]
  | case5 a s b t h1 h2 ih =>
    have hab : a = b := by omega
    subst hab
    rw [setIntersection, if_neg h1, if_neg h2, ih (List.pairwise_cons.1 hs).2 (List.pairwise_cons.1 ht).2,
      List.filter_cons_of_pos (by simp)]
    congr 1
    apply List.filter_congr
    intro x hx
    have : x ≠ a := fun h => by have := (List.pairwise_cons.1 hs).1 x hx; omega
    simp [this]

end MeshQuery

open MeshQuery
variable {K : Type}

/-- The element with this id is alive and has the node in its list. -/
def HasNode (m : Mesh K) (n : Int) (x : Int) : Prop := ∃ e, m.elements.get? x = some e ∧ n ∈ e.nodeIds

instance (m : Mesh K) (n x : Int) : Decidable (HasNode m n x) :=
  match h : m.elements.get? x with
  | none => isFalse (by rintro ⟨e, he, -⟩; rw [h] at he; cases he)
  | some e => if hn : n ∈ e.nodeIds then isTrue ⟨e, h, hn⟩ else isFalse (by
      rintro ⟨e', he, h'⟩; rw [h] at he; obtain rfl := Option.some.inj he; exact hn h')

theorem query_at (m : Mesh K) (hm : m.elements.Ok) : ∃ q, ofMesh m = some q ∧
    ∀ k, q.at' k = m.elements.ids.filter fun x => decide (HasNode m k x) := by
  obtain ⟨q, h1, h2⟩ := loop_at m.elements m.elements.ids hm.1 (fun x hx => (hm.2 x).1 hx) ⟨SMap.empty⟩ (by simp [at'])
  refine ⟨q, h1, fun k => ?_⟩
  rw [h2]
  simp only [at', SMap.find?_empty, Option.getD_none, List.nil_append]
  apply List.filter_congr
  intro x _
  unfold HasNode
  congr

/-- **C34, one node.** On every mesh, and after any sequence of earlier queries, `elementsSharingNode(n)` returns exactly the elements whose node list
contains `n`, each once, in the order in which they were added. -/
theorem C34_one_node (m : Mesh K) (hm : m.elements.Ok) : ∃ q, ofMesh m = some q ∧ ∀ (calls : List Call) (n : Int),
    ((calls.foldl exec q).sharingNode n).2.Nodup ∧
    (∀ x, x ∈ ((calls.foldl exec q).sharingNode n).2 ↔ HasNode m n x) ∧
    List.Sublist ((calls.foldl exec q).sharingNode n).2 m.elements.ids := by
  obtain ⟨q, h1, h2⟩ := query_at m hm
  refine ⟨q, h1, fun calls n => ?_⟩
  have e : ((calls.foldl exec q).sharingNode n).2 = m.elements.ids.filter fun x => decide (HasNode m n x) := by
    show ((calls.foldl exec q).touch n).2 = _
    rw [(touch_at _ n).1, execs_at, h2]
  rw [e]
  refine ⟨hm.1.filter _, fun x => ?_, List.filter_sublist⟩
  rw [List.mem_filter, decide_eq_true_eq]
  refine ⟨fun h => h.2, fun h => ⟨?_, h⟩⟩
  obtain ⟨e, he, -⟩ := h
  exact (hm.2 x).2 ⟨e, he⟩

/-- **C34, two nodes.** When the elements were added in increasing order of id (as all meshers of the library do), and after any sequence of earlier
queries, `elementsSharingNodes(n1, n2)` returns exactly the elements whose node list contains both, each once. What is missing: the order of ids
is needed, see `C34_two_nodes_unsorted`. -/
theorem C34_two_nodes_partial (m : Mesh K) (hm : m.elements.Ok) (hs : m.elements.ids.Pairwise (· < ·)) : ∃ q, ofMesh m = some q ∧
    ∀ (calls : List Call) (n1 n2 : Int),
      ((calls.foldl exec q).sharingNodes n1 n2).2.Nodup ∧
      ∀ x, x ∈ ((calls.foldl exec q).sharingNodes n1 n2).2 ↔ HasNode m n1 x ∧ HasNode m n2 x := by
  obtain ⟨q, h1, h2⟩ := query_at m hm
  refine ⟨q, h1, fun calls n1 n2 => ?_⟩
  have e : ((calls.foldl exec q).sharingNodes n1 n2).2 = (m.elements.ids.filter fun x => decide (HasNode m n1 x)).filter
      (· ∈ m.elements.ids.filter fun x => decide (HasNode m n2 x)) := by
    show setIntersection ((calls.foldl exec q).touch n1).2 ((((calls.foldl exec q).touch n1).1).touch n2).2 = _
    rw [(touch_at _ n2).1, (touch_at _ n1).2, (touch_at _ n1).1, execs_at, execs_at, h2, h2]
    exact setIntersection_eq _ _ (hs.filter _) (hs.filter _)
  rw [e]
  refine ⟨(hm.1.filter _).filter _, fun x => ?_⟩
  simp only [List.mem_filter, decide_eq_true_eq]
  refine ⟨fun h => ⟨h.1.2, h.2.2⟩, fun h => ?_⟩
  obtain ⟨e, he, -⟩ := h.1
  have hx := (hm.2 x).2 ⟨e, he⟩
  exact ⟨⟨hx, h.1⟩, hx, h.2⟩

/-- Two beams, the one with the larger id added first; the node 1 belongs to both. -/
def laterFirst : Mesh ℚ :=
  { (Mesh.empty : Mesh ℚ) with
    elements := ((Cont.empty : Cont Elem).add 5 { elementType := .beam, nodeIds := [0, 1] }).add 3 { elementType := .beam, nodeIds := [1, 2] } }

/-- **C34 fails for two nodes** when the ids were not added in increasing order: the beam 3 has the nodes 1 and 2, and the query does not find it. -/
theorem C34_two_nodes_unsorted : laterFirst.elements.Ok ∧ HasNode laterFirst 1 3 ∧ HasNode laterFirst 2 3 ∧
    ∃ q, ofMesh laterFirst = some q ∧ (q.sharingNodes 1 2).2 = [] := by
  refine ⟨Cont.add_ok (Cont.add_ok Cont.empty_ok _ (by decide)) _ (by decide), ⟨_, rfl, by decide⟩, ⟨_, rfl, by decide⟩, _, rfl, ?_⟩
  decide +kernel

/-- The hypotheses are met by two beams added in increasing order, and the answers are as expected. -/
example :
    let m : Mesh ℚ := { (Mesh.empty : Mesh ℚ) with
      elements := ((Cont.empty : Cont Elem).add 3 { elementType := .beam, nodeIds := [0, 1] }).add 5 { elementType := .beam, nodeIds := [1, 2] } }
    m.elements.Ok ∧ m.elements.ids.Pairwise (· < ·) ∧ ∃ q, ofMesh m = some q ∧ (q.sharingNode 1).2 = [3, 5] ∧ (q.sharingNodes 1 2).2 = [5] := by
  refine ⟨Cont.add_ok (Cont.add_ok Cont.empty_ok _ (by decide)) _ (by decide), by decide, _, rfl, ?_⟩
  decide +kernel

end ENigMA
