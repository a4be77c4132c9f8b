import Verif.Mesh.RemeshProps
import Mathlib.Algebra.Order.Floor.Ring

/-!
# C93: cutting the beams of an edge mesh
-/

set_option linter.unusedSectionVars false
set_option autoImplicit false

namespace ENigMA
namespace Remesh
open Smooth
variable {K : Type} [Field K] [LinearOrder K] [IsStrictOrderedRing K]

theorem cutLoop_spec {id n2 : Int} {p1 w : Vec3 K} {fs : List Int} : ∀ (js : List Nat) {prev : Int} {nodes : Cont (Vec3 K)} {els : Cont Elem}, nodes.Ok → els.Ok →
    els.get? id = some ⟨.beam, [prev, n2], fs⟩ →
    ∃ nodes' els' cs es, cutLoop id n2 p1 w js prev (nodes, els) = some (nodes', els') ∧ nodes'.Ok ∧ els'.Ok ∧ nodes'.ids = nodes.ids ++ cs ∧
      els'.ids = els.ids ++ es ∧ cs.length = js.length ∧ (∀ n v, nodes.get? n = some v → nodes'.get? n = some v) ∧
      (∀ (k j : Nat) c, js[k]? = some j → cs[k]? = some c → nodes'.get? c = some (p1 + ((j : K) + 1) • w)) ∧
      (∀ k ∈ els.ids, k ≠ id → els'.get? k = els.get? k) ∧ els'.get? id = some ⟨.beam, [(prev :: cs).getLastD prev, n2], fs⟩ ∧
      es.map els'.get? = (steps (prev :: cs)).map fun s => some ⟨.beam, [s.1, s.2], []⟩
  | [], prev, nodes, els, h1, h2, h3 => ⟨nodes, els, [], [], rfl, h1, h2, by simp, by simp, rfl, fun _ _ h => h, by simp, fun _ _ _ => rfl, h3, rfl⟩
  | j :: t, prev, nodes, els, h1, h2, h3 => by
    have hidm := (h2.2 id).2 ⟨_, h3⟩
    have hn := Cont.nextId_not_mem h2
    have hne : id ≠ els.nextId := fun h => hn (h ▸ hidm)
    have okn := Cont.add_ok h1 (p1 + ((j : K) + 1) • w) (Cont.nextId_not_mem h1)
    have oke := Cont.add_ok h2 (⟨.beam, [prev, nodes.nextId], []⟩ : Elem) hn
    have he : (els.add els.nextId ⟨.beam, [prev, nodes.nextId], []⟩).get? id = some ⟨.beam, [prev, n2], fs⟩ := by
      rw [Cont.get?_add, if_neg hne]; exact h3
    have hmod := Cont.modify_eq (f := fun e : Elem => if 2 ≤ e.nodeIds.length then some { e with nodeIds := nodes.nextId :: n2 :: e.nodeIds.drop 2 } else none) he (by simp; rfl)
    have okm := Cont.put_ok (a' := ⟨.beam, [nodes.nextId, n2], fs⟩) oke he
    have hgm := fun k => Cont.get?_put (els.add els.nextId ⟨.beam, [prev, nodes.nextId], []⟩) id k (⟨.beam, [nodes.nextId, n2], fs⟩ : Elem)
    generalize hE : ({ els.add els.nextId ⟨.beam, [prev, nodes.nextId], []⟩ with
        map := (els.add els.nextId ⟨.beam, [prev, nodes.nextId], []⟩).map.insert id ⟨.beam, [nodes.nextId, n2], fs⟩ } : Cont Elem) = E at *
    have hEids : E.ids = els.ids ++ [els.nextId] := by rw [← hE]; rfl
    have hEid : E.get? id = some ⟨.beam, [nodes.nextId, n2], fs⟩ := by rw [hgm, if_pos rfl]
    obtain ⟨nodes', els', cs, es, k1, k2, k3, k4, k5, k6, k7, k8, k9, k10, k11⟩ := cutLoop_spec t okn okm hEid
    refine ⟨nodes', els', nodes.nextId :: cs, els.nextId :: es, ?_, k2, k3, ?_, ?_, by simp [k6], ?_, ?_, ?_, ?_, ?_⟩
    · unfold cutLoop
      simp only [Option.bind_eq_bind]
      rw [hmod, Option.bind_some]
      exact k1
    · rw [k4]; simp [Cont.add]
    · rw [k5, hEids]; simp
    · intro n v h
      apply k7
      rw [Cont.get?_add, if_neg]
      · exact h
      · rintro rfl; rw [Cont.get?_nextId] at h; simp at h
    · intro k i c hk hc
      cases k with
      | zero =>
        simp only [List.getElem?_cons_zero, Option.some.injEq] at hk hc
        subst hk hc
        apply k7
        rw [Cont.get?_add, if_pos rfl]
      | succ k =>
        simp only [List.getElem?_cons_succ] at hk hc
        exact k8 k i c hk hc
    · intro k hk hkid
      rw [k9 k (by rw [hEids]; exact List.mem_append_left _ hk) hkid, hgm, if_neg hkid, Cont.get?_add, if_neg (fun h : k = els.nextId => hn (h ▸ hk))]
    · rw [k10]
      congr 3
    · rw [List.map_cons, k11, steps, List.map_cons]
      congr 1
      rw [k9 _ (by rw [hEids]; simp) (Ne.symm hne), hgm, if_neg (Ne.symm hne), Cont.get?_add, if_pos rfl]

section
variable [FloorRing K]

/-- A length that is not cut. -/
def Settled (size L : K) : Prop := ⌊L / size + 1 / 2⌋ ≤ 1

theorem settled_part {size L : K} (hs : 0 < size) (h : 1 ≤ ⌊L / size + 1 / 2⌋) : Settled size (L / (⌊L / size + 1 / 2⌋ : ℤ)) := by
  unfold Settled
  generalize hn : ⌊L / size + 1 / 2⌋ = n at *
  rw [Int.floor_eq_iff] at hn
  have hn1 : (1 : K) ≤ n := by exact_mod_cast h
  have hn0 : (0 : K) < n := by linarith
  rw [← Int.lt_add_one_iff, Int.floor_lt]
  push_cast
  have : L / n / size = (L / size) / n := by field_simp
  rw [this]
  have h1 : L / size / n < 3 / 2 := by
    rw [div_lt_iff₀ hn0]
    linarith
  linarith

theorem parts_cast (nrm : Vec3 K → K) (size : K) (p q : Vec3 K) (h : 1 ≤ ⌊nrm (q - p) / size + 1 / 2⌋) : ((parts nrm size p q : Nat) : Int) = ⌊nrm (q - p) / size + 1 / 2⌋ := by
  unfold parts
  omega

theorem parts_one {nrm : Vec3 K → K} {size : K} {p q : Vec3 K} : parts nrm size p q = 1 ↔ Settled size (nrm (q - p)) := by
  unfold parts Settled
  omega

/-- One beam. -/
theorem cutBeam_spec {nrm : Vec3 K → K} (hpos : ∀ v, v ≠ 0 → 0 < nrm v) {size : K} (hs : 0 < size) {nodes : Cont (Vec3 K)} {els : Cont Elem} (h1 : nodes.Ok)
    (h2 : els.Ok) {id a b : Int} {fs : List Int} (he : els.get? id = some ⟨.beam, [a, b], fs⟩) {p q : Vec3 K} (ha : nodes.get? a = some p) (hb : nodes.get? b = some q)
    (hpq : p ≠ q) :
    ∃ nodes' els' cs es, cutBeam nrm size (nodes, els) id ⟨.beam, [a, b], fs⟩ = some (nodes', els') ∧ nodes'.Ok ∧ els'.Ok ∧ nodes'.ids = nodes.ids ++ cs ∧
      els'.ids = els.ids ++ es ∧ cs.length + 1 = parts nrm size p q ∧ (∀ n v, nodes.get? n = some v → nodes'.get? n = some v) ∧
      (∀ (k : Nat) c, cs[k]? = some c → nodes'.get? c = some (p + (((k : K) + 1) / (parts nrm size p q : K)) • (q - p))) ∧
      (∀ k ∈ els.ids, k ≠ id → els'.get? k = els.get? k) ∧ els'.get? id = some ⟨.beam, [(a :: cs).getLastD a, b], fs⟩ ∧
      es.map els'.get? = (steps (a :: cs)).map fun s => some ⟨.beam, [s.1, s.2], []⟩ := by
  have hL : 0 < nrm (q - p) := hpos _ (fun h => hpq (sub_eq_zero.1 h).symm)
  unfold cutBeam
  simp only [List.getElem?_cons_zero, List.getElem?_cons_succ, Option.bind_eq_bind, Option.bind_some, ha, hb]
  rw [if_neg (ne_of_gt hs)]
  by_cases hne : 0 < ⌊nrm (q - p) / size + 1 / 2⌋
  · rw [if_pos hne, if_neg (ne_of_gt hL)]
    obtain ⟨nodes', els', cs, es, k1, k2, k3, k4, k5, k6, k7, k8, k9, k10, k11⟩ := cutLoop_spec (p1 := p)
      (w := (nrm (q - p) / (⌊nrm (q - p) / size + 1 / 2⌋ : ℤ)) • ((nrm (q - p))⁻¹ • (q - p))) (List.range (⌊nrm (q - p) / size + 1 / 2⌋.toNat - 1)) h1 h2 he
    have hparts := parts_cast nrm size p q (by omega)
    refine ⟨nodes', els', cs, es, k1, k2, k3, k4, k5, ?_, k7, ?_, k9, k10, k11⟩
    · rw [k6, List.length_range]; omega
    · intro k c hk
      have hlt : k < ⌊nrm (q - p) / size + 1 / 2⌋.toNat - 1 := by
        have := (List.getElem?_eq_some_iff.1 hk).1
        rw [k6, List.length_range] at this
        exact this
      rw [k8 k k c (by rw [List.getElem?_range hlt]) hk]
      congr 2
      rw [smul_smul, smul_smul, ← hparts]
      congr 1
      have hp0 : (parts nrm size p q : K) ≠ 0 := by
        have : 1 ≤ parts nrm size p q := le_max_left _ _
        exact_mod_cast (by omega : parts nrm size p q ≠ 0)
      push_cast
      field_simp
  · rw [if_neg hne]
    refine ⟨nodes, els, [], [], rfl, h1, h2, by simp, by simp, ?_, fun _ _ h => h, by simp, fun _ _ _ => rfl, he, rfl⟩
    have : parts nrm size p q = 1 := parts_one.2 (by unfold Settled; omega)
    rw [this]; rfl

/-- A settled beam stays. -/
theorem cutBeam_settled {nrm : Vec3 K → K} (hpos : ∀ v, v ≠ 0 → 0 < nrm v) {size : K} (hs : 0 < size) {nodes : Cont (Vec3 K)} {els : Cont Elem} {id a b : Int} {fs : List Int}
    {p q : Vec3 K} (ha : nodes.get? a = some p) (hb : nodes.get? b = some q) (hpq : p ≠ q) (h : Settled size (nrm (q - p))) :
    cutBeam nrm size (nodes, els) id ⟨.beam, [a, b], fs⟩ = some (nodes, els) := by
  have hL : 0 < nrm (q - p) := hpos _ (fun h => hpq (sub_eq_zero.1 h).symm)
  unfold cutBeam
  simp only [List.getElem?_cons_zero, List.getElem?_cons_succ, Option.bind_eq_bind, Option.bind_some, ha, hb]
  rw [if_neg (ne_of_gt hs)]
  by_cases hne : 0 < ⌊nrm (q - p) / size + 1 / 2⌋
  · rw [if_pos hne, if_neg (ne_of_gt hL)]
    unfold Settled at h
    have : ⌊nrm (q - p) / size + 1 / 2⌋.toNat - 1 = 0 := by omega
    rw [this]
    rfl
  · rw [if_neg hne]

/-- The state after `i` of the given beams, `c` being the new nodes on each. -/
structure BInv (nrm : Vec3 K → K) (size : K) (m : Mesh K) (c : Int → List Int) (i : Nat) (s : St K) : Prop where
  nodes : s.nodes.Ok
  els : s.els.Ok
  nids : s.nodes.ids = m.nodes.ids ++ (m.elements.ids.take i).flatMap c
  old : ∀ n v, m.nodes.get? n = some v → s.nodes.get? n = some v
  ids : ∃ extra, s.els.ids = m.elements.ids ++ extra ∧ extra.map s.els.get? =
    (m.elements.ids.take i).flatMap fun id => ((m.elements.get? id).map fun e => (steps (e.ends.1 :: c id)).map fun s => some (⟨.beam, [s.1, s.2], []⟩ : Elem)).getD []
  rest : ∀ id ∈ m.elements.ids.drop i, s.els.get? id = m.elements.get? id
  past : ∀ id ∈ m.elements.ids.take i, ∀ a b fs p q, m.elements.get? id = some ⟨.beam, [a, b], fs⟩ → m.nodes.get? a = some p → m.nodes.get? b = some q →
    s.els.get? id = some ⟨.beam, [(a :: c id).getLastD a, b], fs⟩ ∧ (c id).length + 1 = parts nrm size p q ∧
      ∀ (k : Nat) x, (c id)[k]? = some x → s.nodes.get? x = some (p + (((k : K) + 1) / (parts nrm size p q : K)) • (q - p))

theorem beam_of {m : Mesh K} (hb : m.AllBeams) {id : Int} {e : Elem} (he : m.elements.get? id = some e) :
    ∃ a b fs p q, e = ⟨.beam, [a, b], fs⟩ ∧ m.nodes.get? a = some p ∧ m.nodes.get? b = some q ∧ p ≠ q := by
  obtain ⟨h1, a, b, p, q, h2, h3, h4, h5⟩ := hb id e he
  obtain ⟨ty, ns, fs⟩ := e
  simp only at h1 h2
  subst h1 h2
  exact ⟨a, b, fs, p, q, rfl, h3, h4, h5⟩

theorem round {nrm : Vec3 K → K} (hpos : ∀ v, v ≠ 0 → 0 < nrm v) {size : K} (hs : 0 < size) {m : Mesh K} (hm : m.WF) (hb : m.AllBeams) {c : Int → List Int} {i : Nat}
    {s : St K} (hi : BInv nrm size m c i s) {id : Int} (hid : m.elements.ids[i]? = some id) (faces : Cont Face) :
    ∃ s' c', cutElement nrm size faces s id = some s' ∧ BInv nrm size m c' (i + 1) s' := by
  have hlt := (List.getElem?_eq_some_iff.1 hid).1
  have htake : m.elements.ids.take (i + 1) = m.elements.ids.take i ++ [id] := by
    rw [List.take_succ, hid]; rfl
  have hdrop : m.elements.ids.drop i = id :: m.elements.ids.drop (i + 1) := by
    rw [List.drop_eq_getElem_cons hlt]
    congr 1
    exact (List.getElem?_eq_some_iff.1 hid).2
  have hnd : (m.elements.ids.take i ++ id :: m.elements.ids.drop (i + 1)).Nodup := by
    rw [← hdrop, List.take_append_drop]; exact hm.elements.1
  rw [List.nodup_append] at hnd
  obtain ⟨-, hnd2, hnd3⟩ := hnd
  rw [List.nodup_cons] at hnd2
  have hnot1 : id ∉ m.elements.ids.take i := fun h => hnd3 id h id (by simp) rfl
  obtain ⟨e, he⟩ := (hm.elements.2 id).1 (List.mem_of_getElem? hid)
  obtain ⟨a, b, fs, p, q, rfl, ha, hb', hpq⟩ := beam_of hb he
  have he' : s.els.get? id = some ⟨.beam, [a, b], fs⟩ := by rw [hi.rest id (by rw [hdrop]; simp)]; exact he
  obtain ⟨nodes', els', cs, es, k1, k2, k3, k4, k5, k6, k7, k8, k9, k10, k11⟩ := cutBeam_spec hpos hs hi.nodes hi.els he' (hi.old _ _ ha) (hi.old _ _ hb') hpq
  refine ⟨⟨nodes', els', s.done⟩, Function.update c id cs, ?_, ?_⟩
  · unfold cutElement
    simp only [he', Option.bind_eq_bind, Option.bind_some, k1]
  have hc : ∀ x ∈ m.elements.ids.take i, Function.update c id cs x = c x := by
    intro x hx
    rw [Function.update_of_ne]
    rintro rfl; exact hnot1 hx
  have hsub : ∀ x ∈ m.elements.ids, x ∈ s.els.ids := fun x hx => by
    obtain ⟨extra, h, -⟩ := hi.ids
    rw [h]; exact List.mem_append_left _ hx
  refine ⟨k2, k3, ?_, fun n v h => k7 n v (hi.old n v h), ?_, ?_, ?_⟩
  · rw [k4, hi.nids, htake, List.flatMap_append, List.append_assoc]
    congr 2
    · exact (List.flatMap_congr hc).symm
    · simp
  · obtain ⟨extra, h1, h2⟩ := hi.ids
    refine ⟨extra ++ es, by rw [k5, h1, List.append_assoc], ?_⟩
    rw [List.map_append, htake, List.flatMap_append]
    congr 1
    · rw [List.flatMap_congr (g := fun id => ((m.elements.get? id).map fun e => (steps (e.ends.1 :: c id)).map fun s => some (⟨.beam, [s.1, s.2], []⟩ : Elem)).getD []), ← h2]
      · apply List.map_congr_left
        intro x hx
        refine k9 x (by rw [h1]; exact List.mem_append_right _ hx) ?_
        rintro rfl
        have := hi.els.1
        rw [h1, List.nodup_append] at this
        exact this.2.2 x (List.mem_of_getElem? hid) x hx rfl
      · intro x hx
        rw [hc x hx]
    · simp [he, Elem.ends, k11]
  · intro x hx
    have hx' : x ∈ m.elements.ids := List.mem_of_mem_drop hx
    show els'.get? x = _
    rw [k9 x (hsub x hx') (fun h => hnd2.1 (h ▸ hx))]
    exact hi.rest x (by rw [hdrop]; exact List.mem_cons_of_mem _ hx)
  · intro x hx a1 b1 fs1 p1 q1 r1 r2 r3
    rw [htake] at hx
    replace hx := List.mem_append.1 hx
    rcases hx with hx | hx
    · obtain ⟨g1, g2, g3⟩ := hi.past x hx a1 b1 fs1 p1 q1 r1 r2 r3
      rw [hc x hx]
      refine ⟨?_, g2, fun k y hy => k7 _ _ (g3 k y hy)⟩
      show els'.get? x = _
      rw [k9 x (hsub x (List.mem_of_mem_take hx)) (by rintro rfl; exact hnot1 hx)]
      exact g1
    · obtain rfl := List.mem_singleton.1 hx
      rw [he] at r1
      simp only [Option.some.injEq, Elem.mk.injEq, List.cons.injEq, and_true, true_and] at r1
      obtain ⟨⟨rfl, rfl⟩, rfl⟩ := r1
      rw [ha] at r2
      rw [hb'] at r3
      obtain rfl := Option.some.inj r2
      obtain rfl := Option.some.inj r3
      rw [Function.update_self]
      exact ⟨k10, k6, k8⟩

theorem mem_steps : ∀ {l : List Int} {x : Int × Int}, x ∈ steps l → ∃ k : Nat, l[k]? = some x.1 ∧ l[k + 1]? = some x.2
  | [], _, h => by simp [steps] at h
  | [_], _, h => by simp [steps] at h
  | a :: b :: t, x, h => by
    rw [steps] at h
    rcases List.mem_cons.1 h with rfl | h
    · exact ⟨0, rfl, rfl⟩
    · obtain ⟨k, h1, h2⟩ := mem_steps h
      exact ⟨k + 1, h1, h2⟩

/-- The `k`-th node on a beam, the first and the last included. -/
theorem walk_at {nrm : Vec3 K → K} {size : K} {m : Mesh K} {nodes : Cont (Vec3 K)} {cs : List Int} {a b : Int} {p q : Vec3 K} (ha : nodes.get? a = some p)
    (hb : nodes.get? b = some q) (hl : cs.length + 1 = parts nrm size p q)
    (hc : ∀ (k : Nat) x, cs[k]? = some x → nodes.get? x = some (p + (((k : K) + 1) / (parts nrm size p q : K)) • (q - p))) {k : Nat} {x : Int}
    (hx : (a :: (cs ++ [b]))[k]? = some x) : nodes.get? x = some (p + ((k : K) / (parts nrm size p q : K)) • (q - p)) := by
  have hp0 : (parts nrm size p q : K) ≠ 0 := by
    have : 1 ≤ parts nrm size p q := le_max_left _ _
    exact_mod_cast (by omega : parts nrm size p q ≠ 0)
  cases k with
  | zero =>
    simp only [List.getElem?_cons_zero, Option.some.injEq] at hx
    subst hx
    simp [ha]
  | succ k =>
    simp only [List.getElem?_cons_succ] at hx
    by_cases hk : k < cs.length
    · rw [List.getElem?_append_left hk] at hx
      rw [hc k x hx]
      push_cast
      rfl
    · rw [List.getElem?_append_right (by omega)] at hx
      have hk' : k = cs.length := by
        have := (List.getElem?_eq_some_iff.1 hx).1
        simp only [List.length_singleton] at this
        omega
      subst hk'
      simp only [Nat.sub_self, List.getElem?_cons_zero, Option.some.injEq] at hx
      subst hx
      have : (((cs.length + 1 : Nat) : K) / (parts nrm size p q : K)) = 1 := by rw [hl]; exact div_self hp0
      rw [this, one_smul, hb]
      simp

theorem last_step (a b : Int) : ∀ (cs : List Int), steps (a :: (cs ++ [b])) = steps (a :: cs) ++ [((a :: cs).getLastD a, b)]
  | [] => rfl
  | c :: t => by
    have ih := last_step c b t
    show (a, c) :: steps (c :: (t ++ [b])) = (a, c) :: steps (c :: t) ++ _
    rw [ih]
    simp only [List.cons_append, List.cons.injEq, true_and]
    congr 2

/-- The walk along the parts of a beam, `c` being the new nodes on it. -/
def walk (m : Mesh K) (c : Int → List Int) (id : Int) : List (Int × Int) := ((m.elements.get? id).map fun e => steps (e.ends.1 :: (c id ++ [e.ends.2]))).getD []

/-- A part of a beam. -/
theorem piece {nrm : Vec3 K → K} (hpos : ∀ v, v ≠ 0 → 0 < nrm v) (hom : ∀ (t : K) v, nrm (t • v) = |t| * nrm v) {size : K} (hs : 0 < size) {m : Mesh K}
    {nodes : Cont (Vec3 K)} {cs : List Int} {a b : Int} {p q : Vec3 K} (hpq : p ≠ q) (ha : nodes.get? a = some p) (hb : nodes.get? b = some q)
    (hl : cs.length + 1 = parts nrm size p q)
    (hc : ∀ (k : Nat) x, cs[k]? = some x → nodes.get? x = some (p + (((k : K) + 1) / (parts nrm size p q : K)) • (q - p))) {x : Int × Int}
    (hx : x ∈ steps (a :: (cs ++ [b]))) :
    ∃ p' q', nodes.get? x.1 = some p' ∧ nodes.get? x.2 = some q' ∧ p' ≠ q' ∧ nrm (q' - p') = nrm (q - p) / (parts nrm size p q : K) ∧ Settled size (nrm (q' - p')) := by
  obtain ⟨k, h1, h2⟩ := mem_steps hx
  have k1 := walk_at (m := m) ha hb hl hc h1
  have k2 := walk_at (m := m) ha hb hl hc h2
  have hp1 : 1 ≤ parts nrm size p q := le_max_left _ _
  have hp0 : (0 : K) < parts nrm size p q := by exact_mod_cast hp1
  have hL : 0 < nrm (q - p) := hpos _ (fun h => hpq (sub_eq_zero.1 h).symm)
  have hd : (p + (((k + 1 : Nat) : K) / (parts nrm size p q : K)) • (q - p)) - (p + ((k : K) / (parts nrm size p q : K)) • (q - p)) =
      (1 / (parts nrm size p q : K)) • (q - p) := by
    rw [add_sub_add_left_eq_sub, ← sub_smul]
    congr 1
    push_cast
    field_simp
    ring
  have hn : nrm ((1 / (parts nrm size p q : K)) • (q - p)) = nrm (q - p) / (parts nrm size p q : K) := by
    rw [hom, abs_of_pos (div_pos one_pos hp0)]
    field_simp
  refine ⟨_, _, k1, k2, ?_, by rw [hd, hn], ?_⟩
  · intro h
    rw [← h, sub_self] at hd
    rw [← hd] at hn
    have h0 := hom 0 0
    rw [zero_smul, abs_zero, zero_mul] at h0
    rw [h0] at hn
    have := div_pos hL hp0
    rw [← hn] at this
    exact lt_irrefl _ this
  · rw [hd, hn]
    by_cases h : 1 ≤ ⌊nrm (q - p) / size + 1 / 2⌋
    · have := settled_part hs h
      rw [← parts_cast nrm size p q h] at this
      exact_mod_cast this
    · have h1 : Settled size (nrm (q - p)) := by unfold Settled; omega
      rw [parts_one.2 h1]
      simpa using h1

theorem all_pieces {nrm : Vec3 K → K} {size : K} {m : Mesh K} (hm : m.WF) (hb : m.AllBeams) {c : Int → List Int} {s : St K}
    (hi : BInv nrm size m c m.elements.ids.length s) {id : Int} {e : Elem} (he : s.els.get? id = some e) :
    ∃ id0 a b fs0 p q fs x, m.elements.get? id0 = some ⟨.beam, [a, b], fs0⟩ ∧ m.nodes.get? a = some p ∧ m.nodes.get? b = some q ∧ p ≠ q ∧
      x ∈ steps (a :: (c id0 ++ [b])) ∧ e = ⟨.beam, [x.1, x.2], fs⟩ := by
  obtain ⟨extra, h1, h2⟩ := hi.ids
  have hid := (hi.els.2 id).2 ⟨e, he⟩
  rw [h1] at hid
  rw [List.take_length] at h2
  rcases List.mem_append.1 hid with hid | hid
  · obtain ⟨e0, he0⟩ := (hm.elements.2 id).1 hid
    obtain ⟨a, b, fs, p, q, rfl, ha, hb', hpq⟩ := beam_of hb he0
    obtain ⟨g1, -⟩ := hi.past id (by rw [List.take_length]; exact hid) a b fs p q he0 ha hb'
    rw [he] at g1
    obtain rfl := Option.some.inj g1
    refine ⟨id, a, b, fs, p, q, fs, ((a :: c id).getLastD a, b), he0, ha, hb', hpq, ?_, rfl⟩
    rw [last_step]; simp
  · have hmem : s.els.get? id ∈ extra.map s.els.get? := List.mem_map.2 ⟨id, hid, rfl⟩
    rw [h2] at hmem
    obtain ⟨id0, hid0, hmem⟩ := List.mem_flatMap.1 hmem
    obtain ⟨e0, he0⟩ := (hm.elements.2 id0).1 hid0
    obtain ⟨a, b, fs, p, q, rfl, ha, hb', hpq⟩ := beam_of hb he0
    rw [he0, he] at hmem
    simp only [Option.map_some, Option.getD_some, List.mem_map, Option.some.injEq] at hmem
    obtain ⟨x, hx, rfl⟩ := hmem
    refine ⟨id0, a, b, fs, p, q, [], x, he0, ha, hb', hpq, ?_, rfl⟩
    rw [last_step]
    exact List.mem_append_left _ hx

theorem first_rounds {nrm : Vec3 K → K} (hpos : ∀ v, v ≠ 0 → 0 < nrm v) {size : K} (hs : 0 < size) {m : Mesh K} (hm : m.WF) (hb : m.AllBeams) (faces : Cont Face) :
    ∀ (d : Nat) {c : Int → List Int} {i : Nat} {s : St K}, BInv nrm size m c i s → i + d = m.elements.ids.length →
    ∃ c' s', BInv nrm size m c' m.elements.ids.length s' ∧ ∀ fuel, loop nrm size faces (fuel + d) i s = loop nrm size faces fuel m.elements.ids.length s'
  | 0, c, i, s, hi, h => ⟨c, s, h ▸ hi, fun fuel => by rw [← h]; rfl⟩
  | d + 1, c, i, s, hi, h => by
    obtain ⟨id, hid⟩ : ∃ id, m.elements.ids[i]? = some id := ⟨_, List.getElem?_eq_getElem (by omega)⟩
    obtain ⟨s1, c1, h1, h2⟩ := round hpos hs hm hb hi hid faces
    obtain ⟨c2, s2, h3, h4⟩ := first_rounds hpos hs hm hb faces d h2 (by omega)
    refine ⟨c2, s2, h3, fun fuel => ?_⟩
    rw [← h4, ← Nat.add_assoc]
    have hid' : s.els.ids[i]? = some id := by
      obtain ⟨extra, e1, -⟩ := hi.ids
      rw [e1, List.getElem?_append_left (by omega)]
      exact hid
    conv_lhs => unfold loop
    rw [hid']
    simp only [h1, Option.bind_eq_bind, Option.bind_some]

theorem last_rounds {nrm : Vec3 K → K} (hpos : ∀ v, v ≠ 0 → 0 < nrm v) (hom : ∀ (t : K) v, nrm (t • v) = |t| * nrm v) {size : K} (hs : 0 < size) {m : Mesh K}
    (hm : m.WF) (hb : m.AllBeams) (faces : Cont Face) {c : Int → List Int} {s : St K} (hi : BInv nrm size m c m.elements.ids.length s) :
    ∀ (fuel i : Nat), s.els.ids.length ≤ fuel + i → loop nrm size faces fuel i s = some s
  | 0, i, h => by unfold loop; rw [if_neg (by omega)]
  | fuel + 1, i, h => by
    unfold loop
    cases hid : s.els.ids[i]? with
    | none => rfl
    | some id =>
      obtain ⟨e, he⟩ := (hi.els.2 id).1 (List.mem_of_getElem? hid)
      obtain ⟨id0, a, b, fs0, p, q, fs, x, r1, r2, r3, r4, r5, rfl⟩ := all_pieces hm hb hi he
      obtain ⟨g1, g2, g3⟩ := hi.past id0 (by rw [List.take_length]; exact (hm.elements.2 _).2 ⟨_, r1⟩) a b fs0 p q r1 r2 r3
      obtain ⟨p', q', w1, w2, w3, w4, w5⟩ := piece hpos hom hs (m := m) r4 (hi.old _ _ r2) (hi.old _ _ r3) g2 g3 r5
      have hstay : cutElement nrm size faces s id = some s := by
        unfold cutElement
        simp only [he, Option.bind_eq_bind, Option.bind_some, cutBeam_settled hpos hs w1 w2 w3 w5]
      simp only [hstay, Option.bind_eq_bind, Option.bind_some]
      exact last_rounds hpos hom hs hm hb faces hi fuel (i + 1) (by omega)

theorem binv_start {m : Mesh K} (hm : m.WF) (nrm : Vec3 K → K) (size : K) (d : List Bool) : BInv nrm size m (fun _ => []) 0 ⟨m.nodes, m.elements, d⟩ :=
  ⟨hm.nodes, hm.elements, by simp, fun _ _ h => h, ⟨[], by simp, by simp⟩, fun _ _ => rfl, by simp⟩

theorem beam_good {mc : HashGrid.Machine K} {m : Mesh K} (hm : m.WF) (hb : m.AllBeams) (hc : Machine mc m) : Mesh.GoodFaces mc m := by
  refine ⟨hc.eps, hc.big, hc.bounded, ?_⟩
  right
  have hfull : m.FullElements := fun id e he => by
    obtain ⟨a, b, fs, p, q, rfl, -⟩ := beam_of hb he
    exact le_refl 2
  cases hl : m.elements.ids with
  | nil => left; unfold Mesh.expectedFaces; rw [hl]; rfl
  | cons id t =>
    right
    have hid : id ∈ m.elements.ids := by rw [hl]; simp
    obtain ⟨e, he⟩ := (hm.elements.2 id).1 hid
    obtain ⟨a, b, fs, p, q, rfl, ha, hb', hpq⟩ := beam_of hb he
    have hmem : ∀ n ∈ [a, b], ∃ f ∈ m.expectedFaces, f.nodeIds = [n] := by
      intro n hn
      rw [Mesh.expectedFaces_eq hm.elements hfull]
      refine ⟨{ faceType := .point, nodeIds := [n], elementId := id }, List.mem_flatMap.2 ⟨id, hid, ?_⟩, rfl⟩
      rw [he]
      simp only [List.mem_cons, List.not_mem_nil, or_false] at hn
      rcases hn with rfl | rfl <;> simp [Mesh.facesWithOwner, Elem.facesOf, Elem.faceTemplate, Elem.idAt]
    obtain ⟨f, hf, hf2⟩ := hmem a (by simp)
    obtain ⟨g, hg, hg2⟩ := hmem b (by simp)
    refine ⟨f, hf, g, hg, ?_⟩
    rw [hf2, hg2]
    intro h
    apply hpq
    simpa [Mesh.meanOf, Mesh.posOf, ha, hb'] using h

theorem beams_core {nrm : Vec3 K → K} (hpos : ∀ v, v ≠ 0 → 0 < nrm v) (hom : ∀ (t : K) v, nrm (t • v) = |t| * nrm v) {mc : HashGrid.Machine K} {size tol : K}
    (hs : 0 < size) (ht : 0 ≤ tol) {m : Mesh K} (hm : m.WF) (hb : m.AllBeams) (hc : Machine mc m) :
    ∃ c s m', BInv nrm size m c m.elements.ids.length s ∧ (∀ fuel, s.els.ids.length ≤ fuel → remesh nrm mc fuel m size tol = some m') ∧
      (∀ fuel m1, remesh nrm mc fuel m size tol = some m1 → m1 = m') ∧ m'.WF ∧ m'.AllBeams ∧ Machine mc m' ∧ m'.nodes = s.nodes ∧ m'.elements.ids = s.els.ids ∧
      ∀ id, (m'.elements.get? id).map (fun e => (e.elementType, e.nodeIds)) = (s.els.get? id).map fun e => (e.elementType, e.nodeIds) := by
  obtain ⟨c, s, hi, hrun⟩ := first_rounds hpos hs hm hb m.faces m.elements.ids.length (binv_start hm nrm size (m.elements.ids.map fun _ => false)) (by simp)
  have hpiece : ∀ id e, s.els.get? id = some e → ∃ (x : Int × Int) (fs : List Int) (p q : Vec3 K), e = ⟨.beam, [x.1, x.2], fs⟩ ∧ s.nodes.get? x.1 = some p ∧ s.nodes.get? x.2 = some q ∧ p ≠ q := by
    intro id e he
    obtain ⟨id0, a, b, fs0, p, q, fs, x, r1, r2, r3, r4, r5, rfl⟩ := all_pieces hm hb hi he
    obtain ⟨g1, g2, g3⟩ := hi.past id0 (by rw [List.take_length]; exact (hm.elements.2 _).2 ⟨_, r1⟩) a b fs0 p q r1 r2 r3
    obtain ⟨p', q', w1, w2, w3, w4, w5⟩ := piece hpos hom hs (m := m) r4 (hi.old _ _ r2) (hi.old _ _ r3) g2 g3 r5
    exact ⟨x, fs, p', q', rfl, w1, w2, w3⟩
  have hM : Mesh.WF { m with nodes := s.nodes, elements := s.els } := by
    refine ⟨hi.nodes, hm.faces, hi.els, ?_, ?_⟩
    · intro id f hf n hn
      obtain ⟨p, hp⟩ := (hm.nodes.2 n).1 (hm.faceNodes id f hf n hn)
      exact (hi.nodes.2 n).2 ⟨p, hi.old n p hp⟩
    · intro id e he n hn
      obtain ⟨x, fs, p, q, rfl, h1, h2, -⟩ := hpiece id e he
      simp only [List.mem_cons, List.not_mem_nil, or_false] at hn
      rcases hn with rfl | rfl
      · exact (hi.nodes.2 _).2 ⟨_, h1⟩
      · exact (hi.nodes.2 _).2 ⟨_, h2⟩
  have hbM : Mesh.AllBeams { m with nodes := s.nodes, elements := s.els } := by
    intro id e he
    obtain ⟨x, fs, p, q, rfl, h1, h2, h3⟩ := hpiece id e he
    exact ⟨rfl, x.1, x.2, p, q, rfl, h1, h2, h3⟩
  have hcM : Machine mc { m with nodes := s.nodes, elements := s.els } := by
    refine ⟨hc.eps, hc.big, ?_⟩
    intro n v hv
    have hn := (hi.nodes.2 n).2 ⟨v, hv⟩
    rw [hi.nids, List.take_length] at hn
    rcases List.mem_append.1 hn with hn | hn
    · obtain ⟨w, hw⟩ := (hm.nodes.2 n).1 hn
      have := hi.old n w hw
      rw [show s.nodes.get? n = some v from hv] at this
      rw [Option.some.inj this]
      exact hc.bounded n w hw
    · obtain ⟨id, hid, hn⟩ := List.mem_flatMap.1 hn
      obtain ⟨e, he⟩ := (hm.elements.2 id).1 hid
      obtain ⟨a, b, fs, p, q, rfl, ha, hb', hpq⟩ := beam_of hb he
      obtain ⟨g1, g2, g3⟩ := hi.past id (by rw [List.take_length]; exact hid) a b fs p q he ha hb'
      obtain ⟨k, hk, hk'⟩ := List.mem_iff_getElem.1 hn
      have := g3 k n (by rw [List.getElem?_eq_getElem hk, hk'])
      rw [show s.nodes.get? n = some v from hv] at this
      rw [Option.some.inj this, bounded_iff]
      intro u hu
      have b1 := bounded_iff.1 (hc.bounded a p ha) u hu
      have b2 := bounded_iff.1 (hc.bounded b q hb') u hu
      have hp0 : (0 : K) < parts nrm size p q := by
        have : 1 ≤ parts nrm size p q := le_max_left _ _
        exact_mod_cast this
      have t0 : 0 ≤ ((k : K) + 1) / (parts nrm size p q : K) := by positivity
      have t1 : ((k : K) + 1) / (parts nrm size p q : K) ≤ 1 := by
        rw [div_le_one hp0]
        have : k + 1 ≤ parts nrm size p q := by omega
        exact_mod_cast this
      generalize ((k : K) + 1) / (parts nrm size p q : K) = t at t0 t1
      have : Vec3.dot u (p + t • (q - p)) = (1 - t) * Vec3.dot u p + t * Vec3.dot u q := by
        simp only [Vec3.dot, Vec3.add_x, Vec3.add_y, Vec3.add_z, Vec3.smul_x, Vec3.smul_y, Vec3.smul_z, Vec3.sub_x, Vec3.sub_y, Vec3.sub_z]; ring
      rw [this]
      nlinarith [mul_le_mul_of_nonneg_left b1 (sub_nonneg.2 t1), mul_le_mul_of_nonneg_left b2 t0]
  have hfull : Mesh.FullElements { m with nodes := s.nodes, elements := s.els } := fun id e he => by
    obtain ⟨x, fs, p, q, rfl, -⟩ := hpiece id e he
    exact le_refl 2
  obtain ⟨m', g1, g2, -, -, g5, -, g7, g8, -⟩ := C07_generateFaces_faces mc _ hM hfull (beam_good hM hbM hcM) tol ht
  obtain ⟨-, -, k3⟩ := generateFaces_keeps hM.elements hfull g1
  have hdef : ∀ fuel, s.els.ids.length ≤ fuel → loop nrm size m.faces fuel 0 ⟨m.nodes, m.elements, m.elements.ids.map fun _ => false⟩ = some s := by
    intro fuel hf
    have hle : m.elements.ids.length ≤ s.els.ids.length := by
      obtain ⟨extra, e1, -⟩ := hi.ids
      rw [e1]; simp
    obtain ⟨d, rfl⟩ := Nat.exists_eq_add_of_le (hle.trans hf)
    rw [Nat.add_comm, hrun, last_rounds hpos hom hs hm hb m.faces hi _ _ (by omega)]
  refine ⟨c, s, m', hi, ?_, ?_, g5, ?_, ⟨hc.eps, hc.big, by rw [g2]; exact hcM.bounded⟩, g2, g8, k3⟩
  · intro fuel hf
    unfold remesh
    rw [hdef fuel hf]
    exact g1
  · intro fuel m1 hr
    unfold remesh at hr
    simp only [Option.bind_eq_bind, Option.bind_eq_some_iff] at hr
    obtain ⟨s1, r1, r2⟩ := hr
    have r3 := loop_mono s.els.ids.length 0 r1
    rw [hdef _ (by omega)] at r3
    obtain rfl := Option.some.inj r3
    rw [g1] at r2
    exact (Option.some.inj r2).symm
  · intro id e he
    obtain ⟨e0, q1, q2, q3⟩ := g7 id e he
    rw [q2, q3, g2]
    exact hbM id e0 q1

end
end Remesh

open Remesh
variable {K : Type} [Field K] [LinearOrder K] [IsStrictOrderedRing K] [FloorRing K]
variable {nrm : Vec3 K → K} (hpos : ∀ v, v ≠ 0 → 0 < nrm v) (hom : ∀ (t : K) v, nrm (t • v) = |t| * nrm v) {mc : HashGrid.Machine K} {size tol : K}
  (hs : 0 < size) (ht : 0 ≤ tol) {m : Mesh K} (hm : m.WF) (hb : m.AllBeams) (hc : Smooth.Machine mc m)
include hpos hom hs ht hm hb hc

/-- **C93 (the parts).** On an edge mesh and for a positive mesh size, `remesh` ends. There are new nodes `c id` on each beam, such that: the nodes of the result are the old
ones, which keep their ids and places, followed by the new ones; a beam of `n` parts has `n - 1` new nodes, at the fractions `1/n, 2/n, …` of its length; and the beams of the
result are exactly the steps of the walks along the new nodes of each beam, from its first to its last node. -/
theorem C93_parts : ∃ (c : Int → List Int) (m' : Mesh K), (∃ rounds, ∀ fuel, rounds ≤ fuel → remesh nrm mc fuel m size tol = some m') ∧
    m'.WF ∧ m'.AllBeams ∧ Smooth.Machine mc m' ∧
    m'.nodes.ids = m.nodes.ids ++ m.elements.ids.flatMap c ∧ (∀ n v, m.nodes.get? n = some v → m'.nodes.get? n = some v) ∧
    (∀ id e p q, m.elements.get? id = some e → m.nodes.get? e.ends.1 = some p → m.nodes.get? e.ends.2 = some q →
      (c id).length + 1 = parts nrm size p q ∧
      ∀ (k : Nat) x, (c id)[k]? = some x → m'.nodes.get? x = some (p + (((k : K) + 1) / (parts nrm size p q : K)) • (q - p))) ∧
    m'.beamIds.Perm (m.elements.ids.flatMap fun id => ((m.elements.get? id).map fun e => steps (e.ends.1 :: (c id ++ [e.ends.2]))).getD []) := by
  obtain ⟨c, s, m', hi, h1, h2, h3, h4, h5, h6, h7, h8⟩ := beams_core hpos hom hs ht hm hb hc
  have hnids := hi.nids
  rw [List.take_length] at hnids
  refine ⟨c, m', ⟨_, h1⟩, h3, h4, h5, by rw [h6]; exact hnids, by rw [h6]; exact hi.old, ?_, ?_⟩
  · intro id e p q he hp hq
    obtain ⟨a, b, fs, p', q', rfl, ha, hb', hpq⟩ := beam_of hb he
    obtain ⟨g1, g2, g3⟩ := hi.past id (by rw [List.take_length]; exact (hm.elements.2 _).2 ⟨_, he⟩) a b fs p q he hp hq
    exact ⟨g2, by rw [h6]; exact g3⟩
  · obtain ⟨extra, e1, e2⟩ := hi.ids
    rw [List.take_length] at e2
    have hF : ∀ id, (m'.elements.get? id).map Elem.ends = (s.els.get? id).map Elem.ends := by
      intro id
      have := congrArg (Option.map fun z : ElementType × List Int => (z.2.getD 0 0, z.2.getD 1 0)) (h8 id)
      rw [Option.map_map, Option.map_map] at this
      exact this
    unfold Mesh.beamIds
    rw [h7, e1, List.filterMap_append]
    simp only [hF]
    have p1 : m.elements.ids.filterMap (fun id => (s.els.get? id).map Elem.ends) =
        m.elements.ids.flatMap fun id => ((m.elements.get? id).map fun e => [((e.ends.1 :: c id).getLastD e.ends.1, e.ends.2)]).getD [] := by
      rw [List.filterMap_eq_flatMap_toList]
      apply List.flatMap_congr
      intro id hid
      obtain ⟨e, he⟩ := (hm.elements.2 id).1 hid
      obtain ⟨a, b, fs, p, q, rfl, ha, hb', hpq⟩ := beam_of hb he
      obtain ⟨g1, -⟩ := hi.past id (by rw [List.take_length]; exact hid) a b fs p q he ha hb'
      rw [g1, he]
      rfl
    have p2 : extra.filterMap (fun id => (s.els.get? id).map Elem.ends) =
        m.elements.ids.flatMap fun id => ((m.elements.get? id).map fun e => steps (e.ends.1 :: c id)).getD [] := by
      have : extra.filterMap (fun id => (s.els.get? id).map Elem.ends) = (extra.map s.els.get?).filterMap (Option.map Elem.ends) := by
        rw [List.filterMap_map]; rfl
      rw [this, e2, List.filterMap_flatMap]
      apply List.flatMap_congr
      intro id hid
      obtain ⟨e, he⟩ := (hm.elements.2 id).1 hid
      rw [he]
      simp only [Option.map_some, Option.getD_some, List.filterMap_map]
      have : (Option.map Elem.ends ∘ fun s : Int × Int => some (⟨.beam, [s.1, s.2], []⟩ : Elem)) = some := by
        funext x
        rfl
      rw [this, List.filterMap_some]
    rw [p1, p2]
    refine (List.perm_append_comm.trans (List.flatMap_append_perm _ _ _)).trans (List.Perm.of_eq ?_)
    apply List.flatMap_congr
    intro id hid
    obtain ⟨e, he⟩ := (hm.elements.2 id).1 hid
    rw [he]
    simp only [Option.map_some, Option.getD_some, last_step]

/-- **C93 (the lengths).** A beam of the result is as long as the `n`-th part of a given beam, `n` being its number of parts. If that beam was at least half as long as
the mesh size, the part is between one half and three halves of the mesh size; otherwise it is the whole beam. -/
theorem C93_lengths {fuel : Nat} {m' : Mesh K} (h : remesh nrm mc fuel m size tol = some m') (id : Int) (e : Elem) (he : m'.elements.get? id = some e) :
    ∃ id0 e0 p q p' q', m.elements.get? id0 = some e0 ∧ m.nodes.get? e0.ends.1 = some p ∧ m.nodes.get? e0.ends.2 = some q ∧
      m'.nodes.get? e.ends.1 = some p' ∧ m'.nodes.get? e.ends.2 = some q' ∧ nrm (q' - p') = nrm (q - p) / (parts nrm size p q : K) ∧
      (size / 2 ≤ nrm (q - p) → size / 2 ≤ nrm (q' - p') ∧ nrm (q' - p') < 3 / 2 * size) ∧ (nrm (q - p) < size / 2 → parts nrm size p q = 1) := by
  obtain ⟨c, s, m1, hi, h1, h2, h3, h4, h5, h6, h7, h8⟩ := beams_core hpos hom hs ht hm hb hc
  obtain rfl := h2 fuel m' h
  have k := h8 id
  rw [he] at k
  obtain ⟨e', he', k⟩ := Option.map_eq_some_iff.1 k.symm
  obtain ⟨id0, a, b, fs0, p, q, fs, x, r1, r2, r3, r4, r5, rfl⟩ := all_pieces hm hb hi he'
  obtain ⟨g1, g2, g3⟩ := hi.past id0 (by rw [List.take_length]; exact (hm.elements.2 _).2 ⟨_, r1⟩) a b fs0 p q r1 r2 r3
  obtain ⟨p', q', w1, w2, w3, w4, w5⟩ := piece hpos hom hs (m := m) r4 (hi.old _ _ r2) (hi.old _ _ r3) g2 g3 r5
  simp only [Prod.mk.injEq] at k
  have hends : e.ends = x := by unfold Elem.ends; rw [← k.2]; rfl
  refine ⟨id0, _, p, q, p', q', r1, r2, r3, by rw [hends, h6]; exact w1, by rw [hends, h6]; exact w2, w4, ?_, ?_⟩
  · intro hl
    have hge : 1 ≤ ⌊nrm (q - p) / size + 1 / 2⌋ := by
      rw [Int.le_floor]
      push_cast
      have : 1 / 2 ≤ nrm (q - p) / size := by rw [le_div_iff₀ hs]; linarith
      linarith
    have hc1 := parts_cast nrm size p q hge
    have hn1 : (1 : K) ≤ (parts nrm size p q : K) := by
      have : 1 ≤ parts nrm size p q := le_max_left _ _
      exact_mod_cast this
    have hfl := (Int.floor_eq_iff.1 hc1.symm)
    push_cast at hfl
    rw [w4]
    have e1 : nrm (q - p) = nrm (q - p) / size * size := by field_simp
    constructor
    · rw [le_div_iff₀ (by linarith)]
      nlinarith [hfl.1]
    · rw [div_lt_iff₀ (by linarith)]
      nlinarith [hfl.2]
  · intro hl
    rw [parts_one]
    unfold Settled
    rw [← Int.lt_add_one_iff, Int.floor_lt]
    push_cast
    have : nrm (q - p) / size < 1 / 2 := by rw [div_lt_iff₀ hs]; linarith
    linarith

omit hpos hom hs ht hm hb hc

/-! ## A concrete case -/

/-- A triangle of beams. -/
def fence : Mesh ℚ :=
  { nodes := ((Cont.empty.add 0 ⟨0, 0, 0⟩).add 1 ⟨6, 0, 0⟩).add 2 ⟨6, 1, 0⟩
    faces := Cont.empty
    elements := ((Cont.empty.add 0 ⟨.beam, [0, 1], []⟩).add 1 ⟨.beam, [1, 2], []⟩).add 2 ⟨.beam, [2, 0], []⟩
    nbBoundary := 0 }

theorem supNorm_ok : (∀ v, v ≠ 0 → 0 < supNorm v) ∧ ∀ (t : ℚ) v, supNorm (t • v) = |t| * supNorm v := by
  constructor
  · intro v hv
    by_contra h
    apply hv
    simp only [supNorm, not_lt, max_le_iff, abs_nonpos_iff] at h
    ext
    · exact h.1
    · exact h.2.1
    · exact h.2.2
  · intro t v
    simp only [supNorm, Vec3.smul_x, Vec3.smul_y, Vec3.smul_z, abs_mul, mul_max_of_nonneg _ _ (abs_nonneg t)]

theorem fence_ok : fence.WF ∧ fence.AllBeams ∧ Smooth.Machine smallMachine fence := by
  refine ⟨Mesh.wf_of_check (by decide +kernel), ?_, ⟨by norm_num [smallMachine], by norm_num [smallMachine], ?_⟩⟩
  · intro id e h
    simp only [fence, Cont.get?_add] at h
    split_ifs at h <;> first
      | (simp only [Option.some.injEq] at h; subst h; exact ⟨rfl, _, _, _, _, rfl, rfl, rfl, by decide +kernel⟩)
      | (simp [Cont.empty, Cont.get?] at h)
  · intro n v h
    simp only [fence, Cont.get?_add] at h
    split_ifs at h <;> first
      | (simp only [Option.some.injEq] at h; subst h; norm_num [Vec3.Bounded, smallMachine])
      | (simp [Cont.empty, Cont.get?] at h)

/-- The long beams become three parts each; the short one stays. -/
example : (remesh supNorm smallMachine 7 fence 2 0).map (fun m => (m.beamIds, m.nodes.ids.filterMap m.nodes.get?)) =
    some ([(4, 1), (1, 2), (6, 0), (0, 3), (3, 4), (2, 5), (5, 6)],
      [⟨0, 0, 0⟩, ⟨6, 0, 0⟩, ⟨6, 1, 0⟩, ⟨2, 0, 0⟩, ⟨4, 0, 0⟩, ⟨4, 2 / 3, 0⟩, ⟨2, 1 / 3, 0⟩]) := by decide +kernel

example : ∃ m', remesh supNorm smallMachine 7 fence 2 0 = some m' := Option.isSome_iff_exists.1 (by decide +kernel)

end ENigMA
