import Verif.Stl.Split
import Verif.Stl.OrientProps

/-!
# Splitting one facet and the facet across its edge
-/

set_option linter.unusedSectionVars false
set_option autoImplicit false

namespace ENigMA
namespace Stl
variable {K : Type}

/-- The ids are the positions. -/
def Plain (s : File K) : Prop := s.ids = (List.range s.ids.length).map fun i : Nat => (i : Int)

theorem Plain.mem {s : File K} (h : Plain s) {id : Int} : id ∈ s.ids ↔ 0 ≤ id ∧ id < s.count := by
  unfold Plain at h
  unfold Cont.count
  constructor
  · intro hid
    rw [h] at hid
    simp only [List.mem_map, List.mem_range] at hid
    obtain ⟨i, hi, rfl⟩ := hid
    omega
  · rintro ⟨h0, h1⟩
    rw [h]
    simp only [List.mem_map, List.mem_range]
    exact ⟨id.toNat, by omega, by omega⟩

theorem Plain.pos {s : File K} (h : Plain s) : ∀ id ∈ s.ids, 0 ≤ id := fun _ hid => (h.mem.1 hid).1

theorem Plain.idAt {s : File K} (h : Plain s) {i : Nat} (hi : i < s.count) : s.idAt? i = some (i : Int) := by
  unfold Plain at h
  unfold Cont.idAt?
  unfold Cont.count at hi
  rw [h, List.getElem?_map, List.getElem?_range hi]
  rfl

theorem Plain.next {s : File K} (hs : s.Ok) (h : Plain s) : s.nextId = (s.count : Int) := by
  have hle : ∀ id f, s.get? id = some f → id < s.nextId := fun id f hf => lt_nextId hf
  have h1 : s.nextId ≤ (s.count : Int) := by
    unfold Cont.nextId
    cases hm : s.map.maxKey? with
    | none => simp only; omega
    | some k =>
      obtain ⟨b, hb⟩ := Remesh.mem_of_maxKey hm
      have := (h.mem.1 ((hs.2 k).2 ⟨b, hb⟩)).2
      simp only
      omega
  rcases Nat.eq_zero_or_pos s.count with h0 | h0
  · rw [h0] at h1 ⊢
    unfold Cont.nextId at h1 ⊢
    cases hm : s.map.maxKey? with
    | none => simp
    | some k =>
      obtain ⟨b, hb⟩ := Remesh.mem_of_maxKey hm
      have := h.mem.1 ((hs.2 k).2 ⟨b, hb⟩)
      omega
  · obtain ⟨f, hf⟩ := (hs.2 ((s.count : Int) - 1)).1 (h.mem.2 ⟨by omega, by omega⟩)
    have := hle _ f hf
    omega

theorem Plain.add {s : File K} (h : Plain s) (f : Facet K) : Plain (s.add (s.count : Int) f) := by
  unfold Plain at *
  simp only [Cont.add, List.length_append, List.length_singleton, List.range_succ, List.map_append, List.map_cons, List.map_nil]
  rw [← h]
  rfl

/-- The edge data points where `T` says. -/
def PNet (s : File K) (T : Int × Nat → Option (Int × Nat)) : Prop := ∀ x, Corner s x → ∃ e, edgeAt s x = some e ∧ Points e (T x)

theorem point_spec {s : File K} (hg : Good s) {T : Int × Nat → Option (Int × Nat)} (hT : PNet s T) {x y : Int × Nat} (hx : Corner s x) {n w : Int} (hn : n = y.1) (hw : w = (((y.2 + 2) % 3 : Nat) : Int)) :
    ∃ s', setEdge s x.1 x.2 (fun e => { e with neighbor := n, whichNot := w }) = some s' ∧ Good s' ∧ s'.ids = s.ids ∧ (∀ z, vert s' z = vert s z) ∧ PNet s' (fun z => if z = x then some y else T z) := by
  obtain ⟨s', h1, h2⟩ := setEdge_spec hg hx fun e => { e with neighbor := n, whichNot := w }
  refine ⟨s', h1, h2.good, h2.ids, h2.verts, ?_⟩
  intro z hz
  obtain ⟨e, he, hp⟩ := hT z ((h2.corner z).1 hz)
  rw [h2.edges, he]
  by_cases hzx : z = x
  · rw [if_pos hzx]
    simp only [if_pos hzx]
    exact ⟨_, rfl, hn, hw⟩
  · rw [if_neg hzx]
    simp only [if_neg hzx]
    exact ⟨e, rfl, hp⟩

theorem vert_spec {s : File K} (hg : Good s) {T : Int × Nat → Option (Int × Nat)} (hT : PNet s T) {x : Int × Nat} (hx : Corner s x) (p : Vec3 K) :
    ∃ s', setVert s x.1 x.2 p = some s' ∧ Good s' ∧ s'.ids = s.ids ∧ (∀ z, vert s' z = if z = x then some p else vert s z) ∧ PNet s' T := by
  obtain ⟨s', h1, h2⟩ := setVert_spec hg hx p
  refine ⟨s', h1, h2.good, h2.ids, h2.verts, ?_⟩
  intro z hz
  rw [h2.edges]
  exact hT z ((h2.corner z).1 hz)

theorem relink_spec {s : File K} (hg : Good s) (hpos : ∀ id ∈ s.ids, 0 ≤ id) {T : Int × Nat → Option (Int × Nat)} (hT : PNet s T) {e : Edge} {t : Option (Int × Nat)} (hp : Points e t) (ht : ∀ y, t = some y → Corner s y) :
    ∃ s', relink s e = some s' ∧ Good s' ∧ s'.ids = s.ids ∧ (∀ z, vert s' z = vert s z) ∧ PNet s' (fun z => if t = some z then some ((s.count : Int), 1) else T z) := by
  cases t with
  | none =>
    refine ⟨s, ?_, hg, rfl, fun _ => rfl, ?_⟩
    · unfold relink
      rw [if_neg (by rw [hp.1]; simp)]
    · simpa using hT
  | some y =>
    have hy := ht y rfl
    obtain ⟨s', h1, h2, h3, h4, h5⟩ := point_spec hg hT hy (y := ((s.count : Int), 1)) rfl (w := 0) (by norm_num)
    have := hpos _ hy.1
    have hy2 := hy.2
    refine ⟨s', ?_, h2, h3, h4, ?_⟩
    · unfold relink
      rw [if_pos (by rw [hp.1]; omega), show (1 : Int) = ((1 : Nat) : Int) from rfl, idx_mod hp.2 1]
      simp only [Option.bind_eq_bind, Option.bind_some]
      rw [hp.1, show ((y.2 + 2) % 3 + 1) % 3 = y.2 by omega]
      exact h1
    · have : (fun z => if (some y : Option (Int × Nat)) = some z then some ((s.count : Int), 1) else T z) = (fun z => if z = y then some ((s.count : Int), 1) else T z) := by
        funext z
        simp only [Option.some.injEq, eq_comm]
      rw [this]
      exact h5

theorem add_spec {s : File K} (hg : Good s) {T : Int × Nat → Option (Int × Nat)} (hT : PNet s T) {n : Int} (hn : n ∉ s.ids) {a b c : Vec3 K} {m : Vec3 K} {q : Nat × Nat} {e0 e1 e2 : Edge} {t0 t1 t2 : Option (Int × Nat)} (h0 : Points e0 t0)
    (h1 : Points e1 t1) (h2 : Points e2 t2) :
    Good (s.add n ⟨[a, b, c], m, q, [e0, e1, e2]⟩) ∧ (s.add n ⟨[a, b, c], m, q, [e0, e1, e2]⟩).ids = s.ids ++ [n] ∧
      (∀ z, vert (s.add n ⟨[a, b, c], m, q, [e0, e1, e2]⟩) z = if z.1 = n then [a, b, c][z.2]? else vert s z) ∧
      PNet (s.add n ⟨[a, b, c], m, q, [e0, e1, e2]⟩) (fun z => if z.1 = n then (if z.2 = 0 then t0 else if z.2 = 1 then t1 else t2) else T z) := by
  refine ⟨⟨Cont.add_ok hg.ok _ hn, ?_⟩, rfl, ?_, ?_⟩
  · intro id f hf
    rw [Cont.get?_add] at hf
    split_ifs at hf with hid
    · rw [Option.some.injEq] at hf
      subst hf
      exact ⟨rfl, rfl⟩
    · exact hg.tri id f hf
  · intro z
    unfold vert
    rw [Cont.get?_add]
    split_ifs <;> rfl
  · intro z hz
    unfold edgeAt edge?
    rw [Cont.get?_add]
    by_cases hzn : z.1 = n
    · simp only [if_pos hzn, Option.bind_eq_bind, Option.bind_some]
      have := hz.2
      rcases (by omega : z.2 = 0 ∨ z.2 = 1 ∨ z.2 = 2) with h | h | h <;> rw [h]
      · exact ⟨e0, rfl, h0⟩
      · exact ⟨e1, rfl, h1⟩
      · exact ⟨e2, rfl, h2⟩
    · simp only [if_neg hzn]
      refine hT z ⟨?_, hz.2⟩
      have := hz.1
      simp only [Cont.add, List.mem_append, List.mem_singleton] at this
      tauto

/-- Where the old edges go when facet `A` is split along edge `k` and facet `B` along its edge `w + 1`. -/
def splitR (n A : Int) (k : Nat) (B : Int) (w : Nat) (y : Int × Nat) : Int × Nat :=
  if y = (A, (k + 1) % 3) then (n, 1) else if y = (B, w) then (n + 1, 1) else y

/-- The gluing afterwards. -/
def splitL (L : Int × Nat → Option (Int × Nat)) (n A : Int) (k : Nat) (B : Int) (w : Nat) (x : Int × Nat) : Option (Int × Nat) :=
  if x = (n, 0) then some (n + 1, 2) else if x = (n + 1, 2) then some (n, 0)
  else if x = (n, 2) then some (A, (k + 1) % 3) else if x = (A, (k + 1) % 3) then some (n, 2)
  else if x = (n + 1, 0) then some (B, w) else if x = (B, w) then some (n + 1, 0)
  else if x = (n, 1) then (L (A, (k + 1) % 3)).map (splitR n A k B w)
  else if x = (n + 1, 1) then (L (B, w)).map (splitR n A k B w)
  else (L x).map (splitR n A k B w)

/-- The corners afterwards. -/
def splitV (s : File K) (n A : Int) (k : Nat) (B : Int) (w : Nat) (pn b c p3 : Vec3 K) (x : Int × Nat) : Option (Vec3 K) :=
  if x.1 = n + 1 then [pn, p3, b][x.2]? else if x.1 = n then [pn, b, c][x.2]? else if x = (B, (w + 1) % 3) then some pn else if x = (A, (k + 1) % 3) then some pn else vert s x

section
variable {L : Int × Nat → Option (Int × Nat)} {n A B : Int} {k w : Nat}

theorem splitR_A : splitR n A k B w (A, (k + 1) % 3) = (n, 1) := if_pos rfl

theorem splitR_B (h : B ≠ A) : splitR n A k B w (B, w) = (n + 1, 1) := by
  unfold splitR
  rw [if_neg (fun h' => h (congrArg Prod.fst h')), if_pos rfl]

theorem splitR_other {y : Int × Nat} (h1 : y ≠ (A, (k + 1) % 3)) (h2 : y ≠ (B, w)) : splitR n A k B w y = y := by
  unfold splitR
  rw [if_neg h1, if_neg h2]

/-- Old edges are glued as before. -/
theorem splitL_R (h : B ≠ A) {z : Int × Nat} (hA : A < n) (hB : B < n) (hz : z.1 < n) : splitL L n A k B w (splitR n A k B w z) = (L z).map (splitR n A k B w) := by
  have q1 : ∀ j : Nat, ((n, 1) : Int × Nat) ≠ (A, j) := fun j h => by have := congrArg Prod.fst h; simp only at this; omega
  have q2 : ∀ j : Nat, ((n, 1) : Int × Nat) ≠ (B, j) := fun j h => by have := congrArg Prod.fst h; simp only at this; omega
  have q3 : ∀ j : Nat, ((n + 1, 1) : Int × Nat) ≠ (A, j) := fun j h => by have := congrArg Prod.fst h; simp only at this; omega
  have q4 : ∀ j : Nat, ((n + 1, 1) : Int × Nat) ≠ (B, j) := fun j h => by have := congrArg Prod.fst h; simp only at this; omega
  have q5 : ∀ j : Nat, ((n, 1) : Int × Nat) ≠ (n + 1, j) := fun j h => by have := congrArg Prod.fst h; simp only at this; omega
  have q6 : ∀ j : Nat, ((n + 1, 1) : Int × Nat) ≠ (n, j) := fun j h => by have := congrArg Prod.fst h; simp only at this; omega
  by_cases h1 : z = (A, (k + 1) % 3)
  · rw [h1, splitR_A]
    unfold splitL
    rw [if_neg (by simp), if_neg (q5 _), if_neg (by simp), if_neg (q1 _), if_neg (q5 _), if_neg (q2 _), if_pos rfl]
  · by_cases h2 : z = (B, w)
    · rw [h2, splitR_B h]
      unfold splitL
      rw [if_neg (q6 _), if_neg (by simp), if_neg (q6 _), if_neg (q3 _), if_neg (by simp), if_neg (q4 _), if_neg (q6 _), if_pos rfl]
    · rw [splitR_other h1 h2]
      unfold splitL
      have r : ∀ j : Nat, z ≠ (n, j) := fun j h => by have := congrArg Prod.fst h; simp only at this; omega
      have r' : ∀ j : Nat, z ≠ (n + 1, j) := fun j h => by have := congrArg Prod.fst h; simp only at this; omega
      rw [if_neg (r _), if_neg (r' _), if_neg (r _), if_neg h1, if_neg (r' _), if_neg h2, if_neg (r _), if_neg (r' _)]

/-- The edges afterwards. -/
theorem split_cases (hA : A < n) (hB : B < n) (hAB : B ≠ A) (x : Int × Nat) :
    x = (n, 0) ∨ x = (n + 1, 2) ∨ x = (n, 2) ∨ x = (A, (k + 1) % 3) ∨ x = (n + 1, 0) ∨ x = (B, w) ∨ (∃ z : Int × Nat, z.1 < n ∧ x = splitR n A k B w z) ∨ (n ≤ x.1 ∧ ∀ j < 3, x ≠ (n, j) ∧ x ≠ (n + 1, j)) := by
  by_cases h1 : x = (A, (k + 1) % 3)
  · exact Or.inr (Or.inr (Or.inr (Or.inl h1)))
  by_cases h2 : x = (B, w)
  · exact Or.inr (Or.inr (Or.inr (Or.inr (Or.inr (Or.inl h2)))))
  by_cases h3 : x.1 < n
  · exact Or.inr (Or.inr (Or.inr (Or.inr (Or.inr (Or.inr (Or.inl ⟨x, h3, (splitR_other h1 h2).symm⟩))))))
  by_cases h4 : x = (n, 1)
  · exact Or.inr (Or.inr (Or.inr (Or.inr (Or.inr (Or.inr (Or.inl ⟨(A, (k + 1) % 3), hA, by rw [splitR_A, h4]⟩))))))
  by_cases h5 : x = (n + 1, 1)
  · exact Or.inr (Or.inr (Or.inr (Or.inr (Or.inr (Or.inr (Or.inl ⟨(B, w), hB, by rw [splitR_B hAB, h5]⟩))))))
  by_cases h6 : x = (n, 0)
  · exact Or.inl h6
  by_cases h7 : x = (n, 2)
  · exact Or.inr (Or.inr (Or.inl h7))
  by_cases h8 : x = (n + 1, 0)
  · exact Or.inr (Or.inr (Or.inr (Or.inr (Or.inl h8))))
  by_cases h9 : x = (n + 1, 2)
  · exact Or.inr (Or.inl h9)
  refine Or.inr (Or.inr (Or.inr (Or.inr (Or.inr (Or.inr (Or.inr ⟨by omega, ?_⟩))))))
  intro j hj
  rcases (by omega : j = 0 ∨ j = 1 ∨ j = 2) with rfl | rfl | rfl
  · exact ⟨h6, h8⟩
  · exact ⟨h4, h5⟩
  · exact ⟨h7, h9⟩

theorem splitL_n0 : splitL L n A k B w (n, 0) = some (n + 1, 2) := if_pos rfl
theorem splitL_m2 : splitL L n A k B w (n + 1, 2) = some (n, 0) := by unfold splitL; rw [if_neg (by simp), if_pos rfl]
theorem splitL_n2 : splitL L n A k B w (n, 2) = some (A, (k + 1) % 3) := by unfold splitL; rw [if_neg (by simp), if_neg (by simp), if_pos rfl]
theorem splitL_A (hA : A < n) : splitL L n A k B w (A, (k + 1) % 3) = some (n, 2) := by
  have r : ∀ j : Nat, (A, (k + 1) % 3) ≠ (n, j) := fun j h => by have := congrArg Prod.fst h; simp only at this; omega
  have r' : ∀ j : Nat, (A, (k + 1) % 3) ≠ (n + 1, j) := fun j h => by have := congrArg Prod.fst h; simp only at this; omega
  unfold splitL; rw [if_neg (r _), if_neg (r' _), if_neg (r _), if_pos rfl]
theorem splitL_m0 (hA : A < n) : splitL L n A k B w (n + 1, 0) = some (B, w) := by
  have r : ∀ j : Nat, ((n + 1, 0) : Int × Nat) ≠ (A, j) := fun j h => by have := congrArg Prod.fst h; simp only at this; omega
  unfold splitL; rw [if_neg (by simp), if_neg (by simp), if_neg (by simp), if_neg (r _), if_pos rfl]
theorem splitL_B (hAB : B ≠ A) (hB : B < n) : splitL L n A k B w (B, w) = some (n + 1, 0) := by
  have r : ∀ j : Nat, (B, w) ≠ (n, j) := fun j h => by have := congrArg Prod.fst h; simp only at this; omega
  have r' : ∀ j : Nat, (B, w) ≠ (n + 1, j) := fun j h => by have := congrArg Prod.fst h; simp only at this; omega
  unfold splitL; rw [if_neg (r _), if_neg (r' _), if_neg (r _), if_neg (fun h => hAB (congrArg Prod.fst h)), if_neg (r' _), if_pos rfl]
theorem splitL_out (hA : A < n) (hB : B < n) {x : Int × Nat} (hx : n ≤ x.1) (h : ∀ j < 3, x ≠ (n, j) ∧ x ≠ (n + 1, j)) : splitL L n A k B w x = (L x).map (splitR n A k B w) := by
  have r : ∀ j : Nat, x ≠ (A, j) := fun j h => by have := congrArg Prod.fst h; simp only at this; omega
  have r' : ∀ j : Nat, x ≠ (B, j) := fun j h => by have := congrArg Prod.fst h; simp only at this; omega
  unfold splitL
  rw [if_neg (h 0 (by omega)).1, if_neg (h 2 (by omega)).2, if_neg (h 2 (by omega)).1, if_neg (r _), if_neg (h 0 (by omega)).2, if_neg (r' _), if_neg (h 1 (by omega)).1, if_neg (h 1 (by omega)).2]

theorem splitR_fst (hAB : B ≠ A) {z y : Int × Nat} (hA : A < n) (hB : B < n) (hz : z.1 < n) (hy : y.1 < n) (h : y.1 ≠ z.1) : (splitR n A k B w y).1 ≠ (splitR n A k B w z).1 := by
  unfold splitR
  split_ifs with h1 h2 h3 h4 h5 h6 h7 <;> simp_all <;> omega

end

section
variable [Field K] [LinearOrder K]

theorem splitAt_spec (g : Gauge K) {s : File K} (hg : Good s) (hpl : Plain s) {L : Int × Nat → Option (Int × Nat)} (hL : Net s L) {i k : Nat} (hi : i < s.count) (hk : k < 3) {B : Int} {w : Nat} (hw : w < 3)
    (hAB : L ((i : Int), k) = some (B, (w + 1) % 3)) {e : Edge} (he : edgeAt s ((i : Int), k) = some e) {pn b c p3 : Vec3 K} (h3 : vert s (B, w) = some p3) :
    ∃ s', splitAt g s i (i : Int) k e pn b c = some s' ∧ Good s' ∧ Plain s' ∧ s'.count = s.count + 2 ∧ (∀ x, vert s' x = splitV s s.count i k B w pn b c p3 x) ∧ Net s' (splitL L s.count i k B w) := by
  have hpos := hpl.pos
  set n : Int := (s.count : Int) with hn
  have hA : (i : Int) ∈ s.ids := hpl.mem.2 ⟨by omega, by omega⟩
  have hcA1 : Corner s ((i : Int), (k + 1) % 3) := ⟨hA, Nat.mod_lt _ (by decide)⟩
  have hBc := (hL.live hAB).2
  have hB := hBc.1
  simp only at hB
  have hcB : Corner s (B, w) := ⟨hB, hw⟩
  have hABne : B ≠ (i : Int) := hL.self _ _ hAB
  have hiA : (i : Int) < n := by omega
  have hB0 := (hpl.mem.1 hB).1
  have hBn := (hpl.mem.1 hB).2
  obtain ⟨e', he', hpe⟩ := hL.pts _ (hL.live hAB).1
  rw [he, Option.some.injEq] at he'
  subst he'
  rw [hAB] at hpe
  have hpe1 : e.neighbor = B := hpe.1
  have hpe2 : e.whichNot = (w : Int) := by rw [hpe.2]; simp only; omega
  obtain ⟨e1, he1, hp1⟩ := hL.pts _ hcA1
  have T0 : PNet s L := hL.pts
  obtain ⟨s1, a1, a2, a3, a4, a5⟩ := relink_spec hg hpos T0 hp1 (fun y hy => (hL.live hy).2)
  have c1 : ∀ x, Corner s1 x ↔ Corner s x := fun x => by unfold Corner; rw [a3]
  have n1 : s1.count = s.count := by unfold Cont.count; rw [a3]
  obtain ⟨s2, b1, b2, b3, b4, b5⟩ := vert_spec a2 a5 ((c1 _).2 hcA1) pn
  have c2 : ∀ x, Corner s2 x ↔ Corner s x := fun x => by rw [← c1]; unfold Corner; rw [b3]
  have n2 : s2.count = s.count := by rw [← n1]; unfold Cont.count; rw [b3]
  obtain ⟨s3, d1, d2, d3, d4, d5⟩ := point_spec b2 b5 ((c2 _).2 hcA1) (y := (n, 2)) (n := (s2.count : Int)) (by rw [n2]) (w := 1) (by norm_num)
  have ids3 : s3.ids = s.ids := by rw [d3, b3, a3]
  have c3 : ∀ x, Corner s3 x ↔ Corner s x := fun x => by unfold Corner; rw [ids3]
  have n3 : s3.count = s.count := by unfold Cont.count; rw [ids3]
  have pl3 : Plain s3 := by unfold Plain; rw [ids3]; exact hpl
  have hnot : n ∉ s3.ids := by rw [ids3, hpl.mem]; omega
  obtain ⟨f2, f3, f4, f5⟩ := add_spec d2 d5 hnot (a := pn) (b := b) (c := c) (m := g.normal pn b c) (q := (0, 0)) (e0 := ⟨n + 1, 1, false⟩) (e1 := ⟨e1.neighbor, e1.whichNot, false⟩) (e2 := ⟨(i : Int), (k : Int), false⟩)
    (t0 := some (n + 1, 2)) (t1 := L ((i : Int), (k + 1) % 3)) (t2 := some ((i : Int), (k + 1) % 3)) ⟨rfl, by norm_num⟩ (by
      cases hc : L ((i : Int), (k + 1) % 3) with
      | none => rw [hc] at hp1; exact hp1
      | some y => rw [hc] at hp1; exact hp1) ⟨rfl, by simp only; omega⟩
  set s4 := s3.add n ⟨[pn, b, c], g.normal pn b c, (0, 0), [⟨n + 1, 1, false⟩, ⟨e1.neighbor, e1.whichNot, false⟩, ⟨(i : Int), (k : Int), false⟩]⟩ with hs4
  have pl4 : Plain s4 := by rw [hs4, hn, ← n3]; exact pl3.add _
  have n4 : s4.count = s.count + 1 := by unfold Cont.count; rw [f3, ids3]; simp
  have c4 : ∀ x, Corner s x → Corner s4 x := fun x hx => ⟨by rw [f3, ids3]; exact List.mem_append_left _ hx.1, hx.2⟩
  -- the other facet
  have hv4 : vert s4 (B, w) = some p3 := by
    rw [f4, if_neg (by simp only; omega), d4, b4, if_neg (fun h => hABne (congrArg Prod.fst h)), a4, h3]
  obtain ⟨e2, he2, hp2⟩ := f5 (B, w) (c4 _ hcB)
  beta_reduce at hp2
  rw [if_neg (by simp only; omega), if_neg (fun h => hABne (congrArg Prod.fst h))] at hp2
  set t2 : Option (Int × Nat) := if L ((i : Int), (k + 1) % 3) = some (B, w) then some ((s.count : Int), 1) else L (B, w) with ht2
  have hcn : Corner s4 (n, 1) := ⟨by rw [f3]; simp, by norm_num⟩
  obtain ⟨s5, g1, g2, g3, g4, g5⟩ := relink_spec f2 pl4.pos f5 hp2 (t := t2) (by
    intro y hy
    rw [ht2] at hy
    split_ifs at hy
    · rw [Option.some.injEq] at hy; rw [← hy]; exact hcn
    · exact c4 _ (hL.live hy).2)
  have c5 : ∀ x, Corner s5 x ↔ Corner s4 x := fun x => by unfold Corner; rw [g3]
  have n5 : s5.count = s.count + 1 := by rw [← n4]; unfold Cont.count; rw [g3]
  have hcB1 : Corner s (B, (w + 1) % 3) := ⟨hB, Nat.mod_lt _ (by decide)⟩
  obtain ⟨s6, h1, h2, h3', h4, h5⟩ := vert_spec g2 g5 ((c5 _).2 (c4 _ hcB1)) pn
  have c6 : ∀ x, Corner s6 x ↔ Corner s4 x := fun x => by rw [← c5]; unfold Corner; rw [h3']
  have n6 : s6.count = s.count + 1 := by rw [← n5]; unfold Cont.count; rw [h3']
  obtain ⟨s7, k1, k2, k3, k4, k5⟩ := point_spec h2 h5 ((c6 _).2 (c4 _ hcB)) (y := (n + 1, 0)) (n := (s6.count : Int)) (by rw [n6]; push_cast; rfl) (w := 2) (by norm_num)
  have ids7 : s7.ids = s4.ids := by rw [k3, h3', g3]
  have pl7 : Plain s7 := by unfold Plain; rw [ids7]; exact pl4
  have n7 : s7.count = s.count + 1 := by rw [← n4]; unfold Cont.count; rw [ids7]
  have hnot7 : n + 1 ∉ s7.ids := by rw [pl7.mem, n7]; push_cast; omega
  obtain ⟨m2, m3, m4, m5⟩ := add_spec k2 k5 hnot7 (a := pn) (b := p3) (c := b) (m := g.normal pn p3 b) (q := (0, 0)) (e0 := ⟨B, ((w + 2) % 3 : Nat), false⟩) (e1 := ⟨e2.neighbor, e2.whichNot, false⟩) (e2 := ⟨n, 2, false⟩)
    (t0 := some (B, w)) (t1 := t2) (t2 := some (n, 0)) ⟨rfl, rfl⟩ (by
      cases hc : t2 with
      | none => rw [hc] at hp2; exact hp2
      | some y => rw [hc] at hp2; exact hp2) ⟨rfl, by norm_num⟩
  set s8 := s7.add (n + 1) ⟨[pn, p3, b], g.normal pn p3 b, (0, 0), [⟨B, ((w + 2) % 3 : Nat), false⟩, ⟨e2.neighbor, e2.whichNot, false⟩, ⟨n, 2, false⟩]⟩ with hs8
  have hids8 : s8.ids = s.ids ++ [n, n + 1] := by rw [m3, ids7, f3, ids3]; simp
  refine ⟨s8, ?_, m2, ?_, ?_, ?_, ?_⟩
  · unfold splitAt
    rw [show edge? s (i : Int) ((k + 1) % 3) = some e1 from he1]
    simp only [Option.bind_eq_bind, Option.bind_some]
    rw [a1, Option.bind_some]
    simp only at b1 d1 h1 k1
    rw [b1, Option.bind_some, d1, Option.bind_some, Plain.next hg.ok hpl, ← hn, hpe1, if_pos (by omega), if_pos (by omega), ← hs4]
    unfold splitOther
    rw [hpe2, idx_nat, hpe1]
    simp only [Option.bind_eq_bind, Option.bind_some]
    rw [vertexOf_eq f2 hw, hv4, Option.bind_some, Nat.mod_eq_of_lt hw, show edge? s4 B w = some e2 from he2, Option.bind_some, g1, Option.bind_some, h1, Option.bind_some, k1, Option.bind_some]
  · rw [hs8, show n + 1 = (s7.count : Int) by rw [n7]; push_cast; rfl]
    exact pl7.add _
  · unfold Cont.count
    rw [hids8]
    simp
  · intro x
    rw [m4, k4, h4, g4, f4, d4, b4, a4]
    unfold splitV
    by_cases hx1 : x.1 = n + 1
    · rw [if_pos hx1, if_pos hx1]
    · rw [if_neg hx1, if_neg hx1]
      by_cases hx2 : x.1 = n
      · rw [if_pos hx2, if_pos hx2, if_neg (fun h => by rw [h] at hx2; simp only at hx2; omega)]
      · rw [if_neg hx2, if_neg hx2]
  · have hout : ∀ x, n ≤ x.1 → L x = none := by
      intro x hx
      apply hL.out
      intro hc
      have := (hpl.mem.1 hc.1).2
      omega
    have hrange : ∀ x y, L x = some y → y.1 < n ∧ x.1 < n := by
      intro x y hxy
      exact ⟨(hpl.mem.1 (hL.live hxy).2.1).2, (hpl.mem.1 (hL.live hxy).1.1).2⟩
    have hinj : ∀ x x' y, L x = some y → L x' = some y → x = x' := by
      intro x x' y h h'
      have := (hL.inv _ _ h).symm.trans (hL.inv _ _ h')
      rwa [Option.some.injEq] at this
    have htarget : ∀ x, Corner s8 x → (if x.1 = n + 1 then (if x.2 = 0 then some (B, w) else if x.2 = 1 then t2 else some (n, 0)) else
        if x = (B, w) then some (n + 1, 0) else if t2 = some x then some ((s4.count : Int), 1) else
        if x.1 = n then (if x.2 = 0 then some (n + 1, 2) else if x.2 = 1 then L ((i : Int), (k + 1) % 3) else some ((i : Int), (k + 1) % 3)) else
        if x = ((i : Int), (k + 1) % 3) then some (n, 2) else if L ((i : Int), (k + 1) % 3) = some x then some ((s.count : Int), 1) else L x) = splitL L n i k B w x := by
      rintro ⟨f, j⟩ hx
      have hj : j < 3 := hx.2
      have hf : f ∈ s8.ids := hx.1
      rw [hids8, List.mem_append, hpl.mem] at hf
      simp only [List.mem_cons, List.not_mem_nil, or_false] at hf
      have hBA : (B, w) ≠ ((i : Int), (k + 1) % 3) := fun h => hABne (congrArg Prod.fst h)
      have hback : ∀ y, L (B, w) = some y → y = ((i : Int), (k + 1) % 3) → L ((i : Int), (k + 1) % 3) = some (B, w) := fun y hy h => h ▸ hL.inv _ _ hy
      have ht2n : ∀ j, j ≠ 1 → t2 ≠ some (n, j) := by
        intro j hj h
        rw [ht2] at h
        split_ifs at h
        · simp only [Option.some.injEq, Prod.mk.injEq] at h
          omega
        · have := (hrange _ _ h).1
          simp only at this
          omega
      by_cases hf1 : f = n + 1
      · subst hf1
        rw [if_pos rfl]
        rcases (by omega : j = 0 ∨ j = 1 ∨ j = 2) with rfl | rfl | rfl
        · rw [if_pos rfl, splitL_m0 hiA]
        · rw [if_neg (by simp), if_pos rfl, show ((n + 1, 1) : Int × Nat) = splitR n i k B w (B, w) from (splitR_B hABne).symm, splitL_R hABne hiA hBn hBn, ht2]
          by_cases hh : L ((i : Int), (k + 1) % 3) = some (B, w)
          · rw [if_pos hh, hL.inv _ _ hh, Option.map_some, splitR_A]
          · rw [if_neg hh]
            cases hc : L (B, w) with
            | none => rfl
            | some y => rw [Option.map_some, splitR_other (fun h => hh (hback y hc h)) (fun h => hL.self _ _ hc (by rw [h]))]
        · rw [if_neg (by simp), if_neg (by simp), splitL_m2]
      · rw [if_neg hf1]
        by_cases hxB : (f, j) = (B, w)
        · rw [if_pos hxB, hxB, splitL_B hABne hBn]
        · rw [if_neg hxB]
          by_cases hfn : f = n
          · subst hfn
            rcases (by omega : j = 0 ∨ j = 1 ∨ j = 2) with rfl | rfl | rfl
            · rw [if_neg (ht2n 0 (by omega)), if_pos rfl, if_pos rfl, splitL_n0]
            · rw [show splitL L n i k B w (n, 1) = (L ((i : Int), (k + 1) % 3)).map (splitR n i k B w) by
                rw [show ((n, 1) : Int × Nat) = splitR n i k B w ((i : Int), (k + 1) % 3) from splitR_A.symm, splitL_R hABne hiA hBn hiA]]
              by_cases hh : L ((i : Int), (k + 1) % 3) = some (B, w)
              · rw [if_pos (by rw [ht2, if_pos hh]), hh, Option.map_some, splitR_B hABne, n4]
                push_cast
                rfl
              · rw [if_neg, if_pos rfl, if_neg (by simp), if_pos rfl]
                · cases hc : L ((i : Int), (k + 1) % 3) with
                  | none => rfl
                  | some y => rw [Option.map_some, splitR_other (fun h => hL.self _ _ hc (by rw [h])) (fun h => hh (by rw [hc, h]))]
                · intro h
                  rw [ht2, if_neg hh] at h
                  have := (hrange _ _ h).1
                  simp only at this
                  omega
            · rw [if_neg (ht2n 2 (by omega)), if_pos rfl, if_neg (by simp), if_neg (by simp), splitL_n2]
          · have hflt : f < n := by omega
            by_cases hxA : (f, j) = ((i : Int), (k + 1) % 3)
            · rw [if_neg, if_neg hfn, if_pos hxA, hxA, splitL_A hiA]
              intro h
              rw [ht2] at h
              split_ifs at h with hh
              · simp only [Option.some.injEq, Prod.mk.injEq] at h
                omega
              · exact hh (hback _ h hxA)
            · rw [show splitL L n i k B w (f, j) = (L (f, j)).map (splitR n i k B w) by
                conv_lhs => rw [← splitR_other (n := n) hxA hxB]
                exact splitL_R hABne hiA hBn hflt]
              by_cases hb : L (B, w) = some (f, j)
              · have hh : L ((i : Int), (k + 1) % 3) ≠ some (B, w) := by
                  intro h
                  have := (hL.inv _ _ h).symm.trans hb
                  rw [Option.some.injEq] at this
                  exact hxA this.symm
                rw [if_pos (by rw [ht2, if_neg hh, hb]), hL.inv _ _ hb, Option.map_some, splitR_B hABne, n4]
                push_cast
                rfl
              · rw [if_neg, if_neg hfn, if_neg hxA]
                · by_cases ha : L ((i : Int), (k + 1) % 3) = some (f, j)
                  · rw [if_pos ha, hL.inv _ _ ha, Option.map_some, splitR_A]
                  · rw [if_neg ha]
                    cases hc : L (f, j) with
                    | none => rfl
                    | some y => rw [Option.map_some, splitR_other (fun h => ha (h ▸ hL.inv _ _ hc)) (fun h => hb (h ▸ hL.inv _ _ hc))]
                · intro h
                  rw [ht2] at h
                  split_ifs at h with hh
                  · simp only [Option.some.injEq, Prod.mk.injEq] at h
                    omega
                  · exact hb h
    refine ⟨?_, ?_, ?_, ?_⟩
    · intro x hx
      obtain ⟨e, he, hp⟩ := m5 x hx
      refine ⟨e, he, ?_⟩
      rw [← htarget x hx]
      exact hp
    · intro x hx
      have hcor : ∀ y : Int × Nat, y.1 ∈ s8.ids → y.2 < 3 → x ≠ y := fun y h1 h2 h => hx (h ▸ ⟨h1, h2⟩)
      have m : ∀ y, y ∈ s.ids → y ∈ s8.ids := fun y hy => by rw [hids8]; exact List.mem_append_left _ hy
      have mn : n ∈ s8.ids := by rw [hids8]; simp
      have mn1 : n + 1 ∈ s8.ids := by rw [hids8]; simp
      unfold splitL
      rw [if_neg (hcor _ mn (by norm_num)), if_neg (hcor _ mn1 (by norm_num)), if_neg (hcor _ mn (by norm_num)), if_neg (hcor _ (m _ hA) hcA1.2), if_neg (hcor _ mn1 (by norm_num)), if_neg (hcor _ (m _ hB) hw),
        if_neg (hcor _ mn (by norm_num)), if_neg (hcor _ mn1 (by norm_num)), hL.out x (fun hc => hx ⟨m _ hc.1, hc.2⟩), Option.map_none]
    · intro x y hxy
      rcases split_cases (k := k) (w := w) hiA hBn hABne x with rfl | rfl | rfl | rfl | rfl | rfl | ⟨z, hz, rfl⟩ | ⟨h1, h2⟩
      · rw [splitL_n0, Option.some.injEq] at hxy; rw [← hxy, splitL_m2]
      · rw [splitL_m2, Option.some.injEq] at hxy; rw [← hxy, splitL_n0]
      · rw [splitL_n2, Option.some.injEq] at hxy; rw [← hxy, splitL_A hiA]
      · rw [splitL_A hiA, Option.some.injEq] at hxy; rw [← hxy, splitL_n2]
      · rw [splitL_m0 hiA, Option.some.injEq] at hxy; rw [← hxy, splitL_B hABne hBn]
      · rw [splitL_B hABne hBn, Option.some.injEq] at hxy; rw [← hxy, splitL_m0 hiA]
      · rw [splitL_R hABne hiA hBn hz] at hxy
        obtain ⟨y0, hy0, rfl⟩ := Option.map_eq_some_iff.1 hxy
        rw [splitL_R hABne hiA hBn (hrange _ _ hy0).1, hL.inv _ _ hy0, Option.map_some]
      · rw [splitL_out hiA hBn h1 h2, hout x h1] at hxy
        cases hxy
    · intro x y hxy
      rcases split_cases (k := k) (w := w) hiA hBn hABne x with rfl | rfl | rfl | rfl | rfl | rfl | ⟨z, hz, rfl⟩ | ⟨h1, h2⟩
      · rw [splitL_n0, Option.some.injEq] at hxy; rw [← hxy]; simp only; omega
      · rw [splitL_m2, Option.some.injEq] at hxy; rw [← hxy]; simp only; omega
      · rw [splitL_n2, Option.some.injEq] at hxy; rw [← hxy]; simp only; omega
      · rw [splitL_A hiA, Option.some.injEq] at hxy; rw [← hxy]; simp only; omega
      · rw [splitL_m0 hiA, Option.some.injEq] at hxy; rw [← hxy]; simp only; omega
      · rw [splitL_B hABne hBn, Option.some.injEq] at hxy; rw [← hxy]; simp only; omega
      · rw [splitL_R hABne hiA hBn hz] at hxy
        obtain ⟨y0, hy0, rfl⟩ := Option.map_eq_some_iff.1 hxy
        exact splitR_fst hABne hiA hBn hz (hrange _ _ hy0).1 (hL.self _ _ hy0)
      · rw [splitL_out hiA hBn h1 h2, hout x h1] at hxy
        cases hxy

end
end Stl
end ENigMA
