import Verif.Stl.Io
import Verif.Stl.FileProps
import Mathlib.Data.List.TakeWhile

/-!
# What comes back from a file of facets
-/

set_option linter.unusedSectionVars false
set_option autoImplicit false

namespace ENigMA
namespace Stl
variable {K : Type}

/-- The facets `s'` are those of `s` in order, with ids 0, 1, 2, …; points have gone through `pt`, the extra bytes through `ex`. -/
def Copied (pt : Vec3 K → Vec3 K) (ex : Nat × Nat → Nat × Nat) (s s' : File K) : Prop :=
  s'.Ok ∧ s'.ids = (List.range s.ids.length).map (fun k : Nat => (k : Int)) ∧
  ∀ (k : Nat) id f, s.ids[k]? = some id → s.get? id = some f → ∃ g, s'.get? k = some g ∧ g.verts = f.verts.map pt ∧ g.normal = pt f.normal ∧ g.extra = ex f.extra

/-- The same for a part of the ids, after the facets already there. -/
def CopiedAt (pt : Vec3 K → Vec3 K) (ex : Nat × Nat → Nat × Nat) (s : File K) (l : List Int) (i : Nat) (s0 s' : File K) : Prop :=
  s'.Ok ∧ s'.ids = s0.ids ++ (List.range l.length).map (fun k : Nat => ((i + k : Nat) : Int)) ∧ (∀ id : Int, id < i → s'.get? id = s0.get? id) ∧
  ∀ (k : Nat) id f, l[k]? = some id → s.get? id = some f → ∃ g, s'.get? ((i + k : Nat) : Int) = some g ∧ g.verts = f.verts.map pt ∧ g.normal = pt f.normal ∧ g.extra = ex f.extra

theorem CopiedAt.nil (pt : Vec3 K → Vec3 K) (ex : Nat × Nat → Nat × Nat) (s : File K) (i : Nat) {s0 : File K} (h : s0.Ok) : CopiedAt pt ex s [] i s0 s0 :=
  ⟨h, by simp, fun _ _ => rfl, by simp⟩

theorem CopiedAt.cons {pt : Vec3 K → Vec3 K} {ex : Nat × Nat → Nat × Nat} {s : File K} {a : Int} {l : List Int} {i : Nat} {s0 s' : File K} {f g : Facet K}
    (hf : s.get? a = some f) (hg : g.verts = f.verts.map pt ∧ g.normal = pt f.normal ∧ g.extra = ex f.extra)
    (h : CopiedAt pt ex s l (i + 1) (s0.add i g) s') : CopiedAt pt ex s (a :: l) i s0 s' := by
  obtain ⟨h1, h2, h3, h4⟩ := h
  refine ⟨h1, ?_, ?_, ?_⟩
  · rw [h2, List.length_cons, List.range_succ_eq_map]
    simp only [Cont.add, List.append_assoc, List.map_cons, List.map_map, add_zero, List.cons_append, List.nil_append]
    congr 2
    apply List.map_congr_left
    intro k _
    simp only [Function.comp]
    push_cast; ring
  · intro id hid
    rw [h3 id (by omega), Cont.get?_add, if_neg (by omega)]
  · intro k id f' hk hf'
    cases k with
    | zero =>
      simp only [List.getElem?_cons_zero, Option.some.injEq] at hk
      subst hk
      rw [hf, Option.some.injEq] at hf'
      subst hf'
      refine ⟨g, ?_, hg⟩
      rw [add_zero, h3 _ (by omega), Cont.get?_add, if_pos rfl]
    | succ k =>
      rw [List.getElem?_cons_succ] at hk
      obtain ⟨g', hg', h⟩ := h4 k id f' hk hf'
      refine ⟨g', ?_, h⟩
      rw [← hg']
      congr 1
      push_cast; ring

/-- A number is written as four bytes. -/
def Codec.FourBytes (c : Codec K) : Prop := (∀ x, (c.enc x).length = 4) ∧ ∀ n, (c.int n).length = 4

/-- What a number and a point become in a binary file. -/
def Codec.through (c : Codec K) (v : Vec3 K) : Vec3 K := ⟨c.dec (c.enc v.x), c.dec (c.enc v.y), c.dec (c.enc v.z)⟩

theorem point_length {c : Codec K} (hc : c.FourBytes) (v : Vec3 K) : (c.point v).length = 12 := by
  simp [Codec.point, hc.1]

theorem readPoint_eq {c : Codec K} (hc : c.FourBytes) (v : Vec3 K) (t : List Nat) : c.readPoint (c.point v ++ t) = c.through v := by
  unfold Codec.readPoint Codec.point Codec.through
  have hx := hc.1 v.x
  have hy := hc.1 v.y
  have hz := hc.1 v.z
  have d4 : (c.enc v.x ++ c.enc v.y ++ c.enc v.z ++ t).drop 4 = c.enc v.y ++ (c.enc v.z ++ t) := by
    rw [List.append_assoc, List.append_assoc, ← hx, List.drop_left]
  have d8 : (c.enc v.x ++ c.enc v.y ++ c.enc v.z ++ t).drop 8 = c.enc v.z ++ t := by
    rw [show (8 : Nat) = 4 + 4 by rfl, ← List.drop_drop, d4, ← hy, List.drop_left]
  rw [d4, d8]
  congr 1
  · rw [List.append_assoc, List.append_assoc, ← hx, List.take_left]
  · rw [← hy, List.take_left]
  · rw [← hz, List.take_left]

theorem readBinary_spec {c : Codec K} (hc : c.FourBytes) {s : File K} (ht : Triangular s) (l : List Int) (hl : ∀ id ∈ l, ∃ f, s.get? id = some f) :
    ∃ bs, (l.mapM fun id => (s.get? id).bind (facetBytes c)) = some bs ∧ bs.flatten.length = 50 * l.length ∧
      ∀ (i : Nat) (s0 : File K), s0.Ok → (∀ id ∈ s0.ids, id < i) → CopiedAt c.through _root_.id s l i s0 (readBinary c l.length i bs.flatten s0) := by
  induction l with
  | nil => exact ⟨[], rfl, rfl, fun i s0 h _ => CopiedAt.nil _ _ _ _ h⟩
  | cons a t ih =>
    obtain ⟨f, hf⟩ := hl a (by simp)
    obtain ⟨v0, v1, v2, hv, g0, g1, g2⟩ := verts_of ht hf
    obtain ⟨bs, r1, r2, r3⟩ := ih fun id hid => hl id (List.mem_cons_of_mem _ hid)
    have hb : facetBytes c f = some (c.point f.normal ++ c.point v0 ++ c.point v1 ++ c.point v2 ++ [f.extra.1, f.extra.2]) := by
      simp only [facetBytes, g0, g1, g2, Option.bind_eq_bind, Option.bind_some, Option.pure_def]
    refine ⟨(c.point f.normal ++ c.point v0 ++ c.point v1 ++ c.point v2 ++ [f.extra.1, f.extra.2]) :: bs, ?_, ?_, ?_⟩
    · rw [List.mapM_cons, r1, hf]
      simp only [Option.bind_some, hb, Option.bind_eq_bind, Option.pure_def]
    · simp only [List.flatten_cons, List.length_append, point_length hc, r2, List.length_cons, List.length_nil]
      ring
    · intro i s0 h0 hlt
      have hn := point_length hc f.normal
      have hp0 := point_length hc v0
      have hp1 := point_length hc v1
      have hp2 := point_length hc v2
      generalize htail : bs.flatten = tl at r3
      have e : ((c.point f.normal ++ c.point v0 ++ c.point v1 ++ c.point v2 ++ [f.extra.1, f.extra.2]) :: bs).flatten =
          c.point f.normal ++ (c.point v0 ++ (c.point v1 ++ (c.point v2 ++ (f.extra.1 :: f.extra.2 :: tl)))) := by
        simp [htail]
      have d12 : (c.point f.normal ++ (c.point v0 ++ (c.point v1 ++ (c.point v2 ++ (f.extra.1 :: f.extra.2 :: tl))))).drop 12 = c.point v0 ++ (c.point v1 ++ (c.point v2 ++ (f.extra.1 :: f.extra.2 :: tl))) := by
        rw [← hn, List.drop_left]
      have d24 : (c.point f.normal ++ (c.point v0 ++ (c.point v1 ++ (c.point v2 ++ (f.extra.1 :: f.extra.2 :: tl))))).drop 24 = c.point v1 ++ (c.point v2 ++ (f.extra.1 :: f.extra.2 :: tl)) := by
        rw [show (24 : Nat) = 12 + 12 by rfl, ← List.drop_drop, d12, ← hp0, List.drop_left]
      have d36 : (c.point f.normal ++ (c.point v0 ++ (c.point v1 ++ (c.point v2 ++ (f.extra.1 :: f.extra.2 :: tl))))).drop 36 = c.point v2 ++ (f.extra.1 :: f.extra.2 :: tl) := by
        rw [show (36 : Nat) = 24 + 12 by rfl, ← List.drop_drop, d24, ← hp1, List.drop_left]
      have d48 : (c.point f.normal ++ (c.point v0 ++ (c.point v1 ++ (c.point v2 ++ (f.extra.1 :: f.extra.2 :: tl))))).drop 48 = f.extra.1 :: f.extra.2 :: tl := by
        rw [show (48 : Nat) = 36 + 12 by rfl, ← List.drop_drop, d36, ← hp2, List.drop_left]
      have d49 : (c.point f.normal ++ (c.point v0 ++ (c.point v1 ++ (c.point v2 ++ (f.extra.1 :: f.extra.2 :: tl))))).drop 49 = f.extra.2 :: tl := by
        rw [show (49 : Nat) = 48 + 1 by rfl, ← List.drop_drop, d48]; rfl
      have d50 : (c.point f.normal ++ (c.point v0 ++ (c.point v1 ++ (c.point v2 ++ (f.extra.1 :: f.extra.2 :: tl))))).drop 50 = tl := by
        rw [show (50 : Nat) = 48 + 2 by rfl, ← List.drop_drop, d48]; rfl
      have hni : (i : Int) ∉ s0.ids := fun h => by have := hlt _ h; omega
      rw [e, List.length_cons, readBinary, d50]
      refine CopiedAt.cons (g := readFacet c (c.point f.normal ++ (c.point v0 ++ (c.point v1 ++ (c.point v2 ++ (f.extra.1 :: f.extra.2 :: tl)))))) hf ?_
        (r3 (i + 1) _ (Cont.add_ok h0 _ hni) ?_)
      · simp only [readFacet, d12, d24, d36, d48, d49, readPoint_eq hc, List.headD_cons, hv, List.map_cons, List.map_nil, _root_.id, and_self]
      · intro id hid
        simp only [Cont.add, List.mem_append, List.mem_singleton] at hid
        rcases hid with h | rfl
        · have := hlt _ h; omega
        · omega

theorem CopiedAt.copied {pt : Vec3 K → Vec3 K} {ex : Nat × Nat → Nat × Nat} {s s' : File K} (h : CopiedAt pt ex s s.ids 0 Cont.empty s') : Copied pt ex s s' := by
  obtain ⟨h1, h2, _, h4⟩ := h
  refine ⟨h1, by simpa [Cont.empty] using h2, fun k id f hk hf => ?_⟩
  obtain ⟨g, hg⟩ := h4 k id f hk hf
  exact ⟨g, by simpa using hg⟩

/-! ### Text -/

/-- Numbers are written as words of 14 to 16 letters (eight digits in scientific notation); `prt` is what they read back as. -/
structure Codec.Text (c : Codec K) (prt : K → K) : Prop where
  plain : ∀ x, ∀ a ∈ c.fmt x, isSpace a = false ∧ a ≠ 0
  len : ∀ x, 14 ≤ (c.fmt x).length ∧ (c.fmt x).length ≤ 16
  back : ∀ x, c.parse (c.fmt x) = some (prt x)

theorem words_append (w : List Nat) : ∀ (t acc : List Nat), (∀ a ∈ w, isSpace a = false) → words (w ++ t) acc = words t (acc ++ w) := by
  induction w with
  | nil => intro t acc _; simp
  | cons a w ih =>
    intro t acc h
    rw [List.cons_append, words, if_neg (by simp [h a (by simp)]), ih _ _ fun b hb => h b (List.mem_cons_of_mem _ hb)]
    simp

theorem words_word {w : List Nat} (h : ∀ a ∈ w, isSpace a = false) (hne : w ≠ []) {sp : Nat} (hsp : isSpace sp = true) (t : List Nat) :
    words (w ++ sp :: t) [] = w :: words t [] := by
  rw [words_append w _ _ h, List.nil_append, words, if_pos hsp, if_neg hne]

theorem countLines_line (w : List Nat) : ∀ (t : List Nat) (j n : Nat), (∀ a ∈ w, a ≠ 10) → 4 < j + w.length → countLines (w ++ 10 :: t) j n = countLines t 1 (n + 1) := by
  induction w with
  | nil =>
    intro t j n _ h
    rw [List.nil_append, countLines, if_pos rfl, if_pos (by simpa using h)]
  | cons a w ih =>
    intro t j n h hj
    rw [List.cons_append, countLines, if_neg (h a (by simp)), ih _ _ _ (fun b hb => h b (List.mem_cons_of_mem _ hb)) (by rw [List.length_cons] at hj; omega)]

section
variable {c : Codec K} {prt : K → K} (hc : c.Text prt)
include hc

theorem fmt_ne (x : K) : c.fmt x ≠ [] := by
  intro h
  have := (hc.len x).1
  rw [h] at this
  simp at this

theorem numbers_words (v : Vec3 K) (t : List Nat) : words (c.fmt v.x ++ 32 :: (c.fmt v.y ++ 32 :: (c.fmt v.z ++ 10 :: t))) [] = c.fmt v.x :: c.fmt v.y :: c.fmt v.z :: words t [] := by
  rw [words_word (fun a ha => (hc.plain _ a ha).1) (fmt_ne hc _) (by rfl), words_word (fun a ha => (hc.plain _ a ha).1) (fmt_ne hc _) (by rfl),
    words_word (fun a ha => (hc.plain _ a ha).1) (fmt_ne hc _) (by rfl)]

theorem parsePoint_eq (v : Vec3 K) (t : List (List Nat)) : c.parsePoint (c.fmt v.x :: c.fmt v.y :: c.fmt v.z :: t) = some (⟨prt v.x, prt v.y, prt v.z⟩, t) := by
  simp only [Codec.parsePoint, hc.back, Option.bind_eq_bind, Option.bind_some, Option.pure_def]

theorem not_ten (x : K) : ∀ a ∈ c.fmt x, a ≠ 10 := by
  rintro a ha rfl
  have := (hc.plain x _ ha).1
  simp [isSpace] at this

/-- A line of numbers, whatever the word before them. -/
theorem count_line (w : String) (hw : ∀ a ∈ text w, a ≠ 10) (v : Vec3 K) (t : List Nat) (n : Nat) : countLines (c.line w v ++ t) 1 n = countLines t 1 (n + 1) := by
  have e : c.line w v ++ t = (text w ++ c.fmt v.x ++ [32] ++ c.fmt v.y ++ [32] ++ c.fmt v.z) ++ 10 :: t := by simp [Codec.line]
  rw [e]
  apply countLines_line
  · intro a ha
    simp only [List.mem_append, List.mem_singleton] at ha
    rcases ha with ((((h | h) | h) | h) | h) | h
    · exact hw a h
    · exact not_ten hc _ a h
    · subst h; decide
    · exact not_ten hc _ a h
    · subst h; decide
    · exact not_ten hc _ a h
  · have := (hc.len v.x).1
    simp only [List.length_append]
    omega

theorem line_ne_zero (w : String) (hw : ∀ a ∈ text w, a ≠ 0) (v : Vec3 K) : ∀ a ∈ c.line w v, a ≠ 0 := by
  intro a ha
  simp only [Codec.line, List.mem_append, List.mem_singleton] at ha
  rcases ha with (((((h | h) | h) | h) | h) | h) | h
  · exact hw a h
  · exact (hc.plain _ a h).2
  · subst h; decide
  · exact (hc.plain _ a h).2
  · subst h; decide
  · exact (hc.plain _ a h).2
  · subst h; decide

theorem line_length (w : String) (v : Vec3 K) : (text w).length + 45 ≤ (c.line w v).length ∧ (c.line w v).length ≤ (text w).length + 51 := by
  have := hc.len v.x
  have := hc.len v.y
  have := hc.len v.z
  simp only [Codec.line, List.length_append, List.length_cons, List.length_nil]
  omega

/-- The text of one facet. -/
theorem facetText_spec {f : Facet K} {v0 v1 v2 : Vec3 K} (hv : f.verts = [v0, v1, v2]) :
    ∃ b, facetText c f = some b ∧ 242 ≤ b.length ∧ b.length ≤ 266 ∧ (∀ a ∈ b, a ≠ 0) ∧
      (∃ p q, b = p ++ text "vertex" ++ q ∧ 78 ≤ p.length ∧ p.length ≤ 200) ∧
      (∃ q, b = text "facet" ++ q) ∧
      (∀ t n, countLines (b ++ t) 1 n = countLines t 1 (n + 7)) ∧
      ∃ ws, (∀ t, words (b ++ t) [] = ws ++ words t []) ∧
        ∀ t, parseFacet c (ws ++ t) = some (⟨f.verts.map fun v => ⟨prt v.x, prt v.y, prt v.z⟩, ⟨prt f.normal.x, prt f.normal.y, prt f.normal.z⟩, (0, 0), [{}, {}, {}]⟩, t) := by
  have g0 : f.vertex? 0 = some v0 := by simp [Facet.vertex?, hv]
  have g1 : f.vertex? 1 = some v1 := by simp [Facet.vertex?, hv]
  have g2 : f.vertex? 2 = some v2 := by simp [Facet.vertex?, hv]
  refine ⟨c.line "facet normal " f.normal ++ text "outer loop\n" ++ c.line "vertex " v0 ++ c.line "vertex " v1 ++ c.line "vertex " v2 ++ text "endloop\n" ++ text "endfacet\n",
    by simp only [facetText, g0, g1, g2, Option.bind_eq_bind, Option.bind_some, Option.pure_def], ?_, ?_, ?_, ?_, ?_, ?_, ?_⟩
  · have := line_length hc "facet normal " f.normal
    have := line_length hc "vertex " v0
    have := line_length hc "vertex " v1
    have := line_length hc "vertex " v2
    have e1 : (text "facet normal ").length = 13 := by decide
    have e2 : (text "vertex ").length = 7 := by decide
    have e3 : (text "outer loop\n").length = 11 := by decide
    have e4 : (text "endloop\n").length = 8 := by decide
    have e5 : (text "endfacet\n").length = 9 := by decide
    simp only [List.length_append]
    omega
  · have := line_length hc "facet normal " f.normal
    have := line_length hc "vertex " v0
    have := line_length hc "vertex " v1
    have := line_length hc "vertex " v2
    have e1 : (text "facet normal ").length = 13 := by decide
    have e2 : (text "vertex ").length = 7 := by decide
    have e3 : (text "outer loop\n").length = 11 := by decide
    have e4 : (text "endloop\n").length = 8 := by decide
    have e5 : (text "endfacet\n").length = 9 := by decide
    simp only [List.length_append]
    omega
  · intro a ha
    simp only [List.mem_append] at ha
    rcases ha with (((((h | h) | h) | h) | h) | h) | h
    · exact line_ne_zero hc _ (by decide) _ a h
    · revert a; decide
    · exact line_ne_zero hc _ (by decide) _ a h
    · exact line_ne_zero hc _ (by decide) _ a h
    · exact line_ne_zero hc _ (by decide) _ a h
    · revert a; decide
    · revert a; decide
  · refine ⟨c.line "facet normal " f.normal ++ text "outer loop\n" ++ c.line "vertex " v0,
      [32] ++ c.fmt v1.x ++ [32] ++ c.fmt v1.y ++ [32] ++ c.fmt v1.z ++ [10] ++ c.line "vertex " v2 ++ text "endloop\n" ++ text "endfacet\n", ?_, ?_, ?_⟩
    · have : c.line "vertex " v1 = text "vertex" ++ [32] ++ c.fmt v1.x ++ [32] ++ c.fmt v1.y ++ [32] ++ c.fmt v1.z ++ [10] := by
        unfold Codec.line
        rw [show text "vertex " = text "vertex" ++ [32] by decide]
      rw [this]
      simp only [List.append_assoc]
    · have := line_length hc "facet normal " f.normal
      have := line_length hc "vertex " v0
      have e1 : (text "facet normal ").length = 13 := by decide
      have e2 : (text "vertex ").length = 7 := by decide
      have e3 : (text "outer loop\n").length = 11 := by decide
      simp only [List.length_append]
      omega
    · have := line_length hc "facet normal " f.normal
      have := line_length hc "vertex " v0
      have e1 : (text "facet normal ").length = 13 := by decide
      have e2 : (text "vertex ").length = 7 := by decide
      have e3 : (text "outer loop\n").length = 11 := by decide
      simp only [List.length_append]
      omega
  · refine ⟨text " normal " ++ c.fmt f.normal.x ++ [32] ++ c.fmt f.normal.y ++ [32] ++ c.fmt f.normal.z ++ [10] ++ text "outer loop\n" ++ c.line "vertex " v0 ++ c.line "vertex " v1 ++ c.line "vertex " v2 ++ text "endloop\n" ++ text "endfacet\n", ?_⟩
    have : c.line "facet normal " f.normal = text "facet" ++ text " normal " ++ c.fmt f.normal.x ++ [32] ++ c.fmt f.normal.y ++ [32] ++ c.fmt f.normal.z ++ [10] := by
      unfold Codec.line
      rw [show text "facet normal " = text "facet" ++ text " normal " by decide]
    rw [this]
    simp only [List.append_assoc]
  · intro t n
    simp only [List.append_assoc]
    rw [count_line hc _ (by decide)]
    rw [show text "outer loop\n" = text "outer loop" ++ [10] by decide]
    simp only [List.append_assoc, List.cons_append, List.nil_append]
    rw [countLines_line (text "outer loop") _ _ _ (by decide) (by decide), count_line hc _ (by decide), count_line hc _ (by decide), count_line hc _ (by decide)]
    rw [show text "endloop\n" = text "endloop" ++ [10] by decide, show text "endfacet\n" = text "endfacet" ++ [10] by decide]
    simp only [List.append_assoc, List.cons_append, List.nil_append]
    rw [countLines_line (text "endloop") _ _ _ (by decide) (by decide), countLines_line (text "endfacet") _ _ _ (by decide) (by decide)]
  · refine ⟨[text "facet", text "normal", c.fmt f.normal.x, c.fmt f.normal.y, c.fmt f.normal.z, text "outer", text "loop", text "vertex", c.fmt v0.x, c.fmt v0.y, c.fmt v0.z,
      text "vertex", c.fmt v1.x, c.fmt v1.y, c.fmt v1.z, text "vertex", c.fmt v2.x, c.fmt v2.y, c.fmt v2.z, text "endloop", text "endfacet"], ?_, ?_⟩
    · intro t
      have hvl : ∀ (v : Vec3 K) (t : List Nat), words (c.line "vertex " v ++ t) [] = text "vertex" :: c.fmt v.x :: c.fmt v.y :: c.fmt v.z :: words t [] := by
        intro v t
        unfold Codec.line
        rw [show text "vertex " = text "vertex" ++ [32] by decide]
        simp only [List.append_assoc, List.cons_append, List.nil_append]
        rw [words_word (w := text "vertex") (by decide) (by decide) (by rfl), numbers_words hc]
      have hnl : ∀ (v : Vec3 K) (t : List Nat), words (c.line "facet normal " v ++ t) [] = text "facet" :: text "normal" :: c.fmt v.x :: c.fmt v.y :: c.fmt v.z :: words t [] := by
        intro v t
        unfold Codec.line
        rw [show text "facet normal " = text "facet" ++ [32] ++ (text "normal" ++ [32]) by decide]
        simp only [List.append_assoc, List.cons_append, List.nil_append]
        rw [words_word (w := text "facet") (by decide) (by decide) (by rfl), words_word (w := text "normal") (by decide) (by decide) (by rfl), numbers_words hc]
      simp only [List.append_assoc]
      rw [hnl, show text "outer loop\n" = text "outer" ++ [32] ++ (text "loop" ++ [10]) by decide, show text "endloop\n" = text "endloop" ++ [10] by decide, show text "endfacet\n" = text "endfacet" ++ [10] by decide]
      simp only [List.append_assoc, List.cons_append, List.nil_append]
      rw [words_word (w := text "outer") (by decide) (by decide) (by rfl), words_word (w := text "loop") (by decide) (by decide) (by rfl), hvl, hvl, hvl,
        words_word (w := text "endloop") (by decide) (by decide) (by rfl), words_word (w := text "endfacet") (by decide) (by decide) (by rfl)]
    · intro t
      simp only [parseFacet, List.cons_append, List.drop_succ_cons, List.drop_zero, parsePoint_eq hc, Option.bind_eq_bind, Option.bind_some, Option.pure_def, hv, List.map_cons, List.map_nil, List.nil_append]

theorem parseAll_spec {s : File K} (ht : Triangular s) (l : List Int) (hl : ∀ id ∈ l, ∃ f, s.get? id = some f) :
    ∃ bs, (l.mapM fun id => (s.get? id).bind (facetText c)) = some bs ∧ 242 * l.length ≤ bs.flatten.length ∧ bs.flatten.length ≤ 266 * l.length ∧ (∀ a ∈ bs.flatten, a ≠ 0) ∧
      (l ≠ [] → ∃ p q, bs.flatten = p ++ text "vertex" ++ q ∧ 78 ≤ p.length ∧ p.length ≤ 200) ∧
      (l ≠ [] → ∃ q, bs.flatten = text "facet" ++ q) ∧
      (∀ t n, countLines (bs.flatten ++ t) 1 n = countLines t 1 (n + 7 * l.length)) ∧
      ∃ ws, (∀ t, words (bs.flatten ++ t) [] = ws ++ words t []) ∧
        ∀ t (i : Nat) (s0 : File K), s0.Ok → (∀ id ∈ s0.ids, id < i) →
          ∃ s', parseAll c l.length i (ws ++ t) s0 = some s' ∧ CopiedAt (fun v => ⟨prt v.x, prt v.y, prt v.z⟩) (fun _ => (0, 0)) s l i s0 s' := by
  induction l with
  | nil =>
    exact ⟨[], rfl, by simp, by simp, by simp, by simp, by simp, by simp, [], by simp, fun t i s0 h _ => ⟨s0, rfl, CopiedAt.nil _ _ _ _ h⟩⟩
  | cons a l ih =>
    obtain ⟨f, hf⟩ := hl a (by simp)
    obtain ⟨v0, v1, v2, hv, _⟩ := verts_of ht hf
    obtain ⟨b, b1, b2, b3, b4, ⟨p, q, b5, b6, b7⟩, ⟨q', b8⟩, b9, ws, b10, b11⟩ := facetText_spec hc hv
    obtain ⟨bs, r1, r2, r3, r4, r5, r6, r7, ws', r8, r9⟩ := ih fun id hid => hl id (List.mem_cons_of_mem _ hid)
    refine ⟨b :: bs, ?_, ?_, ?_, ?_, ?_, ?_, ?_, ws ++ ws', ?_, ?_⟩
    · rw [List.mapM_cons, r1, hf]
      simp only [Option.bind_some, b1, Option.bind_eq_bind, Option.pure_def]
    · simp only [List.flatten_cons, List.length_append, List.length_cons]; omega
    · simp only [List.flatten_cons, List.length_append, List.length_cons]; omega
    · intro x hx
      rw [List.flatten_cons, List.mem_append] at hx
      rcases hx with h | h
      · exact b4 x h
      · exact r4 x h
    · intro _
      exact ⟨p, q ++ bs.flatten, by rw [List.flatten_cons, b5]; simp, b6, b7⟩
    · intro _
      exact ⟨q' ++ bs.flatten, by rw [List.flatten_cons, b8]; simp⟩
    · intro t n
      rw [List.flatten_cons, List.append_assoc, b9, r7, List.length_cons]
      congr 1; ring
    · intro t
      rw [List.flatten_cons, List.append_assoc, b10, r8, List.append_assoc]
    · intro t i s0 h0 hlt
      have hni : (i : Int) ∉ s0.ids := fun h => by have := hlt _ h; omega
      obtain ⟨s', q1, q2⟩ := r9 t (i + 1) (s0.add i ⟨f.verts.map fun v => ⟨prt v.x, prt v.y, prt v.z⟩, ⟨prt f.normal.x, prt f.normal.y, prt f.normal.z⟩, (0, 0), [{}, {}, {}]⟩)
        (Cont.add_ok h0 _ hni) (by
          intro id hid
          simp only [Cont.add, List.mem_append, List.mem_singleton] at hid
          rcases hid with h | rfl
          · have := hlt _ h; omega
          · omega)
      refine ⟨s', ?_, CopiedAt.cons hf ⟨rfl, rfl, rfl⟩ q2⟩
      rw [List.length_cons, parseAll, List.append_assoc, b11]
      exact q1

end

/-- The bytes of a file that are searched for the word `vertex`. -/
def window (b : List Nat) : List Nat := (b.drop 84).take 256

end Stl

open Stl
variable {K : Type}

/-- C98: a file of six facets or more, saved in binary form, loads with the same facets in the same order, numbered from 0, when the bytes searched for the word `vertex` hold a zero and not that word before it.
Coordinates and normals are as a `float` holds them; the extra bytes are kept. -/
theorem C98_binary {c : Codec K} (hc : c.FourBytes) {s : File K} (hs : s.Ok) (ht : Stl.Triangular s) (hn : 6 ≤ s.ids.length) {b : List Nat} (hb : Stl.saveBinary c s = some b)
    (hzero : 0 ∈ window b) (hword : ¬ text "vertex" <:+: (window b).takeWhile (· ≠ 0)) (old : File K) :
    ∃ s', Stl.load c b old = some (true, s') ∧ Copied c.through _root_.id s s' := by
  obtain ⟨bs, h1, h2, h3⟩ := readBinary_spec hc ht s.ids fun id h => (hs.2 id).1 h
  have hb' : b = List.replicate 80 0 ++ c.int s.count ++ bs.flatten := by
    unfold Stl.saveBinary at hb
    rw [h1] at hb
    simpa using hb.symm
  have hlen : b.length = 84 + 50 * s.ids.length := by
    rw [hb']
    simp only [List.length_append, List.length_replicate, hc.2, h2]
  have hdrop : b.drop 84 = bs.flatten := by
    rw [hb', List.drop_append, List.drop_eq_nil_of_le (by simp [hc.2]), List.nil_append]
    simp [hc.2]
  refine ⟨_, ?_, (h3 0 Cont.empty Cont.empty_ok (by simp [Cont.empty])).copied⟩
  unfold Stl.load
  rw [if_neg (by omega)]
  have hstr : strstr (text "vertex") ((b.drop 84).take 256) = some false := by
    unfold window at hword hzero
    unfold strstr
    rw [if_neg hword, if_pos hzero]
  simp only [hstr, Option.bind_eq_bind, Option.bind_some, Bool.false_eq_true, if_false]
  rw [if_neg (by omega), hdrop, hlen]
  simp [Nat.add_sub_cancel_left]

/-- The facets that `set` makes have three vertices and three edges when the triangles have three nodes. -/
theorem Stl.set_triangular [Zero K] {m : Mesh K} (hm : m.WF) (h3 : ∀ id e, m.elements.get? id = some e → e.elementType = .triangle → e.nodeIds.length = 3)
    {s : File K} (hs : Stl.set m = some s) : s.Ok ∧ Triangular s ∧ ∀ id f, s.get? id = some f → f.normal = ⟨0, 0, 0⟩ := by
  obtain ⟨s', h1, h2, h4, h5⟩ := C96_set hm
  rw [hs, Option.some.injEq] at h1
  subst h1
  have key : ∀ id f, s.get? id = some f → (f.verts.length = 3 ∧ f.edges.length = 3) ∧ f.normal = ⟨0, 0, 0⟩ := by
    intro id f hf
    have hid := (h2.2 id).2 ⟨f, hf⟩
    rw [h4, List.mem_filter] at hid
    cases he : m.elements.get? id with
    | none => simp [he] at hid
    | some e =>
      simp only [he, Option.map_some, Option.some.injEq, decide_eq_true_eq] at hid
      obtain ⟨g, hg, hv, hn, _, hed⟩ := h5 id e he hid.2
      rw [hf, Option.some.injEq] at hg
      subst hg
      have := congrArg List.length hv
      rw [List.length_map, Mesh.coords, List.length_map, h3 id e he hid.2] at this
      exact ⟨⟨this, by rw [hed]; rfl⟩, hn⟩
  exact ⟨h2, fun id f hf => (key id f hf).1, fun id f hf => (key id f hf).2⟩

/-- C98: what is set from a mesh of six triangles or more and saved in binary form always loads with the same triangles, when the `float` zero starts with a byte zero. -/
theorem C98_binary_mesh [Zero K] {c : Codec K} (hc : c.FourBytes) (hz : (c.enc 0).head? = some 0) {m : Mesh K} (hm : m.WF)
    (h3 : ∀ id e, m.elements.get? id = some e → e.elementType = .triangle → e.nodeIds.length = 3)
    {s : File K} (hs : Stl.set m = some s) (hn : 6 ≤ s.ids.length) (old : File K) :
    ∃ b s', Stl.saveBinary c s = some b ∧ Stl.load c b old = some (true, s') ∧ Copied c.through _root_.id s s' := by
  obtain ⟨hok, ht, hnorm⟩ := set_triangular hm h3 hs
  obtain ⟨bs, h1, h2, _⟩ := readBinary_spec hc ht s.ids fun id h => (hok.2 id).1 h
  have hb : Stl.saveBinary c s = some (List.replicate 80 0 ++ c.int s.count ++ bs.flatten) := by
    unfold Stl.saveBinary
    rw [h1]
    rfl
  obtain ⟨a, t, hat⟩ : ∃ a t, s.ids = a :: t := List.exists_cons_of_ne_nil (by intro h; rw [h] at hn; simp at hn)
  obtain ⟨f, hf⟩ := (hok.2 a).1 (by rw [hat]; simp)
  have hfirst : ∃ r, bs.flatten = 0 :: r := by
    rw [hat, List.mapM_cons, hf] at h1
    simp only [Option.bind_some, Option.bind_eq_bind, Option.bind_eq_some_iff, Option.pure_def, Option.some.injEq] at h1
    obtain ⟨b0, hb0, bs', _, rfl⟩ := h1
    obtain ⟨v0, v1, v2, hv, g0, g1, g2⟩ := verts_of ht hf
    simp only [facetBytes, g0, g1, g2, Option.bind_eq_bind, Option.bind_some, Option.pure_def, Option.some.injEq] at hb0
    obtain ⟨r, hr⟩ : ∃ r, c.enc 0 = 0 :: r := by
      cases he : c.enc 0 with
      | nil => simp [he] at hz
      | cons x r => simp [he] at hz; exact ⟨r, by rw [hz]⟩
    rw [← hb0, hnorm a f hf]
    exact ⟨_, by simp [Codec.point, hr]; rfl⟩
  obtain ⟨r, hr⟩ := hfirst
  have hw : ∃ r', window (List.replicate 80 0 ++ c.int s.count ++ bs.flatten) = 0 :: r' := by
    unfold window
    rw [List.drop_append, List.drop_eq_nil_of_le (by simp [hc.2]), List.nil_append, hr]
    simp [hc.2]
  obtain ⟨r', hr'⟩ := hw
  obtain ⟨s', q1, q2⟩ := C98_binary hc hok ht hn hb (by rw [hr']; simp) (by rw [hr', List.takeWhile_cons_of_neg (by simp)]; decide) old
  exact ⟨_, s', hb, q1, q2⟩

/-- C98, the code departs from the property: with five facets or fewer `load` reports success and reads nothing: the facets are those from before. -/
theorem C98_binary_small {c : Codec K} (hc : c.FourBytes) {s : File K} (hs : s.Ok) (ht : Stl.Triangular s) (hn : s.ids.length ≤ 5) (old : File K) :
    ∃ b, Stl.saveBinary c s = some b ∧ Stl.load c b old = some (true, old) := by
  obtain ⟨bs, h1, h2, _⟩ := readBinary_spec hc ht s.ids fun id h => (hs.2 id).1 h
  refine ⟨List.replicate 80 0 ++ c.int s.count ++ bs.flatten, ?_, ?_⟩
  · unfold Stl.saveBinary
    rw [h1]
    rfl
  · unfold Stl.load
    rw [if_pos]
    simp only [List.length_append, List.length_replicate, hc.2, h2]
    omega

/-- C99: a file of two facets or more, saved as text, loads with the same facets in the same order, numbered from 0. Coordinates and normals are as the text of eight digits reads back. -/
theorem C99_ascii {c : Codec K} {prt : K → K} (hc : c.Text prt) {s : File K} (hs : s.Ok) (ht : Stl.Triangular s) (hn : 2 ≤ s.ids.length) (old : File K) :
    ∃ b s', Stl.saveAscii c s = some b ∧ Stl.load c b old = some (true, s') ∧ Copied (fun v => ⟨prt v.x, prt v.y, prt v.z⟩) (fun _ => (0, 0)) s s' := by
  obtain ⟨bs, h1, h2, h3, h4, h5, h6, h7, ws, h8, h9⟩ := parseAll_spec hc ht s.ids fun id h => (hs.2 id).1 h
  have hne : s.ids ≠ [] := by intro h; rw [h] at hn; simp at hn
  obtain ⟨p, q, hpq, hp1, hp2⟩ := h5 hne
  obtain ⟨q', hq'⟩ := h6 hne
  obtain ⟨s', r1, r2⟩ := h9 (words (text "endsolid\n") []) 0 Cont.empty Cont.empty_ok (by simp [Cont.empty])
  refine ⟨text "solid\n" ++ bs.flatten ++ text "endsolid\n", s', ?_, ?_, r2.copied⟩
  · unfold Stl.saveAscii
    rw [h1]
    rfl
  · have hafter : afterLine (text "solid\n" ++ bs.flatten ++ text "endsolid\n") = bs.flatten ++ text "endsolid\n" := by
      rw [show text "solid\n" = [115, 111, 108, 105, 100, 10] by decide]
      simp [afterLine]
    have hstart : startsFacet (bs.flatten ++ text "endsolid\n") = true := by
      rw [hq', show text "facet" = [102, 97, 99, 101, 116] by decide]
      simp [startsFacet, lower]
      decide
    have hcount : countLines (text "solid\n" ++ bs.flatten ++ text "endsolid\n") 0 1 / 7 = s.ids.length := by
      rw [show text "solid\n" = text "solid" ++ [10] by decide]
      simp only [List.append_assoc, List.cons_append, List.nil_append]
      rw [countLines_line (text "solid") _ _ _ (by decide) (by decide), h7, show text "endsolid\n" = text "endsolid" ++ [10] by decide,
        countLines_line (text "endsolid") _ _ _ (by decide) (by decide), countLines]
      omega
    have hstr : strstr (text "vertex") (((text "solid\n" ++ bs.flatten ++ text "endsolid\n").drop 84).take 256) = some true := by
      unfold strstr
      rw [if_pos]
      have hnz : (((text "solid\n" ++ bs.flatten ++ text "endsolid\n").drop 84).take 256).takeWhile (· ≠ 0) = ((text "solid\n" ++ bs.flatten ++ text "endsolid\n").drop 84).take 256 := by
        rw [List.takeWhile_eq_self_iff]
        intro a ha
        have := List.mem_of_mem_drop (List.mem_of_mem_take ha)
        simp only [List.mem_append] at this
        simp only [ne_eq, decide_not, Bool.not_eq_true', decide_eq_false_iff_not]
        rcases this with (h | h) | h
        · exact (by decide : ∀ a ∈ text "solid\n", ¬ a = 0) a h
        · exact h4 a h
        · exact (by decide : ∀ a ∈ text "endsolid\n", ¬ a = 0) a h
      rw [hnz, hpq]
      have e : text "solid\n" ++ (p ++ text "vertex" ++ q) ++ text "endsolid\n" = (text "solid\n" ++ p) ++ (text "vertex" ++ (q ++ text "endsolid\n")) := by simp only [List.append_assoc]
      have e6 : (text "solid\n").length = 6 := by decide
      have ev : (text "vertex").length = 6 := by decide
      have hpl : (text "solid\n" ++ p).length = 6 + p.length := by rw [List.length_append, e6]
      rw [e, List.drop_append, hpl, show 84 - (6 + p.length) = 0 by omega, List.drop_zero, List.take_append]
      have hdl : ((text "solid\n" ++ p).drop 84).length = p.length - 78 := by rw [List.length_drop, hpl]; omega
      rw [List.take_of_length_le (by omega), hdl, List.take_append, List.take_of_length_le (by omega)]
      exact ⟨_, _, by rw [List.append_assoc]⟩
    unfold Stl.load
    rw [if_neg (by
      simp only [List.length_append]
      have e6 : (text "solid\n").length = 6 := by decide
      have : (text "endsolid\n").length = 9 := by decide
      omega)]
    simp only [hstr, Option.bind_eq_bind, Option.bind_some, if_true, hafter, hstart, hcount, h8]
    rw [r1]
    rfl

/-- C99, the code departs from the property: with one facet or none `load` reports success and reads nothing: the facets are those from before. -/
theorem C99_ascii_small {c : Codec K} {prt : K → K} (hc : c.Text prt) {s : File K} (hs : s.Ok) (ht : Stl.Triangular s) (hn : s.ids.length ≤ 1) (old : File K) :
    ∃ b, Stl.saveAscii c s = some b ∧ Stl.load c b old = some (true, old) := by
  obtain ⟨bs, h1, h2, h3, _⟩ := parseAll_spec hc ht s.ids fun id h => (hs.2 id).1 h
  refine ⟨text "solid\n" ++ bs.flatten ++ text "endsolid\n", ?_, ?_⟩
  · unfold Stl.saveAscii
    rw [h1]
    rfl
  · unfold Stl.load
    rw [if_pos]
    simp only [List.length_append]
    have e6 : (text "solid\n").length = 6 := by decide
    have : (text "endsolid\n").length = 9 := by decide
    omega

/-! ### A codec that meets the hypotheses -/

namespace Stl

/-- The lowest `n` digits of a number to a base, the highest first. -/
def digits (base : Nat) : Nat → Nat → List Nat
  | 0, _ => []
  | n + 1, k => digits base n (k / base) ++ [k % base]

theorem digits_length (base : Nat) : ∀ n k, (digits base n k).length = n := by
  intro n
  induction n with
  | zero => intro k; rfl
  | succ n ih => intro k; simp [digits, ih]

theorem digits_lt {base : Nat} (hb : 0 < base) : ∀ n k, ∀ a ∈ digits base n k, a < base := by
  intro n
  induction n with
  | zero => intro k a h; simp [digits] at h
  | succ n ih =>
    intro k a h
    simp only [digits, List.mem_append, List.mem_singleton] at h
    rcases h with h | rfl
    · exact ih _ a h
    · exact Nat.mod_lt _ hb

/-- Numbers with a fixed point: a sign and 23 bits in 1/256ths, or a sign and 13 digits, six of them after the point. -/
def fixed : Codec ℚ where
  enc x := digits 256 4 (2 * (⌊|x| * 256⌋.toNat % 8388608) + if x < 0 then 1 else 0)
  dec b := let k := b.foldl (fun a d => a * 256 + d) 0
    (if k % 2 = 1 then -1 else 1) * ((k / 2 : Nat) : ℚ) / 256
  int n := digits 256 4 n
  fmt x := (if x < 0 then 45 else 43) :: (digits 10 13 (⌊|x| * 1000000⌋.toNat)).map (· + 48)
  parse w := some ((if w.head? = some 45 then -1 else 1) * ((w.drop 1).foldl (fun a d => a * 10 + (d - 48)) 0 : Nat) / 1000000)

theorem fixed_ok : fixed.FourBytes ∧ fixed.Text (fun x => (fixed.parse (fixed.fmt x)).getD 0) := by
  refine ⟨⟨fun x => digits_length _ _ _, fun n => digits_length _ _ _⟩, ⟨?_, ?_, ?_⟩⟩
  · intro x a ha
    simp only [fixed, List.mem_cons, List.mem_map] at ha
    rcases ha with rfl | ⟨d, hd, rfl⟩
    · split_ifs <;> decide
    · have := digits_lt (by decide) _ _ d hd
      refine ⟨?_, by omega⟩
      simp only [isSpace, Bool.or_eq_false_iff, beq_eq_false_iff_ne]
      omega
  · intro x
    simp [fixed, digits_length]
  · intro x
    rfl

example : fixed.dec (fixed.enc (-5 / 2)) = -5 / 2 ∧ fixed.enc 0 = [0, 0, 0, 0] ∧ fixed.parse (fixed.fmt (-5 / 2)) = some (-5 / 2) := by decide +kernel

/-- `plate` can be saved as text and read back. -/
example (old : File ℚ) : ∃ b s', saveAscii fixed plateFile = some b ∧ load fixed b old = some (true, s') ∧ s'.ids = [0, 1] := by
  obtain ⟨b, s', h1, h2, h3⟩ := C99_ascii fixed_ok.2 plateFile_ok.1 plateFile_ok.2 (by decide +kernel) old
  exact ⟨b, s', h1, h2, h3.2.1⟩

/-- Three copies of `plate`: six triangles. -/
def plates : Mesh ℚ := { plate with elements := (((((Cont.empty.add 4 ⟨.triangle, [0, 1, 2], []⟩).add 5 ⟨.triangle, [0, 2, 3], []⟩).add 6 ⟨.triangle, [0, 1, 2], []⟩).add 7 ⟨.triangle, [0, 2, 3], []⟩).add 8 ⟨.triangle, [0, 1, 2], []⟩).add 9 ⟨.triangle, [0, 2, 3], []⟩ }

/-- The hypotheses of `C98_binary_mesh` hold for six triangles. -/
example : plates.WF ∧ (∀ id ∈ plates.elements.ids, (plates.elements.get? id).map (fun e => e.nodeIds.length) = some 3) ∧ (Stl.set plates).map (·.ids.length) = some 6 :=
  ⟨Mesh.wf_of_check (by decide +kernel), by decide +kernel, by decide +kernel⟩

end Stl

end ENigMA
