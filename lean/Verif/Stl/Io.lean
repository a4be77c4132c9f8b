import Verif.Stl.File

/-!
# Reading and writing the facets: StlUtils_Imp.hpp:80-402

A file on disk is the list of its bytes. How a number becomes four bytes or a word of text belongs to the C++ library: it is a parameter.
`none` stands for an exception or for a read past the end of an array. A file that cannot be opened is not modelled.
-/

set_option linter.unusedSectionVars false
set_option autoImplicit false

namespace ENigMA
namespace Stl
variable {K : Type}

/-- How the C++ library writes and reads numbers. -/
structure Codec (K : Type) where
  /-- `writeFloat`: StlUtils_Imp.hpp:331-337. -/
  enc : K → List Nat
  /-- `getFloat`: StlUtils_Imp.hpp:346-352. -/
  dec : List Nat → K
  /-- `writeInt`: StlUtils_Imp.hpp:339-344. -/
  int : Nat → List Nat
  /-- `<<` with eight digits in scientific notation. -/
  fmt : K → List Nat
  /-- `>>` on one whole word; `none` when the stream fails. A number followed by other letters is not modelled. -/
  parse : List Nat → Option K

/-- The bytes of a text. -/
def text (s : String) : List Nat := s.toList.map Char.toNat

/-! ### Binary files -/

/-- The three numbers of a point: StlUtils_Imp.hpp:380-389. -/
def Codec.point (c : Codec K) (v : Vec3 K) : List Nat := c.enc v.x ++ c.enc v.y ++ c.enc v.z

/-- One facet: StlUtils_Imp.hpp:378-393. -/
def facetBytes (c : Codec K) (f : Facet K) : Option (List Nat) := do
  let v0 ← f.vertex? 0
  let v1 ← f.vertex? 1
  let v2 ← f.vertex? 2
  return c.point f.normal ++ c.point v0 ++ c.point v1 ++ c.point v2 ++ [f.extra.1, f.extra.2]

/-- `saveBinary`: StlUtils_Imp.hpp:362-399. -/
def saveBinary (c : Codec K) (s : File K) : Option (List Nat) := do
  let b ← s.ids.mapM fun id => (s.get? id).bind (facetBytes c)
  return List.replicate 80 0 ++ c.int s.count ++ b.flatten

/-- Three numbers: StlUtils_Imp.hpp:207-209, 215-217. -/
def Codec.readPoint (c : Codec K) (b : List Nat) : Vec3 K := ⟨c.dec (b.take 4), c.dec ((b.drop 4).take 4), c.dec ((b.drop 8).take 4)⟩

/-- One facet of fifty bytes: StlUtils_Imp.hpp:206-223. A byte that is not there reads as 255. -/
def readFacet (c : Codec K) (b : List Nat) : Facet K :=
  ⟨[c.readPoint (b.drop 12), c.readPoint (b.drop 24), c.readPoint (b.drop 36)], c.readPoint b, ((b.drop 48).headD 255, (b.drop 49).headD 255), [{}, {}, {}]⟩

/-- The loop over the facets of a binary file: StlUtils_Imp.hpp:199-254. -/
def readBinary (c : Codec K) : Nat → Nat → List Nat → File K → File K
  | 0, _, _, s => s
  | n + 1, i, b, s => readBinary c n (i + 1) (b.drop 50) (s.add i (readFacet c b))

/-! ### Text files -/

/-- A line of numbers: StlUtils_Imp.hpp:302-305, 311-314. -/
def Codec.line (c : Codec K) (word : String) (v : Vec3 K) : List Nat := text word ++ c.fmt v.x ++ [32] ++ c.fmt v.y ++ [32] ++ c.fmt v.z ++ [10]

/-- One facet: StlUtils_Imp.hpp:300-319. -/
def facetText (c : Codec K) (f : Facet K) : Option (List Nat) := do
  let v0 ← f.vertex? 0
  let v1 ← f.vertex? 1
  let v2 ← f.vertex? 2
  return c.line "facet normal " f.normal ++ text "outer loop\n" ++ c.line "vertex " v0 ++ c.line "vertex " v1 ++ c.line "vertex " v2 ++ text "endloop\n" ++ text "endfacet\n"

/-- `saveAscii`: StlUtils_Imp.hpp:284-328. -/
def saveAscii (c : Codec K) (s : File K) : Option (List Nat) := do
  let b ← s.ids.mapM fun id => (s.get? id).bind (facetText c)
  return text "solid\n" ++ b.flatten ++ text "endsolid\n"

/-- What is left after the first line: `getline`. -/
def afterLine : List Nat → List Nat
  | [] => []
  | a :: t => if a = 10 then t else afterLine t

/-- A letter without its case. -/
def lower (a : Nat) : Nat := if 65 ≤ a ∧ a ≤ 90 then a + 32 else a

/-- The first five letters that are not spaces spell `facet`: StlUtils_Imp.hpp:131-157. -/
def startsFacet (b : List Nat) : Bool := (((b.filter (· ≠ 32)).take 5).map lower) == text "facet"

/-- The count of lines that are not short: StlUtils_Imp.hpp:162-174; `j` and `n` are the variables of the loop. -/
def countLines : List Nat → Nat → Nat → Nat
  | [], _, n => n
  | a :: t, j, n => if a = 10 then countLines t 1 (if 4 < j then n + 1 else n) else countLines t (j + 1) n

/-- White space for `>>`. -/
def isSpace (a : Nat) : Bool := a == 32 || a == 10 || a == 9 || a == 11 || a == 12 || a == 13

/-- The words of a text, as `>>` reads them; `w` is the word being read. -/
def words : List Nat → List Nat → List (List Nat)
  | [], w => if w = [] then [] else [w]
  | a :: t, w => if isSpace a then (if w = [] then words t [] else w :: words t []) else words t (w ++ [a])

/-- Three numbers: StlUtils_Imp.hpp:234, 242. -/
def Codec.parsePoint (c : Codec K) : List (List Nat) → Option (Vec3 K × List (List Nat))
  | x :: y :: z :: t => do
    let x ← c.parse x
    let y ← c.parse y
    let z ← c.parse z
    return (⟨x, y, z⟩, t)
  | _ => none

/-- One facet: StlUtils_Imp.hpp:226-249. `none` also stands for a stream that fails; the code then goes on with what is in the variables. -/
def parseFacet (c : Codec K) (w : List (List Nat)) : Option (Facet K × List (List Nat)) := do
  let n ← c.parsePoint (w.drop 2)
  let v0 ← c.parsePoint (n.2.drop 3)
  let v1 ← c.parsePoint (v0.2.drop 1)
  let v2 ← c.parsePoint (v1.2.drop 1)
  return (⟨[v0.1, v1.1, v2.1], n.1, (0, 0), [{}, {}, {}]⟩, v2.2.drop 2)

/-- The loop over the facets of a text: StlUtils_Imp.hpp:199-254. -/
def parseAll (c : Codec K) : Nat → Nat → List (List Nat) → File K → Option (File K)
  | 0, _, _, s => some s
  | n + 1, i, w, s => do
    let f ← parseFacet c w
    parseAll c n (i + 1) f.2 (s.add i f.1)

/-- `strstr(chtest, "vertex")`: StlUtils_Imp.hpp:108-109. The array need not hold a zero; without one the function reads past it unless it finds the word before. -/
def strstr (word b : List Nat) : Option Bool :=
  if word <:+: b.takeWhile (· ≠ 0) then some true else if 0 ∈ b then some false else none

/-- `load`: StlUtils_Imp.hpp:80-281, for a file that opens. Gives what it returns and the facets after; `old` are the facets before. -/
def load (c : Codec K) (b : List Nat) (old : File K) : Option (Bool × File K) :=
  if b.length < 84 + 256 then some (true, old)
  else do
    let ascii ← strstr (text "vertex") ((b.drop 84).take 256)
    if ascii then
      if startsFacet (afterLine b) then do
        let s ← parseAll c (countLines b 0 1 / 7) 0 (words (afterLine b) []) Cont.empty
        return (true, s)
      else return (false, old)
    else if (b.length - 84) % 50 ≠ 0 ∨ b.length < 134 then return (false, old)
    else return (true, readBinary c ((b.length - 84) / 50) 0 (b.drop 84) Cont.empty)

end Stl
end ENigMA
