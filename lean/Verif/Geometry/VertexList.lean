import Verif.Base.Norm

/-!
# Vertex lists and polylines

Model of `CGeoVertexList` and `CGeoPolyline` (trunk/src/geometry/GeoVertexList_Imp.hpp, GeoPolyline_Imp.hpp).
`m_vertices` is a list. `none` stands for an exception or undefined behaviour (reading an empty list, writing
past the end).
-/

set_option linter.unusedSectionVars false

namespace ENigMA
namespace VertexList

variable {α : Type}

/-- GeoVertexList_Imp.hpp 65-73 `vertex`: throws on the empty list, otherwise index modulo the size. Only
non-negative indices are modelled. -/
def vertex (vs : List α) (i : Nat) : Option α := vs[i % vs.length]?

/-- GeoVertexList_Imp.hpp 41-45 `addVertex`. -/
def addVertex (vs : List α) (v : α) : List α := vs ++ [v]

/-- GeoVertexList_Imp.hpp 47-51 `insertVertex`: undefined past the end. -/
def insertVertex (vs : List α) (i : Nat) (v : α) : Option (List α) :=
  if i ≤ vs.length then some (vs.take i ++ v :: vs.drop i) else none

/-- GeoVertexList_Imp.hpp 53-57 `removeVertex`: undefined at or past the end. -/
def removeVertex (vs : List α) (i : Nat) : Option (List α) :=
  if i < vs.length then some (vs.take i ++ vs.drop (i + 1)) else none

/-- GeoVertexList_Imp.hpp 59-63 `setVertex`: the index is reduced modulo the size (division by zero on the
empty list). -/
def setVertex (vs : List α) (i : Nat) (v : α) : Option (List α) :=
  if vs = [] then none else some (vs.set (i % vs.length) v)

/-- `std::unique` with the current last kept element `a`: skips elements equal to it. -/
def uniqueFrom [DecidableEq α] (a : α) : List α → List α
  | [] => [a]
  | b :: l => if a = b then uniqueFrom a l else a :: uniqueFrom b l

/-- GeoVertexList_Imp.hpp 76-80 `removeDuplicates`: `erase(std::unique(begin, end), end)`. -/
def removeDuplicates [DecidableEq α] : List α → List α
  | [] => []
  | a :: l => uniqueFrom a l

/-- GeoVertexList_Imp.hpp 113-117 `invert`. -/
def invert (vs : List α) : List α := vs.reverse

/-- The loop of `removeCollinear` (lines 92-106) from index `i`, with `k` iterations to go, on the array being
compacted in place; `j` is the write position. `keep p c n` is `angle(n - c, c - p) > aTolerance`; the two
differences are read from the array as it is at that moment, as in the source. -/
def collinearLoop (keep : α → α → α → Bool) : Nat → Nat → List α → Nat → Option (List α × Nat)
  | 0, _, vs, j => some (vs, j)
  | k + 1, i, vs, j => do
    let n ← vs[(i + 1) % vs.length]?
    let c ← vs[i % vs.length]?
    let p ← vs[(i - 1) % vs.length]?
    if keep p c n then
      if j < vs.length then collinearLoop keep k (i + 1) (vs.set j c) (j + 1) else none
    else collinearLoop keep k (i + 1) vs j

/-- GeoVertexList_Imp.hpp 82-111 `removeCollinear`. The unguarded write `m_vertices[j++] = ...` (line 108) is
undefined when `j` is past the end. -/
def removeCollinear (keep : α → α → α → Bool) (vs : List α) : Option (List α) :=
  if vs.length = 0 then some vs
  else do
    let (ws, j) ← collinearLoop keep (vs.length - 2) 1 vs 1
    let last ← ws[ws.length - 1]?
    if j < ws.length then some ((ws.set j last).take (j + 1)) else none

end VertexList

namespace Polyline

variable {K : Type} [Field K] [LinearOrder K] [IsStrictOrderedRing K]

/-- GeoPolyline_Imp.hpp 79-86 `nbLines`. -/
def nbLines (vs : List (Vec3 K)) : Nat := if vs.length = 0 then 0 else vs.length - 1

/-- GeoPolyline_Imp.hpp 88-100 `line`: start and end point of segment `i` (a modulo by zero on the empty list). -/
def line (vs : List (Vec3 K)) (i : Nat) : Option (Vec3 K × Vec3 K) := do
  let p ← VertexList.vertex vs (i % vs.length)
  let q ← VertexList.vertex vs ((i + 1) % vs.length)
  some (p, q)

/-- GeoPolyline_Imp.hpp 102-109 `isClosed`. -/
def isClosed (nrm : Vec3 K → K) (tol : K) (vs : List (Vec3 K)) : Bool :=
  match vs.head?, vs.getLast? with
  | some a, some b => 2 ≤ vs.length && decide (nrm (b - a) ≤ tol)
  | _, _ => false

/-- GeoPolyline_Imp.hpp 111-121 `close`: appends the first vertex unless the last one already is within the
tolerance of it; does nothing with fewer than three vertices. -/
def close (nrm : Vec3 K → K) (tol : K) (vs : List (Vec3 K)) : List (Vec3 K) :=
  match vs.head?, vs.getLast? with
  | some a, some b => if 2 < vs.length ∧ tol < nrm (b - a) then vs ++ [a] else vs
  | _, _ => vs

/-- GeoPolyline_Imp.hpp 123-137 `calculateLength`: sum of the lengths of consecutive differences. -/
def length (nrm : Vec3 K → K) : List (Vec3 K) → K
  | a :: b :: l => nrm (b - a) + length nrm (b :: l)
  | _ => 0

end Polyline
end ENigMA
