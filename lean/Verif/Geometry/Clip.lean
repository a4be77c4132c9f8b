import Verif.Geometry.Line
import Verif.Geometry.Polyhedron

/-!
# Clipping polylines, polygons and polyhedra by a plane

Model of the clipping functions of `CGeoPolyline`, `CGeoPolygon`, `CGeoPolyhedron` and of `CGeoLineList::sort` (trunk/src/geometry/GeoPolyline_Imp.hpp,
GeoPolygon_Imp.hpp, GeoPolyhedron_Imp.hpp, GeoLineList_Imp.hpp). `nrm` is the Euclidean length, `eps` is `numeric_limits<Real>::epsilon()`, `big` is
`numeric_limits<Real>::max()`. The centroid, bounding box and length caches are not part of the model: the lines whose length is read here are new objects or carry
the length of their direction vector, which `invert` does not change.
-/

set_option linter.unusedSectionVars false
set_option autoImplicit false

namespace ENigMA

variable {K : Type} [Field K] [LinearOrder K] [IsStrictOrderedRing K]

namespace LineList

/-- `std::swap(m_lines[a], m_lines[b])`, on the lines as a function of the index. -/
def swap (f : Nat → GLine K) (a b : Nat) : Nat → GLine K := fun k => if k = a then f b else if k = b then f a else f k

/-- GeoLineList_Imp.hpp 81-95, the body of the inner loop of `sort`. -/
def sortBody (nrm : Vec3 K → K) (tol : K) (i : Nat) (f : Nat → GLine K) (j : Nat) : Nat → GLine K :=
  let f1 := if nrm ((f j).startP - (f i).endP) ≤ tol then (if i + 1 ≠ j then swap f (i + 1) j else f) else f
  if nrm ((f1 j).endP - (f1 i).endP) ≤ tol then
    let g := Function.update f1 j (f1 j).invert
    if i + 1 ≠ j then swap g (i + 1) j else g
  else f1

/-- GeoLineList_Imp.hpp 79-96, the inner loop for one `i`: `j` from `i + 1` to `n - 1`. -/
def sortInner (nrm : Vec3 K → K) (tol : K) (n : Nat) (f : Nat → GLine K) (i : Nat) : Nat → GLine K :=
  (List.range' (i + 1) (n - (i + 1))).foldl (sortBody nrm tol i) f

/-- GeoLineList_Imp.hpp 74-98 `sort(aTolerance)`. -/
def sort (nrm : Vec3 K → K) (tol : K) (ls : List (GLine K)) : List (GLine K) :=
  let f := (List.range ls.length).foldl (sortInner nrm tol ls.length) (fun k => ls.getD k ⟨0, 0, 0⟩)
  (List.range ls.length).map f

end LineList

namespace Polyline

/-- GeoPolyline_Imp.hpp 65-74, the loop fusing vertices, after the vertex `a`. -/
def fuseFrom (nrm : Vec3 K → K) (tol : K) (a : Vec3 K) : List (Vec3 K) → List (Vec3 K)
  | [] => []
  | b :: l => if nrm (b - a) ≤ tol then a :: fuseFrom nrm tol a l else b :: fuseFrom nrm tol b l

/-- GeoPolyline_Imp.hpp 65-74. -/
def fuse (nrm : Vec3 K → K) (tol : K) : List (Vec3 K) → List (Vec3 K)
  | [] => []
  | a :: l => a :: fuseFrom nrm tol a l

/-- GeoPolyline_Imp.hpp 49-63: the two end points of every line of positive length. -/
def endPoints (nrm : Vec3 K → K) (ls : List (GLine K)) : List (Vec3 K) :=
  ls.flatMap fun l => if 0 < nrm l.vec then [l.startP, l.endP] else []

/-- GeoPolyline_Imp.hpp 41-77 `set(lineList, sort, aTolerance)`. -/
def setLines (nrm : Vec3 K → K) (sort : Bool) (tol : K) (ls : List (GLine K)) : List (Vec3 K) :=
  VertexList.removeDuplicates (fuse nrm tol (endPoints nrm (if sort then LineList.sort nrm tol ls else ls)))

/-- The segments of a polyline, as new lines: GeoPolyline_Imp.hpp 88-100 `line` for all indices, and lines 152-155. -/
def lines : List (Vec3 K) → List (GLine K)
  | a :: b :: l => GLine.mk2 a b :: lines (b :: l)
  | _ => []

/-- GeoPolyline_Imp.hpp 145-168 `clip(plane, aTolerance)`. -/
def clip (nrm : Vec3 K → K) (p : GPlane K) (tol : K) (vs : List (Vec3 K)) : List (GLine K) :=
  ((lines vs).map fun l => l.clip p tol).filter fun l => decide (0 < nrm l.vec)

end Polyline

namespace Polygon

/-- GeoPolygon_Imp.hpp 161-175 `clip(plane, aTolerance)`: the edges are clipped with tolerance 0 (the default), only the vertices are fused with `tol`. -/
def clip (nrm : Vec3 K → K) (pl : GPlane K) (tol : K) (p : Polygon K) : Polygon K :=
  ofPolyline (Polyline.close nrm tol (Polyline.setLines nrm false tol (Polyline.clip nrm pl 0 p.vs)))

end Polygon

namespace Polyhedron

/-- GeoPolyhedron_Imp.hpp 269-288: the edges with both ends on the plane, over the polygons in the order of the map. -/
def planeLines (pl : GPlane K) (tol : K) (p : Polyhedron K) : List (GLine K) :=
  p.polygons.entries.flatMap fun e =>
    (Polyline.lines e.2.vs).filter fun l => decide (pl.distance l.startP ≤ tol) && decide (pl.distance l.endP ≤ tol)

/-- GeoPolyhedron_Imp.hpp 266-304 `close(aNewPolygon, aNewPolygonId, aPlane, aTolerance)`: the new state of `aNewPolygon` and of the polyhedron. -/
def close (nrm : Vec3 K → K) (eps : K) (np : Polygon K) (id : Int) (pl : GPlane K) (tol : K) (p : Polyhedron K) : Polygon K × Polyhedron K :=
  let ls := p.planeLines pl tol
  if 2 < ls.length then
    let q := (np.setPolyline (Polyline.setLines nrm true tol ls)).calculateNormal nrm eps true
    let q := if pl.normal.dot q.m_normal < 0 then q.invert else q
    (q, p.addPolygon id q)
  else (np, p)

/-- GeoPolyhedron_Imp.hpp 403-409: the clipped polygons with more than three vertices, in the order of the map. -/
def clipFaces (nrm : Vec3 K → K) (pl : GPlane K) (tol : K) (p : Polyhedron K) : List (Int × Polygon K) :=
  (p.polygons.entries.map fun e => (e.1, e.2.clip nrm pl tol)).filter fun e => decide (3 < e.2.vs.length)

/-- GeoPolyhedron_Imp.hpp 398-414 `clip(aNewPolygon, aNewPolygonId, aPlane, aTolerance)`. -/
def clip (nrm : Vec3 K → K) (eps : K) (np : Polygon K) (id : Int) (pl : GPlane K) (tol : K) (p : Polyhedron K) : Polygon K × Polyhedron K :=
  (empty.addPolygons (p.clipFaces nrm pl tol)).close nrm eps np id pl tol

/-- The variables of the loop of `clip` by volume fraction: GeoPolyhedron_Imp.hpp 461-481. `d` is the offset of `aPlane`, `np` is `aNewPolygon`. -/
structure Brent (K : Type) where
  a : K
  b : K
  e : K
  f : K
  fa : K
  fb : K
  fc : K
  vs : K
  mflag : Bool
  d : K
  np : Polygon K
  poly : Polyhedron K

/-- GeoPolyhedron_Imp.hpp 493-515: the next offset, and the new value of `mflag`. -/
def Brent.next (tol : K) (st : Brent K) : K × Bool :=
  let s := if st.fa ≠ st.fc ∧ st.fb ≠ st.fc then
      st.a * st.fb * st.fc / (st.fa - st.fb) / (st.fa - st.fc) + st.b * st.fa * st.fc / (st.fb - st.fa) / (st.fb - st.fc) +
        st.e * st.fa * st.fb / (st.fc - st.fa) / (st.fc - st.fb)
    else st.b - st.fb * (st.b - st.a) / (st.fb - st.fa)
  let tmp := (3 * st.a + st.b) / 4
  if ¬ ((tmp < s ∧ s < st.b) ∨ (s < tmp ∧ st.b < s)) ∨ (st.mflag = true ∧ |st.b - st.e| * (1 / 2) ≤ |s - st.b|) ∨
      (st.mflag = false ∧ |st.e - st.f| * (1 / 2) ≤ |s - st.b|) ∨ (st.mflag = true ∧ |st.b - st.e| < tol) ∨ (st.mflag = false ∧ |st.e - st.f| < tol) then
    ((st.a + st.b) * (1 / 2), true)
  else (s, false)

/-- GeoPolyhedron_Imp.hpp 517-548: the rest of the body of the loop. `this` is the polyhedron, `vt` its volume. -/
def Brent.update (nrm : Vec3 K → K) (eps : K) (this : Polyhedron K) (id : Int) (n : Vec3 K) (req vt tol : K) (st : Brent K) : Brent K :=
  let (s, mflag) := st.next tol
  let r := this.clip nrm eps st.np id ⟨n, s⟩ tol
  let poly := r.2.calculateVolume nrm eps true
  let fs := poly.m_volume / vt - req
  let (a, fa, b, fb) := if st.fa * fs < 0 then (st.a, st.fa, s, fs) else (s, fs, st.b, st.fb)
  let (a, fa, b, fb) := if |fa| < |fb| then (b, fb, a, fa) else (a, fa, b, fb)
  ⟨a, b, st.b, st.e, fa, fb, st.fb, poly.m_volume, mflag, s, r.1, poly⟩

/-- GeoPolyhedron_Imp.hpp 483-549: the loop from iteration `i`, with `k` iterations to go; the second component is `nIterations`. -/
def Brent.loop (nrm : Vec3 K → K) (eps : K) (this : Polyhedron K) (id : Int) (n : Vec3 K) (req vt tol : K) : Nat → Nat → Brent K → Brent K × Nat
  | 0, i, st => (st, i)
  | k + 1, i, st =>
    if st.fb = 0 ∨ |st.fa - st.fb| ≤ tol then (st, i + 1)
    else Brent.loop nrm eps this id n req vt tol k (i + 1) (st.update nrm eps this id n req vt tol)

/-- What `clip` by volume fraction leaves: the result, `volumeFractionAct`, `nIterations`, the offset of the plane, `aNewPolygon`. -/
structure FractionResult (K : Type) where
  poly : Polyhedron K
  act : K
  iterations : Nat
  d : K
  np : Polygon K

/-- GeoPolyhedron_Imp.hpp 445-459: the smallest and the largest offset of a plane through a vertex. -/
def offsets (big : K) (n : Vec3 K) (p : Polyhedron K) : K × K :=
  ((p.polygons.entries.flatMap fun e => e.2.vs).foldl (fun ab v => (min ab.1 (v.dot n), max ab.2 (v.dot n))) (big, -big))

/-- GeoPolyhedron_Imp.hpp 416-554 `clip(aNewPolygon, aNewPolygonId, aPlane, volumeFractionReq, volumeFractionAct, nIterations, nMaxIterations,
aNormalizedTolerance, aTolerance)`. The argument `aNormalizedTolerance` is not used by the code. The cache of the volume that the call fills is not part of
the result. -/
def clipFraction (nrm : Vec3 K → K) (eps big : K) (np : Polygon K) (id : Int) (pl : GPlane K) (req : K) (nMax : Nat) (tol : K) (p : Polyhedron K) :
    FractionResult K :=
  if req ≤ 0 then ⟨empty, 0, 0, pl.d, np⟩
  else if 1 ≤ req then ⟨empty.addPolygons p.polygons.entries, 1, 0, pl.d, np⟩
  else
    let ab := p.offsets big pl.normal
    let vt := (p.calculateVolume nrm eps false).m_volume
    let r := Brent.loop nrm eps p id pl.normal req vt tol nMax 0
      ⟨ab.1, ab.2, ab.1, big, 0 - req, 1 - req, 0 - req, 0, true, pl.d, np, empty⟩
    ⟨r.1.poly, r.1.vs / vt, r.2, r.1.d, r.1.np⟩

/-- GeoPolyhedron_Imp.hpp 556-561 `cut(aNewPolyhedron, aNewPolygon, aNewPolygonId, aPlane, aTolerance)`: `aNewPolyhedron` and the value returned. -/
def cut (nrm : Vec3 K → K) (eps : K) (np : Polygon K) (id : Int) (pl : GPlane K) (tol : K) (p : Polyhedron K) : Polyhedron K × Polyhedron K :=
  let r := p.clip nrm eps np id pl tol
  (r.2, (p.clip nrm eps r.1 id pl tol).2)

end Polyhedron
end ENigMA
