import Verif.Pde.FvmHeatLimit
import Verif.Pde.FdmHeatExamples
import Verif.Mesh.BasicMesherLemmas

/-!
# C146, C147: cases that meet the hypotheses, and the sign of the example program
-/

set_option linter.unusedSectionVars false
set_option autoImplicit false

namespace ENigMA
open FvmOp FvmHeat Mesh BasicMesher
open FdmHeat (Sound Par anySolver anySolver_sound)
variable {K : Type} [Field K] [LinearOrder K] [IsStrictOrderedRing K]

namespace FvmHeat

/-- Three unit cubes in a row, their nodes in the order of `CMshBasicMesher` (trunk/src/mesh/MshBasicMesher_Imp.hpp:320-338), so that all faces are seen counterclockwise from inside. -/
def threeCubes : Mesh ℚ := build
  [⟨0, 0, 0⟩, ⟨0, 1, 0⟩, ⟨0, 1, 1⟩, ⟨0, 0, 1⟩, ⟨1, 0, 0⟩, ⟨1, 1, 0⟩, ⟨1, 1, 1⟩, ⟨1, 0, 1⟩,
   ⟨2, 0, 0⟩, ⟨2, 1, 0⟩, ⟨2, 1, 1⟩, ⟨2, 0, 1⟩, ⟨3, 0, 0⟩, ⟨3, 1, 0⟩, ⟨3, 1, 1⟩, ⟨3, 0, 1⟩]
  [⟨.hexahedron, [0, 1, 2, 3, 4, 5, 6, 7], []⟩, ⟨.hexahedron, [4, 5, 6, 7, 8, 9, 10, 11], []⟩, ⟨.hexahedron, [8, 9, 10, 11, 12, 13, 14, 15], []⟩]

/-- The same with the faces `generateFaces` makes. -/
def cubes : Mesh ℚ := (Mesh.generateFaces smallMachine threeCubes 0).getD threeCubes

theorem threeCubes_ok : threeCubes.WF ∧ threeCubes.elements.RoundTrip ∧ threeCubes.FullElements ∧ GoodFaces smallMachine threeCubes := by
  obtain ⟨h1, -, h3, -⟩ := build_ok (K := ℚ)
    [⟨0, 0, 0⟩, ⟨0, 1, 0⟩, ⟨0, 1, 1⟩, ⟨0, 0, 1⟩, ⟨1, 0, 0⟩, ⟨1, 1, 0⟩, ⟨1, 1, 1⟩, ⟨1, 0, 1⟩,
     ⟨2, 0, 0⟩, ⟨2, 1, 0⟩, ⟨2, 1, 1⟩, ⟨2, 0, 1⟩, ⟨3, 0, 0⟩, ⟨3, 1, 0⟩, ⟨3, 1, 1⟩, ⟨3, 0, 1⟩]
    [⟨.hexahedron, [0, 1, 2, 3, 4, 5, 6, 7], []⟩, ⟨.hexahedron, [4, 5, 6, 7, 8, 9, 10, 11], []⟩, ⟨.hexahedron, [8, 9, 10, 11, 12, 13, 14, 15], []⟩] (by decide)
  refine ⟨h1, h3, ?_, by norm_num [smallMachine], by norm_num [smallMachine], ?_, ?_⟩
  · have key : ∀ p ∈ threeCubes.elements.map.entries, p.2.elementType.nbNodes ≤ p.2.nodeIds.length := by decide +kernel
    intro id e h
    exact key (id, e) ((SMap.find?_eq_some_iff _ _ _).1 h)
  · have key : ∀ p ∈ threeCubes.nodes.map.entries, -1000 ≤ p.2.x ∧ p.2.x ≤ 1000 ∧ -1000 ≤ p.2.y ∧ p.2.y ≤ 1000 ∧ -1000 ≤ p.2.z ∧ p.2.z ≤ 1000 := by decide +kernel
    intro n v h
    have := key (n, v) ((SMap.find?_eq_some_iff _ _ _).1 h)
    simp only [Vec3.Bounded, smallMachine, abs_le]
    tauto
  · right; right
    refine ⟨threeCubes.expectedFaces[0]'(by decide +kernel), List.getElem_mem _, threeCubes.expectedFaces[1]'(by decide +kernel), List.getElem_mem _, ?_⟩
    decide +kernel

theorem cubes_eq : Mesh.generateFaces smallMachine threeCubes 0 = some cubes := by
  have : (Mesh.generateFaces smallMachine threeCubes 0).isSome = true := by decide +kernel
  obtain ⟨m, hm⟩ := Option.isSome_iff_exists.1 this
  simp [cubes, hm]

theorem cubes_regular : Regular cubes := by
  obtain ⟨h1, h2, h3, h4⟩ := threeCubes_ok
  refine C22_regular smallMachine threeCubes h1 h3 h4 h2 0 le_rfl _ cubes_eq ?_
  have key : ∀ p ∈ cubes.faces.map.entries, ∀ q ∈ cubes.faces.map.entries, p.2.nodeIds.Perm q.2.nodeIds → p.1 ≠ q.1 →
      p.2.hasPair = true ∧ p.2.pairFaceId = q.1 := by decide +kernel
  intro i j k f g h hi hj hk c1 c2 n1 n2
  have a := key (i, f) ((SMap.find?_eq_some_iff _ _ _).1 hi) (j, g) ((SMap.find?_eq_some_iff _ _ _).1 hj) c1.2 n1
  have b := key (i, f) ((SMap.find?_eq_some_iff _ _ _).1 hi) (k, h) ((SMap.find?_eq_some_iff _ _ _).1 hk) c2.2 n2
  exact a.2.symm.trans b.2

/-- The cubes with 0 fixed on the left end and 3 on the right end. -/
def cubesCtx : Ctx ℚ :=
  { mesh := cubes
    elementCentroid := cubes.elementCentroids.getD []
    faceCentroid := cubes.faceCentroids.getD []
    field := ((PdeField.new 1).addBCFace 0 (BoundaryCondition.empty.addCondition ctFixedValue 0)).addBCFace 13 (BoundaryCondition.empty.addCondition ctFixedValue 3)
    u := fun _ => 0 }

/-- The cubes, insulated. -/
def bareCtx : Ctx ℚ := { cubesCtx with field := PdeField.new 1 }

theorem cubes_cells : Cells l1 (1 / 1024) false cubesCtx := by
  have e1 : cubes.elementCentroids.isSome = true := by decide +kernel
  have e2 : cubes.faceCentroids.isSome = true := by decide +kernel
  obtain ⟨a, ha⟩ := Option.isSome_iff_exists.1 e1
  obtain ⟨b, hb⟩ := Option.isSome_iff_exists.1 e2
  refine ⟨cubes_regular, ?_, ?_, ?_, by decide +kernel, ?_, by decide +kernel⟩
  · show cubes.elementCentroids = some (cubes.elementCentroids.getD []); rw [ha]; rfl
  · show cubes.faceCentroids = some (cubes.faceCentroids.getD []); rw [hb]; rfl
  · have hc : cubesCtx.mesh.elements.count = 3 := by decide +kernel
    rw [hc]
    simp only [Bool.false_eq_true, if_false]
    decide +kernel
  · have key : ∀ p ∈ cubes.faces.map.entries, p.2.hasPair = true → areaOf l1 (1 / 1024) cubes p.2.pairFaceId = areaOf l1 (1 / 1024) cubes p.1 := by decide +kernel
    intro fid f hf
    exact key (fid, f) ((SMap.find?_eq_some_iff _ _ _).1 hf)

theorem bare_cells : Cells l1 (1 / 1024) false bareCtx := by
  obtain ⟨h1, h2, h3, h4, h5, h6, -⟩ := cubes_cells
  exact ⟨h1, h2, h3, h4, h5, h6, by decide +kernel⟩

theorem cubes_anchored : ∀ i < cubesCtx.mesh.elements.count, Anchored cubesCtx i := by
  have hc : cubesCtx.mesh.elements.count = 3 := by decide +kernel
  have a0 : Anchored cubesCtx 0 := .face 0 0 0 (by decide +kernel) (by decide +kernel)
  have a1 : Anchored cubesCtx 1 := .across 1 0 6 (by decide +kernel) (by decide +kernel) a0
  have a2 : Anchored cubesCtx 2 := .across 2 1 12 (by decide +kernel) (by decide +kernel) a1
  intro i hi
  rw [hc] at hi
  interval_cases i <;> assumption

/-- Temperatures at the start. -/
def cubesField (a b d : ℚ) : EqField ℚ := ⟨.fvm, .empty, .empty, ⟨3, fun i => if i = 0 then a else if i = 1 then b else d⟩⟩

/-- What flows into the insulated cubes. -/
theorem bare_net (x : Nat → ℚ) : net l1 (1 / 1024) bareCtx x 0 = x 1 - x 0 ∧ net l1 (1 / 1024) bareCtx x 1 = (x 0 - x 1) + (x 2 - x 1) ∧ net l1 (1 / 1024) bareCtx x 2 = x 1 - x 2 := by
  have f0 : facesAt bareCtx.mesh 0 = [0, 1, 2, 3, 4, 5] := by decide +kernel
  have f1 : facesAt bareCtx.mesh 1 = [6, 7, 8, 9, 10, 11] := by decide +kernel
  have f2 : facesAt bareCtx.mesh 2 = [12, 13, 14, 15, 16, 17] := by decide +kernel
  have hp : ∀ fid ∈ cubes.faces.ids, prescribed bareCtx fid = none := by decide +kernel
  have hids : cubes.faces.ids = [0, 1, 2, 3, 4, 5, 6, 7, 8, 9, 10, 11, 12, 13, 14, 15, 16, 17] := by decide +kernel
  have ha : ∀ fid ∈ cubes.faces.ids, acrossOf bareCtx fid = if fid = 1 then some 1 else if fid = 6 then some 0 else if fid = 7 then some 2 else if fid = 12 then some 1 else none := by
    decide +kernel
  have ht : ∀ fid ∈ cubes.faces.ids, (fid = 1 ∨ fid = 6 ∨ fid = 7 ∨ fid = 12) → areaOf l1 (1 / 1024) bareCtx.mesh fid / distOf l1 bareCtx fid = 1 := by decide +kernel
  have hflux : ∀ i, ∀ fid ∈ cubes.faces.ids, fluxInto l1 (1 / 1024) bareCtx x i fid =
      if fid = 1 then x 1 - x i else if fid = 6 then x 0 - x i else if fid = 7 then x 2 - x i else if fid = 12 then x 1 - x i else 0 := by
    intro i fid hf
    unfold fluxInto
    rw [ha fid hf]
    have hp := hp fid hf
    have ht := ht fid hf
    split_ifs with h1 h2 h3 h4
    · simp only; rw [ht (by simp [h1]), one_mul]; rfl
    · simp only; rw [ht (by simp [h2]), one_mul]; rfl
    · simp only; rw [ht (by simp [h3]), one_mul]; rfl
    · simp only; rw [ht (by simp [h4]), one_mul]; rfl
    · simp [hp]
  rw [hids] at hflux
  simp only [net, f0, f1, f2]
  clear ht
  generalize (1 / 1024 : ℚ) = e at hflux ⊢
  refine ⟨?_, ?_, ?_⟩ <;> · simp only [List.map_cons, List.map_nil]; simp [hflux]

end FvmHeat

/-- C146 on the cubes: 1/2, 3/2, 5/2, whatever solver is used. -/
example (solver : Sys ℚ → Nat → ℚ) (hS : Sound solver) : ∃ f', steady l1 (1 / 1024) solver (fun _ => 0) cubesCtx (cubesField 0 0 0) = some f' ∧
    f'.u.at' 0 = 1 / 2 ∧ f'.u.at' 1 = 3 / 2 ∧ f'.u.at' 2 = 5 / 2 := by
  obtain ⟨u, h1, -, -, h3⟩ := C146_steady l1 (1 / 1024) solver hS (fun _ => 0) cubesCtx false cubes_cells cubes_anchored (cubesField 0 0 0) rfl
  have hy : FvmHeat.Balanced l1 (1 / 1024) cubesCtx fun i => (i : ℚ) + 1 / 2 := by unfold FvmHeat.Balanced; decide +kernel
  have := h3 _ hy
  have hc : cubesCtx.mesh.elements.count = 3 := by decide +kernel
  rw [hc] at this
  exact ⟨_, h1, by rw [← this 0 (by norm_num)]; norm_num, by rw [← this 1 (by norm_num)]; norm_num, by rw [← this 2 (by norm_num)]; norm_num⟩

/-- The hypotheses of `C146_through` and `C146_bounds` are met there. -/
example (solver : Sys ℚ → Nat → ℚ) (hS : Sound solver) (f' : EqField ℚ) (h : steady l1 (1 / 1024) solver (fun _ => 0) cubesCtx (cubesField 0 0 0) = some f') :=
  And.intro (C146_bounds l1 (1 / 1024) solver hS (fun _ => 0) cubesCtx false cubes_cells cubes_anchored (cubesField 0 0 0) f' rfl h 0 3 (fun fid v hv => by
    have key : ∀ p ∈ cubes.faces.ids, ∀ v ∈ prescribed cubesCtx p, 0 ≤ v ∧ v ≤ 3 := by decide +kernel
    have hid : fid ∈ cubes.faces.ids := by
      simp only [prescribed, Option.bind_eq_bind] at hv
      obtain ⟨f, hf, -⟩ := Option.bind_eq_some_iff.1 hv
      exact (cubes_regular.wf.faces.2 fid).2 ⟨f, hf⟩
    exact key fid hid v hv))
  (C146_through l1 (fun v => by simp [l1]) (1 / 1024) solver hS (fun _ => 0) cubesCtx false cubes_cells cubes_anchored (cubesField 0 0 0) f' rfl h)

/-- The cells are orthogonal for the field `x`, their faces seen from inside. -/
example : ∀ i < cubesCtx.mesh.elements.count, Orthogonal l1 (1 / 1024) cubesCtx 0 ⟨1, 0, 0⟩ (-1) i := by
  have hc : cubesCtx.mesh.elements.count = 3 := by decide +kernel
  have h1 : ∀ i < 3, ∀ fid ∈ facesAt cubes i, ∃ m ∈ ([⟨1, 0, 0⟩, ⟨0, 1, 0⟩, ⟨0, 0, 1⟩] : List (Vec3 ℚ)), ∃ d ∈ ([0, 1, 2, 3] : List ℚ), ∀ v ∈ cornersOf cubes fid, m.dot v = d := by decide +kernel
  have h2 : ∀ i < 3, ∀ fid ∈ facesAt cubes i, (match cornersOf cubes fid with
      | a :: b :: c :: _ => decide (1 / 1024 < l1 (Vec3.cross (b - a) (c - a)))
      | _ => false) = true := by decide +kernel
  have h3 : ∀ i < 3, Polyhedron.ClosedSurface ((facesAt cubes i).map (cornersOf cubes)) := by unfold Polyhedron.ClosedSurface; decide +kernel
  have h4 : ∀ i < 3, ∀ fid ∈ facesAt cubes i, ∀ j ∈ acrossOf cubesCtx fid, ∀ id ∈ cubes.elements.idAt? i, ∀ id' ∈ cubes.elements.idAt? j.toNat,
      ∀ p ∈ cubesCtx.elCentroid id, ∀ q ∈ cubesCtx.elCentroid id', q - p = (-1 * (1 / 2) : ℚ) • vecArea2 (cornersOf cubes fid) := by decide +kernel
  have h5 : ∀ i < 3, ∀ fid ∈ facesAt cubes i, ∀ v ∈ prescribed cubesCtx fid, ∀ id ∈ cubes.elements.idAt? i,
      ∀ p ∈ cubesCtx.elCentroid id, ∀ q ∈ cubesCtx.fcCentroid fid, v = 0 + (⟨1, 0, 0⟩ : Vec3 ℚ).dot q ∧ q - p = (-1 * (1 / 4) : ℚ) • vecArea2 (cornersOf cubes fid) := by decide +kernel
  have h6 : ∀ i < 3, ∀ fid ∈ facesAt cubes i, acrossOf cubesCtx fid = none → prescribed cubesCtx fid = none → (⟨1, 0, 0⟩ : Vec3 ℚ).dot (vecArea2 (cornersOf cubes fid)) = 0 := by decide +kernel
  intro i hi
  rw [hc] at hi
  refine ⟨Or.inr rfl, fun fid hf => ?_, h3 i hi, fun fid hf j id id' p q a1 a2 a3 a4 a5 => ⟨1 / 2, by norm_num, h4 i hi fid hf j a1 id a2 id' a3 p a4 q a5⟩,
    fun fid hf v id p q a1 a2 a3 a4 => ?_, h6 i hi⟩
  · obtain ⟨m, hm, d, -, h⟩ := h1 i hi fid hf
    have h2 := h2 i hi fid hf
    refine ⟨⟨m, d, ?_, h⟩, ?_⟩
    · rintro rfl; revert hm; decide +kernel
    · show HasCorner _ _ (cornersOf cubes fid)
      match hc : cornersOf cubes fid, h2 with
      | a :: b :: c :: r, h2 => exact ⟨[], a, b, c, r, rfl, of_decide_eq_true h2⟩
  · obtain ⟨b1, b2⟩ := h5 i hi fid hf v a1 id a2 p a3 q a4
    exact ⟨b1, 1 / 4, by norm_num, b2⟩

/-- C147: the hypotheses of a step are met; the middle cell starts from its own temperature, the outer ones from those fixed on their faces. -/
example (solver : Sys ℚ → Nat → ℚ) (hS : Sound solver) : (∃ u, step l1 (1 / 1024) solver (fun _ => 0) cubesCtx false ⟨1, 1, 1 / 100⟩ (cubesField 1 1 1) = some { cubesField 1 1 1 with u := u }) ∧
    (∀ fid ∈ facesAt cubes 1, fixedValue cubesCtx.field fid = none) ∧ start cubesCtx (fun _ => 1) 0 = 0 ∧ start cubesCtx (fun _ => 1) 1 = 1 ∧ start cubesCtx (fun _ => 1) 2 = 3 := by
  obtain ⟨u, h, -⟩ := C147_step_partial l1 (1 / 1024) solver hS (fun _ => 0) cubesCtx false cubes_cells ⟨1, 1, 1 / 100⟩ (by norm_num) (by norm_num) (by norm_num) (cubesField 1 1 1) rfl
  exact ⟨⟨u, h⟩, by decide +kernel, by decide +kernel, by decide +kernel, by decide +kernel⟩

/-- The steady temperatures are not kept by a step. -/
example (solver : Sys ℚ → Nat → ℚ) (hS : Sound solver) (f' : EqField ℚ)
    (h : step l1 (1 / 1024) solver (fun _ => 0) cubesCtx false ⟨1, 1, 1 / 100⟩ (cubesField (1 / 2) (3 / 2) (5 / 2)) = some f') :
    ¬ ∀ i < cubesCtx.mesh.elements.count, f'.u.at' i = (cubesField (1 / 2) (3 / 2) (5 / 2)).u.at' i := by
  intro hk
  have := (C147_not_steady l1 (1 / 1024) solver hS (fun _ => 0) cubesCtx false cubes_cells ⟨1, 1, 1 / 100⟩ (by norm_num) (by norm_num) (by norm_num) (cubesField (1 / 2) (3 / 2) (5 / 2)) _ rfl
    (by unfold FvmHeat.Balanced; decide +kernel) h).1 hk 0 (by decide +kernel) 0 (by decide +kernel)
  revert this
  decide +kernel

/-- Insulated cubes meet the hypotheses of `C147_insulated`. -/
example (solver : Sys ℚ → Nat → ℚ) (hS : Sound solver) (n : Nat) := C147_insulated l1 (fun v => by simp [l1]) (1 / 1024) solver hS (fun _ => 0) bareCtx false bare_cells ⟨1, 1, 1 / 100⟩
  (by norm_num) (by norm_num) (by norm_num) (fun fid => by rfl) (cubesField 1 0 0) rfl n

/-- C147, where it fails: with the other sign the system is that of a negative conductivity, so that heat flows from cold to warm; whatever solution it has is taken. -/
theorem C147_wrong_sign (nrm : Vec3 K → K) (eps : K) (solver : Sys K → Nat → K) (hS : Sound solver) (junk : Nat → K) (c : Ctx K) (out : Bool) (g : Cells nrm eps out c)
    (P : Par K) (f : EqField K) (hf : Plain f) (y : Nat → K) (hy : Stored nrm eps c { P with k := -P.k } (start c f.u.at') y) :
    ∃ u : EVec K, step nrm eps solver junk c (!out) P f = some { f with u := u } ∧ u.size = c.mesh.elements.count ∧
      Stored nrm eps c { P with k := -P.k } (start c f.u.at') u.at' := by
  obtain ⟨s, e1, hn, hk, -, hst⟩ := step_sys solver junk g (!out) P f
  have hsg : sgn (!out) * sgn out = (-1 : K) := by cases out <;> simp [sgn]
  simp only [hsg, neg_one_mul] at hst
  rw [e1, FdmHeat.assignZero]
  obtain ⟨u, h1, h2, h3⟩ := Equation.solve_plain solver junk s f (by rw [hk]; simp) (plain_ok hf _)
  refine ⟨u, h1, h2.trans hn, ?_⟩
  have : u.at' = solver s := funext fun i => by rw [h3 i, plain_none hf]; rfl
  rw [this]
  exact (hst _).1 (hS s ⟨y, (hst y).2 hy⟩)

/-- C147, where it fails: the program of trunk/examples/heat1d/MainWindow.cpp:608 (with `- k * laplacian(T)`) on insulated cubes with the numbering of `CMshBasicMesher`: the temperatures -1, 0, 1 do not even out; after
`n` steps they are -tⁿ, 0, tⁿ with t = s / (s - k) > 1, where s = rho Cp / dt. The program of trunk/examples/fvmheat/main.cpp:239 (with `+`) is the one these cubes need (`C147_bounds`). -/
theorem C147_numbering (solver : Sys ℚ → Nat → ℚ) (hS : Sound solver) (junk : Nat → ℚ) (P : Par ℚ) (hrc : 0 < P.rc) (hdt : 0 < P.dt) (hk : 0 < P.k)
    (hs : P.k < P.rc / P.dt) (hs3 : P.rc / P.dt ≠ 3 * P.k) (n : Nat) :
    1 < P.rc / P.dt / (P.rc / P.dt - P.k) ∧ ∃ f', steps l1 (1 / 1024) solver junk bareCtx true P n (cubesField (-1) 0 1) = some f' ∧
      f'.u.at' 0 = -(P.rc / P.dt / (P.rc / P.dt - P.k)) ^ n ∧ f'.u.at' 1 = 0 ∧ f'.u.at' 2 = (P.rc / P.dt / (P.rc / P.dt - P.k)) ^ n := by
  set s := P.rc / P.dt with hsd
  have hd : 0 < s - P.k := by linarith
  set t := s / (s - P.k) with ht
  have hte : s * (t - 1) = P.k * t := by rw [ht]; field_simp; ring
  refine ⟨by rw [ht, lt_div_iff₀ hd]; linarith, ?_⟩
  have hc : bareCtx.mesh.elements.count = 3 := by decide +kernel
  have hV : ∀ i < 3, |volumeOf l1 (1 / 1024) bareCtx.mesh i| = 1 := by decide +kernel
  have hstart : ∀ u i, start bareCtx u i = u i := fun u i => by
    have : (facesAt bareCtx.mesh i).findSome? (fixedValue bareCtx.field) = none := List.findSome?_eq_none_iff.2 fun _ _ => rfl
    simp [start, this]
  have hst : ∀ o x, Stored l1 (1 / 1024) bareCtx { P with k := -P.k } (start bareCtx o) x ↔
      s * (x 0 - o 0) = -P.k * (x 1 - x 0) ∧ s * (x 1 - o 1) = -P.k * ((x 0 - x 1) + (x 2 - x 1)) ∧ s * (x 2 - o 2) = -P.k * (x 1 - x 2) := by
    intro o x
    obtain ⟨n0, n1, n2⟩ := bare_net x
    have e : ∀ i, P.rc * 1 * (x i - o i) / P.dt = s * (x i - o i) := fun i => by rw [hsd]; ring
    constructor
    · intro h
      have h0 := h 0 (by rw [hc]; norm_num)
      have h1 := h 1 (by rw [hc]; norm_num)
      have h2 := h 2 (by rw [hc]; norm_num)
      rw [hV _ (by norm_num), hstart, e] at h0 h1 h2
      exact ⟨h0.trans (by rw [← n0]; rfl), h1.trans (by rw [← n1]; rfl), h2.trans (by rw [← n2]; rfl)⟩
    · rintro ⟨h0, h1, h2⟩ i hi
      rw [hc] at hi
      rw [hV i hi, hstart, e]
      interval_cases i
      · exact h0.trans (by rw [← n0]; rfl)
      · exact h1.trans (by rw [← n1]; rfl)
      · exact h2.trans (by rw [← n2]; rfl)
  obtain ⟨f', h1, -, h2⟩ := steps_inv l1 (1 / 1024) solver junk bareCtx true P
    (fun n f => Plain f ∧ f.u.at' 0 = -t ^ n ∧ f.u.at' 1 = 0 ∧ f.u.at' 2 = t ^ n) (by
      rintro n f ⟨hf, a0, a1, a2⟩
      obtain ⟨u, b1, -, b2⟩ := C147_wrong_sign l1 (1 / 1024) solver hS junk bareCtx false bare_cells P f hf (fun i => t * f.u.at' i)
        ((hst _ _).2 ⟨by rw [a0, a1]; linear_combination -t ^ n * hte, by rw [a0, a1, a2]; ring, by rw [a1, a2]; linear_combination t ^ n * hte⟩)
      obtain ⟨c0, c1, c2⟩ := (hst _ _).1 b2
      rw [a0] at c0
      rw [a1] at c1
      rw [a2] at c2
      have hs0 : s ≠ 0 := (by linarith : (0 : ℚ) < s).ne'
      have hsum : u.at' 0 + u.at' 1 + u.at' 2 = 0 := by
        refine (mul_eq_zero.1 (?_ : s * (u.at' 0 + u.at' 1 + u.at' 2) = 0)).resolve_left hs0
        linear_combination c0 + c1 + c2
      have hmid : u.at' 1 = 0 := by
        refine (mul_eq_zero.1 (?_ : (s - 3 * P.k) * u.at' 1 = 0)).resolve_left (sub_ne_zero.2 hs3)
        linear_combination c1 - P.k * hsum
      have hend : u.at' 2 = t ^ (n + 1) := by
        rw [hmid] at c2
        have : (s - P.k) * u.at' 2 = (s - P.k) * t ^ (n + 1) := by
          rw [pow_succ]
          linear_combination c2 - t ^ n * hte
        exact mul_left_cancel₀ hd.ne' this
      refine ⟨_, b1, hf, ?_, hmid, hend⟩
      show u.at' 0 = _
      rw [← hend]
      linear_combination hsum - hmid) n (cubesField (-1) 0 1) ⟨rfl, by norm_num [cubesField], by norm_num [cubesField], by norm_num [cubesField]⟩
  exact ⟨f', h1, h2⟩

/-- With the numbers of the program, t = 100 / 99. -/
example (solver : Sys ℚ → Nat → ℚ) (hS : Sound solver) (n : Nat) := C147_numbering solver hS (fun _ => 0) ⟨1, 1, 1 / 100⟩ (by norm_num) (by norm_num) (by norm_num) (by norm_num) (by norm_num) n

/-- The limit exists for the cubes with fixed ends. -/
example (solver : Sys ℚ → Nat → ℚ) (hS : Sound solver) := C147_limit_partial l1 (1 / 1024) solver hS (fun _ => 0) cubesCtx false cubes_cells cubes_anchored ⟨1, 1, 1 / 100⟩
  (by norm_num) (by norm_num) (by norm_num)

end ENigMA
