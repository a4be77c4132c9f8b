import Verif.Pde.FemPlateBounds
import Verif.Pde.FemHeatTimeLimit
import Verif.Pde.FemHeatExamples

/-!
# C161: plates in time settle to the steady plate
-/

set_option linter.unusedSectionVars false
set_option autoImplicit false

namespace ENigMA
open Matrix FemOp FemThermalOp Fem FemHeat FdmHeat BasicMesher FemPlate
variable {K : Type} [Field K] [LinearOrder K] [IsStrictOrderedRing K]

namespace FemPlate

section
variable {nrm : Vec3 K → K} (hn : IsNorm nrm) (q : Quad K) (nu nv : Nat) (hu : 0 < nu) (hv : 0 < nv)

include hn hu hv in
theorem grid_good (hq : Vec3.cross (q.v1 - q.v0) (q.v3 - q.v0) ≠ 0) : Good nrm (generateQuad nrm q nu nv true).mesh := by
  obtain ⟨hwf, hrt, -, hids, heids, -⟩ := C30_nodes hn q nu nv hu hv true
  refine ⟨hwf, hrt, grid_simplex hn q nu nv hu hv hq, ?_, fun x hx => ?_⟩
  · have hc : (generateQuad nrm q nu nv true).mesh.elements.count = nu * nv * if true then 2 else 1 := by
      show (generateQuad nrm q nu nv true).mesh.elements.ids.length = _
      rw [heids]; simp [Mesh.iota]
    unfold Contiguous
    rw [hc, heids]; rfl
  · rw [hids] at hx
    obtain ⟨i, hi⟩ := List.mem_iff_getElem?.1 hx
    obtain ⟨h1, rfl⟩ := (iota_at _ _ _).1 hi
    rw [grid_count hn q nu nv hu hv]; omega

include hn hu hv in
theorem grid_covered : Covered (generateQuad nrm q nu nv true).mesh := fun x hx => by
  obtain ⟨k, hk⟩ := List.mem_iff_getElem?.1 hx
  obtain ⟨i, j, hi, hj, -, rfl⟩ := (grid_index hn q nu nv hu hv k x).1 hk
  rcases Nat.lt_or_ge i nu with h | h
  · rcases Nat.lt_or_ge j nv with h' | h'
    · exact ⟨_, _, (C30_elements (nrm := nrm) q nu nv i j h h').2.1, by simp⟩
    · obtain ⟨j, rfl⟩ : ∃ j', j = j' + 1 := ⟨j - 1, by omega⟩
      exact ⟨_, _, (C30_elements (nrm := nrm) q nu nv i j h (by omega)).2.2, by simp⟩
  · obtain ⟨i, rfl⟩ : ∃ i', i = i' + 1 := ⟨i - 1, by omega⟩
    rcases Nat.lt_or_ge j nv with h' | h'
    · exact ⟨_, _, (C30_elements (nrm := nrm) q nu nv i j (by omega) h').2.1, by simp⟩
    · obtain ⟨j, rfl⟩ : ∃ j', j = j' + 1 := ⟨j - 1, by omega⟩
      exact ⟨_, _, (C30_elements (nrm := nrm) q nu nv i j (by omega) (by omega)).2.2, by simp⟩

end
end FemPlate

/-- **C161, plates in time.** In every parallelogram, divided into triangles by the mesher in any way, with at least one prescribed node: from whatever initial temperatures, with time steps of any length and
any material, the temperatures tend to those of the steady program at every node; the squares of the differences fall like the powers of a number below one, which depends on neither the initial temperatures nor the node. -/
theorem C161_settles {nrm : Vec3 K → K} (hn : IsNorm nrm) (r : K) (solver : Sys K → Nat → K) (hS : Sound solver) (junk junk' : Nat → K) (q : Quad K)
    (hq : Vec3.cross (q.v1 - q.v0) (q.v3 - q.v0) ≠ 0) (nu nv : Nat) (hu : 0 < nu) (hv : 0 < nv) (pf : PdeField K) (hno : NoConditions pf (generateQuad nrm q nu nv true).mesh)
    (P : Par K) (hrc : 0 < P.rc) (hdt : 0 < P.dt) (hk : 0 < P.k) (fixed : SMap Int K) (hf : IndicesOk fixed ((nu + 1) * (nv + 1))) (hone : ∃ i v, fixed.find? i = some v) :
    ∃ p, 0 ≤ p ∧ p < 1 ∧ ∀ f : EqField K, f.method = .fem → f.uFixed = fixed →
      ∃ fs, steady nrm r solver junk junk' (generateQuad nrm q nu nv true).mesh pf f = some fs ∧ ∀ k < (nu + 1) * (nv + 1), ∃ C, ∀ n,
        ∃ f', steps nrm r solver junk junk' (generateQuad nrm q nu nv true).mesh pf P n f = some f' ∧ (f'.u.at' k - fs.u.at' k) * (f'.u.at' k - fs.u.at' k) ≤ C * p ^ n := by
  have hids := (C30_nodes hn q nu nv hu hv true).2.2.2.1
  have hcnt := grid_count hn q nu nv hu hv
  have hidx : ∀ k x, (generateQuad nrm q nu nv true).mesh.nodes.idAt? k = some x ↔ k < (nu + 1) * (nv + 1) ∧ x = k := fun k x => by
    show (generateQuad nrm q nu nv true).mesh.nodes.ids[k]? = _ ↔ _
    rw [hids, iota_at]
  have hanch : ∀ x ∈ (generateQuad nrm q nu nv true).mesh.nodes.ids, Anchored (generateQuad nrm q nu nv true).mesh ⟨.fem, fixed, .empty, ⟨0, fun _ => 0⟩⟩ x := fun x hx => by
    obtain ⟨k, v, hkv⟩ := hone
    obtain ⟨hk0, hk1⟩ := hf k v hkv
    obtain ⟨k, rfl⟩ := Int.eq_ofNat_of_zero_le hk0
    have hka := (hidx k k).2 ⟨by omega, rfl⟩
    obtain ⟨a, b, ha, hb, hab, hab'⟩ := (grid_index hn q nu nv hu hv k k).1 hka
    obtain ⟨k', hk'⟩ := List.mem_iff_getElem?.1 hx
    obtain ⟨i, j, hi, hj, -, rfl⟩ := (grid_index hn q nu nv hu hv k' x).1 hk'
    refine grid_anchored q nu nv _ a b ha hb ?_ i j hi hj hu hv
    rw [← hab']
    exact .fixed k _ v hka hkv
  obtain ⟨p, p0, p1, h⟩ := C145_limit hn r solver hS junk junk' _ (grid_good hn q nu nv hu hv hq) (grid_covered hn q nu nv hu hv) pf hno P hrc hdt hk ⟨.fem, fixed, .empty, ⟨0, fun _ => 0⟩⟩
    (by rw [hcnt]; exact hf) hanch
  refine ⟨p, p0, p1, fun f hm hfix => ?_⟩
  obtain ⟨fs, h1, h2⟩ := h f hm hfix
  refine ⟨fs, h1, fun k hk' => ?_⟩
  obtain ⟨C, hC⟩ := h2 (k : Int) (List.mem_of_getElem? ((hidx k k).2 ⟨hk', rfl⟩))
  refine ⟨C, fun n => ?_⟩
  obtain ⟨f', h3, h4⟩ := hC n
  refine ⟨f', h3, ?_⟩
  have := h4 (fun x => fs.u.at' x.toNat) (fun x => f'.u.at' x.toNat) (fun k x hx => by obtain ⟨-, rfl⟩ := (hidx k x).1 hx; rfl) (fun k x hx => by obtain ⟨-, rfl⟩ := (hidx k x).1 hx; rfl)
  simpa using this

/-- A slanted plate with one corner kept at seven. -/
noncomputable example (r : ℝ) := C161_settles isNorm_real r anySolver anySolver_sound (fun _ => 0) (fun _ => 0) slanted
  (fun h => by have := congrArg Vec3.z h; norm_num [slanted, Vec3.cross] at this) 12 5 (by norm_num) (by norm_num) plain (plain_ok _) ⟨1, 1, 1 / 100⟩ (by norm_num) (by norm_num) (by norm_num)
  (SMap.empty.insert 0 7) (fun i v h => by
    simp only [SMap.find?_insert, SMap.find?_empty] at h
    split_ifs at h
    omega) ⟨0, 7, by simp [SMap.find?_insert]⟩

end ENigMA
