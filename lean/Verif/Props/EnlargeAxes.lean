import Verif.Props.EnlargeAngles
import Verif.Props.InPlaneDemo

/-! # C114 in reciprocal lattice units: the resolution of the enlarged experiment is the same -/

namespace Tavi

open Matrix Real
open Spec (IsRot IsOrth PossibleCell len hklOf enOf qform)

theorem crystal_enlarged {g : ℝ} (hg : 0 < g) (n q d : V3) : Spec.crystalCoords n (g⁻¹ • q) (g⁻¹ • d) = g⁻¹ • Spec.crystalCoords n q d := by
  have hgi : 0 < g⁻¹ := inv_pos.2 hg
  have hl : len (g⁻¹ • q) = g⁻¹ * len q := by
    rw [← norm3_eq_len, ← norm3_eq_len, norm3_smul, abs_of_pos hgi]
  have hu : (len (g⁻¹ • q))⁻¹ • (g⁻¹ • q) = (len q)⁻¹ • q := by
    rw [hl, smul_smul, mul_inv, inv_inv]
    congr 1
    field_simp
  unfold Spec.crystalCoords
  rw [hu]
  apply ext3 <;> simp [smul_dotProduct] <;> ring

/-- **C114** In reciprocal lattice units the resolution of the enlarged experiment is that of the original, in any axes, but for the unit of energy: for
reflections in the scattering plane (tables without bisecting mode, outside gimbal lock). -/
theorem C114_axes {g : ℝ} (hg : 0 < g) {t t' : Tas} (hs : Spec.Enlarged g t t') (hc : PossibleCell t.sample.latt) {hkl : V3} {ei ef : ℝ}
    {c c' : UBConf} {ub : M3} {n : V3} {ax ax' : Fin 4 → AxisItem} {e e' : Ellipsoid} (hmode : t.goni.mode = .ok none)
    (hcons : Spec.Consistent t.sample c ub) (hcons' : Spec.Consistent t'.sample c' (g⁻¹ • ub)) (hpn : c.planeNormal = some n)
    (hpn' : c'.planeNormal = some n) (hn : len n = 1) (hin : n ⬝ᵥ (ub *ᵥ hkl) = 0)
    (h : t.resoAt (some (List.ofFn ax)) (hkl, ei, ef) = .ok e)
    (h' : t'.resoAt (some (List.ofFn ax')) (hkl, ei / g ^ 2, ef / g ^ 2) = .ok e')
    (hl : ∀ a x, t.motorAngles hkl (ei - ef) = .ok a → a.sgl = some x → |x| ≠ 90) :
    ∀ x x', hklOf ax' x' = hklOf ax x → enOf ax' x' = enOf ax x / g ^ 2 → qform e'.mat x' = qform e.mat x := by
  intro x x' hx hw
  have hgo : t'.goni = t.goni := by rw [hs.same]
  unfold Tas.resoAt at h h'
  obtain ⟨⟨m, r0⟩, hm, h⟩ := py_bind_eq_ok.1 h
  obtain ⟨⟨m', r0'⟩, hm', h'⟩ := py_bind_eq_ok.1 h'
  dsimp only at hm hm' h h'
  obtain ⟨hf, -⟩ := C114_enlarged hg hs hc hm hm'
  rw [← sub_div] at h'
  obtain ⟨a, -, -, -, -, -, -, ha, -⟩ := C27_same_form h
  have hl' : ∀ a x, t'.motorAngles hkl ((ei - ef) / g ^ 2) = .ok a → a.sgl = some x → |x| ≠ 90 := by
    intro a' x ha' hx
    rw [C114_angles hg hs hc hmode hcons hcons' hpn hpn' hn hin ha ha'] at hx
    exact hl a x ha hx
  have hin' : n ⬝ᵥ ((g⁻¹ • ub) *ᵥ hkl) = 0 := by rw [smul_mulVec, dotProduct_smul, hin, smul_zero]
  have hg0 := hg.ne'
  rw [C27_in_plane h hmode hcons hpn hn hin hl x, C27_in_plane h' (by rw [hgo]; exact hmode) hcons' hpn' hn hin' hl' x', hf, hx, hw,
    smul_mulVec, smul_mulVec, smul_comm (2 * π) g⁻¹, crystal_enlarged hg]
  congr 1
  funext i
  fin_cases i <;> simp <;> field_simp

namespace Demo

theorem enlarged_recip : reciprocalSpaceVectors (Spec.enlargedCell 2 cube) = .ok (![π, 0, 0], ![0, π, 0], ![0, 0, π]) := by
  have hv : vAbg 90 90 90 = .ok 1 := by
    unfold vAbg pySqrt
    rw [rad90, Real.cos_pi_div_two]
    norm_num
  have hs : realSpaceVectors (Spec.enlargedCell 2 cube) = .ok (![2, 0, 0], ![0, 2, 0], ![0, 0, 2]) := by
    unfold realSpaceVectors
    simp only [Spec.enlargedCell, cube, hv, py_bind_ok, rad90, Real.cos_pi_div_two, Real.sin_pi_div_two]
    simp [pyDiv]
  unfold reciprocalSpaceVectors
  rw [hs]
  simp only [Spec.enlargedCell, cube, hv, py_bind_ok, mul_one]
  simp [pyDiv, cross]
  ring_nf
/-- C114: the resolution at (1,0,0) in reciprocal lattice units, and that of the enlarged experiment. -/
example : ∃ e e', (tas "Y,-Z,X" "-").resoAt (some hklAxes) (![1, 0, 0], ksq2eng * (2 * π) ^ 2, ksq2eng * (2 * π) ^ 2) = .ok e ∧
    enlarged.resoAt (some hklAxes) (![1, 0, 0], ksq2eng * (2 * π) ^ 2 / 2 ^ 2, ksq2eng * (2 * π) ^ 2 / 2 ^ 2) = .ok e' ∧
    ∀ h k l w, qform e'.mat ![h, k, l, w / 2 ^ 2] = qform e.mat ![h, k, l, w] := by
  have hpi := Real.pi_pos
  obtain ⟨e, he, hl⟩ := reso_in_plane (hkl := ![1, 0, 0]) (t := tas "Y,-Z,X" "-") rfl (consistent _ _) known rfl (by simp) len100
  obtain ⟨-, -, M', r0', -, h', -⟩ := enlarged_case
  obtain ⟨a', ha'⟩ := enlarged_reach
  have ha0 : enlarged.motorAngles ![1, 0, 0] (ksq2eng * (2 * π) ^ 2 / 2 ^ 2 - ksq2eng * (2 * π) ^ 2 / 2 ^ 2) = .ok a' := by rw [sub_self]; exact ha'
  obtain ⟨e', he'⟩ := C27_defined (t := enlarged) (m := M') (r0 := r0') (p1 := ![1, 0, 0]) (p2 := ![0, 1, 0]) (p3 := ![0, 0, 1]) (n := 3)
    (ax := hklAxes) (enlarged_possible two_pos cube_possible) ha0 rfl (by simp [hklAxes, enIndex, List.findIdx_cons]) enlarged_recip
    (by
      rw [inSpace_triple]
      simp only [dot3, cross]
      simp
      have := Real.two_le_pi
      nlinarith [mul_pos hpi hpi, mul_pos (mul_pos hpi hpi) hpi])
  have hr : enlarged.resoAt (some hklAxes) (![1, 0, 0], ksq2eng * (2 * π) ^ 2 / 2 ^ 2, ksq2eng * (2 * π) ^ 2 / 2 ^ 2) = .ok e' := by
    unfold Tas.resoAt
    dsimp only
    rw [h', py_bind_ok]
    exact he'
  refine ⟨e, e', he, hr, fun h k l w => ?_⟩
  refine C114_axes (c' := conf') (ax := ![.vec ![1, 0, 0], .vec ![0, 1, 0], .vec ![0, 0, 1], .name "en".toList])
    (ax' := ![.vec ![1, 0, 0], .vec ![0, 1, 0], .vec ![0, 0, 1], .name "en".toList]) two_pos enlarged_is cube_possible (huberMode' _) (consistent _ _)
    (by rw [← one_div]; exact consistent') rfl rfl (by simp [Spec.len]) (by simp) he hr hl _ _ ?_ ?_
  · apply ext3 <;> simp [hklOf, Fin.sum_univ_four]
  · simp [enOf, Fin.sum_univ_four]

end Demo

end Tavi
