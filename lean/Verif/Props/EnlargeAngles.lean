import Verif.Props.EnlargeDemo

/-! # C114 for the motors: the enlarged experiment is done at the same angles -/

namespace Tavi

open Matrix Real
open Spec (IsRot IsOrth PossibleCell len metric)

/-- Two rotations that agree on two perpendicular vectors are the same. -/
theorem rot_unique {R R' : M3} (h : IsRot R) (h' : IsRot R') {u n : V3} (hu : u ≠ 0) (hn : n ≠ 0) (hp : n ⬝ᵥ u = 0)
    (e1 : R' *ᵥ u = R *ᵥ u) (e2 : R' *ᵥ n = R *ᵥ n) : R' = R := by
  have e3 : R' *ᵥ cross n u = R *ᵥ cross n u := by rw [← cross_mulVec_rot h', ← cross_mulVec_rot h, e1, e2]
  have hd : (colMat n u (cross n u)).det ≠ 0 := by
    rw [colMat_det, ← norm3_mul_self, norm3_cross_of_perp hp]
    have := norm3_pos hu
    have := norm3_pos hn
    positivity
  have e : R' * colMat n u (cross n u) = R * colMat n u (cross n u) := by rw [mul_colMat, mul_colMat, e1, e2, e3]
  calc R' = R' * colMat n u (cross n u) * (colMat n u (cross n u))⁻¹ := by
        rw [Matrix.mul_assoc, mul_nonsing_inv _ (isUnit_iff_ne_zero.2 hd), Matrix.mul_one]
    _ = R := by rw [e, Matrix.mul_assoc, mul_nonsing_inv _ (isUnit_iff_ne_zero.2 hd), Matrix.mul_one]

/-- The rotation of an in-plane reflection: it carries Q onto the momentum transfer of the neutrons and the normal onto the vertical. -/
theorem in_plane_rotation {t : Tas} {hkl : V3} {en : ℝ} {a : MotorAngles} {c : UBConf} {ub : M3} {n : V3} (ha : t.motorAngles hkl en = .ok a)
    (hmode : t.goni.mode = .ok none) (hcons : Spec.Consistent t.sample c ub) (hpn : c.planeNormal = some n) (hn : len n = 1)
    (hin : n ⬝ᵥ (ub *ᵥ hkl) = 0) :
    ∃ R tt psi, t.getTwoTheta hkl en = .ok tt ∧ t.getPsi hkl en = .ok psi ∧ IsRot R ∧ ub *ᵥ hkl ≠ 0 ∧ R *ᵥ n = ![0, 1, 0] ∧
      R *ᵥ (ub *ᵥ hkl) = len (ub *ᵥ hkl) • ![Real.sin (deg2rad psi), 0, Real.cos (deg2rad psi)] ∧ t.goni.anglesFromRMat R tt = .ok a := by
  have hpi := Real.pi_pos
  obtain ⟨k1, k2, k3, b, kb, kG⟩ := hcons
  obtain ⟨tt, psi, ei, ef, c2, htt, hpsi, he, hc2, _, hcase⟩ := motorAngles_cases ha
  rw [k1] at hc2; cases hc2
  rw [hmode] at hcase
  rcases hcase with ⟨_, r, hr, hra⟩ | ⟨hx, _⟩
  swap
  · cases hx
  obtain ⟨ki, kf, hki, hkf, kip, kfp, Qp, _, hqq, e1, e2, _⟩ := C13_q_lab kb he htt hpsi
  rw [e1, e2] at hqq
  have hQe : qNormFromHkl hkl b = 2 * π * len (ub *ᵥ hkl) := by
    rw [qLab_norm_eq, gram_norm kG, norm3_eq_len]
  have hne : ub *ᵥ hkl ≠ 0 := by
    intro h0
    rw [hQe, h0] at Qp
    simp [Spec.len] at Qp
  have hlen := len_polar (qNormFromHkl hkl b) (deg2rad psi) Qp.le
  rw [hQe] at hlen hqq
  obtain ⟨Rm, hRm, hRr, hmap, hup, _⟩ := C12_minimal_tilt_partial k2 hpn hn hqq hlen hne (.inl hin)
  rw [hr] at hRm; cases hRm
  refine ⟨r, tt, psi, htt, hpsi, hRr, hne, hup hin, ?_, hra⟩
  have h2 : (2 * π) ≠ 0 := by positivity
  have : (2 * π) • (r *ᵥ (ub *ᵥ hkl)) = (2 * π) • (len (ub *ᵥ hkl) • ![Real.sin (deg2rad psi), 0, Real.cos (deg2rad psi)]) := by
    rw [hmap]
    apply ext3 <;> simp <;> ring
  exact smul_right_injective _ h2 this

/-- **C114** The enlarged experiment is done at the same motor angles, for reflections in the scattering plane (tables without bisecting mode). -/
theorem C114_angles {g : ℝ} (hg : 0 < g) {t t' : Tas} (hs : Spec.Enlarged g t t') (hc : PossibleCell t.sample.latt) {hkl : V3} {en : ℝ}
    {a a' : MotorAngles} {c c' : UBConf} {ub : M3} {n : V3} (hmode : t.goni.mode = .ok none) (hcons : Spec.Consistent t.sample c ub)
    (hcons' : Spec.Consistent t'.sample c' (g⁻¹ • ub)) (hpn : c.planeNormal = some n) (hpn' : c'.planeNormal = some n) (hn : len n = 1)
    (hin : n ⬝ᵥ (ub *ᵥ hkl) = 0) (ha : t.motorAngles hkl en = .ok a) (ha' : t'.motorAngles hkl (en / g ^ 2) = .ok a') : a' = a := by
  have hgo : t'.goni = t.goni := by rw [hs.same]
  obtain ⟨R, tt, psi, h1, h2, hR, hne, hup, hmap, hra⟩ := in_plane_rotation ha hmode hcons hpn hn hin
  obtain ⟨R', tt', psi', h1', h2', hR', -, hup', hmap', hra'⟩ := in_plane_rotation ha' (by rw [hgo]; exact hmode) hcons' hpn' hn
    (by rw [smul_mulVec, dotProduct_smul, hin, smul_zero])
  have c1 := enlarged_tt hg hs hc h1 h1'
  have c2 := enlarged_psi hg hs hc h2 h2'
  subst c1 c2
  have hn0 : n ≠ 0 := by
    rintro rfl
    simp [Spec.len] at hn
  have hgi : 0 < g⁻¹ := inv_pos.2 hg
  have hl : len ((g⁻¹ • ub) *ᵥ hkl) = g⁻¹ * len (ub *ᵥ hkl) := by
    rw [smul_mulVec, ← norm3_eq_len, ← norm3_eq_len, norm3_smul, abs_of_pos hgi]
  have hu : R' *ᵥ (ub *ᵥ hkl) = R *ᵥ (ub *ᵥ hkl) := by
    rw [hl, smul_mulVec, mulVec_smul, mul_smul] at hmap'
    rw [hmap]
    exact smul_right_injective _ hgi.ne' hmap'
  have : R' = R := rot_unique hR hR' hne hn0 hin hu (by rw [hup, hup'])
  subst this
  rw [hgo] at hra'
  exact Except.ok.inj (hra'.symm.trans hra)

namespace Demo

/-- C114: the demo experiment and the enlarged one reach (1,0,0) at the same angles. -/
example : ∃ a, (tas "Y,-Z,X" "-").motorAngles ![1, 0, 0] = .ok a ∧ enlarged.motorAngles ![1, 0, 0] = .ok a := by
  obtain ⟨a, ha, _⟩ := reach100
  obtain ⟨a', ha'⟩ := enlarged_reach
  have h0 : enlarged.motorAngles ![1, 0, 0] (0 / 2 ^ 2) = .ok a' := by rw [zero_div]; exact ha'
  have := C114_angles (c' := conf') two_pos enlarged_is cube_possible (huberMode' _) (consistent _ _) (by rw [← one_div]; exact consistent')
    rfl rfl (by simp [Spec.len]) (by simp) ha h0
  exact ⟨a, ha, by rw [← this]; exact ha'⟩

end Demo

end Tavi
