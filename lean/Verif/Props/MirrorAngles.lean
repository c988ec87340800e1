import Verif.Props.EnlargeAngles
import Verif.Props.MirrorDemo

/-! # C111 for the motors: the mirror image measures at opposite two-theta with the same tilts -/

namespace Tavi

open Matrix Real
open Spec (IsRot IsOrth PossibleCell len)

theorem rotY_mulVec_polar (x y : ℝ) :
    rotY x *ᵥ ![Real.sin (deg2rad y), 0, Real.cos (deg2rad y)] = ![Real.sin (deg2rad (y + x)), 0, Real.cos (deg2rad (y + x))] := by
  have e : deg2rad (y + x) = deg2rad y + deg2rad x := by unfold deg2rad; ring
  rw [e, Real.sin_add, Real.cos_add]
  apply ext3 <;> simp [rotY, mulVec3] <;> ring

/-- **C111** The mirror image of the spectrometer reaches a reflection of the scattering plane at the opposite two-theta and with the same tilts; its
sample is turned about the vertical, against the original, by twice the angle between Q and the beam, to the other side (outside gimbal lock; tables without bisecting mode). -/
theorem C111_angles {t t' : Tas} (hm : Spec.MirrorImage t t') {hkl : V3} {en : ℝ} {a a' : MotorAngles} {c : UBConf} {ub : M3} {n : V3}
    (hmode : t.goni.mode = .ok none) (hcons : Spec.Consistent t.sample c ub) (hpn : c.planeNormal = some n) (hn : len n = 1)
    (hin : n ⬝ᵥ (ub *ᵥ hkl) = 0) (ha : t.motorAngles hkl en = .ok a) (ha' : t'.motorAngles hkl en = .ok a') :
    a'.twoTheta = -a.twoTheta ∧ a'.sgl = a.sgl ∧ a'.sgu = a.sgu ∧
      ((∀ x, a.sgl = some x → |x| ≠ 90) → ∃ psi R, t.getPsi hkl en = .ok psi ∧ t.goni.rMat a = .ok R ∧
        t'.goni.rMat a' = .ok (rotY (-2 * psi) * R)) := by
  have hgo : t'.goni = { t.goni with sense := t'.goni.sense } := by rw [hm.same]
  have hmode' : t'.goni.mode = .ok none := by rw [hgo]; exact hmode
  have hs : t'.sample = t.sample := by rw [hm.same]
  obtain ⟨R, tt, psi, h1, h2, hR, hne, hup, hmap, hra⟩ := in_plane_rotation ha hmode hcons hpn hn hin
  obtain ⟨R', tt', psi', h1', h2', hR', -, hup', hmap', hra'⟩ := in_plane_rotation ha' hmode' (by rw [hs]; exact hcons) hpn hn hin
  have c1 := mirror_tt hm h1 h1'
  have c2 := mirror_psi hm h2 h2'
  subst c1 c2
  have hn0 : n ≠ 0 := by
    rintro rfl
    simp [Spec.len] at hn
  have hY : IsRot (rotY (-2 * psi)) := rotY_rot _
  have hRR : R' = rotY (-2 * psi) * R := by
    refine rot_unique (isRot_mul hY hR) hR' hne hn0 hin ?_ ?_
    · rw [← mulVec_mulVec, hmap, hmap', mulVec_smul, rotY_mulVec_polar]
      congr 4 <;> ring_nf
    · rw [← mulVec_mulVec, hup, hup']
      apply ext3 <;> simp [rotY, mulVec3]
  have row : ∀ j, R' 1 j = R 1 j := by
    intro j
    rw [hRR]
    simp [rotY, Matrix.mul_apply, Fin.sum_univ_three]
  have col : R' 0 0 ^ 2 + R' 2 0 ^ 2 = R 0 0 ^ 2 + R 2 0 ^ 2 := by
    rw [hRR]
    simp [rotY, Matrix.mul_apply, Fin.sum_univ_three]
    linear_combination (R 0 0 ^ 2 + R 2 0 ^ 2) * Real.sin_sq_add_cos_sq (deg2rad (-(2 * psi)))
  obtain ⟨s0, s1, s2, hse, _, e1, _⟩ := anglesFromRMat_cases hra
  obtain ⟨s0', s1', s2', hse', _, e1', _⟩ := anglesFromRMat_cases hra'
  have : t'.goni.motorSenses = t.goni.motorSenses := by rw [hgo]; rfl
  rw [this, hse] at hse'
  cases hse'
  have hl : a'.sgl = a.sgl := by
    rw [e1, e1']
    simp only [yzxAngles]
    rw [row, col]
  refine ⟨by rw [e1, e1']; rfl, hl, ?_, fun hx => ⟨psi, R, h2, rMat_lock_free hR hra hx, ?_⟩⟩
  · rw [e1, e1']
    simp only [yzxAngles]
    rw [row, row]
  · rw [← hRR]
    exact rMat_lock_free hR' hra' (by rw [hl]; exact hx)

namespace Demo

/-- C111: the demo spectrometer and its mirror image at (1,0,0). -/
example : ∃ a a', (tas "Y,-Z,X" "-").motorAngles ![1, 0, 0] = .ok a ∧ mirrored.motorAngles ![1, 0, 0] = .ok a' ∧
    a'.twoTheta = -a.twoTheta ∧ a'.sgl = some 0 ∧ a'.sgu = a.sgu := by
  obtain ⟨a, ha, z, _⟩ := C68_in_plane (t := tas "Y,-Z,X" "-") (consistent "Y,-Z,X" "-") known rfl (by simp) (huberMode "-") (huberMode' "-") rfl rfl
    (by norm_num [Spec.Within, tas]) (by norm_num [Spec.Within, tas])
    (energies "Y,-Z,X" "-") (senseMinus "Y,-Z,X") k_val k_val big big (by rw [len100, mul_one]; exact big) closes
  obtain ⟨a', ha', z', _⟩ := C68_in_plane (t := mirrored) (consistent "Y,-Z,X" "+") known rfl (by simp) (huberMode "+") (huberMode' "+") rfl rfl
    (by norm_num [Spec.Within, mirrored, tas]) (by norm_num [Spec.Within, mirrored, tas])
    (energies "Y,-Z,X" "+") (sensePlus "Y,-Z,X") k_val k_val big big (by rw [len100, mul_one]; exact big) closes
  obtain ⟨f1, f2, f3, -⟩ := C111_angles mirrored_image (huberMode' _) (consistent "Y,-Z,X" "-") rfl (by simp [Spec.len]) (by simp) ha ha'
  exact ⟨a, a', ha, ha', f1, z', f3⟩

end Demo

end Tavi
