import Verif.Props.Demo

/-!
# C09, continued: gimbal lock

When the plane normal lies along the axis of `sgu`, `sgl` has to stand at ±90 degrees to bring it up, and `omega` and `sgu` turn
about the same axis. The code then takes both to be what `arctan2(0, 0)` is and the direction within the plane is lost: all
reflections of one length get the same motor positions.
-/

namespace Tavi

open Matrix Real
open Spec (IsRot IsOrth PossibleCell IsAngleDeg len)

/-- At gimbal lock the positions do not depend on the direction. -/
theorem gimbal_angles {t : Tas} {c : UBConf} {ub : M3} {hkl : V3} {σ en tt psi ei ef s0 s1 s2 : ℝ} {a : MotorAngles}
    (hcons : Spec.Consistent t.sample c ub) (hpn : c.planeNormal = some ![σ, 0, 0]) (hσ : σ ^ 2 = 1)
    (hin : (ub *ᵥ hkl) 0 = 0) (hmode : t.goni.mode = .ok none) (hs : t.goni.motorSenses = .ok (s0, s1, s2))
    (he : t.getEiEf none none en = .ok (ei, ef)) (htt : t.getTwoTheta hkl en = .ok tt) (hpsi : t.getPsi hkl en = .ok psi)
    (h : t.motorAngles hkl en = .ok a) :
    a = { twoTheta := tt, omega := some (rad2deg (s0 * arctan2 0 0)), sgl := some (rad2deg (s1 * arctan2 σ 0)),
          sgu := some (rad2deg (s2 * arctan2 0 0)) } := by
  obtain ⟨hc, hub, hd, b, hb, hG⟩ := hcons
  obtain ⟨tt', psi', ei', ef', c', htt', hpsi', he', hc', _, hcase⟩ := motorAngles_cases h
  rw [he] at he'; cases he'
  rw [htt] at htt'; cases htt'
  rw [hpsi] at hpsi'; cases hpsi'
  rw [hc] at hc'; cases hc'
  obtain ⟨ki, kf, hki, hkf, kip, kfp, Qp, _, hq, e1, e2, _⟩ := C13_q_lab hb he htt hpsi
  rw [e1, e2] at hq
  have hQe : qNormFromHkl hkl b = 2 * π * len (ub *ᵥ hkl) := by
    rw [qLab_norm_eq, gram_norm hG, norm3_eq_len]
  have hne : ub *ᵥ hkl ≠ 0 := by
    intro h0
    rw [hQe, h0] at Qp
    simp [Spec.len] at Qp
  have hlen := len_polar (qNormFromHkl hkl b) (deg2rad psi) Qp.le
  rw [hQe] at hlen hq
  have hdot : (![σ, 0, 0] : V3) ⬝ᵥ (ub *ᵥ hkl) = 0 := by rw [dot3]; simp [hin]
  have hn : len ![σ, 0, 0] = 1 := by simp [Spec.len, hσ]
  obtain ⟨R, hR, hRr, hmap, hup, _⟩ := C12_minimal_tilt_partial hub hpn hn hq hlen hne (Or.inl hdot)
  rcases hcase with ⟨_, r, hr, ha⟩ | ⟨hm, _⟩
  · rw [hR] at hr; cases hr
    have hup := hup hdot
    have hσ0 : σ ≠ 0 := by rintro rfl; norm_num at hσ
    have r00 : R 0 0 = 0 := by
      have := congrFun hup 0; simp [mulVec3] at this; exact this.resolve_right hσ0
    have r20 : R 2 0 = 0 := by
      have := congrFun hup 2; simp [mulVec3] at this; exact this.resolve_right hσ0
    have r10 : R 1 0 = σ := by
      have h1 : R 1 0 * σ = 1 := by have := congrFun hup 1; simpa [mulVec3] using this
      linear_combination σ * h1 - R 1 0 * hσ
    have hrow1 : R 1 0 ^ 2 + R 1 1 ^ 2 + R 1 2 ^ 2 = 1 := by
      have := (orth_cols (isRot_transpose hRr).1).2.1; simpa using this
    rw [r10, hσ] at hrow1
    have r11 : R 1 1 = 0 := by nlinarith [sq_nonneg (R 1 1), sq_nonneg (R 1 2)]
    have r12 : R 1 2 = 0 := by nlinarith [sq_nonneg (R 1 1), sq_nonneg (R 1 2)]
    obtain ⟨s0', s1', s2', hs', _, rfl, _⟩ := anglesFromRMat_cases ha
    rw [hs] at hs'; cases hs'
    rw [yzxAngles, r00, r20, r10, r11, r12]
    simp
  · rw [hmode] at hm; cases hm

/-- **C09**, negation at gimbal lock: if the normal of the scattering plane lies along the axis of the third motor, two different
reflections of the same length in the plane get the same motor positions; at least one of them does not convert back. -/
theorem C09_gimbal_fails {t : Tas} {c : UBConf} {ub : M3} {hkl hkl' : V3} {σ en : ℝ} {a a' : MotorAngles}
    (hcons : Spec.Consistent t.sample c ub) (hpn : c.planeNormal = some ![σ, 0, 0]) (hσ : σ ^ 2 = 1)
    (hmode : t.goni.mode = .ok none) (hin : (ub *ᵥ hkl) 0 = 0) (hin' : (ub *ᵥ hkl') 0 = 0)
    (hlen : len (ub *ᵥ hkl) = len (ub *ᵥ hkl')) (hne : hkl ≠ hkl')
    (h : t.motorAngles hkl en = .ok a) (h' : t.motorAngles hkl' en = .ok a') :
    a = a' ∧ ¬ (t.hklFromAngles a = .ok (some hkl) ∧ t.hklFromAngles a' = .ok (some hkl')) := by
  have key : a = a' := by
    obtain ⟨tt, psi, ei, ef, c1, htt, hpsi, he, -, -, hcase⟩ := motorAngles_cases h
    obtain ⟨tt', psi', ei', ef', c2, htt', hpsi', he', -⟩ := motorAngles_cases h'
    rw [he] at he'; cases he'
    obtain ⟨s0, s1, s2, hs⟩ : ∃ s0 s1 s2, t.goni.motorSenses = .ok (s0, s1, s2) := by
      rcases hcase with ⟨_, r, -, ha⟩ | ⟨hm, _⟩
      · obtain ⟨s0, s1, s2, hs, -⟩ := anglesFromRMat_cases ha; exact ⟨_, _, _, hs⟩
      · rw [hmode] at hm; cases hm
    have e1 := gimbal_angles hcons hpn hσ hin hmode hs he htt hpsi h
    have e2 := gimbal_angles hcons hpn hσ hin' hmode hs he htt' hpsi' h'
    obtain ⟨-, -, -, b, hb, hG⟩ := hcons
    have hQ : qNormFromHkl hkl b = qNormFromHkl hkl' b := by
      rw [qLab_norm_eq, qLab_norm_eq, gram_norm hG, gram_norm hG, norm3_eq_len, norm3_eq_len, hlen]
    rw [getTwoTheta_eq hb he, twoThetaFromHkle, hQ] at htt
    rw [getTwoTheta_eq hb he, twoThetaFromHkle, htt] at htt'
    cases htt'
    rw [e1, e2]
  refine ⟨key, ?_⟩
  rintro ⟨h1, h2⟩
  rw [key, h2] at h1
  exact hne (Option.some.inj (Except.ok.inj h1)).symm

/-! ## A spectrometer on its side -/

namespace Demo

/-- The cube with the normal of the scattering plane along the third axis. -/
def sideConf : UBConf := { ubMat := some 1, planeNormal := some ![1, 0, 0], inPlaneRef := some ![0, 0, 1] }

/-- Without limits. -/
noncomputable def sideTas : Tas :=
  { tas "Y,-Z,X" "-" with sample := { latt := cube, ubConf := some sideConf },
                          goni := { type := "Y,-Z,X".toList, sense := some "-".toList, limits := fun _ => (none, none) } }

theorem side_consistent : Spec.Consistent sideTas.sample sideConf 1 := by
  obtain ⟨b, hb, hg⟩ := cube_b
  exact ⟨rfl, rfl, by simp, b, hb, by simpa using hg⟩

/-- Every reflection of length 1 is reached. -/
theorem side_reach {hkl : V3} (h0 : hkl 0 = 0) (hl : len hkl = 1) : ∃ a, sideTas.motorAngles hkl = .ok a := by
  have hpi := Real.pi_pos
  have he : sideTas.getEiEf = .ok (ksq2eng * (2 * π) ^ 2, ksq2eng * (2 * π) ^ 2) := energies "Y,-Z,X" "-"
  have hl1 : len ((1 : M3) *ᵥ hkl) = 1 := by rw [Matrix.one_mulVec, hl]
  obtain ⟨tt, psi, q, htt, hpsi, hq, hlen, hne⟩ := reach_q (hkl := hkl) side_consistent he
    (show sideTas.goni.senseVal = .ok (-1) by simp [sideTas, Goni.senseVal]) k_val k_val big big
    (by rw [hl1, mul_one]; exact big) (by rw [hl1]; exact len100 ▸ closes)
  obtain ⟨R, hR, -⟩ := C12_minimal_tilt_partial (c := sideConf) rfl rfl (by simp [Spec.len]) hq hlen hne
    (Or.inl (by rw [dot3, Matrix.one_mulVec]; simp [h0]))
  obtain ⟨m, hm⟩ := getUbMat_ok (c := sideConf) (Or.inr rfl) rfl
  have hom : sideTas.goni.operatingMode = .ok "YZX".toList := huberMode "-"
  have hmo : sideTas.goni.mode = .ok none := huberMode' "-"
  have hss : ∃ s0 s1 s2, sideTas.goni.motorSenses = .ok (s0, s1, s2) := by
    simp [sideTas, Goni.motorSenses, Goni.axes, splitOn]
  obtain ⟨s0, s1, s2, hss⟩ := hss
  have hv : sideTas.goni.validate (yzxAngles s0 s1 s2 R tt) = .ok () := by
    rw [validate_ok]
    intro m x hx
    simp [sideTas, Spec.Within]
  refine ⟨yzxAngles s0 s1 s2 R tt, ?_⟩
  unfold Tas.motorAngles
  rw [htt, py_bind_ok, hpsi, py_bind_ok, he, py_bind_ok]
  show (sideConf.getUbMat >>= _) = _
  rw [hm, py_bind_ok, hmo, py_bind_ok]
  dsimp only
  rw [hR, py_bind_ok, anglesFromRMat_yzx hss hom, hv, py_bind_ok]

/-- (0, 1, 0) and (0, 0, 1) get the same positions; one of them is not what is measured there. -/
example : ∃ a, sideTas.motorAngles ![0, 1, 0] = .ok a ∧ sideTas.motorAngles ![0, 0, 1] = .ok a ∧
    ¬ (sideTas.hklFromAngles a = .ok (some ![0, 1, 0]) ∧ sideTas.hklFromAngles a = .ok (some ![0, 0, 1])) := by
  obtain ⟨a, ha⟩ := side_reach (hkl := ![0, 1, 0]) (by simp) (by simp [Spec.len])
  obtain ⟨a', ha'⟩ := side_reach (hkl := ![0, 0, 1]) (by simp) (by simp [Spec.len])
  obtain ⟨rfl, h⟩ := C09_gimbal_fails side_consistent (σ := 1) rfl (by norm_num) (huberMode' "-") (by simp) (by simp)
    (by simp [Spec.len]) (by intro h; have := congrFun h 1; norm_num at this) ha ha'
  exact ⟨a, ha, ha', h⟩

end Demo

end Tavi
