import Verif.Props.TiltClose
import Verif.Props.Gimbal

/-! # C09, continued: a reflection slightly out of an inclined plane -/

namespace Tavi

open Matrix Real
open Spec (IsRot IsOrth PossibleCell IsAngleDeg len)

namespace Demo

/-- The cube with an inclined scattering plane. -/
noncomputable def slantConf : UBConf :=
  { ubMat := some 1, planeNormal := some ![3 / 5, 4 / 5, 0], inPlaneRef := some ![4 / 5, -3 / 5, 0] }

/-- Without limits. -/
noncomputable def slantTas : Tas :=
  { tas "Y,-Z,X" "-" with sample := { latt := cube, ubConf := some slantConf },
                          goni := { type := "Y,-Z,X".toList, sense := some "-".toList, limits := fun _ => (none, none) } }

theorem slant_consistent : Spec.Consistent slantTas.sample slantConf 1 := by
  obtain ⟨b, hb, hg⟩ := cube_b
  exact ⟨rfl, rfl, by simp, b, hb, by simpa using hg⟩

theorem slant_unit : len ![3 / 5, 4 / 5, 0] = 1 := by
  simp [Spec.len]; norm_num

/-- Five millionths out of the plane. -/
noncomputable def slantHkl : V3 := ![0.800003, -0.599996, 0]

theorem slant_off : (![3 / 5, 4 / 5, 0] : V3) ⬝ᵥ ((1 : M3) *ᵥ slantHkl) = 5e-6 := by
  rw [Matrix.one_mulVec, dot3]; simp [slantHkl]; norm_num

theorem slant_len : 1 ≤ len slantHkl ∧ len slantHkl ≤ 2 := by
  have e : len slantHkl = √(0.800003 ^ 2 + 0.599996 ^ 2) := by simp [Spec.len, slantHkl]
  rw [e]
  constructor
  · apply Real.le_sqrt_of_sq_le; norm_num
  · apply Real.sqrt_le_iff.2; norm_num

theorem slant_reach : ∃ a, slantTas.motorAngles slantHkl = .ok a := by
  have hpi := Real.pi_pos
  have h2 := Real.two_le_pi
  obtain ⟨hl1, hl2⟩ := slant_len
  have he : slantTas.getEiEf = .ok (ksq2eng * (2 * π) ^ 2, ksq2eng * (2 * π) ^ 2) := energies "Y,-Z,X" "-"
  obtain ⟨tt, psi, q, htt, hpsi, hq, hlen, hne⟩ := reach_q (hkl := slantHkl) slant_consistent he
    (show slantTas.goni.senseVal = .ok (-1) by simp [slantTas, Goni.senseVal]) k_val k_val big big
    (by rw [Matrix.one_mulVec]; norm_num; nlinarith)
    (by
      rw [Matrix.one_mulVec]
      constructor
      · simp; nlinarith
      · nlinarith)
  obtain ⟨R, hR, -⟩ := C12_near_plane_fails (c := slantConf) rfl rfl slant_unit hq hlen
    (by
      intro h
      have := congrFun h 2
      rw [Matrix.one_mulVec] at this
      norm_num [slantHkl] at this)
    (by rw [slant_off]; norm_num) (by rw [slant_off]; norm_num [abs_of_pos])
  obtain ⟨m, hm⟩ := getUbMat_ok (c := slantConf) (Or.inr rfl) rfl
  have hom : slantTas.goni.operatingMode = .ok "YZX".toList := huberMode "-"
  have hmo : slantTas.goni.mode = .ok none := huberMode' "-"
  have hss : ∃ s0 s1 s2, slantTas.goni.motorSenses = .ok (s0, s1, s2) := by
    simp [slantTas, Goni.motorSenses, Goni.axes, splitOn]
  obtain ⟨s0, s1, s2, hss⟩ := hss
  have hv : slantTas.goni.validate (yzxAngles s0 s1 s2 R tt) = .ok () := by
    rw [validate_ok]
    intro m x hx
    simp [slantTas, Spec.Within]
  refine ⟨yzxAngles s0 s1 s2 R tt, ?_⟩
  unfold Tas.motorAngles
  rw [htt, py_bind_ok, hpsi, py_bind_ok, he, py_bind_ok]
  show (slantConf.getUbMat >>= _) = _
  rw [hm, py_bind_ok, hmo, py_bind_ok]
  dsimp only
  rw [hR, py_bind_ok, anglesFromRMat_yzx hss hom, hv, py_bind_ok]

/-- The positions found convert back to a reflection that is not the one asked for, but close to it. -/
example : ∃ a hkl' x, slantTas.motorAngles slantHkl = .ok a ∧ slantTas.hklFromAngles a = .ok (some hkl') ∧ hkl' ≠ slantHkl ∧
    a.sgl = some x ∧ len (hkl' - slantHkl) * cos (deg2rad x) ≤ 3e-5 := by
  obtain ⟨a, ha⟩ := slant_reach
  obtain ⟨hkl', x, hb, hx, _, hle, _⟩ := C09_huber_close slant_consistent rfl slant_unit
    (by intro r hr; cases hr; rw [dot3]; simp; norm_num) (huberMode' "-") ha
  have hf := C09_near_plane_fails slant_consistent rfl slant_unit (huberMode' "-") ha (by rw [slant_off]; norm_num)
    (by rw [slant_off]; norm_num [abs_of_pos])
    (by rw [slant_off, Matrix.one_mulVec]; norm_num [slantHkl, abs_of_pos])
  refine ⟨a, hkl', x, ha, hb, ?_, hx, ?_⟩
  · rintro rfl; exact hf hb
  · rw [Matrix.one_mulVec, Matrix.one_mulVec] at hle
    refine hle.trans ?_
    have h5 := slant_off
    rw [Matrix.one_mulVec] at h5
    unfold Spec.off
    rw [h5, if_pos (by norm_num [abs_of_pos])]
    norm_num [abs_of_pos]

/-- The matrix they come from is within 2e-5 of a rotation that meets the request. -/
example : ∃ tt q R S, qLab (ksq2eng * (2 * π) ^ 2) (ksq2eng * (2 * π) ^ 2) tt = .ok q ∧
    rMatrixWithMinimalTilt slantHkl (ksq2eng * (2 * π) ^ 2) (ksq2eng * (2 * π) ^ 2) tt slantConf = .ok R ∧
    IsRot S ∧ ¬ IsRot R ∧ (2 * π) • (S *ᵥ ((1 : M3) *ᵥ slantHkl)) = q ∧ ∀ v, len v = 1 → len (R *ᵥ v - S *ᵥ v) ≤ 2e-5 := by
  have h2 := Real.two_le_pi
  obtain ⟨hl1, hl2⟩ := slant_len
  have he : slantTas.getEiEf = .ok (ksq2eng * (2 * π) ^ 2, ksq2eng * (2 * π) ^ 2) := energies "Y,-Z,X" "-"
  obtain ⟨tt, psi, q, htt, hpsi, hq, hlen, hne⟩ := reach_q (hkl := slantHkl) slant_consistent he
    (show slantTas.goni.senseVal = .ok (-1) by simp [slantTas, Goni.senseVal]) k_val k_val big big
    (by rw [Matrix.one_mulVec]; norm_num; nlinarith)
    (by
      rw [Matrix.one_mulVec]
      constructor
      · simp; nlinarith
      · nlinarith)
  obtain ⟨R, S, h1, _, h3, h4, _, h6⟩ := C12_close (c := slantConf) rfl rfl slant_unit hq hlen hne
    (by rw [slant_off]; norm_num [abs_of_pos]) (by rw [slant_off, Matrix.one_mulVec]; norm_num [abs_of_pos]; linarith)
  obtain ⟨R', h1', h7, _⟩ := C12_near_plane_fails (c := slantConf) rfl rfl slant_unit hq hlen
    (by
      intro h
      have := congrFun h 2
      rw [Matrix.one_mulVec] at this
      norm_num [slantHkl] at this)
    (by rw [slant_off]; norm_num) (by rw [slant_off]; norm_num [abs_of_pos])
  rw [h1] at h1'
  obtain rfl := Except.ok.inj h1'
  refine ⟨tt, q, R, S, hq, h1, h3, h7, h4, fun v hv => ?_⟩
  have := h6 v
  rw [hv, slant_off, Matrix.one_mulVec, abs_of_pos (by norm_num)] at this
  have h8 : 0 ≤ len (R *ᵥ v - S *ᵥ v) := Real.sqrt_nonneg _
  nlinarith

end Demo

end Tavi
