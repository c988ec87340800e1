import Verif.Props.UBPlane
import Verif.Props.UBFit

/-! # C12: minimal tilt -/

namespace Tavi

open Matrix Real
open Spec (IsRot IsOrth PossibleCell IsAngleDeg len)

/-- Specification of the configurations away from the code's `1e-5` thresholds: `t1` (the sample-frame `Q/2π`) is exactly
in the plane with normal `n`, or clearly out of it; and if `t1` is along the normal there is a non-zero in-plane reference
perpendicular to it. -/
def Spec.TiltClear (t1 n : V3) (ref : Option V3) : Prop :=
  n ⬝ᵥ t1 = 0 ∨ (1e-5 ≤ |n ⬝ᵥ t1| ∧
    (1e-5 ≤ len (cross n t1) ∨ (cross n t1 = 0 ∧ ∃ r, ref = some r ∧ r ≠ 0 ∧ r ⬝ᵥ t1 = 0)))

theorem tiltFrame_spec {t1 n : V3} {ref : Option V3} (h1 : t1 ≠ 0) (hn : n ⬝ᵥ n = 1)
    (hc : Spec.TiltClear t1 n ref) :
    ∃ t2 t3, tiltFrame t1 n ref = .ok (t2, t3) ∧ t2 ≠ 0 ∧ t3 ≠ 0 ∧
      IsRot (colMat (nrm t1) (nrm t2) (nrm t3)) ∧ nrm t3 ⬝ᵥ n * norm3 t1 = norm3 (cross n t1) ∧
      (n ⬝ᵥ t1 = 0 → nrm t3 = n) := by
  have hn0 : n ≠ 0 := by rintro rfl; simp at hn
  have hpos := dot_self_pos h1
  have small : (0 : ℝ) < 1e-5 := by norm_num
  rcases hc with hc | ⟨hc1, hc2⟩
  · have hc' : t1 ⬝ᵥ n = 0 := by rw [dot_comm3]; exact hc
    have hx : cross n t1 ≠ 0 := by
      intro h
      have := norm3_cross_of_perp hc
      rw [h, norm3_eq_zero.2 rfl] at this
      exact (mul_pos (norm3_pos hn0) (norm3_pos h1)).ne this
    have hn1 : norm3 n = 1 := by unfold norm3; rw [hn, Real.sqrt_one]
    have hnn : nrm n = n := by unfold nrm; rw [hn1, inv_one, one_smul]
    refine ⟨cross n t1, n, ?_, hx, hn0, ?_, ?_, fun _ => hnn⟩
    · unfold tiltFrame; rw [if_pos (by rw [hc', abs_zero]; exact small)]
    · apply frame_rot h1 hx (dot_cross_right _ _) (inv_pos.2 hpos)
      rw [upright hc', smul_smul, inv_mul_cancel₀ hpos.ne', one_smul]
    · rw [hnn, hn, norm3_cross_of_perp hc, hn1]
  · have hne : n ⬝ᵥ t1 ≠ 0 := by intro h; rw [h, abs_zero] at hc1; linarith
    have hif1 : ¬ |t1 ⬝ᵥ n| < 1e-5 := by rw [dot_comm3]; exact not_lt.2 hc1
    rcases hc2 with hc2 | ⟨hc2, r, hr, hr0, hrt⟩
    · rw [← norm3_eq_len] at hc2
      have hx : cross n t1 ≠ 0 := by intro h; rw [h, norm3_eq_zero.2 rfl] at hc2; linarith
      have hperp : t1 ⬝ᵥ cross n t1 = 0 := dot_cross_right _ _
      have hx3 : cross t1 (cross n t1) ≠ 0 := by
        intro h
        have := norm3_cross_of_perp hperp
        rw [h, norm3_eq_zero.2 rfl] at this
        exact (mul_pos (norm3_pos h1) (norm3_pos hx)).ne this
      refine ⟨cross n t1, cross t1 (cross n t1), ?_, hx, hx3, ?_, ?_, fun h => absurd h hne⟩
      · unfold tiltFrame; rw [if_neg hif1, if_neg (not_lt.2 hc2)]
      · exact frame_rot h1 hx hperp one_pos (by rw [one_smul])
      · have e : cross t1 (cross n t1) ⬝ᵥ n = norm3 (cross n t1) ^ 2 := by
          rw [norm3_sq, dot3, dot3]; simp; ring
        unfold nrm
        rw [smul_dotProduct, e, norm3_cross_of_perp hperp, smul_eq_mul]
        have a1 := (norm3_pos h1).ne'
        have a2 := (norm3_pos hx).ne'
        field_simp
    · have hrt' : t1 ⬝ᵥ r = 0 := by rw [dot_comm3]; exact hrt
      have hx3 : cross t1 r ≠ 0 := by
        intro h
        have := norm3_cross_of_perp hrt'
        rw [h, norm3_eq_zero.2 rfl] at this
        exact (mul_pos (norm3_pos h1) (norm3_pos hr0)).ne this
      refine ⟨r, cross t1 r, ?_, hr0, hx3, ?_, ?_, fun h => absurd h hne⟩
      · unfold tiltFrame
        rw [if_neg hif1, if_pos (by rw [hc2, norm3_eq_zero.2 rfl]; exact small), hr]
      · exact frame_rot h1 hr0 hrt' one_pos (by rw [one_smul])
      · have e : cross t1 r ⬝ᵥ n = cross n t1 ⬝ᵥ r := by rw [dot3, dot3]; simp; ring
        unfold nrm
        rw [smul_dotProduct, e, hc2]; simp [norm3_eq_zero.2]

/-- The lab frame `(q̂, q̂₂, ŷ)`. -/
theorem labFrame_rot {q : V3} (hy : q 1 = 0) (hq : q ⬝ᵥ q = 1) :
    IsRot (colMat q ![q 2, 0, -q 0] ![0, 1, 0]) := by
  rw [dot3, hy] at hq
  have hq' : q 0 * q 0 + q 2 * q 2 = 1 := by linarith
  constructor
  · apply colMat_orth <;> rw [dot3] <;> simp [hy] <;> linarith
  · rw [colMat_det, dot3]; simp; linarith

theorem le_of_sq_le_sq3 {a b : ℝ} (hb : 0 ≤ b) (h : a ^ 2 ≤ b ^ 2) : a ≤ b :=
  le_trans (le_abs_self a) (abs_le_of_sq_le_sq h hb)

theorem tilt_bound {R : M3} (hR : IsRot R) {t n : V3} (hy : (R *ᵥ t) 1 = 0) :
    (R *ᵥ n) 1 * norm3 t ≤ norm3 (cross n t) := by
  rw [← norm3_mulVec_orth hR.1 (cross n t), ← cross_mulVec_rot hR, ← norm3_mulVec_orth hR.1 t]
  set N := R *ᵥ n
  set q := R *ᵥ t
  apply le_of_sq_le_sq3 (norm3_nonneg _)
  rw [mul_pow, norm3_sq, norm3_sq, dot3, dot3]
  simp only [cross_0, cross_1, cross_2, hy]
  nlinarith [sq_nonneg (N 2 * q 0 - N 0 * q 2)]

theorem qLab_norm_eq {hkl : V3} {M : M3} : qNormFromHkl hkl M = 2 * π * norm3 (M *ᵥ hkl) := by
  unfold qNormFromHkl norm3; ring

theorem qLab_inv {ei ef tt : ℝ} {q : V3} (h : qLab ei ef tt = .ok q) :
    ∃ ki kf, en2q ei = .ok ki ∧ en2q ef = .ok kf ∧
      q = ![-kf * Real.sin (deg2rad tt), 0, ki - kf * Real.cos (deg2rad tt)] := by
  unfold qLab at h
  obtain ⟨ki, hki, h⟩ := py_bind_eq_ok.1 h
  obtain ⟨kf, hkf, h⟩ := py_bind_eq_ok.1 h
  refine ⟨ki, kf, hki, hkf, ?_⟩
  cases h
  simp [deg2rad]

/-- Evaluation of the code down to the frames. -/
theorem tilt_eval {hkl : V3} {ei ef tt : ℝ} {c : UBConf} {ub : M3} {n q t2 t3 : V3} (hub : c.ubMat = some ub)
    (hpn : c.planeNormal = some n) (hq : qLab ei ef tt = .ok q) (hne : ub *ᵥ hkl ≠ 0)
    (hf : tiltFrame (ub *ᵥ hkl) n c.inPlaneRef = .ok (t2, t3)) (h2 : t2 ≠ 0) (h3 : t3 ≠ 0) :
    rMatrixWithMinimalTilt hkl ei ef tt c =
      (inv3 (colMat (nrm (ub *ᵥ hkl)) (nrm t2) (nrm t3)) >>= fun ti =>
        .ok (colMat ((qNormFromHkl hkl ub)⁻¹ • q) ((qNormFromHkl hkl ub)⁻¹ • ![q 2, 0, -q 0]) ![0, 1, 0] * ti)) := by
  obtain ⟨ki, kf, hki, hkf, hqe⟩ := qLab_inv hq
  have hQ : qNormFromHkl hkl ub ≠ 0 := by
    rw [qLab_norm_eq]; have := Real.pi_pos; have := norm3_pos hne; positivity
  unfold rMatrixWithMinimalTilt
  rw [hub, need_some, py_bind_ok, hpn, need_some, py_bind_ok, hki, py_bind_ok, hkf, py_bind_ok]
  dsimp only
  have e1 : vdiv ![-kf * Real.sin (deg2rad tt), 0, ki - kf * Real.cos (deg2rad tt)] (qNormFromHkl hkl ub) =
      .ok ((qNormFromHkl hkl ub)⁻¹ • q) := by
    unfold vdiv; rw [if_neg hQ, hqe]
  have e2 : vdiv ![ki - kf * Real.cos (deg2rad tt), 0, kf * Real.sin (deg2rad tt)] (qNormFromHkl hkl ub) =
      .ok ((qNormFromHkl hkl ub)⁻¹ • ![q 2, 0, -q 0]) := by
    unfold vdiv; rw [if_neg hQ, hqe]; simp
  rw [e1, py_bind_ok, e2, py_bind_ok, hf, py_bind_ok]
  dsimp only
  rw [unit_nrm hne, py_bind_ok, unit_nrm h2, py_bind_ok, unit_nrm h3, py_bind_ok]
  rfl

theorem qhat_unit {q : V3} {Q : ℝ} (hQ : Q ≠ 0) (h : len q = Q) : (Q⁻¹ • q) ⬝ᵥ (Q⁻¹ • q) = 1 := by
  rw [← norm3_eq_len] at h
  rw [smul_dotProduct, dotProduct_smul, ← norm3_mul_self, h, smul_eq_mul, smul_eq_mul]
  field_simp

/-- **C12** (part) Away from the numerical thresholds (`TiltClear`): for every UB, unit plane normal and every scattering
vector `q` of the right length, a matrix is returned; it is a proper rotation, it maps the sample-frame `Q` exactly onto
`q`, it brings the plane normal exactly vertical when `Q` is in the plane, and no rotation mapping `Q` onto `q` gives the
plane normal a larger vertical component. Missing: the strip `0 < |n·Q/2π| < 1e-5`, where the claim is false, see
`C12_near_plane_fails`. -/
theorem C12_minimal_tilt_partial {hkl : V3} {ei ef tt : ℝ} {c : UBConf} {ub : M3} {n q : V3}
    (hub : c.ubMat = some ub) (hpn : c.planeNormal = some n) (hn : len n = 1)
    (hq : qLab ei ef tt = .ok q) (hlen : len q = 2 * π * len (ub *ᵥ hkl)) (hne : ub *ᵥ hkl ≠ 0)
    (hc : Spec.TiltClear (ub *ᵥ hkl) n c.inPlaneRef) :
    ∃ R, rMatrixWithMinimalTilt hkl ei ef tt c = .ok R ∧ IsRot R ∧ (2 * π) • (R *ᵥ (ub *ᵥ hkl)) = q ∧
      (n ⬝ᵥ (ub *ᵥ hkl) = 0 → R *ᵥ n = ![0, 1, 0]) ∧
      (∀ R', IsRot R' → (2 * π) • (R' *ᵥ (ub *ᵥ hkl)) = q → (R' *ᵥ n) 1 ≤ (R *ᵥ n) 1) := by
  have hpi := Real.pi_pos
  have hnn : n ⬝ᵥ n = 1 := by rw [← norm3_mul_self, norm3_eq_len, hn, one_mul]
  obtain ⟨t2, t3, hf, h2, h3, hT, hv, hpl⟩ := tiltFrame_spec hne hnn hc
  have hQ : qNormFromHkl hkl ub ≠ 0 := by
    rw [qLab_norm_eq]; have := norm3_pos hne; positivity
  have hlQ : len q = qNormFromHkl hkl ub := by rw [hlen, qLab_norm_eq, norm3_eq_len]
  have hy : q 1 = 0 := by
    obtain ⟨ki, kf, _, _, hqe⟩ := qLab_inv hq
    rw [hqe]; rfl
  set Q := qNormFromHkl hkl ub with hQdef
  have hLm : colMat (Q⁻¹ • q) (Q⁻¹ • ![q 2, 0, -q 0]) ![0, 1, 0] =
      colMat (Q⁻¹ • q) ![(Q⁻¹ • q) 2, 0, -(Q⁻¹ • q) 0] ![0, 1, 0] := by
    congr 1
    apply ext3 <;> simp
  have hL : IsRot (colMat (Q⁻¹ • q) (Q⁻¹ • ![q 2, 0, -q 0]) ![0, 1, 0]) := by
    rw [hLm]
    exact labFrame_rot (by simp [hy]) (qhat_unit hQ hlQ)
  set L := colMat (Q⁻¹ • q) (Q⁻¹ • ![q 2, 0, -q 0]) ![0, 1, 0] with hLdef
  set T := colMat (nrm (ub *ᵥ hkl)) (nrm t2) (nrm t3) with hTdef
  have hR : IsRot (L * Tᵀ) := isRot_mul hL (isRot_transpose hT)
  have hmap : (2 * π) • ((L * Tᵀ) *ᵥ (ub *ᵥ hkl)) = q := by
    have e : Tᵀ *ᵥ nrm (ub *ᵥ hkl) = ![1, 0, 0] := by
      rw [← (colMat_e (nrm (ub *ᵥ hkl)) (nrm t2) (nrm t3)).1, mulVec_orth_transpose hT.1]
    conv_lhs => rw [← norm3_smul_nrm hne, Matrix.mulVec_smul, ← Matrix.mulVec_mulVec, e,
      (colMat_e _ _ _).1, smul_smul, smul_smul]
    rw [← qLab_norm_eq, ← hQdef, mul_inv_cancel₀ hQ, one_smul]
  have hup : ∀ v : V3, ((L * Tᵀ) *ᵥ v) 1 = nrm t3 ⬝ᵥ v := by
    intro v
    have e : (L * Tᵀ) *ᵥ nrm t3 = ![0, 1, 0] := by
      have e' : Tᵀ *ᵥ nrm t3 = ![0, 0, 1] := by
        rw [← (colMat_e (nrm (ub *ᵥ hkl)) (nrm t2) (nrm t3)).2.2, mulVec_orth_transpose hT.1]
      rw [← Matrix.mulVec_mulVec, e', (colMat_e _ _ _).2.2]
    have := dot_mulVec_orth hR.1 (nrm t3) v
    rw [e, dot3] at this
    simpa using this
  refine ⟨L * Tᵀ, ?_, hR, hmap, ?_, ?_⟩
  · rw [tilt_eval hub hpn hq hne hf h2 h3, inv3_orth hT.1]; rfl
  · intro h0
    have e' : Tᵀ *ᵥ nrm t3 = ![0, 0, 1] := by
      rw [← (colMat_e (nrm (ub *ᵥ hkl)) (nrm t2) (nrm t3)).2.2, mulVec_orth_transpose hT.1]
    rw [← hpl h0, ← Matrix.mulVec_mulVec, e', (colMat_e _ _ _).2.2]
  · intro R' hR' hm'
    have hy' : (R' *ᵥ (ub *ᵥ hkl)) 1 = 0 := by
      have := congrFun hm' 1
      rw [hy] at this
      simp only [Pi.smul_apply, smul_eq_mul] at this
      rcases mul_eq_zero.1 this with h | h
      · exact absurd h (by positivity)
      · exact h
    have hb := tilt_bound hR' (n := n) hy'
    rw [hup, ← mul_le_mul_iff_of_pos_right (norm3_pos hne)]
    rw [hv]; exact hb

/-- **C12**, negation in the threshold strip: if `Q` is slightly out of the plane (`0 < |n·Q/2π| < 1e-5`, and not along the
normal), the matrix returned still maps `Q` exactly onto `q`, but it is not a rotation. -/
theorem C12_near_plane_fails {hkl : V3} {ei ef tt : ℝ} {c : UBConf} {ub : M3} {n q : V3}
    (hub : c.ubMat = some ub) (hpn : c.planeNormal = some n) (hn : len n = 1)
    (hq : qLab ei ef tt = .ok q) (hlen : len q = 2 * π * len (ub *ᵥ hkl)) (hx : cross n (ub *ᵥ hkl) ≠ 0)
    (hs1 : n ⬝ᵥ (ub *ᵥ hkl) ≠ 0) (hs2 : |n ⬝ᵥ (ub *ᵥ hkl)| < 1e-5) :
    ∃ R, rMatrixWithMinimalTilt hkl ei ef tt c = .ok R ∧ ¬ IsRot R ∧ (2 * π) • (R *ᵥ (ub *ᵥ hkl)) = q := by
  have hpi := Real.pi_pos
  have hnn : n ⬝ᵥ n = 1 := by rw [← norm3_mul_self, norm3_eq_len, hn, one_mul]
  have hn0 : n ≠ 0 := by rintro rfl; simp at hnn
  have hne : ub *ᵥ hkl ≠ 0 := by
    intro h; rw [h] at hs1; simp at hs1
  set t := ub *ᵥ hkl with ht
  have hf : tiltFrame t n c.inPlaneRef = .ok (cross n t, n) := by
    unfold tiltFrame; rw [if_pos (by rw [dot_comm3]; exact hs2)]
  have hn1 : norm3 n = 1 := by rw [norm3_eq_len, hn]
  have hnrm : nrm n = n := by unfold nrm; rw [hn1, inv_one, one_smul]
  have hQ : qNormFromHkl hkl ub ≠ 0 := by
    rw [qLab_norm_eq]; have := norm3_pos hne; positivity
  have hlQ : len q = qNormFromHkl hkl ub := by rw [hlen, qLab_norm_eq, norm3_eq_len]
  have hy : q 1 = 0 := by
    obtain ⟨ki, kf, _, _, hqe⟩ := qLab_inv hq
    rw [hqe]; rfl
  set Q := qNormFromHkl hkl ub with hQdef
  have hLm : colMat (Q⁻¹ • q) (Q⁻¹ • ![q 2, 0, -q 0]) ![0, 1, 0] =
      colMat (Q⁻¹ • q) ![(Q⁻¹ • q) 2, 0, -(Q⁻¹ • q) 0] ![0, 1, 0] := by
    congr 1
    apply ext3 <;> simp
  have hL : IsRot (colMat (Q⁻¹ • q) (Q⁻¹ • ![q 2, 0, -q 0]) ![0, 1, 0]) := by
    rw [hLm]
    exact labFrame_rot (by simp [hy]) (qhat_unit hQ hlQ)
  set L := colMat (Q⁻¹ • q) (Q⁻¹ • ![q 2, 0, -q 0]) ![0, 1, 0] with hLdef
  set T := colMat (nrm t) (nrm (cross n t)) (nrm n) with hTdef
  have hdet : T.det ≠ 0 := by
    rw [hTdef, triple_dot, hnrm]
    unfold nrm
    rw [cross_smul_left, smul_dotProduct, dotProduct_smul]
    have e : t ⬝ᵥ cross (cross n t) n = norm3 (cross n t) ^ 2 := by
      rw [norm3_sq, dot3, dot3]; simp; ring
    rw [e, smul_eq_mul, smul_eq_mul]
    have := norm3_pos hne
    have := norm3_pos hx
    positivity
  have hiT : T⁻¹ * T = 1 := Matrix.nonsing_inv_mul _ (isUnit_iff_ne_zero.2 hdet)
  have back : ∀ v, T⁻¹ *ᵥ (T *ᵥ v) = v := by
    intro v; rw [Matrix.mulVec_mulVec, hiT, Matrix.one_mulVec]
  have e1 : T⁻¹ *ᵥ nrm t = ![1, 0, 0] := by
    rw [← (colMat_e (nrm t) (nrm (cross n t)) (nrm n)).1]; exact back _
  have e3 : T⁻¹ *ᵥ n = ![0, 0, 1] := by
    have h := (colMat_e (nrm t) (nrm (cross n t)) (nrm n)).2.2
    rw [← back ![0, 0, 1], hTdef, h, hnrm]
  refine ⟨L * T⁻¹, ?_, ?_, ?_⟩
  · rw [tilt_eval hub hpn hq hne hf hx hn0, inv3_ok hdet]; rfl
  · intro hR
    have d := dot_mulVec_orth hR.1 (nrm t) n
    rw [← Matrix.mulVec_mulVec, ← Matrix.mulVec_mulVec, e1, e3, dot_mulVec_orth hL.1] at d
    rw [dot3] at d
    unfold nrm at d
    rw [smul_dotProduct, smul_eq_mul, dot_comm3 t n] at d
    have hd : (norm3 t)⁻¹ * (n ⬝ᵥ t) ≠ 0 := mul_ne_zero (inv_ne_zero (norm3_pos hne).ne') hs1
    apply hd; rw [← d]; simp
  · conv_lhs => rw [← norm3_smul_nrm hne, Matrix.mulVec_smul, ← Matrix.mulVec_mulVec, e1,
      (colMat_e _ _ _).1, smul_smul, smul_smul]
    rw [← qLab_norm_eq, ← hQdef, mul_inv_cancel₀ hQ, one_smul]

/-- **C12** (refusals) Without a plane normal, or with `Q` along the normal and no in-plane reference, the request is
refused with a `ValueError` (for valid energies and a non-zero `Q`). -/
theorem C12_refusals {hkl : V3} {ei ef tt : ℝ} {c : UBConf} {ub : M3} {q : V3}
    (hub : c.ubMat = some ub) (hq : qLab ei ef tt = .ok q) (hne : ub *ᵥ hkl ≠ 0)
    (h : c.planeNormal = none ∨ (c.inPlaneRef = none ∧ ∃ n, c.planeNormal = some n ∧
      1e-5 ≤ |n ⬝ᵥ (ub *ᵥ hkl)| ∧ cross n (ub *ᵥ hkl) = 0)) :
    rMatrixWithMinimalTilt hkl ei ef tt c = .error .valueError := by
  unfold rMatrixWithMinimalTilt
  rw [hub, need_some, py_bind_ok]
  rcases h with h | ⟨h1, n, hn, h2, h3⟩
  · rw [h]; rfl
  · obtain ⟨ki, kf, hki, hkf, hqe⟩ := qLab_inv hq
    have hQ : qNormFromHkl hkl ub ≠ 0 := by
      rw [qLab_norm_eq]; have := Real.pi_pos; have := norm3_pos hne; positivity
    rw [hn, need_some, py_bind_ok, hki, py_bind_ok, hkf, py_bind_ok]
    dsimp only
    have hv : ∀ v, vdiv v (qNormFromHkl hkl ub) = .ok ((qNormFromHkl hkl ub)⁻¹ • v) := by
      intro v; unfold vdiv; rw [if_neg hQ]
    have hf : tiltFrame (ub *ᵥ hkl) n c.inPlaneRef = .error .valueError := by
      unfold tiltFrame
      rw [if_neg (by rw [dot_comm3]; exact not_lt.2 h2), if_pos (by rw [h3, norm3_eq_zero.2 rfl]; norm_num), h1]
    rw [hv, py_bind_ok, hv, py_bind_ok, hf]; rfl

end Tavi
