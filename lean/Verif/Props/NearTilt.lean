import Verif.Props.NearPlane

/-! # C09, continued: every request on a Huber table -/

namespace Tavi

open Matrix Real
open Spec (IsRot IsOrth PossibleCell IsAngleDeg len)

/-- Decomposition along an orthonormal frame. -/
theorem decompose {e w1 w2 : V3} (h : IsOrth (colMat e w1 w2)) (v : V3) :
    v = (e ⬝ᵥ v) • e + (w1 ⬝ᵥ v) • w1 + (w2 ⬝ᵥ v) • w2 := by
  have hv := mulVec_transpose_orth h v
  rw [colMat_mulVec] at hv
  have e0 : ((colMat e w1 w2)ᵀ *ᵥ v) 0 = e ⬝ᵥ v := by rw [mulVec3, dot3]; simp [colMat]
  have e1 : ((colMat e w1 w2)ᵀ *ᵥ v) 1 = w1 ⬝ᵥ v := by rw [mulVec3, dot3]; simp [colMat]
  have e2 : ((colMat e w1 w2)ᵀ *ᵥ v) 2 = w2 ⬝ᵥ v := by rw [mulVec3, dot3]; simp [colMat]
  rw [e0, e1, e2] at hv
  exact hv.symm

theorem skew_img {S R : M3} {e w1 w2 : V3} {δ s : ℝ} (hT : IsOrth (colMat e w1 w2)) (hs : s ≠ 0)
    (h1 : R *ᵥ e = S *ᵥ e) (h2 : R *ᵥ w1 = S *ᵥ w1) (h3 : R *ᵥ (s • w2 + δ • e) = S *ᵥ w2) (v : V3) :
    R *ᵥ v = S *ᵥ (v + (w2 ⬝ᵥ v) • ((1 / s - 1) • w2 - (δ / s) • e)) := by
  have hR2 : R *ᵥ w2 = (1 / s) • S *ᵥ w2 - (δ / s) • S *ᵥ e := by
    rw [← h3, Matrix.mulVec_add, Matrix.mulVec_smul, Matrix.mulVec_smul, h1, smul_add, smul_smul, smul_smul,
      one_div, inv_mul_cancel₀ hs, one_smul, div_eq_inv_mul]
    abel
  have hd := decompose hT v
  generalize e ⬝ᵥ v = a at hd ⊢
  generalize w1 ⬝ᵥ v = b at hd
  generalize w2 ⬝ᵥ v = d at hd ⊢
  rw [hd]
  simp only [Matrix.mulVec_add, Matrix.mulVec_sub, Matrix.mulVec_smul, h1, h2, hR2]
  generalize S *ᵥ e = x
  generalize S *ᵥ w1 = y
  generalize S *ᵥ w2 = z
  apply ext3 <;> simp <;> ring

theorem skew_row {S R : M3} {e w : V3} {δ s : ℝ} (hS : IsRot S)
    (himg : ∀ v, R *ᵥ v = S *ᵥ (v + (w ⬝ᵥ v) • ((1 / s - 1) • w - (δ / s) • e)))
    (he : (S *ᵥ e) 1 = 0) :
    ((S *ᵥ w) 1 = 0 → ∀ j, R 1 j = 1 * S 1 j) ∧ (S *ᵥ w = ![0, 1, 0] → ∀ j, R 1 j = 1 / s * S 1 j) := by
  have hcol : ∀ (M : M3) (j : Fin 3), M 1 j = (M *ᵥ Pi.single j 1) 1 := by
    intro M j; rw [Matrix.mulVec_single_one]; rfl
  have key : ∀ v, (R *ᵥ v) 1 = (S *ᵥ v) 1 + (w ⬝ᵥ v) * ((1 / s - 1) * (S *ᵥ w) 1) := by
    intro v
    rw [himg, Matrix.mulVec_add, Matrix.mulVec_smul, Matrix.mulVec_sub, Matrix.mulVec_smul, Matrix.mulVec_smul]
    simp [he]
  constructor
  · intro h j
    rw [hcol R, hcol S, key, h]; ring
  · intro h j
    have hw : ∀ v, w ⬝ᵥ v = (S *ᵥ v) 1 := by
      intro v; rw [← dot_mulVec_orth hS.1, h, dot3]; simp
    rw [hcol R, hcol S, key, hw, h]; simp; ring

/-- The images of the axes. -/
theorem frame_img {L : M3} {a b c : V3} (hd : (colMat a b c).det ≠ 0) :
    (L * (colMat a b c)⁻¹) *ᵥ a = L *ᵥ ![1, 0, 0] ∧ (L * (colMat a b c)⁻¹) *ᵥ b = L *ᵥ ![0, 1, 0] ∧
      (L * (colMat a b c)⁻¹) *ᵥ c = L *ᵥ ![0, 0, 1] := by
  set T := colMat a b c with hT
  have hiT : T⁻¹ * T = 1 := Matrix.nonsing_inv_mul _ (isUnit_iff_ne_zero.2 hd)
  have back : ∀ v, (L * T⁻¹) *ᵥ (T *ᵥ v) = L *ᵥ v := by
    intro v; rw [Matrix.mulVec_mulVec, Matrix.mul_assoc, hiT, Matrix.mul_one]
  obtain ⟨h1, h2, h3⟩ := colMat_e a b c
  rw [← hT] at h1 h2 h3
  refine ⟨?_, ?_, ?_⟩
  · conv_lhs => rw [← h1]
    exact back _
  · conv_lhs => rw [← h2]
    exact back _
  · conv_lhs => rw [← h3]
    exact back _

/-- The stages of a successful tilt computation. -/
theorem tilt_inv {hkl : V3} {ei ef tt : ℝ} {c : UBConf} {ub R : M3} {n q : V3} (hub : c.ubMat = some ub)
    (hpn : c.planeNormal = some n) (hq : qLab ei ef tt = .ok q) (hne : ub *ᵥ hkl ≠ 0)
    (h : rMatrixWithMinimalTilt hkl ei ef tt c = .ok R) :
    ∃ t2 t3, tiltFrame (ub *ᵥ hkl) n c.inPlaneRef = .ok (t2, t3) ∧ t2 ≠ 0 ∧ t3 ≠ 0 ∧
      (colMat (nrm (ub *ᵥ hkl)) (nrm t2) (nrm t3)).det ≠ 0 ∧
      R = colMat ((qNormFromHkl hkl ub)⁻¹ • q) ((qNormFromHkl hkl ub)⁻¹ • ![q 2, 0, -q 0]) ![0, 1, 0] *
        (colMat (nrm (ub *ᵥ hkl)) (nrm t2) (nrm t3))⁻¹ := by
  have h' := h
  unfold rMatrixWithMinimalTilt at h
  rw [hub, need_some, py_bind_ok, hpn, need_some, py_bind_ok] at h
  obtain ⟨ki, _, h⟩ := py_bind_eq_ok.1 h
  obtain ⟨kf, _, h⟩ := py_bind_eq_ok.1 h
  dsimp only at h
  obtain ⟨q1, _, h⟩ := py_bind_eq_ok.1 h
  obtain ⟨q2, _, h⟩ := py_bind_eq_ok.1 h
  obtain ⟨⟨t2, t3⟩, hf, h⟩ := py_bind_eq_ok.1 h
  dsimp only at h
  obtain ⟨u1, _, h⟩ := py_bind_eq_ok.1 h
  obtain ⟨u2, hu2, h⟩ := py_bind_eq_ok.1 h
  obtain ⟨u3, hu3, h⟩ := py_bind_eq_ok.1 h
  have unit_ne : ∀ {v u : V3}, unit v = .ok u → v ≠ 0 := by
    intro v u hu h0
    unfold unit at hu; rw [if_pos (norm3_eq_zero.2 h0)] at hu; cases hu
  have h2 := unit_ne hu2
  have h3 := unit_ne hu3
  rw [tilt_eval hub hpn hq hne hf h2 h3] at h'
  obtain ⟨ti, hti, h'⟩ := py_bind_eq_ok.1 h'
  have hdet : (colMat (nrm (ub *ᵥ hkl)) (nrm t2) (nrm t3)).det ≠ 0 := by
    intro h0; unfold inv3 at hti; rw [if_pos h0] at hti; cases hti
  rw [inv3_ok hdet] at hti
  cases hti
  cases h'
  exact ⟨t2, t3, hf, h2, h3, hdet, rfl⟩

/-- The part of `b` along `a`, and across it. -/
theorem along_across {a b : V3} (h : cross a b ≠ 0) :
    nrm b = (norm3 (cross a b) / (norm3 a * norm3 b)) • nrm (cross (cross a b) a) + (nrm b ⬝ᵥ nrm a) • nrm a ∧
      0 < norm3 (cross a b) / (norm3 a * norm3 b) ∧
      (norm3 (cross a b) / (norm3 a * norm3 b)) ^ 2 + (nrm b ⬝ᵥ nrm a) ^ 2 = 1 ∧
      nrm a ⬝ᵥ nrm (cross (cross a b) a) = 0 := by
  have ha : a ≠ 0 := by rintro rfl; apply h; apply ext3 <;> simp
  have hb : b ≠ 0 := by rintro rfl; apply h; apply ext3 <;> simp
  have pa := norm3_pos ha
  have pb := norm3_pos hb
  have px := norm3_pos h
  have hperp : cross a b ⬝ᵥ a = 0 := by rw [dot_comm3]; exact dot_cross_left _ _
  have hN : norm3 (cross (cross a b) a) = norm3 (cross a b) * norm3 a := norm3_cross_of_perp hperp
  have hab : nrm b ⬝ᵥ nrm a = (a ⬝ᵥ b) / (norm3 a * norm3 b) := by
    unfold nrm
    rw [smul_dotProduct, dotProduct_smul, smul_eq_mul, smul_eq_mul, dot_comm3 b a]; field_simp
  refine ⟨?_, by positivity, ?_, ?_⟩
  · rw [hab]
    unfold nrm
    rw [hN, cross_cross, smul_sub, smul_smul, smul_smul, smul_sub, smul_smul, smul_smul, smul_smul]
    have e1 : norm3 (cross a b) / (norm3 a * norm3 b) * ((norm3 (cross a b) * norm3 a)⁻¹ * (a ⬝ᵥ a)) = (norm3 b)⁻¹ := by
      rw [← norm3_mul_self]; field_simp
    have e2 : norm3 (cross a b) / (norm3 a * norm3 b) * ((norm3 (cross a b) * norm3 a)⁻¹ * (b ⬝ᵥ a)) =
        (a ⬝ᵥ b) / (norm3 a * norm3 b) * (norm3 a)⁻¹ := by
      rw [dot_comm3 b a]; field_simp
    rw [e1, e2, sub_add_cancel]
  · rw [hab, div_pow, div_pow, ← add_div]
    have : norm3 (cross a b) ^ 2 + (a ⬝ᵥ b) ^ 2 = (norm3 a * norm3 b) ^ 2 := by
      rw [norm3_sq, cross_dot_self, mul_pow, norm3_sq, norm3_sq]; ring
    rw [this]; field_simp
  · apply nrm_dot_of_perp
    exact dot_cross_right _ _

/-- Specification: how far `t` is out of the plane with normal `n`, or off its normal, if that is within the thresholds. -/
noncomputable def Spec.off (t n : V3) : ℝ :=
  if |n ⬝ᵥ t| < 1e-5 then |n ⬝ᵥ t| else if len (cross n t) < 1e-5 then len (cross n t) else 0

theorem Spec.off_nonneg (t n : V3) : 0 ≤ Spec.off t n := by
  unfold Spec.off; split_ifs
  · exact abs_nonneg _
  · exact Real.sqrt_nonneg _
  · exact le_refl 0

theorem Spec.off_lt (t n : V3) : Spec.off t n < 1e-5 := by
  unfold Spec.off; split_ifs
  · assumption
  · assumption
  · norm_num

theorem isRot_mul_inv {L T : M3} (hL : IsRot L) (hT : IsRot T) : IsRot (L * T⁻¹) := by
  rw [isOrth_inv hT.1]; exact isRot_mul hL (isRot_transpose hT)

theorem perp_part {n t r : V3} (hn : n ⬝ᵥ n = 1) (hr : r ⬝ᵥ n = 0) : |r ⬝ᵥ t| ≤ norm3 r * norm3 (cross n t) := by
  have e : r ⬝ᵥ t = cross n r ⬝ᵥ cross n t := by
    have : cross n r ⬝ᵥ cross n t = (n ⬝ᵥ n) * (r ⬝ᵥ t) - (n ⬝ᵥ t) * (r ⬝ᵥ n) := by
      simp [dot3]; ring
    rw [this, hn, hr]; ring
  have hnr : n ⬝ᵥ r = 0 := by rw [dot_comm3]; exact hr
  have hnorm : norm3 (cross n r) = norm3 r := by
    rw [norm3_cross_of_perp hnr]; unfold norm3; rw [hn, Real.sqrt_one, one_mul]
  rw [e, ← hnorm]
  exact abs_dot_le _ _

/-- Close to the plane: the axis that is off is the normal. -/
theorem tilt_skew_plane {hkl : V3} {ei ef tt : ℝ} {c : UBConf} {ub R : M3} {n q : V3} (hub : c.ubMat = some ub)
    (hpn : c.planeNormal = some n) (hn : len n = 1)
    (hq : qLab ei ef tt = .ok q) (hlen : len q = 2 * π * len (ub *ᵥ hkl)) (hne : ub *ᵥ hkl ≠ 0)
    (h : rMatrixWithMinimalTilt hkl ei ef tt c = .ok R) (hc1 : |n ⬝ᵥ (ub *ᵥ hkl)| < 1e-5) :
    ∃ S w s, Skew S R (nrm (ub *ᵥ hkl)) w (n ⬝ᵥ nrm (ub *ᵥ hkl)) s (1 / s) ∧
      S *ᵥ nrm (ub *ᵥ hkl) = (qNormFromHkl hkl ub)⁻¹ • q ∧ S *ᵥ w = ![0, 1, 0] ∧
      n = s • w + (n ⬝ᵥ nrm (ub *ᵥ hkl)) • nrm (ub *ᵥ hkl) := by
  have hpi := Real.pi_pos
  obtain ⟨t2, t3, hf, h2, h3, hdet, hR⟩ := tilt_inv hub hpn hq hne h
  have hnn : n ⬝ᵥ n = 1 := by rw [← norm3_mul_self, norm3_eq_len, hn, one_mul]
  have hn1 : norm3 n = 1 := by rw [norm3_eq_len, hn]
  have hnrm : nrm n = n := by unfold nrm; rw [hn1, inv_one, one_smul]
  have hQ : qNormFromHkl hkl ub ≠ 0 := by
    rw [qLab_norm_eq]; have := norm3_pos hne; positivity
  have hlQ : len q = qNormFromHkl hkl ub := by rw [hlen, qLab_norm_eq, norm3_eq_len]
  have hy : q 1 = 0 := by
    obtain ⟨ki, kf, _, _, hqe⟩ := qLab_inv hq
    rw [hqe]; rfl
  set Q := qNormFromHkl hkl ub with hQdef
  have hLm : colMat (Q⁻¹ • q) (Q⁻¹ • ![q 2, 0, -q 0]) ![0, 1, 0] =
      colMat (Q⁻¹ • q) ![(Q⁻¹ • q) 2, 0, -(Q⁻¹ • q) 0] ![0, 1, 0] := by
    congr 1
    apply ext3 <;> simp
  have hL : IsRot (colMat (Q⁻¹ • q) (Q⁻¹ • ![q 2, 0, -q 0]) ![0, 1, 0]) := by
    rw [hLm]
    exact labFrame_rot (by simp [hy]) (qhat_unit hQ hlQ)
  obtain ⟨l1, l2, l3⟩ := colMat_e (Q⁻¹ • q) (Q⁻¹ • ![q 2, 0, -q 0]) ![0, 1, 0]
  set L := colMat (Q⁻¹ • q) (Q⁻¹ • ![q 2, 0, -q 0]) ![0, 1, 0] with hLdef
  set t := ub *ᵥ hkl with ht
  have hee := nrm_dot_self hne
  have hL1 : (L *ᵥ ![1, 0, 0]) 1 = 0 := by rw [l1]; simp [hy]
  obtain ⟨r1, r2, r3⟩ := frame_img (L := L) hdet
  rw [← hR] at r1 r2 r3
  unfold tiltFrame at hf
  rw [if_pos (by rw [dot_comm3]; exact hc1)] at hf
  cases hf
  have hx : cross t n ≠ 0 := by
    intro h0; apply h2; rw [cross_anticomm', h0, neg_zero]
  obtain ⟨a1, a2, a3, a4⟩ := along_across hx
  have hcc : cross (cross t n) t = (1:ℝ) • cross t (cross n t) := by
    rw [one_smul]; apply ext3 <;> simp <;> ring
  have hT0 : IsRot (colMat (nrm t) (nrm (cross n t)) (nrm (cross (cross t n) t))) :=
    frame_rot hne h2 (dot_cross_right _ _) one_pos hcc
  set w := nrm (cross (cross t n) t) with hw
  have hww : w ⬝ᵥ w = 1 := nrm_dot_self (triple_facts hx).2.1
  obtain ⟨s1, s2, s3⟩ := frame_img (L := L) (isRot_det_ne hT0)
  have hS := isRot_mul_inv hL hT0
  set S := L * (colMat (nrm t) (nrm (cross n t)) w)⁻¹ with hSdef
  have himg := skew_img (R := R) (S := S) hT0.1 a2.ne' (r1.trans s1.symm) (r2.trans s2.symm)
    (by rw [← a1, r3, s3])
  have hrow := (skew_row hS himg (by rw [s1]; exact hL1)).2 (by rw [s3, l3])
  rw [hnrm] at a1 a3 himg
  exact ⟨S, w, _, ⟨hS, hee, hww, a4, a2, a3, by positivity, himg, hrow⟩, by rw [s1, l1], by rw [s3, l3], a1⟩

/-- The matrix decomposed into motor positions differs from a rotation at most by an axis being slightly off. -/
theorem tilt_skew {hkl : V3} {ei ef tt : ℝ} {c : UBConf} {ub R : M3} {n q : V3} (hub : c.ubMat = some ub)
    (hpn : c.planeNormal = some n) (hn : len n = 1) (href : ∀ r, c.inPlaneRef = some r → r ⬝ᵥ n = 0)
    (hq : qLab ei ef tt = .ok q) (hlen : len q = 2 * π * len (ub *ᵥ hkl)) (hne : ub *ᵥ hkl ≠ 0)
    (h : rMatrixWithMinimalTilt hkl ei ef tt c = .ok R) :
    ∃ S w δ s κ, Skew S R (nrm (ub *ᵥ hkl)) w δ s κ ∧ S *ᵥ nrm (ub *ᵥ hkl) = (qNormFromHkl hkl ub)⁻¹ • q ∧
      |δ| * norm3 (ub *ᵥ hkl) ≤ Spec.off (ub *ᵥ hkl) n := by
  have hpi := Real.pi_pos
  obtain ⟨t2, t3, hf, h2, h3, hdet, hR⟩ := tilt_inv hub hpn hq hne h
  have hnn : n ⬝ᵥ n = 1 := by rw [← norm3_mul_self, norm3_eq_len, hn, one_mul]
  have hn1 : norm3 n = 1 := by rw [norm3_eq_len, hn]
  have hnrm : nrm n = n := by unfold nrm; rw [hn1, inv_one, one_smul]
  have hQ : qNormFromHkl hkl ub ≠ 0 := by
    rw [qLab_norm_eq]; have := norm3_pos hne; positivity
  have hlQ : len q = qNormFromHkl hkl ub := by rw [hlen, qLab_norm_eq, norm3_eq_len]
  have hy : q 1 = 0 := by
    obtain ⟨ki, kf, _, _, hqe⟩ := qLab_inv hq
    rw [hqe]; rfl
  set Q := qNormFromHkl hkl ub with hQdef
  have hLm : colMat (Q⁻¹ • q) (Q⁻¹ • ![q 2, 0, -q 0]) ![0, 1, 0] =
      colMat (Q⁻¹ • q) ![(Q⁻¹ • q) 2, 0, -(Q⁻¹ • q) 0] ![0, 1, 0] := by
    congr 1
    apply ext3 <;> simp
  have hL : IsRot (colMat (Q⁻¹ • q) (Q⁻¹ • ![q 2, 0, -q 0]) ![0, 1, 0]) := by
    rw [hLm]
    exact labFrame_rot (by simp [hy]) (qhat_unit hQ hlQ)
  obtain ⟨l1, l2, l3⟩ := colMat_e (Q⁻¹ • q) (Q⁻¹ • ![q 2, 0, -q 0]) ![0, 1, 0]
  set L := colMat (Q⁻¹ • q) (Q⁻¹ • ![q 2, 0, -q 0]) ![0, 1, 0] with hLdef
  set t := ub *ᵥ hkl with ht
  have hee := nrm_dot_self hne
  have hL1 : (L *ᵥ ![1, 0, 0]) 1 = 0 := by rw [l1]; simp [hy]
  have hL2 : (L *ᵥ ![0, 1, 0]) 1 = 0 := by rw [l2]; simp
  obtain ⟨r1, r2, r3⟩ := frame_img (L := L) hdet
  rw [← hR] at r1 r2 r3
  unfold tiltFrame at hf
  by_cases hc1 : |t ⬝ᵥ n| < 1e-5
  · -- close to the plane
    have hc1' : |n ⬝ᵥ t| < 1e-5 := by rw [dot_comm3]; exact hc1
    obtain ⟨S, w, s, sk, hSe, _, _⟩ := tilt_skew_plane hub hpn hn hq hlen hne h hc1'
    refine ⟨S, w, _, _, _, sk, hSe, ?_⟩
    have e : |n ⬝ᵥ nrm t| * norm3 t = |n ⬝ᵥ t| := by
      unfold nrm
      rw [dotProduct_smul, smul_eq_mul, abs_mul, abs_of_pos (inv_pos.2 (norm3_pos hne))]
      have := (norm3_pos hne).ne'
      field_simp
    unfold Spec.off
    rw [e, if_pos hc1']
  rw [if_neg hc1] at hf
  have hoff : Spec.off t n = if len (cross n t) < 1e-5 then len (cross n t) else 0 := by
    unfold Spec.off; rw [if_neg (by rw [dot_comm3]; exact hc1)]
  by_cases hc2 : norm3 (cross n t) < 1e-5
  · -- close to the normal
    rw [if_pos hc2] at hf
    rcases hr : c.inPlaneRef with _ | r
    · rw [hr] at hf; cases hf
    rw [hr] at hf
    cases hf
    obtain ⟨a1, a2, a3, a4⟩ := along_across h3
    have hT0 := triple_rot h3
    set w := nrm (cross (cross t t2) t) with hw
    have hww : w ⬝ᵥ w = 1 := nrm_dot_self (triple_facts h3).2.1
    obtain ⟨s1, s2, s3⟩ := frame_img (L := L) (isRot_det_ne hT0)
    have hS := isRot_mul_inv hL hT0
    set S := L * (colMat (nrm t) w (nrm (cross t t2)))⁻¹ with hSdef
    have hT0' : IsOrth (colMat (nrm t) (nrm (cross t t2)) w) := by
      apply colMat_orth hee (nrm_dot_self h3) hww
      · exact nrm_dot_of_perp (dot_cross_left _ _)
      · exact a4
      · exact nrm_dot_of_perp (dot_cross_left _ _)
    have himg := skew_img (R := R) (S := S) hT0' a2.ne' (r1.trans s1.symm) (r3.trans s3.symm)
      (by rw [← a1, r2, s2])
    have hrow := (skew_row hS himg (by rw [s1]; exact hL1)).1 (by rw [s2]; exact hL2)
    refine ⟨S, w, _, _, _, ⟨hS, hee, hww, a4, a2, a3, one_pos, himg, hrow⟩, by rw [s1, l1], ?_⟩
    have e : |nrm t2 ⬝ᵥ nrm t| * norm3 t = |t2 ⬝ᵥ t| / norm3 t2 := by
      unfold nrm
      rw [smul_dotProduct, dotProduct_smul, smul_eq_mul, smul_eq_mul, abs_mul, abs_mul, abs_of_pos (inv_pos.2 (norm3_pos hne)),
        abs_of_pos (inv_pos.2 (norm3_pos h2))]
      have := (norm3_pos hne).ne'
      field_simp
    rw [e, hoff, ← norm3_eq_len, if_pos hc2, div_le_iff₀ (norm3_pos h2), mul_comm]
    exact perp_part hnn (href _ hr)
  · -- clearly neither
    rw [if_neg hc2] at hf
    cases hf
    have hT0 : IsRot (colMat (nrm t) (nrm (cross n t)) (nrm (cross t (cross n t)))) :=
      frame_rot hne h2 (dot_cross_right _ _) one_pos (one_smul _ _).symm
    have hRr : IsRot R := by rw [hR]; exact isRot_mul_inv hL hT0
    refine ⟨R, nrm (cross n t), 0, 1, 1, ⟨hRr, hee, nrm_dot_self h2, nrm_dot_of_perp (dot_cross_right _ _), one_pos,
      by norm_num, one_pos, fun v => by simp, fun j => by rw [one_mul]⟩, by rw [r1, l1], ?_⟩
    rw [hoff, abs_zero, zero_mul, ← norm3_eq_len, if_neg hc2]

/-- The matrix of the positions computed for a matrix. -/
theorem rMat_rebuilt {g : Goni} {R : M3} {tt : ℝ} {a : MotorAngles} (ha : g.anglesFromRMat R tt = .ok a) :
    ∃ R' x, g.rMat a = .ok R' ∧ a.twoTheta = tt ∧ a.sgl = some x ∧
      (0 < R 0 0 ^ 2 + R 2 0 ^ 2 → cos (deg2rad x) =
          √(R 0 0 ^ 2 + R 2 0 ^ 2) / √(√(R 0 0 ^ 2 + R 2 0 ^ 2) ^ 2 + R 1 0 ^ 2) ∧
        (0 < R 1 1 ^ 2 + R 1 2 ^ 2 → R' = rebuilt R)) ∧
      (R 0 0 ^ 2 + R 2 0 ^ 2 = 0 → R 1 0 ≠ 0 → cos (deg2rad x) = 0) ∧ R' 1 0 ^ 2 = 1 - cos (deg2rad x) ^ 2 := by
  obtain ⟨s0, s1, s2, hs, hm, rfl, hv⟩ := anglesFromRMat_cases ha
  obtain ⟨q0, q1, q2⟩ := senses_sq hs
  have hrm : g.rMat (yzxAngles s0 s1 s2 R tt) = .ok (rotY (rad2deg (s0 * arctan2 (-R 2 0) (R 0 0)) * s0) *
      (rotZ (rad2deg (s1 * arctan2 (R 1 0) √(R 0 0 ^ 2 + R 2 0 ^ 2)) * s1) *
        rotX (rad2deg (s2 * arctan2 (-R 1 2) (R 1 1)) * s2))) := by
    unfold Goni.rMat; rw [hs, hm]; rfl
  have hcos : ∀ y, cos (deg2rad (rad2deg (s1 * y))) = cos y := by
    intro y
    rw [deg2rad_rad2deg]
    have : (s1 - 1) * (s1 + 1) = 0 := by linear_combination q1
    rcases mul_eq_zero.1 this with h | h
    · rw [show s1 = 1 by linarith, one_mul]
    · rw [show s1 = -1 by linarith, neg_one_mul, Real.cos_neg]
  refine ⟨_, _, hrm, rfl, rfl, ?_, ?_, ?_⟩
  · intro hpos
    rw [hcos]
    have hd0 : 0 < √(R 0 0 ^ 2 + R 2 0 ^ 2) := Real.sqrt_pos.2 hpos
    have k2 := cos_arctan2 (x := √(R 0 0 ^ 2 + R 2 0 ^ 2)) (y := R 1 0) (by positivity)
    refine ⟨k2, fun hm => ?_⟩
    rw [yzx_entries]
    have cancel : ∀ {s x : ℝ}, s * s = 1 → deg2rad (rad2deg (s * x) * s) = x := by
      intro s x hs
      have : rad2deg (s * x) * s = rad2deg x := by
        unfold rad2deg; linear_combination (x * (180 / π)) * hs
      rw [this, deg2rad_rad2deg]
    rw [cancel q0, cancel q1, cancel q2]
    have k1 := cos_arctan2 (x := R 0 0) (y := -R 2 0) (by rw [neg_sq]; exact hpos)
    have k1' := sin_arctan2 (R 0 0) (-R 2 0)
    have k2' := sin_arctan2 √(R 0 0 ^ 2 + R 2 0 ^ 2) (R 1 0)
    have k3 := cos_arctan2 (x := R 1 1) (y := -R 1 2) (by rw [neg_sq]; linarith)
    have k3' := sin_arctan2 (R 1 1) (-R 1 2)
    rw [neg_sq] at k1 k1' k3 k3'
    rw [k1, k1', k2, k2', k3, k3']
    rfl
  · intro h0 h1
    rw [hcos, h0, Real.sqrt_zero, cos_arctan2 (by positivity), zero_div]
  · rw [hcos, yzx_entries]
    have : rad2deg (s1 * arctan2 (R 1 0) √(R 0 0 ^ 2 + R 2 0 ^ 2)) * s1 = rad2deg (arctan2 (R 1 0) √(R 0 0 ^ 2 + R 2 0 ^ 2)) := by
      unfold rad2deg; linear_combination (arctan2 (R 1 0) √(R 0 0 ^ 2 + R 2 0 ^ 2) * (180 / π)) * q1
    simp [this, deg2rad_rad2deg, Real.sin_sq]

/-- On a Huber table the positions observe a reflection close to the one asked for. -/
theorem huber_near {t : Tas} {c : UBConf} {ub : M3} {n hkl : V3} {en ei ef : ℝ} {a : MotorAngles}
    (hcons : Spec.Consistent t.sample c ub) (hpn : c.planeNormal = some n) (hn : len n = 1)
    (href : ∀ r, c.inPlaneRef = some r → r ⬝ᵥ n = 0) (hmode : t.goni.mode = .ok none)
    (he : t.getEiEf none none en = .ok (ei, ef)) (h : t.motorAngles hkl en = .ok a) :
    ∃ hkl' x, Spec.ObservedAt t.goni ub ei ef hkl' a ∧ a.sgl = some x ∧ 0 ≤ cos (deg2rad x) ∧
      len (ub *ᵥ hkl' - ub *ᵥ hkl) * cos (deg2rad x) ≤ 6 * Spec.off (ub *ᵥ hkl) n := by
  have hpi := Real.pi_pos
  obtain ⟨hc, hub, hd, b, hb, hG⟩ := hcons
  obtain ⟨tt, psi, ei', ef', c', htt, hpsi, he', hc', _, hcase⟩ := motorAngles_cases h
  rw [he] at he'; cases he'
  rw [hc] at hc'; cases hc'
  obtain ⟨ki, kf, hki, hkf, kip, kfp, Qp, _, hq, e1, e2, _⟩ := C13_q_lab hb he htt hpsi
  rw [e1, e2] at hq
  have hQe : qNormFromHkl hkl b = 2 * π * len (ub *ᵥ hkl) := by
    rw [qLab_norm_eq, gram_norm hG, norm3_eq_len]
  have hne : ub *ᵥ hkl ≠ 0 := by
    intro h0
    rw [hQe, h0] at Qp
    simp [Spec.len] at Qp
  have hlen := len_polar (qNormFromHkl hkl b) (deg2rad psi) Qp.le
  rw [hQe] at hlen hq
  set q : V3 := ![2 * π * len (ub *ᵥ hkl) * Real.sin (deg2rad psi), 0, 2 * π * len (ub *ᵥ hkl) * Real.cos (deg2rad psi)] with hqd
  rcases hcase with ⟨_, R, hr, ha⟩ | ⟨hm, _⟩
  swap
  · rw [hmode] at hm; cases hm
  obtain ⟨S, w, δ, s, κ, sk, hSe, hoff⟩ := tilt_skew hub hpn hn href hq hlen hne hr
  obtain ⟨R', x, hR', htw, hx, hpos, hzero, _⟩ := rMat_rebuilt ha
  have hRr := (C06_r_mat_rotation hR').1
  have h10 : R 0 0 ^ 2 + R 2 0 ^ 2 = 0 → R 1 0 ≠ 0 := by
    intro hg h10
    have := sk.col.2
    rw [show R 0 0 ^ 2 + R 1 0 ^ 2 + R 2 0 ^ 2 = 0 by rw [h10]; linarith, mul_zero] at this
    have := pow_pos sk.s0 2
    linarith
  have hnp := norm3_pos hne
  have hQ : qNormFromHkl hkl ub = 2 * π * norm3 (ub *ᵥ hkl) := qLab_norm_eq
  have hq2 : q = (2 * π) • (S *ᵥ (ub *ᵥ hkl)) := by
    conv_rhs => rw [← norm3_smul_nrm hne, Matrix.mulVec_smul, hSe, smul_smul, smul_smul, ← hQ]
    rw [mul_inv_cancel₀ (by rw [hQ]; positivity), one_smul]
  have hback : ub *ᵥ (ub⁻¹ *ᵥ (R'ᵀ *ᵥ (S *ᵥ (ub *ᵥ hkl)))) = R'ᵀ *ᵥ (S *ᵥ (ub *ᵥ hkl)) := by
    rw [Matrix.mulVec_mulVec, Matrix.mul_nonsing_inv _ (isUnit_iff_ne_zero.2 hd), Matrix.one_mulVec]
  refine ⟨ub⁻¹ *ᵥ (R'ᵀ *ᵥ (S *ᵥ (ub *ᵥ hkl))), x, ⟨R', q, hR', by rw [htw]; exact hq, ?_⟩, hx, ?_, ?_⟩
  · rw [hback, mulVec_transpose_orth hRr.1]; exact hq2
  · rcases (add_nonneg (sq_nonneg (R 0 0)) (sq_nonneg (R 2 0))).lt_or_eq with hg | hg
    · rw [(hpos hg).1]; positivity
    · rw [hzero hg.symm (h10 hg.symm)]
  · rw [hback, ← norm3_eq_len, ← norm3_mulVec_orth hRr.1, Matrix.mulVec_sub, mulVec_transpose_orth hRr.1]
    have hsc : S *ᵥ (ub *ᵥ hkl) - R' *ᵥ (ub *ᵥ hkl) =
        (-norm3 (ub *ᵥ hkl)) • (R' *ᵥ nrm (ub *ᵥ hkl) - S *ᵥ nrm (ub *ᵥ hkl)) := by
      conv_lhs => rw [← norm3_smul_nrm hne, Matrix.mulVec_smul, Matrix.mulVec_smul]
      rw [neg_smul, smul_sub, neg_sub]
    rw [hsc, norm3_smul, abs_neg, abs_of_pos hnp]
    have key : norm3 (R' *ᵥ nrm (ub *ᵥ hkl) - S *ᵥ nrm (ub *ᵥ hkl)) * cos (deg2rad x) ≤ 6 * |δ| := by
      rcases (add_nonneg (sq_nonneg (R 0 0)) (sq_nonneg (R 2 0))).lt_or_eq with hg | hg
      · obtain ⟨hcx, hreb⟩ := hpos hg
        rw [hcx]
        exact sk.bound hRr.1 hreb hg
      · rw [hzero hg.symm (h10 hg.symm), mul_zero]
        positivity
    have := mul_le_mul_of_nonneg_left key hnp.le
    linarith

/-- **C09** Every request on a Huber table, without exception: the motor positions computed at zero energy transfer convert back
to a reflection, and this is as close to the one asked for as that one is to the plane or to its normal, if it is within the
thresholds of the code (so closer than `6e-5 / cos sgl`, in the units of `UB·hkl`), and equal to it otherwise. -/
theorem C09_huber_close {t : Tas} {c : UBConf} {ub : M3} {n hkl : V3} {a : MotorAngles}
    (hcons : Spec.Consistent t.sample c ub) (hpn : c.planeNormal = some n) (hn : len n = 1)
    (href : ∀ r, c.inPlaneRef = some r → r ⬝ᵥ n = 0) (hmode : t.goni.mode = .ok none)
    (h : t.motorAngles hkl = .ok a) :
    ∃ hkl' x, t.hklFromAngles a = .ok (some hkl') ∧ a.sgl = some x ∧ 0 ≤ cos (deg2rad x) ∧
      len (ub *ᵥ hkl' - ub *ᵥ hkl) * cos (deg2rad x) ≤ 6 * Spec.off (ub *ᵥ hkl) n ∧ Spec.off (ub *ᵥ hkl) n < 1e-5 := by
  obtain ⟨tt, psi, ei, ef, c', _, _, he, _⟩ := motorAngles_cases h
  obtain ⟨hkl', x, o, hx, hx0, hb⟩ := huber_near hcons hpn hn href hmode he h
  exact ⟨hkl', x, hkl_back hcons.1 hcons.2.1 hcons.2.2.1 he o, hx, hx0, hb, Spec.off_lt _ _⟩

/-- When the rebuilt rotation reaches the horizontal exactly. -/
theorem Skew.exact {S R R' : M3} {e w : V3} {δ s : ℝ} (h : Skew S R e w δ s (1 / s)) (hw : S *ᵥ w = ![0, 1, 0])
    (he : (S *ᵥ e) 1 = 0) (hg : 0 < R 0 0 ^ 2 + R 2 0 ^ 2)
    (hreb : 0 < R 1 1 ^ 2 + R 1 2 ^ 2 → R' = rebuilt R) (hδ : δ ≠ 0) (hex : (R' *ᵥ e) 1 = 0) (he0 : e 0 ≠ 0) :
    w 0 = 0 ∨ δ * (2 * w 0 ^ 2 - 1) = 2 * s * e 0 * w 0 := by
  have hlen := h.len
  obtain ⟨hS, hee, hww, hew, hs, hsd, hκ, himg, hrow⟩ := h
  have hs0 := hs.ne'
  have hSw : S 1 0 = w 0 := by
    have h1 := dot_mulVec_orth hS.1 w ![1, 0, 0]
    rw [hw, dot3, dot3] at h1
    simp [mulVec3] at h1
    exact h1
  have r1 := (orth_rows hS.1).2.1
  have hSm : 0 < S 1 1 ^ 2 + S 1 2 ^ 2 := by
    rcases (add_nonneg (sq_nonneg (S 1 1)) (sq_nonneg (S 1 2))).lt_or_eq with h | h
    · exact h
    · exfalso
      obtain ⟨z1, z2⟩ := sq_sum_zero h.symm
      rw [mulVec3, z1, z2] at he
      rw [z1, z2] at r1
      have : S 1 0 = 0 := by
        have : S 1 0 * e 0 = 0 := by linarith
        exact (mul_eq_zero.1 this).resolve_right he0
      rw [this] at r1
      norm_num at r1
  have hRm2 : R 1 1 ^ 2 + R 1 2 ^ 2 = (1 / s) ^ 2 * (S 1 1 ^ 2 + S 1 2 ^ 2) := by rw [hrow, hrow]; ring
  have hRm : 0 < R 1 1 ^ 2 + R 1 2 ^ 2 := by rw [hRm2]; positivity
  rw [hreb hRm, rebuilt_act] at hex
  simp only [yzAct, xAct] at hex
  simp at hex
  set d := √(R 0 0 ^ 2 + R 2 0 ^ 2) with hd
  have hd0 : 0 < d := Real.sqrt_pos.2 hg
  have hdd : d ^ 2 = R 0 0 ^ 2 + R 2 0 ^ 2 := Real.sq_sqrt hg.le
  set m := √(R 1 1 ^ 2 + R 1 2 ^ 2) with hm
  have hm0 : 0 < m := Real.sqrt_pos.2 hRm
  have hmm : m ^ 2 = R 1 1 ^ 2 + R 1 2 ^ 2 := Real.sq_sqrt hRm.le
  have hN0 : 0 < √(d ^ 2 + R 1 0 ^ 2) := Real.sqrt_pos.2 (by positivity)
  set N := √(d ^ 2 + R 1 0 ^ 2) with hN
  have hRe : R 1 0 * e 0 + R 1 1 * e 1 + R 1 2 * e 2 = 0 := by
    rw [hrow, hrow, hrow]
    rw [mulVec3] at he
    linear_combination (1 / s) * he
  have key : R 1 0 * (m - d) = 0 := by
    have e1 : R 1 0 * e 0 * m + d * (R 1 1 * e 1 + R 1 2 * e 2) = 0 := by
      have := hex
      field_simp at this
      linear_combination this
    have : e 0 * (R 1 0 * (m - d)) = 0 := by linear_combination e1 - d * hRe
    exact (mul_eq_zero.1 this).resolve_left he0
  have hR10 : R 1 0 = 1 / s * w 0 := by rw [hrow, hSw]
  rcases mul_eq_zero.1 key with h0 | h0
  · left
    rw [hR10] at h0
    exact (mul_eq_zero.1 h0).resolve_left (by positivity)
  · right
    have hmd : m ^ 2 = d ^ 2 := by rw [show m = d by linarith]
    rw [hmm, hRm2, hdd] at hmd
    have hone : s ^ 2 * (R 0 0 ^ 2 + R 1 0 ^ 2 + R 2 0 ^ 2) = 1 := by
      have h2 : s ^ 2 * (1 / s) ^ 2 = 1 := by field_simp
      have h3 : R 1 0 ^ 2 = (1 / s) ^ 2 * S 1 0 ^ 2 := by rw [hR10, hSw]; ring
      linear_combination (-s ^ 2) * hmd + s ^ 2 * h3 + (s ^ 2 * (1 / s) ^ 2) * r1 + h2
    rw [hone] at hlen
    have : δ * (δ * (2 * w 0 ^ 2 - 1) - 2 * s * e 0 * w 0) = 0 := by linear_combination -hlen - hsd
    have := (mul_eq_zero.1 this).resolve_left hδ
    linarith

/-- **C09**, negation close to the plane: if the reflection is out of the plane, but by less than the threshold of the code, and
the plane is inclined to the axis of the third motor as well as the reflection (so that the tilts matter), then the motor positions
do not convert back to it. -/
theorem C09_near_plane_fails {t : Tas} {c : UBConf} {ub : M3} {n hkl : V3} {a : MotorAngles}
    (hcons : Spec.Consistent t.sample c ub) (hpn : c.planeNormal = some n) (hn : len n = 1)
    (hmode : t.goni.mode = .ok none) (h : t.motorAngles hkl = .ok a) (hout : n ⬝ᵥ (ub *ᵥ hkl) ≠ 0)
    (hnear : |n ⬝ᵥ (ub *ᵥ hkl)| < 1e-5) (hincl : 3 * |n ⬝ᵥ (ub *ᵥ hkl)| < 2 * |(ub *ᵥ hkl) 0 * n 0|) :
    t.hklFromAngles a ≠ .ok (some hkl) := by
  intro hback
  have hpi := Real.pi_pos
  obtain ⟨hc, hub, hd, b, hb, hG⟩ := hcons
  obtain ⟨tt, psi, ei, ef, c', htt, hpsi, he, hc', _, hcase⟩ := motorAngles_cases h
  rw [hc] at hc'; cases hc'
  obtain ⟨R1, q1, hR1, hq1, hobs⟩ := hkl_back_inv hc hub he hback
  obtain ⟨ki, kf, hki, hkf, kip, kfp, Qp, _, hq, e1, e2, _⟩ := C13_q_lab hb he htt hpsi
  rw [e1, e2] at hq
  have hQe : qNormFromHkl hkl b = 2 * π * len (ub *ᵥ hkl) := by
    rw [qLab_norm_eq, gram_norm hG, norm3_eq_len]
  have hne : ub *ᵥ hkl ≠ 0 := by
    intro h0
    rw [hQe, h0] at Qp
    simp [Spec.len] at Qp
  have hlen := len_polar (qNormFromHkl hkl b) (deg2rad psi) Qp.le
  rw [hQe] at hlen hq
  rcases hcase with ⟨_, R, hr, ha⟩ | ⟨hm, _⟩
  swap
  · rw [hmode] at hm; cases hm
  obtain ⟨S, w, s, sk, hSe, hSw, hnw⟩ := tilt_skew_plane hub hpn hn hq hlen hne hr hnear
  obtain ⟨R', x, hR', htw, hx, hpos, hzero, hsin⟩ := rMat_rebuilt ha
  rw [hR'] at hR1
  have hRR := Except.ok.inj hR1
  rw [← hRR] at hobs
  have hRr := (C06_r_mat_rotation hR').1
  have hnp := norm3_pos hne
  have hS1 : (S *ᵥ nrm (ub *ᵥ hkl)) 1 = 0 := by rw [hSe]; simp
  have hex : (R' *ᵥ nrm (ub *ᵥ hkl)) 1 = 0 := by
    rw [htw, hq] at hq1
    rw [← Except.ok.inj hq1] at hobs
    have := congrFun hobs 1
    simp only [Pi.smul_apply, smul_eq_mul] at this
    have h0 : (R' *ᵥ (ub *ᵥ hkl)) 1 = 0 := by
      have h1 : (2 * π) * (R' *ᵥ (ub *ᵥ hkl)) 1 = 0 := by rw [← this]; simp
      exact (mul_eq_zero.1 h1).resolve_left (by positivity)
    unfold nrm
    rw [Matrix.mulVec_smul, Pi.smul_apply, h0, smul_zero]
  have hte : ∀ i, (ub *ᵥ hkl) i = norm3 (ub *ᵥ hkl) * nrm (ub *ᵥ hkl) i := by
    intro i; conv_lhs => rw [← norm3_smul_nrm hne]
    rfl
  have hde : n ⬝ᵥ (ub *ᵥ hkl) = norm3 (ub *ᵥ hkl) * (n ⬝ᵥ nrm (ub *ᵥ hkl)) := by
    conv_lhs => rw [← norm3_smul_nrm hne, dotProduct_smul, smul_eq_mul]
  set e := nrm (ub *ᵥ hkl) with hedef
  set δ := n ⬝ᵥ e with hδdef
  have hee : e ⬝ᵥ e = 1 := nrm_dot_self hne
  have hδ0 : δ ≠ 0 := by
    intro h0; apply hout; rw [hde, h0, mul_zero]
  have hin : 3 * |δ| < 2 * |e 0 * n 0| := by
    rw [hte, hde, abs_mul, mul_assoc, abs_mul (norm3 _), abs_of_pos hnp] at hincl
    by_contra hc
    have := mul_le_mul_of_nonneg_left (not_lt.1 hc) hnp.le
    linarith
  have he0 : e 0 ≠ 0 := by
    intro h0
    rw [h0, zero_mul, abs_zero] at hin
    linarith [abs_nonneg δ]
  have he1 : e 0 ^ 2 ≤ 1 := unit_coord hee
  have hn0 : n 0 = s * w 0 + δ * e 0 := by
    have := congrFun hnw 0
    simpa using this
  have hg : 0 < R 0 0 ^ 2 + R 2 0 ^ 2 := by
    rcases (add_nonneg (sq_nonneg (R 0 0)) (sq_nonneg (R 2 0))).lt_or_eq with hg | hg
    · exact hg
    · exfalso
      have h10 : R 1 0 ≠ 0 := by
        intro h10
        have := sk.col.2
        rw [show R 0 0 ^ 2 + R 1 0 ^ 2 + R 2 0 ^ 2 = 0 by rw [h10]; linarith, mul_zero] at this
        have := pow_pos sk.s0 2
        linarith
      rw [hzero hg.symm h10] at hsin
      have r1 := (orth_rows hRr.1).2.1
      obtain ⟨z1, z2⟩ := sq_sum_zero (x := R' 1 1) (y := R' 1 2) (by linarith)
      rw [mulVec3, z1, z2] at hex
      have : R' 1 0 * e 0 = 0 := by linarith
      have := (mul_eq_zero.1 this).resolve_right he0
      rw [this] at hsin
      norm_num at hsin
  have hδe : |δ * e 0 ^ 2| ≤ |δ| := by
    rw [abs_mul, abs_of_nonneg (sq_nonneg (e 0))]
    exact mul_le_of_le_one_right (abs_nonneg _) he1
  have hen : e 0 * n 0 = s * e 0 * w 0 + δ * e 0 ^ 2 := by rw [hn0]; ring
  rcases sk.exact hSw hS1 hg (hpos hg).2 hδ0 hex he0 with hw0 | hw0
  · rw [hen, hw0, mul_zero, zero_add] at hin
    linarith [abs_nonneg δ]
  · have hw1 : |2 * w 0 ^ 2 - 1| ≤ 1 := by
      have := unit_coord sk.ww
      rw [abs_le]; constructor <;> linarith [sq_nonneg (w 0)]
    have h1 : |2 * (s * e 0 * w 0)| ≤ |δ| := by
      rw [show 2 * (s * e 0 * w 0) = δ * (2 * w 0 ^ 2 - 1) by linarith, abs_mul]
      exact mul_le_of_le_one_right (abs_nonneg _) hw1
    rw [abs_mul, abs_of_pos (two_pos : (0:ℝ) < 2)] at h1
    have := abs_add_le (s * e 0 * w 0) (δ * e 0 ^ 2)
    rw [← hen] at this
    linarith

end Tavi
