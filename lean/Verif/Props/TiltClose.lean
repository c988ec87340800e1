import Verif.Props.NearTilt

/-! # C12, continued: what is returned close to the scattering plane -/

namespace Tavi

open Matrix Real
open Spec (IsRot IsOrth PossibleCell IsAngleDeg len)

/-- How far the matrix is from the rotation. -/
theorem Skew.near {S R : M3} {e w : V3} {δ s κ : ℝ} (h : Skew S R e w δ s κ) (hδ : 2 * |δ| ≤ 1) (v : V3) :
    norm3 (R *ᵥ v - S *ᵥ v) ≤ 2 * |δ| * norm3 v := by
  obtain ⟨hS, he, hw, hew, hs, hsd, -, himg, -⟩ := h
  have hδ2 : 4 * δ ^ 2 ≤ 1 := by
    have := abs_nonneg δ
    rw [← sq_abs δ]; nlinarith
  have hs1 : s ≤ 1 := by nlinarith [sq_nonneg δ]
  have hs2 : 1 / 2 < s := by nlinarith
  have hdiff : R *ᵥ v - S *ᵥ v = (w ⬝ᵥ v) • (S *ᵥ ((1 / s - 1) • w - (δ / s) • e)) := by
    rw [himg v, Matrix.mulVec_add, Matrix.mulVec_smul]; abel
  have hu : ((1 / s - 1) • w - (δ / s) • e) ⬝ᵥ ((1 / s - 1) • w - (δ / s) • e) ≤ (2 * δ) ^ 2 := by
    have e1 : ((1 / s - 1) • w - (δ / s) • e) ⬝ᵥ ((1 / s - 1) • w - (δ / s) • e) = (1 / s - 1) ^ 2 + (δ / s) ^ 2 := by
      simp only [sub_dotProduct, dotProduct_sub, smul_dotProduct, dotProduct_smul, smul_eq_mul]
      rw [dot_comm3 w e, hew, he, hw]; ring
    have e2 : ((1 / s - 1) ^ 2 + (δ / s) ^ 2) * s ^ 2 = 2 - 2 * s := by
      field_simp
      linear_combination hsd
    rw [e1]
    have hs3 : 0 < s ^ 2 := by positivity
    rw [← mul_le_mul_iff_of_pos_right hs3, e2]
    have h1 : (2 * δ) ^ 2 * s ^ 2 = 4 * ((1 - s) * (1 + s)) * s ^ 2 := by
      have : δ ^ 2 = 1 - s ^ 2 := by linarith
      rw [mul_pow, this]; ring
    rw [h1]
    have h3 : 3 / 4 ≤ s ^ 2 := by linarith
    have h2 : 1 ≤ 2 * ((1 + s) * s ^ 2) := by nlinarith
    nlinarith [mul_nonneg (sub_nonneg.2 hs1) (sub_nonneg.2 h2)]
  have hn : norm3 (S *ᵥ ((1 / s - 1) • w - (δ / s) • e)) ≤ 2 * |δ| := by
    rw [norm3_mulVec_orth hS.1]
    unfold norm3
    refine Real.sqrt_le_iff.2 ⟨by positivity, hu.trans_eq ?_⟩
    rw [mul_pow, mul_pow, sq_abs]
  rw [hdiff, norm3_smul]
  have hwv : |w ⬝ᵥ v| ≤ norm3 v := by
    have := abs_dot_le w v
    rwa [show norm3 w = 1 by unfold norm3; rw [hw, Real.sqrt_one], one_mul] at this
  calc |w ⬝ᵥ v| * norm3 (S *ᵥ ((1 / s - 1) • w - (δ / s) • e)) ≤ norm3 v * (2 * |δ|) :=
        mul_le_mul hwv hn (norm3_nonneg _) (norm3_nonneg _)
    _ = 2 * |δ| * norm3 v := by ring

/-- **C12** close to the plane (`|n·Q/2π| < 1e-5`, and `Q` at more than 60 degrees from the normal): the matrix that is returned is
not a rotation (`C12_near_plane_fails`), but it maps `Q` onto `q`, and it differs by no more than `2 |n·Q| / |Q|` from a
rotation that does so with the least tilt of the normal. -/
theorem C12_close {hkl : V3} {ei ef tt : ℝ} {c : UBConf} {ub : M3} {n q : V3}
    (hub : c.ubMat = some ub) (hpn : c.planeNormal = some n) (hn : len n = 1)
    (hq : qLab ei ef tt = .ok q) (hlen : len q = 2 * π * len (ub *ᵥ hkl)) (hne : ub *ᵥ hkl ≠ 0)
    (hs : |n ⬝ᵥ (ub *ᵥ hkl)| < 1e-5) (hs2 : 2 * |n ⬝ᵥ (ub *ᵥ hkl)| < len (ub *ᵥ hkl)) :
    ∃ R S, rMatrixWithMinimalTilt hkl ei ef tt c = .ok R ∧ (2 * π) • (R *ᵥ (ub *ᵥ hkl)) = q ∧
      IsRot S ∧ (2 * π) • (S *ᵥ (ub *ᵥ hkl)) = q ∧
      (∀ R', IsRot R' → (2 * π) • (R' *ᵥ (ub *ᵥ hkl)) = q → (R' *ᵥ n) 1 ≤ (S *ᵥ n) 1) ∧
      ∀ v, len (R *ᵥ v - S *ᵥ v) * len (ub *ᵥ hkl) ≤ 2 * |n ⬝ᵥ (ub *ᵥ hkl)| * len v := by
  have hpi := Real.pi_pos
  have hpos := norm3_pos hne
  have hnn : n ⬝ᵥ n = 1 := by rw [← norm3_mul_self, norm3_eq_len, hn, one_mul]
  have hex : ∃ R, rMatrixWithMinimalTilt hkl ei ef tt c = .ok R ∧ (2 * π) • (R *ᵥ (ub *ᵥ hkl)) = q := by
    by_cases h0 : n ⬝ᵥ (ub *ᵥ hkl) = 0
    · obtain ⟨R, h1, _, h2, _⟩ := C12_minimal_tilt_partial hub hpn hn hq hlen hne (.inl h0)
      exact ⟨R, h1, h2⟩
    · obtain ⟨R, h1, _, h2⟩ := C12_near_plane_fails hub hpn hn hq hlen (by
        intro hx
        have e := cross_dot_self n (ub *ᵥ hkl)
        rw [hx, hnn, ← norm3_mul_self (ub *ᵥ hkl)] at e
        rw [← norm3_eq_len] at hs2
        simp at e
        have := sq_abs (n ⬝ᵥ (ub *ᵥ hkl))
        nlinarith [abs_nonneg (n ⬝ᵥ (ub *ᵥ hkl))]) h0 hs
      exact ⟨R, h1, h2⟩
  obtain ⟨R, hR, hRt⟩ := hex
  obtain ⟨S, w, s, hsk, hSe, hSw, hnw⟩ := tilt_skew_plane hub hpn hn hq hlen hne hR hs
  have hδ : n ⬝ᵥ nrm (ub *ᵥ hkl) = (norm3 (ub *ᵥ hkl))⁻¹ * (n ⬝ᵥ (ub *ᵥ hkl)) := by
    unfold nrm; rw [dotProduct_smul, smul_eq_mul]
  have hδa : |n ⬝ᵥ nrm (ub *ᵥ hkl)| * norm3 (ub *ᵥ hkl) = |n ⬝ᵥ (ub *ᵥ hkl)| := by
    rw [hδ, abs_mul, abs_of_pos (inv_pos.2 hpos)]; field_simp
  have hQ : qNormFromHkl hkl ub = 2 * π * norm3 (ub *ᵥ hkl) := qLab_norm_eq ..
  have hy : q 1 = 0 := by
    obtain ⟨ki, kf, _, _, hqe⟩ := qLab_inv hq
    rw [hqe]; rfl
  have hlift : ∀ T : M3, T *ᵥ (ub *ᵥ hkl) = norm3 (ub *ᵥ hkl) • (T *ᵥ nrm (ub *ᵥ hkl)) := by
    intro T; conv_lhs => rw [← norm3_smul_nrm hne, Matrix.mulVec_smul]
  have hSt : (2 * π) • (S *ᵥ (ub *ᵥ hkl)) = q := by
    rw [hlift S, hSe, smul_smul, smul_smul, hQ, mul_inv_cancel₀ (by positivity), one_smul]
  refine ⟨R, S, hR, hRt, hsk.rot, hSt, ?_, ?_⟩
  · intro R' hR' hR't
    have up : ∀ T : M3, (2 * π) • (T *ᵥ (ub *ᵥ hkl)) = q → (T *ᵥ n) 1 = s * (T *ᵥ w) 1 := by
      intro T hT
      have h1 := congrFun hT 1
      rw [hy, Pi.smul_apply, smul_eq_mul, hlift T, Pi.smul_apply, smul_eq_mul] at h1
      have h2 : (T *ᵥ nrm (ub *ᵥ hkl)) 1 = 0 := by
        rcases mul_eq_zero.1 h1 with h | h
        · exact absurd h (by positivity)
        · exact (mul_eq_zero.1 h).resolve_left hpos.ne'
      conv_lhs => rw [hnw]
      rw [Matrix.mulVec_add, Matrix.mulVec_smul, Matrix.mulVec_smul, Pi.add_apply, Pi.smul_apply, Pi.smul_apply, h2]
      simp
    rw [up R' hR't, up S hSt, hSw]
    have hl : (R' *ᵥ w) ⬝ᵥ (R' *ᵥ w) = 1 := by rw [dot_mulVec_orth hR'.1, hsk.ww]
    have : (R' *ᵥ w) 1 ≤ 1 := by
      rw [dot3] at hl
      nlinarith [sq_nonneg ((R' *ᵥ w) 0), sq_nonneg ((R' *ᵥ w) 2), sq_nonneg ((R' *ᵥ w) 1 - 1)]
    have h1 := mul_le_mul_of_nonneg_left this hsk.s0.le
    simpa using h1
  · intro v
    rw [← norm3_eq_len, ← norm3_eq_len, ← norm3_eq_len]
    rw [← norm3_eq_len] at hs2
    have hhalf : 2 * |n ⬝ᵥ nrm (ub *ᵥ hkl)| ≤ 1 := by
      rw [← hδa] at hs2
      nlinarith
    have h1 := mul_le_mul_of_nonneg_right (hsk.near hhalf v) hpos.le
    refine h1.trans_eq ?_
    rw [← hδa]; ring

/-- **C11** At any energy transfer, the positions on a Huber table observe, with the energies of the request, a reflection as close
to the one asked for as in C09: what is wrong for inelastic requests is only the conversion back (`C11_inelastic_fails`). -/
theorem C11_positions {t : Tas} {c : UBConf} {ub : M3} {n hkl : V3} {en ei ef : ℝ} {a : MotorAngles}
    (hcons : Spec.Consistent t.sample c ub) (hpn : c.planeNormal = some n) (hn : len n = 1)
    (href : ∀ r, c.inPlaneRef = some r → r ⬝ᵥ n = 0) (hmode : t.goni.mode = .ok none)
    (he : t.getEiEf none none en = .ok (ei, ef)) (h : t.motorAngles hkl en = .ok a) :
    ∃ hkl' x, Spec.ObservedAt t.goni ub ei ef hkl' a ∧ a.sgl = some x ∧ 0 ≤ cos (deg2rad x) ∧
      len (ub *ᵥ hkl' - ub *ᵥ hkl) * cos (deg2rad x) ≤ 6 * Spec.off (ub *ᵥ hkl) n ∧ Spec.off (ub *ᵥ hkl) n < 1e-5 := by
  obtain ⟨hkl', x, o, hx, hx0, hb⟩ := huber_near hcons hpn hn href hmode he h
  exact ⟨hkl', x, o, hx, hx0, hb, Spec.off_lt _ _⟩

/-- **C11** With both energies fixed, every request on a Huber table, at any energy transfer: the conversion back gives a
reflection as close to the one asked for as in C09. -/
theorem C11_both_fixed_close {t : Tas} {c : UBConf} {ub : M3} {n hkl : V3} {en : ℝ} {a : MotorAngles}
    (hcons : Spec.Consistent t.sample c ub) (hei : t.fixedEi.isSome) (hef : t.fixedEf.isSome)
    (hpn : c.planeNormal = some n) (hn : len n = 1) (href : ∀ r, c.inPlaneRef = some r → r ⬝ᵥ n = 0)
    (hmode : t.goni.mode = .ok none) (h : t.motorAngles hkl en = .ok a) :
    ∃ hkl' x, t.hklFromAngles a = .ok (some hkl') ∧ a.sgl = some x ∧ 0 ≤ cos (deg2rad x) ∧
      len (ub *ᵥ hkl' - ub *ᵥ hkl) * cos (deg2rad x) ≤ 6 * Spec.off (ub *ᵥ hkl) n ∧ Spec.off (ub *ᵥ hkl) n < 1e-5 := by
  obtain ⟨ei, hei⟩ := Option.isSome_iff_exists.1 hei
  obtain ⟨ef, hef⟩ := Option.isSome_iff_exists.1 hef
  have he : ∀ en, t.getEiEf none none en = .ok (ei, ef) := by
    intro en; unfold Tas.getEiEf; simp only [hei, hef]
  obtain ⟨hkl', x, o, hx, hx0, hb⟩ := huber_near hcons hpn hn href hmode (he en) h
  exact ⟨hkl', x, hkl_back hcons.1 hcons.2.1 hcons.2.2.1 (he 0) o, hx, hx0, hb, Spec.off_lt _ _⟩

end Tavi
