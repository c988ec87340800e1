import Verif.Props.RoundTrip
import Verif.Props.FrameLocal

/-! # C109: what the resolution depends on: |Q| and the mosaic of the sample, not the way the crystal is mounted -/

namespace Tavi

open Matrix Real
open Spec (IsRot IsOrth PossibleCell len metric hklOf enOf qform localCoords)

/-- Specification: the same instrument with another sample whose mosaic is the same. -/
def Spec.SameInstrument (t t' : Tas) : Prop :=
  t' = { t with sample := t'.sample } ∧ t'.sample.mosaicH = t.sample.mosaicH ∧ t'.sample.mosaicV = t.sample.mosaicV

/-- Specification: the length of the momentum transfer, from the cell. -/
noncomputable def Spec.lengthOfQ (s : Sample) (hkl : V3) : ℝ := 2 * π * √(hkl ⬝ᵥ ((metric s.latt)⁻¹ *ᵥ hkl))

/-- Specification: the orientation `c'` is `c` turned by `W` about the origin. -/
def Spec.TurnedBy (W : M3) (c c' : UBConf) : Prop :=
  c'.ubMat = c.ubMat.map (W * ·) ∧ c'.planeNormal = c.planeNormal.map (W *ᵥ ·) ∧ c'.inPlaneRef = c.inPlaneRef.map (W *ᵥ ·)

theorem same_twoTheta {t t' : Tas} {hkl hkl' : V3} {en : ℝ} (hs : Spec.SameInstrument t t')
    (hc : PossibleCell t.sample.latt) (hc' : PossibleCell t'.sample.latt)
    (hQ : Spec.lengthOfQ t'.sample hkl' = Spec.lengthOfQ t.sample hkl) :
    t'.getTwoTheta hkl' en = t.getTwoTheta hkl en ∧ t'.getPsi hkl' en = t.getPsi hkl en ∧
      t'.sample.getQNorm hkl' = t.sample.getQNorm hkl := by
  obtain ⟨h1, _, _⟩ := hs
  obtain ⟨B, hB, hq, hn⟩ := C02_q_norm hc hkl
  obtain ⟨B', hB', hq', hn'⟩ := C02_q_norm hc' hkl'
  unfold Spec.lengthOfQ at hQ
  have e : qNormFromHkl hkl' B' = qNormFromHkl hkl B := by rw [hq, hq', hQ]
  have he : t'.getEiEf none none en = t.getEiEf none none en := by rw [h1]; rfl
  have hg : t'.goni = t.goni := by rw [h1]
  refine ⟨?_, ?_, by rw [hn, hn', hQ]⟩
  · unfold Tas.getTwoTheta twoThetaFromHkle
    rw [he, hB, hB', hg]
    simp only [py_bind_ok, e]
  · unfold Tas.getPsi psiFromHkle
    rw [he, hB, hB', hg]
    simp only [py_bind_ok, e]

/-- **C109** The resolution in the local frame and its prefactor depend on the sample only through the length of the momentum transfer
and the mosaic: any two samples and any two reflections, in any orientation, with the same |Q|. -/
theorem C109_local {t t' : Tas} {hkl hkl' : V3} {ei ef r0 r0' : ℝ} {m m' : Mat 4 4} (hs : Spec.SameInstrument t t')
    (hc : PossibleCell t.sample.latt) (hc' : PossibleCell t'.sample.latt)
    (hQ : Spec.lengthOfQ t'.sample hkl' = Spec.lengthOfQ t.sample hkl)
    (h : CooperNathans.calculateAt t hkl ei ef = .ok (m, r0))
    (h' : CooperNathans.calculateAt t' hkl' ei ef = .ok (m', r0')) : m' = m ∧ r0' = r0 := by
  obtain ⟨htt, hpsi, hq⟩ := same_twoTheta (en := ei - ef) hs hc hc' hQ
  obtain ⟨h1, hm1, hm2⟩ := hs
  obtain ⟨s', hs'⟩ : ∃ s, t'.sample = s := ⟨_, rfl⟩
  have hH : t'.sample.mosaicHRad = t.sample.mosaicHRad := by unfold Sample.mosaicHRad; rw [hm1]
  have hV : t'.sample.mosaicVRad = t.sample.mosaicVRad := by unfold Sample.mosaicVRad; rw [hm2]
  have g1 : t'.getThetaM ei = t.getThetaM ei := by rw [h1]; rfl
  have g2 : t'.getThetaA ef = t.getThetaA ef := by rw [h1]; rfl
  have g3 : t'.mono = t.mono := by rw [h1]
  have g4 : t'.ana = t.ana := by rw [h1]
  have g5 : t'.coll = t.coll := by rw [h1]
  unfold CooperNathans.calculateAt at h h'
  rw [hq, hpsi, g1, g2, g3, g4, g5, hH, hV] at h'
  obtain ⟨q, e, h⟩ := py_bind_eq_ok.1 h
  rw [e, py_bind_ok] at h'
  obtain ⟨ki, e, h⟩ := py_bind_eq_ok.1 h
  rw [e, py_bind_ok] at h'
  obtain ⟨kf, e, h⟩ := py_bind_eq_ok.1 h
  rw [e, py_bind_ok] at h'
  obtain ⟨a, ha, h⟩ := py_bind_eq_ok.1 h
  obtain ⟨a', ha', h'⟩ := py_bind_eq_ok.1 h'
  have ea : a'.twoTheta = a.twoTheta := by
    have x := (motorAngles_twoTheta ha).1
    rw [← htt, (motorAngles_twoTheta ha').1] at x
    exact Except.ok.inj x
  rw [ea] at h'
  rw [h] at h'
  obtain ⟨x, y⟩ := Prod.mk.inj (Except.ok.inj h')
  exact ⟨x.symm, y.symm⟩

theorem unit_turn {W : M3} (hW : IsRot W) (v : V3) : unit (W *ᵥ v) = (unit v).map (W *ᵥ ·) := by
  by_cases h : v = 0
  · subst h
    rw [Matrix.mulVec_zero]
    simp [unit, norm3_eq_zero, Except.map]
  · have h' : W *ᵥ v ≠ 0 := by
      intro e
      apply h
      rw [← mulVec_orth_transpose hW.1 v, e, Matrix.mulVec_zero]
    rw [unit_ok h, unit_ok h', norm3_mulVec_orth hW.1]
    simp [Except.map, Matrix.mulVec_smul]

/-- The frame of the tilt computation turns with the crystal. -/
theorem tiltFrame_turn {W : M3} (hW : IsRot W) (t1 n : V3) (ref ref' : Option V3)
    (hr : ref' = ref.map (W *ᵥ ·) ∨ |t1 ⬝ᵥ n| < 1e-5 ∨ 1e-5 ≤ norm3 (cross n t1)) :
    tiltFrame (W *ᵥ t1) (W *ᵥ n) ref' = (tiltFrame t1 n ref).map (fun p => (W *ᵥ p.1, W *ᵥ p.2)) := by
  unfold tiltFrame
  rw [dot_mulVec_orth hW.1, cross_mulVec_rot hW, norm3_mulVec_orth hW.1]
  by_cases h1 : |t1 ⬝ᵥ n| < 1e-5
  · rw [if_pos h1, if_pos h1]; rfl
  rw [if_neg h1, if_neg h1]
  by_cases h2 : norm3 (cross n t1) < 1e-5
  · rw [if_pos h2, if_pos h2]
    rcases hr with hr | hr | hr
    · rw [hr]
      rcases ref with _ | r
      · rfl
      · show Except.ok (W *ᵥ r, cross (W *ᵥ t1) (W *ᵥ r)) = _
        rw [cross_mulVec_rot hW]; rfl
    · exact absurd hr h1
    · linarith
  · rw [if_neg h2, if_neg h2, cross_mulVec_rot hW]; rfl

/-- The rotation with minimal tilt turns with the crystal. -/
theorem minimalTilt_turn {W ub ub' : M3} {n hkl hkl' : V3} {c c' : UBConf} {ei ef tt : ℝ} {r r' : M3} (hW : IsRot W)
    (hub : c.ubMat = some ub) (hub' : c'.ubMat = some ub') (hn : c.planeNormal = some n) (hn' : c'.planeNormal = some (W *ᵥ n))
    (hq : ub' *ᵥ hkl' = W *ᵥ (ub *ᵥ hkl))
    (href : c'.inPlaneRef = c.inPlaneRef.map (W *ᵥ ·) ∨ |(ub *ᵥ hkl) ⬝ᵥ n| < 1e-5 ∨ 1e-5 ≤ norm3 (cross n (ub *ᵥ hkl)))
    (h : rMatrixWithMinimalTilt hkl ei ef tt c = .ok r) (h' : rMatrixWithMinimalTilt hkl' ei ef tt c' = .ok r') :
    r' = r * Wᵀ := by
  unfold rMatrixWithMinimalTilt at h h'
  have e0 : qNormFromHkl hkl' ub' = qNormFromHkl hkl ub := by
    unfold qNormFromHkl
    rw [hq, dot_mulVec_orth hW.1]
  rw [hub', hn'] at h'
  rw [hub, hn] at h
  simp only [need_some, py_bind_ok] at h h'
  rw [e0, hq] at h'
  obtain ⟨ki, e, h⟩ := py_bind_eq_ok.1 h
  rw [e, py_bind_ok] at h'
  obtain ⟨kf, e, h⟩ := py_bind_eq_ok.1 h
  rw [e, py_bind_ok] at h'
  obtain ⟨q1, e, h⟩ := py_bind_eq_ok.1 h
  rw [e, py_bind_ok] at h'
  obtain ⟨q2, e, h⟩ := py_bind_eq_ok.1 h
  rw [e, py_bind_ok] at h'
  obtain ⟨⟨t2, t3⟩, e, h⟩ := py_bind_eq_ok.1 h
  rw [tiltFrame_turn hW _ _ _ _ href, e] at h'
  change ((Except.ok (W *ᵥ t2, W *ᵥ t3) : Py (V3 × V3)) >>= _) = _ at h'
  rw [py_bind_ok] at h'
  dsimp only at h h'
  obtain ⟨u1, e, h⟩ := py_bind_eq_ok.1 h
  rw [unit_turn hW, e] at h'
  obtain ⟨u2, e, h⟩ := py_bind_eq_ok.1 h
  rw [unit_turn hW, e] at h'
  obtain ⟨u3, e, h⟩ := py_bind_eq_ok.1 h
  rw [unit_turn hW, e] at h'
  simp only [Except.map, py_bind_ok] at h'
  rw [← mul_colMat] at h'
  obtain ⟨i, hi, h⟩ := py_bind_eq_ok.1 h
  obtain ⟨i', hi', h'⟩ := py_bind_eq_ok.1 h'
  have d : (colMat u1 u2 u3).det ≠ 0 := by
    intro h0; unfold inv3 at hi; rw [if_pos h0] at hi; cases hi
  have d' : (W * colMat u1 u2 u3).det ≠ 0 := by rw [Matrix.det_mul, hW.2, one_mul]; exact d
  rw [inv3_ok d] at hi
  rw [inv3_ok d', Matrix.mul_inv_rev, isOrth_inv hW.1] at hi'
  rw [← Except.ok.inj h, ← Except.ok.inj h', ← Except.ok.inj hi, ← Except.ok.inj hi', Matrix.mul_assoc]

/-- Outside gimbal lock the angles rebuild the rotation they were computed from. -/
theorem rMat_lock_free {g : Goni} {R : M3} {tt : ℝ} {a : MotorAngles} (hRr : IsRot R) (ha : g.anglesFromRMat R tt = .ok a)
    (hl : ∀ x, a.sgl = some x → |x| ≠ 90) : g.rMat a = .ok R := by
  have hpi := Real.pi_pos
  refine (C07_matrix_recovered hRr ?_ ha).1
  intro h0
  obtain ⟨s0, s1, s2, hs, _, rfl, _⟩ := anglesFromRMat_cases ha
  obtain ⟨_, q1, _⟩ := senses_sq hs
  apply hl _ rfl
  have sq1 : ∀ x : ℝ, x ^ 2 = 1 → x = 1 ∨ x = -1 := fun x hx => by
    have : (x - 1) * (x + 1) = 0 := by linear_combination hx
    rcases mul_eq_zero.1 this with h | h
    · left; linarith
    · right; linarith
  have hR10 : R 1 0 ^ 2 = 1 := by have := (orth_cols hRr.1).1; linarith
  have h90 : |arctan2 (R 1 0) √(R 0 0 ^ 2 + R 2 0 ^ 2)| = π / 2 := by
    rw [h0, Real.sqrt_zero]
    rcases sq1 _ hR10 with h | h
    · have := arctan2_polar (r := 1) (t := π / 2) one_pos (by linarith) (by linarith)
      simp at this
      rw [h, this, abs_of_pos (by positivity)]
    · have := arctan2_polar (r := 1) (t := -(π / 2)) one_pos (by linarith) (by linarith)
      simp at this
      rw [h, this, abs_neg, abs_of_pos (by positivity)]
  unfold rad2deg
  have : |s1| = 1 := by rcases sq1 s1 (by rw [sq]; exact q1) with h | h <;> simp [h]
  rw [abs_mul, abs_mul, this, h90, abs_of_pos (by positivity)]
  field_simp; norm_num

/-- The momentum transfer has the length that the orientation matrix gives it. -/
theorem lengthOfQ_ub {s : Sample} {c : UBConf} {ub : M3} (hcons : Spec.Consistent s c ub) (hc : PossibleCell s.latt) (hkl : V3) :
    Spec.lengthOfQ s hkl = 2 * π * norm3 (ub *ᵥ hkl) := by
  obtain ⟨_, _, _, b, hb, hG⟩ := hcons
  obtain ⟨B, hB, hq, _⟩ := C02_q_norm hc hkl
  rw [hb] at hB; cases hB
  unfold Spec.lengthOfQ
  rw [← hq, qLab_norm_eq, gram_norm hG]

/-- **C109** (general form) Take a crystal and the same crystal turned by any rotation `W` together with its scattering plane, or the same
mounting and a rotation `W` about the normal of the plane. If a reflection of the one lies where `W` carries a reflection of the other, then the
prefactors agree, and the resolution of the one gives to any displacement the value that the other gives to the displacement carried by `W`,
in any axes. For tables without bisecting mode; `TiltClear` excludes the numerical thresholds of the tilt computation (see C12). -/
theorem C109_turned {t t' : Tas} {c c' : UBConf} {W ub ub' : M3} {n hkl hkl' : V3} {ei ef : ℝ} {ax ax' : Fin 4 → AxisItem}
    {e e' : Ellipsoid} (hs : Spec.SameInstrument t t') (hmode : t.goni.mode = .ok none)
    (hc : PossibleCell t.sample.latt) (hc' : PossibleCell t'.sample.latt)
    (hcons : Spec.Consistent t.sample c ub) (hcons' : Spec.Consistent t'.sample c' ub') (hW : IsRot W)
    (hpn : c.planeNormal = some n) (hpn' : c'.planeNormal = some (W *ᵥ n)) (hn : len n = 1)
    (hq : ub' *ᵥ hkl' = W *ᵥ (ub *ᵥ hkl)) (hclear : Spec.TiltClear (ub *ᵥ hkl) n c.inPlaneRef)
    (href : c'.inPlaneRef = c.inPlaneRef.map (W *ᵥ ·) ∨ cross n (ub *ᵥ hkl) ≠ 0)
    (h : t.resoAt (some (List.ofFn ax)) (hkl, ei, ef) = .ok e)
    (h' : t'.resoAt (some (List.ofFn ax')) (hkl', ei, ef) = .ok e')
    (hl : ∀ a x, t.motorAngles hkl (ei - ef) = .ok a → a.sgl = some x → |x| ≠ 90)
    (hl' : ∀ a x, t'.motorAngles hkl' (ei - ef) = .ok a → a.sgl = some x → |x| ≠ 90) :
    e'.r0 = e.r0 ∧ e'.q = e.q ∧ ∀ x x', ub' *ᵥ hklOf ax' x' = W *ᵥ (ub *ᵥ hklOf ax x) → enOf ax' x' = enOf ax x →
      qform e'.mat x' = qform e.mat x := by
  have hpi := Real.pi_pos
  have hQ : Spec.lengthOfQ t'.sample hkl' = Spec.lengthOfQ t.sample hkl := by
    rw [lengthOfQ_ub hcons hc, lengthOfQ_ub hcons' hc', hq, norm3_mulVec_orth hW.1]
  obtain ⟨htt0, _, _⟩ := same_twoTheta (en := ei - ef) hs hc hc' hQ
  unfold Tas.resoAt at h h'
  obtain ⟨⟨m, r0⟩, hm, h⟩ := py_bind_eq_ok.1 h
  obtain ⟨⟨m', r0'⟩, hm', h'⟩ := py_bind_eq_ok.1 h'
  dsimp only at hm hm' h h'
  obtain ⟨rfl, rfl⟩ := C109_local hs hc hc' hQ hm hm'
  obtain ⟨a, R, c1, ub1, ei1, ef1, q1, ha, hR, hc1, hub1, he1, hq1, hq10, hf⟩ := C27_same_form h
  obtain ⟨a', R', c1', ub1', ei1', ef1', q1', ha', hR', hc1', hub1', he1', hq1', hq10', hf'⟩ := C27_same_form h'
  obtain ⟨_, _, f0, fq, _⟩ := C27_frame h hc
  obtain ⟨_, _, f0', fq', _⟩ := C27_frame h' hc'
  refine ⟨by rw [f0, f0'], by rw [fq, fq']; exact hQ, ?_⟩
  have hg : t'.goni = t.goni := by rw [hs.1]
  have he : t'.getEiEf none none (ei - ef) = t.getEiEf none none (ei - ef) := by rw [hs.1]; rfl
  rw [he, he1] at he1'; cases he1'
  have ht := (motorAngles_twoTheta ha).1
  have ht' := (motorAngles_twoTheta ha').1
  rw [htt0, ht] at ht'
  have ett := Except.ok.inj ht'
  rw [← ett, hq1] at hq1'
  have eqq := Except.ok.inj hq1'
  subst eqq
  obtain ⟨k1, k2, k3, b, kb, kG⟩ := hcons
  obtain ⟨k1', k2', k3', _⟩ := hcons'
  rw [k1] at hc1; cases hc1
  rw [k1'] at hc1'; cases hc1'
  rw [k2] at hub1; cases hub1
  rw [k2'] at hub1'; cases hub1'
  -- the rotations
  obtain ⟨tt, psi, ei2, ef2, c2, htt, hpsi, he2, hc2, _, hcase⟩ := motorAngles_cases ha
  obtain ⟨tt', psi', ei2', ef2', c2', htt', hpsi', he2', hc2', _, hcase'⟩ := motorAngles_cases ha'
  rw [he1] at he2; cases he2
  rw [he, he1] at he2'; cases he2'
  rw [k1] at hc2; cases hc2
  rw [k1'] at hc2'; cases hc2'
  rw [htt0, htt] at htt'; cases htt'
  rw [hmode] at hcase
  rw [hg, hmode] at hcase'
  rcases hcase with ⟨_, r, hr, hra⟩ | ⟨hx, _⟩
  swap
  · cases hx
  rcases hcase' with ⟨_, r', hr', hra'⟩ | ⟨hx, _⟩
  swap
  · cases hx
  obtain ⟨ki, kf, hki, hkf, kip, kfp, Qp, _, hqq, e1, e2, _⟩ := C13_q_lab kb he1 htt hpsi
  rw [e1, e2] at hqq
  have hQe : qNormFromHkl hkl b = 2 * π * len (ub *ᵥ hkl) := by
    rw [qLab_norm_eq, gram_norm kG, norm3_eq_len]
  have hne : ub *ᵥ hkl ≠ 0 := by
    intro h0
    rw [hQe, h0] at Qp
    simp [Spec.len] at Qp
  have hlen := len_polar (qNormFromHkl hkl b) (deg2rad psi) Qp.le
  rw [hQe] at hlen hqq
  obtain ⟨Rm, hRm, hRr, _, _, _⟩ := C12_minimal_tilt_partial k2 hpn hn hqq hlen hne hclear
  rw [hr] at hRm; cases hRm
  have href' : c'.inPlaneRef = c.inPlaneRef.map (W *ᵥ ·) ∨ |(ub *ᵥ hkl) ⬝ᵥ n| < 1e-5 ∨ 1e-5 ≤ norm3 (cross n (ub *ᵥ hkl)) := by
    rcases href with hx | hx
    · exact .inl hx
    rcases hclear with hy | ⟨_, hy | hy⟩
    · exact .inr (.inl (by rw [dot_comm3, hy, abs_zero]; norm_num))
    · exact .inr (.inr (by rw [norm3_eq_len]; exact hy))
    · exact absurd hy.1 hx
  have hrr := minimalTilt_turn hW k2 k2' hpn hpn' hq href' hr hr'
  have hrot' : IsRot r' := by
    rw [hrr]
    exact isRot_mul hRr (isRot_transpose hW)
  have g1 := rMat_lock_free hRr hra (fun x hx => hl a x ha hx)
  have g2 := rMat_lock_free hrot' hra' (fun x hx => hl' a' x ha' hx)
  rw [g1] at hR; cases hR
  rw [hg, g2] at hR'; cases hR'
  intro x x' hx hw
  rw [hf x, hf' x', hx, hw, hrr, ← mulVec_mulVec, mulVec_orth_transpose hW.1]

/-- **C109** How the crystal is mounted does not matter: turn the crystal and its scattering plane by any rotation. Wherever the reflection can be
reached in both mountings, the resolution is the same in reciprocal lattice units, in any axes, and so is the prefactor. -/
theorem C109_mounting {t t' : Tas} {c c' : UBConf} {W ub : M3} {n hkl : V3} {ei ef : ℝ} {ax : Fin 4 → AxisItem}
    {e e' : Ellipsoid} (hs : Spec.SameInstrument t t') (hmode : t.goni.mode = .ok none)
    (hc : PossibleCell t.sample.latt) (hlatt : t'.sample.latt = t.sample.latt)
    (hcons : Spec.Consistent t.sample c ub) (hc' : t'.sample.ubConf = some c') (hW : IsRot W) (hturn : Spec.TurnedBy W c c')
    (hpn : c.planeNormal = some n) (hn : len n = 1) (hclear : Spec.TiltClear (ub *ᵥ hkl) n c.inPlaneRef)
    (h : t.resoAt (some (List.ofFn ax)) (hkl, ei, ef) = .ok e)
    (h' : t'.resoAt (some (List.ofFn ax)) (hkl, ei, ef) = .ok e')
    (hl : ∀ a x, t.motorAngles hkl (ei - ef) = .ok a → a.sgl = some x → |x| ≠ 90)
    (hl' : ∀ a x, t'.motorAngles hkl (ei - ef) = .ok a → a.sgl = some x → |x| ≠ 90) :
    e'.r0 = e.r0 ∧ e'.q = e.q ∧ ∀ x, qform e'.mat x = qform e.mat x := by
  obtain ⟨u1, u2, u3⟩ := hturn
  have hcons' : Spec.Consistent t'.sample c' (W * ub) := by
    obtain ⟨_, k2, k3, b, kb, kG⟩ := hcons
    refine ⟨hc', by rw [u1, k2]; rfl, by rw [Matrix.det_mul, hW.2, one_mul]; exact k3, b, ?_, ?_⟩
    · rw [← kb]; unfold Sample.bMat; rw [hlatt]
    · rw [kG, Matrix.transpose_mul, Matrix.mul_assoc, ← Matrix.mul_assoc Wᵀ, show Wᵀ * W = 1 from hW.1, Matrix.one_mul]
  obtain ⟨a1, a2, a3⟩ := C109_turned hs hmode hc (by rw [hlatt]; exact hc) hcons hcons' hW hpn (by rw [u2, hpn]; rfl) hn
    (by rw [mulVec_mulVec]) hclear (.inl u3) h h' hl hl'
  exact ⟨a1, a2, fun x => a3 x x (by rw [mulVec_mulVec]) rfl⟩

/-- **C109** Equivalent reflections: if a rotation about the normal of the scattering plane is a symmetry of the reciprocal lattice (`S` on the
indices), then the resolution at `S hkl` is the resolution at `hkl` carried over by the symmetry. -/
theorem C109_equivalent {t : Tas} {c : UBConf} {W S ub : M3} {n hkl : V3} {ei ef : ℝ} {e e' : Ellipsoid}
    (hmode : t.goni.mode = .ok none) (hc : PossibleCell t.sample.latt)
    (hcons : Spec.Consistent t.sample c ub) (hW : IsRot W) (hS : W * ub = ub * S)
    (hpn : c.planeNormal = some n) (hWn : W *ᵥ n = n) (hn : len n = 1) (hclear : Spec.TiltClear (ub *ᵥ hkl) n c.inPlaneRef)
    (hx : cross n (ub *ᵥ hkl) ≠ 0)
    (h : t.resoAt (some hklAxes) (hkl, ei, ef) = .ok e) (h' : t.resoAt (some hklAxes) (S *ᵥ hkl, ei, ef) = .ok e')
    (hl : ∀ a x, t.motorAngles hkl (ei - ef) = .ok a → a.sgl = some x → |x| ≠ 90)
    (hl' : ∀ a x, t.motorAngles (S *ᵥ hkl) (ei - ef) = .ok a → a.sgl = some x → |x| ≠ 90) :
    e'.r0 = e.r0 ∧ e'.q = e.q ∧ ∀ (d : V3) (w : ℝ),
      qform e'.mat ![(S *ᵥ d) 0, (S *ᵥ d) 1, (S *ᵥ d) 2, w] = qform e.mat ![d 0, d 1, d 2, w] := by
  have hax : hklAxes = List.ofFn ![.vec ![1, 0, 0], .vec ![0, 1, 0], .vec ![0, 0, 1], .name "en".toList] := rfl
  rw [hax] at h h'
  obtain ⟨a1, a2, a3⟩ := C109_turned ⟨rfl, rfl, rfl⟩ hmode hc hc hcons hcons hW hpn (by rw [hpn, hWn]) hn
    (by rw [mulVec_mulVec, mulVec_mulVec, hS]) hclear (.inr hx) h h' hl hl'
  have e1 : ∀ (d : V3) (w : ℝ), hklOf ![.vec ![1, 0, 0], .vec ![0, 1, 0], .vec ![0, 0, 1], .name "en".toList] ![d 0, d 1, d 2, w] = d := by
    intro d w
    apply ext3 <;> simp [hklOf, Fin.sum_univ_four]
  have e2 : ∀ (d : V3) (w : ℝ), enOf ![.vec ![1, 0, 0], .vec ![0, 1, 0], .vec ![0, 0, 1], .name "en".toList] ![d 0, d 1, d 2, w] = w := by
    intro d w
    simp [enOf, Fin.sum_univ_four]
  refine ⟨a1, a2, fun d w => a3 _ _ ?_ (by rw [e2, e2])⟩
  rw [e1, e1, mulVec_mulVec, mulVec_mulVec, hS]

/-- The half turn about the unit vector `n`. -/
noncomputable def halfTurn (n : V3) : M3 := (2 : ℝ) • Matrix.vecMulVec n n - 1

theorem halfTurn_mulVec (n v : V3) : halfTurn n *ᵥ v = (2 * (n ⬝ᵥ v)) • n - v := by
  apply ext3 <;> simp [halfTurn, mulVec3, dot3, Matrix.vecMulVec_apply] <;> ring

theorem halfTurn_rot {n : V3} (hn : n ⬝ᵥ n = 1) : IsRot (halfTurn n) := by
  rw [dot3] at hn
  constructor
  · show (halfTurn n)ᵀ * halfTurn n = 1
    ext i j
    fin_cases i <;> fin_cases j <;>
      simp [halfTurn, Matrix.mul_apply, Fin.sum_univ_three, Matrix.vecMulVec_apply, Matrix.one_apply]
    · linear_combination (4 * n 0 * n 0) * hn
    · linear_combination (4 * n 0 * n 1) * hn
    · linear_combination (4 * n 0 * n 2) * hn
    · linear_combination (4 * n 1 * n 0) * hn
    · linear_combination (4 * n 1 * n 1) * hn
    · linear_combination (4 * n 1 * n 2) * hn
    · linear_combination (4 * n 2 * n 0) * hn
    · linear_combination (4 * n 2 * n 1) * hn
    · linear_combination (4 * n 2 * n 2) * hn
  · simp [halfTurn, Matrix.det_fin_three, Matrix.vecMulVec_apply]
    linear_combination 2 * hn

/-- **C109** Opposite reflections in the scattering plane: at `-hkl` the resolution gives to `-d` what it gives at `hkl` to `d`, for every
displacement `d` in the plane and every energy displacement. -/
theorem C109_opposite {t : Tas} {c : UBConf} {ub : M3} {n hkl : V3} {ei ef : ℝ} {e e' : Ellipsoid} {ax : Fin 4 → AxisItem}
    (hmode : t.goni.mode = .ok none) (hc : PossibleCell t.sample.latt) (hcons : Spec.Consistent t.sample c ub)
    (hpn : c.planeNormal = some n) (hn : len n = 1) (hin : n ⬝ᵥ (ub *ᵥ hkl) = 0)
    (h : t.resoAt (some (List.ofFn ax)) (hkl, ei, ef) = .ok e) (h' : t.resoAt (some (List.ofFn ax)) (-hkl, ei, ef) = .ok e')
    (hl : ∀ a x, t.motorAngles hkl (ei - ef) = .ok a → a.sgl = some x → |x| ≠ 90)
    (hl' : ∀ a x, t.motorAngles (-hkl) (ei - ef) = .ok a → a.sgl = some x → |x| ≠ 90) :
    e'.r0 = e.r0 ∧ e'.q = e.q ∧ ∀ x x', n ⬝ᵥ (ub *ᵥ hklOf ax x) = 0 → hklOf ax x' = -hklOf ax x → enOf ax x' = enOf ax x →
      qform e'.mat x' = qform e.mat x := by
  have hnn : n ⬝ᵥ n = 1 := by rw [← norm3_mul_self, norm3_eq_len, hn, one_mul]
  have hne : ub *ᵥ hkl ≠ 0 := by
    intro h0
    unfold Tas.resoAt at h
    obtain ⟨⟨m, r0⟩, hm, h⟩ := py_bind_eq_ok.1 h
    dsimp only at h
    obtain ⟨a, R, c1, ub1, ei1, ef1, q1, ha, hR, hc1, hub1, he1, hq1, hq10, hf⟩ := C27_same_form h
    obtain ⟨htt, psi, hpsi⟩ := motorAngles_twoTheta ha
    obtain ⟨_, _, _, b, kb, kG⟩ := hcons
    obtain ⟨ki, kf, hki, hkf, kip, kfp, Qp, _⟩ := C13_q_lab kb he1 htt hpsi
    rw [qLab_norm_eq, gram_norm kG, h0, norm3_eq_len] at Qp
    simp [Spec.len] at Qp
  have hx : cross n (ub *ᵥ hkl) ≠ 0 := by
    intro h0
    have := norm3_cross_of_perp hin
    rw [h0, norm3_eq_zero.2 rfl] at this
    have hn0 : n ≠ 0 := by rintro rfl; simp at hnn
    exact (mul_pos (norm3_pos hn0) (norm3_pos hne)).ne this
  have hWn : halfTurn n *ᵥ n = n := by
    rw [halfTurn_mulVec, hnn, mul_one, two_smul, add_sub_cancel_right]
  obtain ⟨a1, a2, a3⟩ := C109_turned (ax := ax) (ax' := ax) ⟨rfl, rfl, rfl⟩ hmode hc hc hcons hcons (halfTurn_rot hnn) hpn (by rw [hpn, hWn]) hn
    (by rw [halfTurn_mulVec, hin, mulVec_neg]; simp) (.inl hin) (.inr hx) h h' hl hl'
  refine ⟨a1, a2, fun x x' h1 h2 h3 => a3 x x' ?_ h3⟩
  rw [h2, halfTurn_mulVec, h1, mulVec_neg]
  simp

end Tavi
