import Verif.Props.Tilt

/-! # C09, C10, C11: hkl → motor angles → hkl -/

namespace Tavi

open Matrix Real
open Spec (IsRot IsOrth PossibleCell IsAngleDeg len)

/-- Specification: a UB matrix is consistent with the lattice of the sample: same metric, invertible. -/
def Spec.Consistent (s : Sample) (c : UBConf) (ub : M3) : Prop :=
  s.ubConf = some c ∧ c.ubMat = some ub ∧ ub.det ≠ 0 ∧ ∃ b, s.bMat = .ok b ∧ bᵀ * b = ubᵀ * ub

theorem gram_norm {A B : M3} (h : Aᵀ * A = Bᵀ * B) (v : V3) : norm3 (A *ᵥ v) = norm3 (B *ᵥ v) := by
  have key : ∀ M : M3, (M *ᵥ v) ⬝ᵥ (M *ᵥ v) = v ⬝ᵥ ((Mᵀ * M) *ᵥ v) := by
    intro M
    rw [← Matrix.mulVec_mulVec, Matrix.dotProduct_mulVec v, Matrix.vecMul_transpose]
  unfold norm3
  rw [key, key, h]

theorem len_polar (Q s : ℝ) (hQ : 0 ≤ Q) : len ![Q * Real.sin s, 0, Q * Real.cos s] = Q := by
  unfold Spec.len
  have h := Real.sin_sq_add_cos_sq s
  have : (![Q * Real.sin s, 0, Q * Real.cos s] : V3) 0 ^ 2 + (![Q * Real.sin s, 0, Q * Real.cos s] : V3) 1 ^ 2 +
      (![Q * Real.sin s, 0, Q * Real.cos s] : V3) 2 ^ 2 = Q ^ 2 := by
    simp; linear_combination Q ^ 2 * h
  rw [this, Real.sqrt_sq hQ]

/-- A position where the reflection is observed converts back to the reflection, if the energies are the same. -/
theorem hkl_back {t : Tas} {c : UBConf} {ub : M3} {ei ef : ℝ} {hkl : V3} {a : MotorAngles}
    (hc : t.sample.ubConf = some c) (hub : c.ubMat = some ub) (hd : ub.det ≠ 0)
    (he : t.getEiEf = .ok (ei, ef)) (o : Spec.ObservedAt t.goni ub ei ef hkl a) :
    t.hklFromAngles a = .ok (some hkl) := by
  obtain ⟨R, q, hR, hq, e⟩ := o
  have hRr := (C06_r_mat_rotation hR).1
  have hdet : (R * ub).det ≠ 0 := by rw [Matrix.det_mul]; exact mul_ne_zero (isRot_det_ne hRr) hd
  unfold Tas.hklFromAngles
  rw [he, py_bind_ok]
  dsimp only
  rw [hq, py_bind_ok, hR, py_bind_ok, hc]
  dsimp only
  rw [hub]
  dsimp only
  rw [inv3_ok hdet, py_bind_ok, py_pure]
  congr 2
  have hpi := Real.pi_pos
  rw [e, Matrix.mulVec_mulVec, Matrix.mulVec_smul, smul_smul, Matrix.mulVec_mulVec,
    Matrix.nonsing_inv_mul _ (isUnit_iff_ne_zero.2 hdet), Matrix.one_mulVec, one_div,
    inv_mul_cancel₀ (by positivity), one_smul]

/-- Converse: the only reflection the conversion returns is one observed at the position with the elastic energies. -/
theorem hkl_back_inv {t : Tas} {c : UBConf} {ub : M3} {ei ef : ℝ} {hkl : V3} {a : MotorAngles}
    (hc : t.sample.ubConf = some c) (hub : c.ubMat = some ub)
    (he : t.getEiEf = .ok (ei, ef)) (h : t.hklFromAngles a = .ok (some hkl)) :
    Spec.ObservedAt t.goni ub ei ef hkl a := by
  unfold Tas.hklFromAngles at h
  rw [he, py_bind_ok] at h
  dsimp only at h
  obtain ⟨q, hq, h⟩ := py_bind_eq_ok.1 h
  obtain ⟨R, hR, h⟩ := py_bind_eq_ok.1 h
  rw [hc] at h
  dsimp only at h
  rw [hub] at h
  dsimp only at h
  obtain ⟨i, hi, h⟩ := py_bind_eq_ok.1 h
  refine ⟨R, q, hR, hq, ?_⟩
  have hdet : (R * ub).det ≠ 0 := by
    intro h0; unfold inv3 at hi; rw [if_pos h0] at hi; cases hi
  rw [inv3_ok hdet] at hi
  have hi := Except.ok.inj hi
  have h := Option.some.inj (Except.ok.inj h)
  have hpi := Real.pi_pos
  rw [← h, ← hi, Matrix.mulVec_mulVec, Matrix.mulVec_smul, smul_smul, Matrix.mulVec_mulVec,
    Matrix.mul_nonsing_inv _ (isUnit_iff_ne_zero.2 hdet), Matrix.one_mulVec, one_div,
    mul_inv_cancel₀ (by positivity), one_smul]

/-- On a Huber table the motor angles observe the reflection at the energies of the request. -/
theorem huber_observed {t : Tas} {c : UBConf} {ub : M3} {n hkl : V3} {en ei ef : ℝ} {a : MotorAngles}
    (hcons : Spec.Consistent t.sample c ub) (hpn : c.planeNormal = some n) (hn : len n = 1)
    (hclear : Spec.TiltClear (ub *ᵥ hkl) n c.inPlaneRef) (hmode : t.goni.mode = .ok none)
    (he : t.getEiEf none none en = .ok (ei, ef)) (h : t.motorAngles hkl en = .ok a)
    (hl : ∀ x, a.sgl = some x → |x| ≠ 90) :
    Spec.ObservedAt t.goni ub ei ef hkl a := by
  have hpi := Real.pi_pos
  obtain ⟨hc, hub, hd, b, hb, hG⟩ := hcons
  obtain ⟨tt, psi, ei', ef', c', htt, hpsi, he', hc', _, hcase⟩ := motorAngles_cases h
  rw [he] at he'; cases he'
  rw [hc] at hc'; cases hc'
  obtain ⟨ki, kf, hki, hkf, kip, kfp, Qp, _, hq, e1, e2, _⟩ := C13_q_lab hb he htt hpsi
  rw [e1, e2] at hq
  have hQe : qNormFromHkl hkl b = 2 * π * len (ub *ᵥ hkl) := by
    rw [qLab_norm_eq, gram_norm hG, norm3_eq_len]
  have hne : ub *ᵥ hkl ≠ 0 := by
    intro h0
    rw [hQe, h0] at Qp
    simp [Spec.len] at Qp
  have hlen := len_polar (qNormFromHkl hkl b) (deg2rad psi) Qp.le
  rw [hQe] at hlen hq
  obtain ⟨R, hR, hRr, hmap, _, _⟩ := C12_minimal_tilt_partial hub hpn hn hq hlen hne hclear
  rcases hcase with ⟨_, r, hr, ha⟩ | ⟨hm, _⟩
  · rw [hR] at hr; cases hr
    have hg : R 0 0 ^ 2 + R 2 0 ^ 2 ≠ 0 := by
      intro h0
      obtain ⟨s0, s1, s2, hs, _, rfl, _⟩ := anglesFromRMat_cases ha
      obtain ⟨_, q1, _⟩ := senses_sq hs
      apply hl _ rfl
      have hR10 : R 1 0 ^ 2 = 1 := by have := (orth_cols hRr.1).1; linarith
      have hs1 : s1 = 1 ∨ s1 = -1 := by
        have : (s1 - 1) * (s1 + 1) = 0 := by linear_combination q1
        rcases mul_eq_zero.1 this with h | h
        · left; linarith
        · right; linarith
      have h90 : |arctan2 (R 1 0) √(R 0 0 ^ 2 + R 2 0 ^ 2)| = π / 2 := by
        rw [h0, Real.sqrt_zero]
        have : R 1 0 = 1 ∨ R 1 0 = -1 := by
          have : (R 1 0 - 1) * (R 1 0 + 1) = 0 := by linear_combination hR10
          rcases mul_eq_zero.1 this with h | h
          · left; linarith
          · right; linarith
        rcases this with h | h
        · have := arctan2_polar (r := 1) (t := π / 2) one_pos (by linarith) (by linarith)
          simp at this
          rw [h, this, abs_of_pos (by positivity)]
        · have := arctan2_polar (r := 1) (t := -(π / 2)) one_pos (by linarith) (by linarith)
          simp at this
          rw [h, this, abs_neg, abs_of_pos (by positivity)]
      unfold rad2deg
      have : |s1| = 1 := by rcases hs1 with h | h <;> simp [h]
      rw [abs_mul, abs_mul, this, h90, abs_of_pos (by positivity)]
      field_simp; norm_num
    obtain ⟨hrm, htw⟩ := C07_matrix_recovered hRr hg ha
    refine ⟨R, _, hrm, by rw [htw]; exact hq, hmap.symm⟩
  · rw [hmode] at hm; cases hm

/-- **C09** For zero energy transfer on a Huber table, motor angles convert back to the reflection they were computed
for. `TiltClear` excludes the numerical thresholds of the tilt computation (see C12); `sgl = ±90°` is the gimbal lock. -/
theorem C09_huber_roundtrip_partial {t : Tas} {c : UBConf} {ub : M3} {n hkl : V3} {a : MotorAngles}
    (hcons : Spec.Consistent t.sample c ub) (hpn : c.planeNormal = some n) (hn : len n = 1)
    (hclear : Spec.TiltClear (ub *ᵥ hkl) n c.inPlaneRef) (hmode : t.goni.mode = .ok none)
    (h : t.motorAngles hkl = .ok a) (hl : ∀ x, a.sgl = some x → |x| ≠ 90) :
    t.hklFromAngles a = .ok (some hkl) := by
  obtain ⟨tt, psi, ei, ef, c', _, _, he, _⟩ := motorAngles_cases h
  exact hkl_back hcons.1 hcons.2.1 hcons.2.2.1 he (huber_observed hcons hpn hn hclear hmode he h hl)

/-! ## C10 -/

theorem bisect_rot (q : V3) (hq : q ≠ 0) (w : ℝ) :
    (rotY w * (rotZ (rad2deg (-arctan2 (q 1) √(q 0 ^ 2 + q 2 ^ 2))) * rotY (rad2deg (arctan2 (q 2) (q 0))))) *ᵥ q =
      norm3 q • ![Real.cos (deg2rad w), 0, -Real.sin (deg2rad w)] := by
  set rho := √(q 0 ^ 2 + q 2 ^ 2) with hrho
  have hr2 : rho ^ 2 = q 0 ^ 2 + q 2 ^ 2 := by rw [hrho, Real.sq_sqrt (by positivity)]
  have hr0 : 0 ≤ rho := Real.sqrt_nonneg _
  set phi := arctan2 (q 2) (q 0) with hphi
  have hA : Real.cos phi * rho = q 0 ∧ Real.sin phi * rho = q 2 := by
    by_cases h : 0 < q 0 ^ 2 + q 2 ^ 2
    · have hrp : rho ≠ 0 := (Real.sqrt_pos.2 h).ne'
      rw [hphi, cos_arctan2 h, sin_arctan2, ← hrho]
      exact ⟨div_mul_cancel₀ _ hrp, div_mul_cancel₀ _ hrp⟩
    · have h0 : q 0 = 0 := by nlinarith [sq_nonneg (q 0), sq_nonneg (q 2)]
      have h2 : q 2 = 0 := by nlinarith [sq_nonneg (q 0), sq_nonneg (q 2)]
      have : rho = 0 := by rw [hrho, h0, h2]; simp
      rw [this, h0, h2]; simp
  have hN : norm3 q = √(rho ^ 2 + q 1 ^ 2) := by
    unfold norm3; rw [dot3, hr2]; congr 1; ring
  have hNp := norm3_pos hq
  have hNpos : 0 < rho ^ 2 + q 1 ^ 2 := by
    rw [hN] at hNp; exact Real.sqrt_pos.1 hNp
  set chi := arctan2 (q 1) rho with hchi
  have hB : Real.cos chi * norm3 q = rho ∧ Real.sin chi * norm3 q = q 1 := by
    rw [hchi, cos_arctan2 hNpos, sin_arctan2, ← hN]
    exact ⟨div_mul_cancel₀ _ hNp.ne', div_mul_cancel₀ _ hNp.ne'⟩
  have c1 := Real.sin_sq_add_cos_sq phi
  have c2 := Real.sin_sq_add_cos_sq chi
  have s1 : rotY (rad2deg phi) *ᵥ q = ![rho, q 1, 0] := by
    obtain ⟨h0, h2⟩ := hA
    apply ext3 <;> simp [mulVec3, rotY]
    · rw [← h0, ← h2]; linear_combination rho * c1
    · rw [← h0, ← h2]; ring
  have s2 : rotZ (rad2deg (-chi)) *ᵥ ![rho, q 1, 0] = ![norm3 q, 0, 0] := by
    obtain ⟨h0, h2⟩ := hB
    generalize norm3 q = N at *
    rw [← h0, ← h2]
    apply ext3 <;> simp [mulVec3, rotZ]
    · linear_combination N * c2
    · ring
  rw [← Matrix.mulVec_mulVec, ← Matrix.mulVec_mulVec, s1, s2]
  apply ext3 <;> simp [mulVec3, rotY] <;> ring

theorem bisect_observed {t : Tas} {c : UBConf} {ub : M3} {hkl : V3} {en ei ef : ℝ} {a : MotorAngles}
    (hcons : Spec.Consistent t.sample c ub) (hmode : t.goni.mode = .ok (some "bisect".toList))
    (he : t.getEiEf none none en = .ok (ei, ef)) (h : t.motorAngles hkl en = .ok a) :
    (t.goni.sense = some "-".toList → Spec.ObservedAt t.goni ub ei ef hkl a) ∧
    (t.goni.sense = some "+".toList → Spec.ObservedAt t.goni ub ei ef (-hkl) a) := by
  have hpi := Real.pi_pos
  obtain ⟨hc, hub, hd, b, hb, hG⟩ := hcons
  obtain ⟨tt, psi, ei', ef', c', htt, hpsi, he', hc', _, hcase⟩ := motorAngles_cases h
  rw [he] at he'; cases he'
  rw [hc] at hc'; cases hc'
  obtain ⟨ki, kf, hki, hkf, kip, kfp, Qp, _, hq, e1, e2, _⟩ := C13_q_lab hb he htt hpsi
  rw [e1, e2] at hq
  have hQe : qNormFromHkl hkl b = 2 * π * norm3 (ub *ᵥ hkl) := by
    rw [qLab_norm_eq, gram_norm hG]
  have hne : ub *ᵥ hkl ≠ 0 := by
    intro h0
    rw [hQe, h0, norm3_eq_zero.2 rfl] at Qp
    simp at Qp
  rcases hcase with ⟨hm, _⟩ | ⟨_, ha⟩
  · rw [hmode] at hm; cases hm
  obtain ⟨s0, s1, s2, ub', sense, hs, hom, hub', hsv, rfl, _⟩ := bisect_cases ha
  rw [hub] at hub'; cases hub'
  obtain ⟨q0, q1, q2⟩ := senses_sq hs
  have hrm : t.goni.rMat (bisectAngles s0 s1 s2 sense psi tt (ub *ᵥ hkl)) =
      .ok (rotY (sense * 90 + psi) *
        (rotZ (rad2deg (-arctan2 ((ub *ᵥ hkl) 1) √((ub *ᵥ hkl) 0 ^ 2 + (ub *ᵥ hkl) 2 ^ 2))) *
          rotY (rad2deg (arctan2 ((ub *ᵥ hkl) 2) ((ub *ᵥ hkl) 0))))) := by
    unfold Goni.rMat bisectAngles
    rw [hs, hom]
    simp only [py_bind_ok]
    rw [if_neg (by simp), if_pos trivial, py_pure]
    congr 1
    have f0 : (sense * 90 + psi) * s0 * s0 = sense * 90 + psi := by linear_combination (sense * 90 + psi) * q0
    have f1 : ∀ x, rad2deg (s1 * x) * s1 = rad2deg x := by
      intro x; unfold rad2deg; linear_combination (x * (180 / π)) * q1
    have f2 : ∀ x, rad2deg (s2 * x) * s2 = rad2deg x := by
      intro x; unfold rad2deg; linear_combination (x * (180 / π)) * q2
    rw [f0, f1, f2]
  have key := bisect_rot (ub *ᵥ hkl) hne (sense * 90 + psi)
  have d90 : deg2rad (sense * 90 + psi) = sense * (π / 2) + deg2rad psi := by unfold deg2rad; ring
  constructor
  · intro hsn
    have hsv' : sense = -1 := by
      unfold Goni.senseVal at hsv; rw [hsn] at hsv
      rw [if_neg (by simp), if_pos rfl] at hsv
      exact (Except.ok.inj hsv).symm
    refine ⟨_, _, hrm, hq, ?_⟩
    rw [key, d90, hsv', hQe, smul_smul]
    have hco : Real.cos (-1 * (π / 2) + deg2rad psi) = Real.sin (deg2rad psi) := by
      rw [show -1 * (π / 2) + deg2rad psi = -(π / 2 - deg2rad psi) by ring, Real.cos_neg, Real.cos_pi_div_two_sub]
    have hsi : Real.sin (-1 * (π / 2) + deg2rad psi) = -Real.cos (deg2rad psi) := by
      rw [show -1 * (π / 2) + deg2rad psi = -(π / 2 - deg2rad psi) by ring, Real.sin_neg, Real.sin_pi_div_two_sub]
    rw [hco, hsi]
    apply ext3 <;> simp
  · intro hsn
    have hsv' : sense = 1 := by
      unfold Goni.senseVal at hsv; rw [hsn] at hsv
      rw [if_pos rfl] at hsv
      exact (Except.ok.inj hsv).symm
    refine ⟨_, _, hrm, hq, ?_⟩
    rw [Matrix.mulVec_neg, Matrix.mulVec_neg, key, d90, hsv', hQe]
    have hco : Real.cos (1 * (π / 2) + deg2rad psi) = -Real.sin (deg2rad psi) := by
      rw [one_mul, add_comm, Real.cos_add_pi_div_two]
    have hsi : Real.sin (1 * (π / 2) + deg2rad psi) = Real.cos (deg2rad psi) := by
      rw [one_mul, add_comm, Real.sin_add_pi_div_two]
    rw [hco, hsi]
    apply ext3 <;> simp <;> ring

/-- **C10** (part) In bisect mode with goniometer sense "-", motor angles computed at zero energy transfer convert back to
the same reflection. Missing: sense "+", where the claim is false, see `C10_sense_plus_inverts`. -/
theorem C10_bisect_roundtrip_partial {t : Tas} {c : UBConf} {ub : M3} {hkl : V3} {a : MotorAngles}
    (hcons : Spec.Consistent t.sample c ub) (hmode : t.goni.mode = .ok (some "bisect".toList))
    (hs : t.goni.sense = some "-".toList) (h : t.motorAngles hkl = .ok a) :
    t.hklFromAngles a = .ok (some hkl) := by
  obtain ⟨tt, psi, ei, ef, c', _, _, he, _⟩ := motorAngles_cases h
  exact hkl_back hcons.1 hcons.2.1 hcons.2.2.1 he ((bisect_observed hcons hmode he h).1 hs)

/-- **C10**, negation for sense "+": the angles observe the opposite reflection; converting back gives `-hkl`. -/
theorem C10_sense_plus_inverts {t : Tas} {c : UBConf} {ub : M3} {hkl : V3} {a : MotorAngles}
    (hcons : Spec.Consistent t.sample c ub) (hmode : t.goni.mode = .ok (some "bisect".toList))
    (hs : t.goni.sense = some "+".toList) (h : t.motorAngles hkl = .ok a) :
    t.hklFromAngles a = .ok (some (-hkl)) ∧ -hkl ≠ hkl := by
  obtain ⟨tt, psi, ei, ef, c', htt, hpsi, he, _⟩ := motorAngles_cases h
  refine ⟨hkl_back hcons.1 hcons.2.1 hcons.2.2.1 he ((bisect_observed hcons hmode he h).2 hs), ?_⟩
  intro h0
  obtain ⟨hc, hub, hd, b, hb, hG⟩ := hcons
  obtain ⟨ki, kf, hki, hkf, kip, kfp, Qp, _⟩ := C13_q_lab hb he htt hpsi
  have : hkl = 0 := self_eq_neg.1 h0.symm
  rw [this] at Qp
  simp [qNormFromHkl] at Qp

/-! ## C11 -/

/-- **C11** (part) At any energy transfer the round trip works when it does not have to infer an energy: both Ei and Ef are
fixed on the instrument. (Then the requested energy transfer plays no role, see C21.) Missing: only one energy fixed,
where the claim is false, see `C11_inelastic_fails`. -/
theorem C11_both_fixed_partial {t : Tas} {c : UBConf} {ub : M3} {n hkl : V3} {en : ℝ} {a : MotorAngles}
    (hcons : Spec.Consistent t.sample c ub) (hei : t.fixedEi.isSome) (hef : t.fixedEf.isSome)
    (hmode : (t.goni.mode = .ok none ∧ c.planeNormal = some n ∧ len n = 1 ∧
        Spec.TiltClear (ub *ᵥ hkl) n c.inPlaneRef ∧ ∀ x, a.sgl = some x → |x| ≠ 90) ∨
      (t.goni.mode = .ok (some "bisect".toList) ∧ t.goni.sense = some "-".toList))
    (h : t.motorAngles hkl en = .ok a) : t.hklFromAngles a = .ok (some hkl) := by
  obtain ⟨ei, hei⟩ := Option.isSome_iff_exists.1 hei
  obtain ⟨ef, hef⟩ := Option.isSome_iff_exists.1 hef
  have he : ∀ en, t.getEiEf none none en = .ok (ei, ef) := by
    intro en; unfold Tas.getEiEf; simp only [hei, hef]
  rcases hmode with ⟨hm, hpn, hn, hcl, hl⟩ | ⟨hm, hs⟩
  · exact hkl_back hcons.1 hcons.2.1 hcons.2.2.1 (he 0) (huber_observed hcons hpn hn hcl hm (he en) h hl)
  · exact hkl_back hcons.1 hcons.2.1 hcons.2.2.1 (he 0) ((bisect_observed hcons hm (he en) h).1 hs)

theorem qLab_z {ei ef tt : ℝ} {q : V3} (h : qLab ei ef tt = .ok q) : ∃ ki kf, en2q ei = .ok ki ∧ en2q ef = .ok kf ∧
    q 0 = -kf * Real.sin (deg2rad tt) ∧ q 2 = ki - kf * Real.cos (deg2rad tt) := by
  obtain ⟨ki, kf, h1, h2, rfl⟩ := qLab_inv h
  exact ⟨ki, kf, h1, h2, rfl, rfl⟩

theorem en2q_inj {x y k : ℝ} (hx : en2q x = .ok k) (hy : en2q y = .ok k) : x = y := by
  have h1 := (en2q_ok hx).2.2
  have h2 := (en2q_ok hy).2.2
  rw [h1] at h2
  exact h2

/-- **C11**, negation: with only one fixed energy (the usual instrument), for every non-zero energy transfer the motor
angles do NOT convert back to the reflection they were computed for, because the conversion assumes elastic scattering.
Stated for every position at which the reflection is observed with the energies of the request, so in particular for
positions computed on a Huber table (`huber_observed`) or in bisect mode (`bisect_observed`). -/
theorem C11_inelastic_fails {t : Tas} {c : UBConf} {ub : M3} {hkl : V3} {en ei ef : ℝ} {a : MotorAngles}
    (hc : t.sample.ubConf = some c) (hub : c.ubMat = some ub) (hone : t.fixedEi = none ∨ t.fixedEf = none)
    (hen : en ≠ 0) (he : t.getEiEf none none en = .ok (ei, ef))
    (o : Spec.ObservedAt t.goni ub ei ef hkl a) :
    t.hklFromAngles a ≠ .ok (some hkl) := by
  intro h
  obtain ⟨R, q, hR, hq, e⟩ := o
  obtain ⟨ki, kf, h1, h2, z0, z2⟩ := qLab_z hq
  have fin : ∀ ei' ef', t.getEiEf = .ok (ei', ef') → ∃ ki' kf', en2q ei' = .ok ki' ∧ en2q ef' = .ok kf' ∧
      -kf * Real.sin (deg2rad a.twoTheta) = -kf' * Real.sin (deg2rad a.twoTheta) ∧
      ki - kf * Real.cos (deg2rad a.twoTheta) = ki' - kf' * Real.cos (deg2rad a.twoTheta) := by
    intro ei' ef' he'
    obtain ⟨R', q', hR', hq', e'⟩ := hkl_back_inv hc hub he' h
    rw [hR] at hR'
    have hRR := Except.ok.inj hR'
    rw [← hRR, ← e] at e'
    obtain ⟨ki', kf', h1', h2', z0', z2'⟩ := qLab_z hq'
    rw [e'] at z0' z2'
    exact ⟨ki', kf', h1', h2', by rw [← z0, ← z0'], by rw [← z2, ← z2']⟩
  unfold Tas.getEiEf at he
  rcases hei : t.fixedEi with _ | x <;> rcases hef : t.fixedEf with _ | y
  · rw [hei, hef] at he; cases he
  · rw [hei, hef] at he
    cases he
    obtain ⟨ki', kf', h1', h2', _, e2⟩ := fin ef ef (by unfold Tas.getEiEf; rw [hei, hef]; simp)
    rw [h2] at h2'; cases h2'
    rw [h2] at h1'; cases h1'
    have hk : ki = kf := by linarith
    rw [hk] at h1
    have := en2q_inj h1 h2
    apply hen; linarith
  · rw [hei, hef] at he
    cases he
    obtain ⟨ki', kf', h1', h2', e1, e2⟩ := fin ei ei (by unfold Tas.getEiEf; rw [hei, hef]; simp)
    rw [h1] at h1'; cases h1'
    rw [h1] at h2'; cases h2'
    have hk : kf = ki := by
      have c := Real.sin_sq_add_cos_sq (deg2rad a.twoTheta)
      linear_combination (-(kf - ki)) * c - Real.sin (deg2rad a.twoTheta) * e1 - Real.cos (deg2rad a.twoTheta) * e2
    rw [hk] at h2
    have := en2q_inj h1 h2
    apply hen; linarith
  · rcases hone with h | h
    · rw [hei] at h; cases h
    · rw [hef] at h; cases h

end Tavi
