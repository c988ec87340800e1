import Verif.Props.Quadric
import Verif.Props.RoundTrip

/-! # C24: the Cooper-Nathans resolution matrix -/

namespace Tavi

open Matrix Spec

theorem invN_ok {n : ℕ} {m r : Mat n n} : invN m = .ok r ↔ m.det ≠ 0 ∧ r = m⁻¹ := by
  unfold invN
  split <;> rename_i h
  · simp [h]
  · simp [h, eq_comm]

theorem overTan_ok {x t r : ℝ} : overTan x t = .ok r ↔ Real.sin t ≠ 0 ∧ r = x * Real.cos t / Real.sin t := by
  unfold overTan
  split <;> rename_i h
  · simp [h]
  · simp [h, eq_comm]

theorem pyDiv_eq_ok {x y r : ℝ} : pyDiv x y = .ok r ↔ y ≠ 0 ∧ r = x / y := by
  unfold pyDiv
  split <;> rename_i h
  · simp [h]
  · simp [h, eq_comm]

theorem inv_sq_pos {x r : ℝ} (h : pyDiv 1 (x ^ 2) = .ok r) : 0 < r := by
  obtain ⟨h1, rfl⟩ := pyDiv_eq_ok.1 h
  have : 0 < x ^ 2 := lt_of_le_of_ne (sq_nonneg x) h1.symm
  positivity

namespace CooperNathans

theorem matF_pos {m a : MonoAna} {f : Mat 4 4} (h : matF m a = .ok f) : f.PosDef := by
  unfold matF at h
  obtain ⟨x1, -, h⟩ := py_bind_eq_ok.1 h
  obtain ⟨a1, k1, h⟩ := py_bind_eq_ok.1 h
  obtain ⟨x2, -, h⟩ := py_bind_eq_ok.1 h
  obtain ⟨a2, k2, h⟩ := py_bind_eq_ok.1 h
  obtain ⟨x3, -, h⟩ := py_bind_eq_ok.1 h
  obtain ⟨a3, k3, h⟩ := py_bind_eq_ok.1 h
  obtain ⟨x4, -, h⟩ := py_bind_eq_ok.1 h
  obtain ⟨a4, k4, h⟩ := py_bind_eq_ok.1 h
  have h := Except.ok.inj h
  rw [← h, posDef_diagonal_iff]
  have := inv_sq_pos k1; have := inv_sq_pos k2; have := inv_sq_pos k3; have := inv_sq_pos k4
  intro i
  fin_cases i <;> simpa

theorem matG_pos {c : Collimators} {g : Mat 8 8} (h : matG c = .ok g) : g.PosDef := by
  unfold matG collEntry at h
  obtain ⟨a1, k1, h⟩ := py_bind_eq_ok.1 h
  obtain ⟨a2, k2, h⟩ := py_bind_eq_ok.1 h
  obtain ⟨a3, k3, h⟩ := py_bind_eq_ok.1 h
  obtain ⟨a4, k4, h⟩ := py_bind_eq_ok.1 h
  obtain ⟨a5, k5, h⟩ := py_bind_eq_ok.1 h
  obtain ⟨a6, k6, h⟩ := py_bind_eq_ok.1 h
  obtain ⟨a7, k7, h⟩ := py_bind_eq_ok.1 h
  obtain ⟨a8, k8, h⟩ := py_bind_eq_ok.1 h
  have h := Except.ok.inj h
  rw [← h, posDef_diagonal_iff]
  have := inv_sq_pos k1; have := inv_sq_pos k2; have := inv_sq_pos k3; have := inv_sq_pos k4
  have := inv_sq_pos k5; have := inv_sq_pos k6; have := inv_sq_pos k7; have := inv_sq_pos k8
  intro i
  fin_cases i <;> simpa

theorem matH_pos {c : Mat 4 8} {f : Mat 4 4} {g : Mat 8 8} (hf : f.PosDef) (hg : g.PosDef) : (cᵀ * f * c + g).PosDef := by
  have := hf.posSemidef.conjTranspose_mul_mul_same c
  rw [conjTranspose_eq_transpose_of_trivial] at this
  exact hg.posSemidef_add this

theorem cov_psd {a : Mat 6 8} {b : Mat 4 6} {h : Mat 8 8} (hh : h.PosDef) {x y : ℝ} (hx : 0 ≤ x) (hy : 0 ≤ y) :
    (matCov a b h⁻¹ x y).PosSemidef := by
  unfold matCov
  have h1 := hh.inv.posSemidef.mul_mul_conjTranspose_same (b * a)
  rw [conjTranspose_eq_transpose_of_trivial] at h1
  refine h1.add (posSemidef_diagonal_iff.2 fun i => ?_)
  fin_cases i <;> simp [hx, hy]

end CooperNathans

theorem thetaM_cos {t : Tas} {e x : ℝ} (h : t.getThetaM e = .ok x) : 0 ≤ Real.cos (deg2rad x) := by
  unfold Tas.getThetaM at h
  obtain ⟨k, -, h⟩ := py_bind_eq_ok.1 h
  obtain ⟨y, hy, h⟩ := py_bind_eq_ok.1 h
  obtain ⟨s, hs, h⟩ := py_bind_eq_ok.1 h
  have h : rad2deg (y * s) = x := Except.ok.inj h
  unfold angleBragg at hy
  obtain ⟨z, -, hy⟩ := py_bind_eq_ok.1 hy
  split at hy
  · cases hy
  · have hy : Real.arcsin z = y := Except.ok.inj hy
    rw [← h]
    have : deg2rad (rad2deg (y * s)) = y * s := by unfold deg2rad rad2deg; field_simp
    rw [this, ← hy]
    rcases mono_sense hs with ⟨rfl, -⟩ | ⟨rfl, -⟩
    · rw [mul_one]; exact Real.cos_arcsin_nonneg z
    · rw [mul_neg_one, Real.cos_neg]; exact Real.cos_arcsin_nonneg z

theorem thetaA_cos {t : Tas} {e x : ℝ} (h : t.getThetaA e = .ok x) : 0 ≤ Real.cos (deg2rad x) := by
  have : Tas.getThetaM { t with mono := t.ana } e = .ok x := h
  exact thetaM_cos this

theorem en2q_nonneg {e k : ℝ} (h : en2q e = .ok k) : 0 ≤ k := (en2q_ok h).2.1

theorem prefactor_nonneg {ki kf tm ta r : ℝ} {f : Mat 4 4} {h : Mat 8 8} (hi : 0 ≤ ki) (hf : 0 ≤ kf)
    (hm : 0 ≤ Real.cos tm) (ha : 0 ≤ Real.cos ta) (hr : CooperNathans.prefactor ki kf tm ta f h = .ok r) : 0 ≤ r := by
  unfold CooperNathans.prefactor pyDiv2 at hr
  obtain ⟨rm, h1, hr⟩ := py_bind_eq_ok.1 hr
  obtain ⟨ra, h2, hr⟩ := py_bind_eq_ok.1 hr
  obtain ⟨x, h3, hr⟩ := py_bind_eq_ok.1 hr
  obtain ⟨y, h4, hr⟩ := py_bind_eq_ok.1 hr
  obtain ⟨z, h5, hr⟩ := py_bind_eq_ok.1 hr
  have hr : rm * ra * x * z = r := Except.ok.inj hr
  obtain ⟨s1, rfl⟩ := overTan_ok.1 h1
  obtain ⟨s2, rfl⟩ := overTan_ok.1 h2
  obtain ⟨w, h6, h7⟩ := py_bind_eq_ok.1 h3
  obtain ⟨-, rfl⟩ := pyDiv_eq_ok.1 h6
  obtain ⟨-, rfl⟩ := pyDiv_eq_ok.1 h7
  have hz : 0 ≤ z := by
    unfold pySqrt at h5
    split at h5
    · cases h5
    · rw [← Except.ok.inj h5]; exact Real.sqrt_nonneg _
  rw [← hr]
  refine mul_nonneg ?_ hz
  have : 1 * ki ^ 3 * Real.cos tm / Real.sin tm * (1 * kf ^ 3 * Real.cos ta / Real.sin ta)
        * (Real.pi ^ 2 / 4 / Real.sin tm / Real.sin ta)
      = ki ^ 3 * kf ^ 3 * Real.cos tm * Real.cos ta * (Real.pi ^ 2 / 4) / (Real.sin tm ^ 2 * Real.sin ta ^ 2) := by
    field_simp
  rw [this]
  positivity

theorem sig2fwhm_pos : 0 < sig2fwhm := by
  unfold sig2fwhm
  have : 0 < Real.log 2 := Real.log_pos (by norm_num)
  positivity

/-- C24: whenever the resolution calculation returns at all, the matrix is symmetric positive definite and the prefactor is
not negative, for every combination of scattering senses. -/
theorem C24_positive {t : Tas} {hkl : V3} {ei ef r0 : ℝ} {M : Mat 4 4}
    (h : CooperNathans.calculateAt t hkl ei ef = .ok (M, r0)) : SPD M ∧ 0 ≤ r0 := by
  unfold CooperNathans.calculateAt at h
  obtain ⟨q, hq, h⟩ := py_bind_eq_ok.1 h
  obtain ⟨ki, hki, h⟩ := py_bind_eq_ok.1 h
  obtain ⟨kf, hkf, h⟩ := py_bind_eq_ok.1 h
  obtain ⟨an, han, h⟩ := py_bind_eq_ok.1 h
  obtain ⟨psi, hpsi, h⟩ := py_bind_eq_ok.1 h
  obtain ⟨tm, htm, h⟩ := py_bind_eq_ok.1 h
  obtain ⟨ta, hta, h⟩ := py_bind_eq_ok.1 h
  obtain ⟨a, ha, h⟩ := py_bind_eq_ok.1 h
  obtain ⟨c, hc, h⟩ := py_bind_eq_ok.1 h
  obtain ⟨f, hf, h⟩ := py_bind_eq_ok.1 h
  obtain ⟨g, hg, h⟩ := py_bind_eq_ok.1 h
  obtain ⟨hi, hhi, h⟩ := py_bind_eq_ok.1 h
  obtain ⟨ci, hci, h⟩ := py_bind_eq_ok.1 h
  obtain ⟨r, hr, h⟩ := py_bind_eq_ok.1 h
  have h := Except.ok.inj h
  have hM : sig2fwhm ^ 2 • ci = M := congrArg Prod.fst h
  have hr0 : r = r0 := congrArg Prod.snd h
  refine ⟨?_, ?_⟩
  · have hH := CooperNathans.matH_pos (c := c) (CooperNathans.matF_pos hf) (CooperNathans.matG_pos hg)
    obtain ⟨-, rfl⟩ := invN_ok.1 hhi
    obtain ⟨hdet, rfl⟩ := invN_ok.1 hci
    have hpsd := CooperNathans.cov_psd (a := a) (b := CooperNathans.matB ki kf (deg2rad psi) (deg2rad an.twoTheta)) hH
      (show 0 ≤ q ^ 2 * t.sample.mosaicHRad ^ 2 by positivity) (show 0 ≤ q ^ 2 * t.sample.mosaicVRad ^ 2 by positivity)
    have hpd := hpsd.posDef_iff_det_ne_zero.2 hdet
    rw [spd_iff, ← hM]
    exact hpd.inv.smul (by have := sig2fwhm_pos; positivity)
  · rw [← hr0]
    exact prefactor_nonneg (en2q_nonneg hki) (en2q_nonneg hkf) (thetaM_cos htm) (thetaA_cos hta) hr

/-! ## The calculation does return -/

theorem matA_vecMul {m m' a a' ki kf : ℝ} (hm : m ≠ 0) (ha : a' ≠ 0) (hki : ki ≠ 0) (hkf : kf ≠ 0) {y : Fin 6 → ℝ}
    (h : y ᵥ* (!![m, m', 0, 0, 0, 0, 0, 0;
            0, ki, 0, 0, 0, 0, 0, 0;
            0, 0, 0, ki, 0, 0, 0, 0;
            0, 0, 0, 0, a, a', 0, 0;
            0, 0, 0, 0, kf, 0, 0, 0;
            0, 0, 0, 0, 0, 0, kf, 0] : Mat 6 8) = 0) : y = 0 := by
  have c0 := congrFun h 0
  have c1 := congrFun h 1
  have c3 := congrFun h 3
  have c4 := congrFun h 4
  have c5 := congrFun h 5
  have c6 := congrFun h 6
  simp [vecMul, dotProduct, Fin.sum_univ_six, hm, ha, hki, hkf] at c0 c1 c3 c4 c5 c6
  ext i
  fin_cases i <;> simp_all

theorem matB_vecMul {ki kf phi tt : ℝ} (hq : 0 < ki ^ 2 + kf ^ 2 - 2 * ki * kf * Real.cos tt) {w : Fin 4 → ℝ}
    (h : w ᵥ* CooperNathans.matB ki kf phi tt = 0) : w = 0 := by
  have c0 := congrFun h 0
  have c1 := congrFun h 1
  have c2 := congrFun h 2
  have c3 := congrFun h 3
  have c4 := congrFun h 4
  simp [vecMul, dotProduct, Fin.sum_univ_four, CooperNathans.matB, rotationMatrix2d] at c0 c1 c2 c3 c4
  have e1 := Real.sin_sq_add_cos_sq phi
  have e2 := Real.sin_sq_add_cos_sq (phi - tt)
  have e3 : Real.cos tt = Real.cos phi * Real.cos (phi - tt) + Real.sin phi * Real.sin (phi - tt) := by
    rw [← Real.cos_sub]; congr 1; ring
  have hk := ksq2eng_pos
  set C := Real.cos phi
  set S := Real.sin phi
  set C' := Real.cos (phi - tt)
  set S' := Real.sin (phi - tt)
  set k := ksq2eng
  have a0 : w 0 = -(2 * k * ki * w 3) * C := by linear_combination C * c0 + S * c1 - w 0 * e1
  have a1 : w 1 = (2 * k * ki * w 3) * S := by linear_combination C * c1 - S * c0 - w 1 * e1
  have b0 : w 0 = -(2 * k * kf * w 3) * C' := by linear_combination -C' * c3 - S' * c4 - w 0 * e2
  have b1 : w 1 = (2 * k * kf * w 3) * S' := by linear_combination -C' * c4 + S' * c3 - w 1 * e2
  have hw3 : w 3 = 0 := by
    by_contra hne
    have k2 : 2 * k * w 3 ≠ 0 := by positivity
    have f0 : ki * C = kf * C' := by
      apply mul_left_cancel₀ k2; linear_combination a0 - b0
    have f1 : ki * S = kf * S' := by
      apply mul_left_cancel₀ k2; linear_combination b1 - a1
    have g1 : ki * kf * Real.cos tt = ki ^ 2 := by
      rw [e3]; linear_combination -ki * C * f0 - ki * S * f1 + ki ^ 2 * e1
    have g2 : ki * kf * Real.cos tt = kf ^ 2 := by
      rw [e3]; linear_combination kf * C' * f0 + kf * S' * f1 + kf ^ 2 * e2
    have : ki ^ 2 + kf ^ 2 - 2 * ki * kf * Real.cos tt = 0 := by linear_combination -g1 - g2
    linarith
  ext i
  fin_cases i
  · show w 0 = 0
    rw [a0, hw3]; ring
  · show w 1 = 0
    rw [a1, hw3]; ring
  · exact c2
  · exact hw3

theorem motorAngles_twoTheta {t : Tas} {hkl : V3} {en : ℝ} {a : MotorAngles} (h : t.motorAngles hkl en = .ok a) :
    t.getTwoTheta hkl en = .ok a.twoTheta ∧ ∃ psi, t.getPsi hkl en = .ok psi := by
  obtain ⟨tt, psi, ei, ef, c, htt, hpsi, he, hc, -, hcase⟩ := motorAngles_cases h
  refine ⟨?_, psi, hpsi⟩
  rcases hcase with ⟨-, r, -, ha⟩ | ⟨-, ha⟩
  · obtain ⟨s0, s1, s2, -, -, rfl, -⟩ := anglesFromRMat_cases ha
    exact htt
  · obtain ⟨s0, s1, s2, ub, sense, -, -, -, -, rfl, -⟩ := bisect_cases ha
    exact htt

theorem getEiEf_back {t : Tas} {en ei ef : ℝ} (h : t.getEiEf none none en = .ok (ei, ef)) :
    t.getEiEf none none (ei - ef) = .ok (ei, ef) := by
  unfold Tas.getEiEf at h ⊢
  rcases h1 : t.fixedEi with _ | x <;> rcases h2 : t.fixedEf with _ | y <;> simp [h1, h2] at h ⊢
  · exact ⟨by linarith [h.2], h.2⟩
  · exact ⟨h.1, by linarith [h.1]⟩
  · exact h

theorem theta_sin {t : Tas} {e x : ℝ} (h : t.getThetaM e = .ok x) :
    Real.sin (deg2rad x) ≠ 0 ∧ ∃ k, en2q e = .ok k ∧ k ≠ 0 := by
  unfold Tas.getThetaM at h
  obtain ⟨k, hk, h⟩ := py_bind_eq_ok.1 h
  obtain ⟨y, hy, h⟩ := py_bind_eq_ok.1 h
  obtain ⟨s, hs, h⟩ := py_bind_eq_ok.1 h
  have h : rad2deg (y * s) = x := Except.ok.inj h
  unfold angleBragg at hy
  obtain ⟨z, hz, hy⟩ := py_bind_eq_ok.1 hy
  obtain ⟨hdk, rfl⟩ := pyDiv_eq_ok.1 hz
  split at hy
  · cases hy
  · rename_i hr
    rw [not_or, not_lt, not_lt] at hr
    have hy : Real.arcsin (Real.pi / (t.mono.dSpacing * k)) = y := Except.ok.inj hy
    refine ⟨?_, k, hk, right_ne_zero_of_mul hdk⟩
    rw [← h]
    have : deg2rad (rad2deg (y * s)) = y * s := by unfold deg2rad rad2deg; field_simp
    have hsin : Real.sin y ≠ 0 := by
      rw [← hy, Real.sin_arcsin hr.2 hr.1]
      exact div_ne_zero Real.pi_ne_zero hdk
    rw [this]
    rcases mono_sense hs with ⟨rfl, -⟩ | ⟨rfl, -⟩
    · rwa [mul_one]
    · rw [mul_neg_one, Real.sin_neg]; exact neg_ne_zero.2 hsin

theorem thetaA_sin {t : Tas} {e x : ℝ} (h : t.getThetaA e = .ok x) :
    Real.sin (deg2rad x) ≠ 0 ∧ ∃ k, en2q e = .ok k ∧ k ≠ 0 := by
  have : Tas.getThetaM { t with mono := t.ana } e = .ok x := h
  exact theta_sin this

/-- Specification: mosaics and collimations are given and none is zero. -/
structure Spec.RealOptics (t : Tas) : Prop where
  mono_h : ∃ x, t.mono.mosaicH = some x ∧ x ≠ 0
  mono_v : ∃ x, t.mono.mosaicV = some x ∧ x ≠ 0
  ana_h : ∃ x, t.ana.mosaicH = some x ∧ x ≠ 0
  ana_v : ∃ x, t.ana.mosaicV = some x ∧ x ≠ 0
  coll_h : ∀ i, t.coll.h i ≠ 0
  coll_v : ∀ i, t.coll.v i ≠ 0

theorem minutes_ne {x : ℝ} (h : x ≠ 0) : deg2rad (x / 60) ^ 2 ≠ 0 := by
  unfold deg2rad
  have := Real.pi_pos
  positivity

theorem matF_ok {t : Tas} (h : Spec.RealOptics t) : ∃ f, CooperNathans.matF t.mono t.ana = .ok f := by
  obtain ⟨x1, e1, n1⟩ := h.mono_h
  obtain ⟨x2, e2, n2⟩ := h.mono_v
  obtain ⟨x3, e3, n3⟩ := h.ana_h
  obtain ⟨x4, e4, n4⟩ := h.ana_v
  unfold CooperNathans.matF MonoAna.mosaicRad
  rw [e1, e2, e3, e4]
  simp only [need_some, py_bind_ok, py_pure, pyDiv_ok (minutes_ne n1), pyDiv_ok (minutes_ne n2), pyDiv_ok (minutes_ne n3),
    pyDiv_ok (minutes_ne n4)]
  exact ⟨_, rfl⟩

theorem matG_ok {t : Tas} (h : Spec.RealOptics t) : ∃ g, CooperNathans.matG t.coll = .ok g := by
  unfold CooperNathans.matG CooperNathans.collEntry
  simp only [py_bind_ok, py_pure, pyDiv_ok (minutes_ne (h.coll_h _)), pyDiv_ok (minutes_ne (h.coll_v _))]
  exact ⟨_, rfl⟩

/-- C24: with non-zero mosaics and collimations, at every position the spectrometer can reach and with take-off angles other
than ±90°, the calculation is never singular: it returns a matrix and a prefactor. (By `C24_positive` they are positive.) -/
theorem C24_defined {t : Tas} {hkl : V3} {en ei ef tm ta : ℝ} {a : MotorAngles} (hcell : PossibleCell t.sample.latt)
    (hopt : Spec.RealOptics t) (he : t.getEiEf none none en = .ok (ei, ef)) (ha : t.motorAngles hkl en = .ok a)
    (hm : t.getThetaM ei = .ok tm) (han : t.getThetaA ef = .ok ta) (hcm : Real.cos (deg2rad tm) ≠ 0)
    (hca : Real.cos (deg2rad ta) ≠ 0) : ∃ M r0, CooperNathans.calculateAt t hkl ei ef = .ok (M, r0) := by
  have hback := getEiEf_back he
  have hTT : t.getTwoTheta hkl (ei - ef) = t.getTwoTheta hkl en := by unfold Tas.getTwoTheta; rw [hback, he]
  have hPP : t.getPsi hkl (ei - ef) = t.getPsi hkl en := by unfold Tas.getPsi; rw [hback, he]
  have ha' : t.motorAngles hkl (ei - ef) = .ok a := by
    rw [← ha]; unfold Tas.motorAngles; rw [hTT, hPP, hback, he]
  obtain ⟨htt, psi, hpsi⟩ := motorAngles_twoTheta ha'
  obtain ⟨b, hb, -, hqn⟩ := C02_q_norm hcell hkl
  obtain ⟨ki, kf, hki, hkf, kip, kfp, Qp, -, -, q1, q2, -⟩ := C13_q_lab hb hback htt hpsi
  obtain ⟨sm, -⟩ := theta_sin hm
  obtain ⟨sa, -⟩ := thetaA_sin han
  obtain ⟨f, hf⟩ := matF_ok hopt
  obtain ⟨g, hg⟩ := matG_ok hopt
  have hQ : 0 < ki ^ 2 + kf ^ 2 - 2 * ki * kf * Real.cos (deg2rad a.twoTheta) := by
    have e1 := Real.sin_sq_add_cos_sq (deg2rad a.twoTheta)
    have e2 := Real.sin_sq_add_cos_sq (deg2rad psi)
    have : ki ^ 2 + kf ^ 2 - 2 * ki * kf * Real.cos (deg2rad a.twoTheta) = qNormFromHkl hkl b ^ 2 := by
      have s1 : kf ^ 2 * Real.sin (deg2rad a.twoTheta) ^ 2 = qNormFromHkl hkl b ^ 2 * Real.sin (deg2rad psi) ^ 2 := by
        rw [← mul_pow, ← mul_pow, ← q1]; ring
      have s2 : (ki - kf * Real.cos (deg2rad a.twoTheta)) ^ 2 = qNormFromHkl hkl b ^ 2 * Real.cos (deg2rad psi) ^ 2 := by
        rw [← mul_pow, ← q2]
      linear_combination s1 + s2 + qNormFromHkl hkl b ^ 2 * e2 - kf ^ 2 * e1
    rw [this]; positivity
  have hA : ∃ A, CooperNathans.matA ki kf (deg2rad tm) (deg2rad ta) = .ok A ∧ ∀ y : Fin 6 → ℝ, y ᵥ* A = 0 → y = 0 := by
    unfold CooperNathans.matA
    rw [overTan_ok.2 ⟨sm, rfl⟩, overTan_ok.2 ⟨sm, rfl⟩, overTan_ok.2 ⟨sa, rfl⟩, overTan_ok.2 ⟨sa, rfl⟩]
    simp only [py_bind_ok, py_pure]
    refine ⟨_, rfl, fun y hy => matA_vecMul ?_ ?_ kip.ne' kfp.ne' hy⟩
    · have := kip.ne'; positivity
    · exact div_ne_zero (mul_ne_zero (by have := kfp.ne'; norm_num; exact this) hca) sa
  obtain ⟨A, hA, hAi⟩ := hA
  have hC : ∃ C, CooperNathans.matC (deg2rad tm) (deg2rad ta) = .ok C := by
    unfold CooperNathans.matC
    simp only [pyDiv_ok sm, pyDiv_ok sa, py_bind_ok, py_pure]
    exact ⟨_, rfl⟩
  obtain ⟨C, hC⟩ := hC
  have hH := CooperNathans.matH_pos (c := C) (CooperNathans.matF_pos hf) (CooperNathans.matG_pos hg)
  have hinj : Function.Injective (CooperNathans.matB ki kf (deg2rad psi) (deg2rad a.twoTheta) * A).vecMul := by
    intro x y hxy
    have h0 : (x - y) ᵥ* (CooperNathans.matB ki kf (deg2rad psi) (deg2rad a.twoTheta) * A) = 0 := by
      rw [sub_vecMul]; exact sub_eq_zero.2 hxy
    rw [← vecMul_vecMul] at h0
    exact sub_eq_zero.1 (matB_vecMul hQ (hAi _ h0))
  have hcov : ∀ x y : ℝ, 0 ≤ x → 0 ≤ y → (CooperNathans.matCov A
      (CooperNathans.matB ki kf (deg2rad psi) (deg2rad a.twoTheta)) (Cᵀ * f * C + g)⁻¹ x y).PosDef := by
    intro x y hx hy
    unfold CooperNathans.matCov
    have h1 := hH.inv.mul_mul_conjTranspose_same hinj
    rw [conjTranspose_eq_transpose_of_trivial] at h1
    refine h1.add_posSemidef (posSemidef_diagonal_iff.2 fun i => ?_)
    fin_cases i <;> simp [hx, hy]
  have hP : ∃ r, CooperNathans.prefactor ki kf (deg2rad tm) (deg2rad ta) f (Cᵀ * f * C + g) = .ok r := by
    unfold CooperNathans.prefactor pyDiv2
    rw [overTan_ok.2 ⟨sm, rfl⟩, overTan_ok.2 ⟨sa, rfl⟩]
    simp only [py_bind_ok, py_pure, pyDiv_ok sm, pyDiv_ok sa, pyDiv_ok hH.det_pos.ne']
    rw [pySqrt_ok (div_nonneg (CooperNathans.matF_pos hf).det_pos.le hH.det_pos.le)]
    exact ⟨_, rfl⟩
  obtain ⟨r, hr⟩ := hP
  unfold CooperNathans.calculateAt
  rw [hqn, py_bind_ok, hki, py_bind_ok, hkf, py_bind_ok, ha', py_bind_ok, hpsi, py_bind_ok, hm, py_bind_ok, han, py_bind_ok,
    hA, py_bind_ok]
  dsimp only
  rw [hC, py_bind_ok, hf, py_bind_ok, hg, py_bind_ok, invN_ok.2 ⟨hH.det_pos.ne', rfl⟩, py_bind_ok,
    invN_ok.2 ⟨(hcov _ _ (by positivity) (by positivity)).det_pos.ne', rfl⟩, py_bind_ok, hr, py_bind_ok]
  exact ⟨_, _, rfl⟩

/-! ## What the matrix is made of -/

theorem mulVec_diagonal_eq {n : ℕ} (d v : Fin n → ℝ) : diagonal d *ᵥ v = fun i => d i * v i := by
  ext i; exact mulVec_diagonal d v i

/-- Textbook exponent (Cooper & Nathans 1967, Popovici 1975): every collimator angle is measured in units of its own
divergence and every crystal misorientation in units of its own mosaic. `u` lists the angles: horizontal before and after
the monochromator (0, 1), vertical before and after it (2, 3), the same for the analyser (4..7). -/
noncomputable def Spec.exponent (t : Tas) (mh mv ah av tm ta : ℝ) (u : Fin 8 → ℝ) : ℝ :=
  let rad : ℝ → ℝ := fun m => m / 60 * (Real.pi / 180)
  (u 0 / rad (t.coll.h 0)) ^ 2 + (u 1 / rad (t.coll.h 1)) ^ 2 + (u 4 / rad (t.coll.h 2)) ^ 2 + (u 5 / rad (t.coll.h 3)) ^ 2
  + (u 2 / rad (t.coll.v 0)) ^ 2 + (u 3 / rad (t.coll.v 1)) ^ 2 + (u 6 / rad (t.coll.v 2)) ^ 2 + (u 7 / rad (t.coll.v 3)) ^ 2
  + ((u 0 + u 1) / 2 / rad mh) ^ 2 + ((u 2 - u 3) / (2 * Real.sin tm) / rad mv) ^ 2
  + ((u 4 + u 5) / 2 / rad ah) ^ 2 + ((u 6 - u 7) / (2 * Real.sin ta) / rad av) ^ 2

/-- Textbook displacement: the change of `ki` along itself, across it and vertically is `ki cot θm (u0 - u1)/2, ki u1,
ki u3` and likewise for `kf`; the momentum change is `δki - δkf`, written in axes along `Q`, across it and vertical
(`phi` is the angle from `ki` to `Q`, `tt` the scattering angle); the energy change is `2 k (ki δki - kf δkf)`. -/
noncomputable def Spec.displacement (ki kf tm ta phi tt : ℝ) (u : Fin 8 → ℝ) : Fin 4 → ℝ :=
  let di0 := ki * (Real.cos tm / Real.sin tm) * (u 0 - u 1) / 2
  let df0 := kf * (Real.cos ta / Real.sin ta) * (u 4 - u 5) / 2
  ![(Real.cos phi * di0 + Real.sin phi * (ki * u 1)) - (Real.cos (phi - tt) * df0 + Real.sin (phi - tt) * (kf * u 4)),
    (-Real.sin phi * di0 + Real.cos phi * (ki * u 1)) - (-Real.sin (phi - tt) * df0 + Real.cos (phi - tt) * (kf * u 4)),
    ki * u 3 - kf * u 6,
    2 * ksq2eng * (ki * di0 - kf * df0)]

/-- C65: the resolution matrix is `sig2fwhm²` times the inverse of the covariance of the displacement when the angles are
Gaussian with the textbook exponent, plus the sample mosaic across `Q` (horizontally and vertically). -/
theorem C65_textbook {t : Tas} {hkl : V3} {ei ef r0 : ℝ} {M : Mat 4 4}
    (h : CooperNathans.calculateAt t hkl ei ef = .ok (M, r0)) :
    ∃ (q ki kf tt psi tm ta mh mv ah av : ℝ) (H : Mat 8 8) (T : Mat 4 8),
      t.sample.getQNorm hkl = .ok q ∧ en2q ei = .ok ki ∧ en2q ef = .ok kf ∧ t.getTwoTheta hkl (ei - ef) = .ok tt ∧
      t.getPsi hkl (ei - ef) = .ok psi ∧ t.getThetaM ei = .ok tm ∧ t.getThetaA ef = .ok ta ∧
      t.mono.mosaicH = some mh ∧ t.mono.mosaicV = some mv ∧ t.ana.mosaicH = some ah ∧ t.ana.mosaicV = some av ∧
      SPD H ∧ (∀ u, qform H u = Spec.exponent t mh mv ah av (deg2rad tm) (deg2rad ta) u) ∧
      (∀ u, T *ᵥ u = Spec.displacement ki kf (deg2rad tm) (deg2rad ta) (deg2rad psi) (deg2rad tt) u) ∧
      M * (T * H⁻¹ * Tᵀ + diagonal ![0, (q * (t.sample.mosaicH / 60 * (Real.pi / 180))) ^ 2,
        (q * (t.sample.mosaicV / 60 * (Real.pi / 180))) ^ 2, 0]) = sig2fwhm ^ 2 • (1 : Mat 4 4) := by
  unfold CooperNathans.calculateAt at h
  obtain ⟨q, hq, h⟩ := py_bind_eq_ok.1 h
  obtain ⟨ki, hki, h⟩ := py_bind_eq_ok.1 h
  obtain ⟨kf, hkf, h⟩ := py_bind_eq_ok.1 h
  obtain ⟨an, han, h⟩ := py_bind_eq_ok.1 h
  obtain ⟨psi, hpsi, h⟩ := py_bind_eq_ok.1 h
  obtain ⟨tm, htm, h⟩ := py_bind_eq_ok.1 h
  obtain ⟨ta, hta, h⟩ := py_bind_eq_ok.1 h
  obtain ⟨a, ha, h⟩ := py_bind_eq_ok.1 h
  obtain ⟨c, hc, h⟩ := py_bind_eq_ok.1 h
  obtain ⟨f, hf, h⟩ := py_bind_eq_ok.1 h
  obtain ⟨g, hg, h⟩ := py_bind_eq_ok.1 h
  obtain ⟨hi, hhi, h⟩ := py_bind_eq_ok.1 h
  obtain ⟨ci, hci, h⟩ := py_bind_eq_ok.1 h
  obtain ⟨r, hr, h⟩ := py_bind_eq_ok.1 h
  have h := Except.ok.inj h
  have hM : sig2fwhm ^ 2 • ci = M := congrArg Prod.fst h
  have hH := CooperNathans.matH_pos (c := c) (CooperNathans.matF_pos hf) (CooperNathans.matG_pos hg)
  obtain ⟨-, rfl⟩ := invN_ok.1 hhi
  obtain ⟨hdet, rfl⟩ := invN_ok.1 hci
  unfold CooperNathans.matF MonoAna.mosaicRad at hf
  obtain ⟨x1, j1, hf⟩ := py_bind_eq_ok.1 hf
  obtain ⟨a1, k1, hf⟩ := py_bind_eq_ok.1 hf
  obtain ⟨x2, j2, hf⟩ := py_bind_eq_ok.1 hf
  obtain ⟨a2, k2, hf⟩ := py_bind_eq_ok.1 hf
  obtain ⟨x3, j3, hf⟩ := py_bind_eq_ok.1 hf
  obtain ⟨a3, k3, hf⟩ := py_bind_eq_ok.1 hf
  obtain ⟨x4, j4, hf⟩ := py_bind_eq_ok.1 hf
  obtain ⟨a4, k4, hf⟩ := py_bind_eq_ok.1 hf
  have hf := Except.ok.inj hf
  obtain ⟨m1, n1, j1⟩ := py_bind_eq_ok.1 j1
  obtain ⟨m2, n2, j2⟩ := py_bind_eq_ok.1 j2
  obtain ⟨m3, n3, j3⟩ := py_bind_eq_ok.1 j3
  obtain ⟨m4, n4, j4⟩ := py_bind_eq_ok.1 j4
  have n1 := need_eq_ok.1 n1
  have n2 := need_eq_ok.1 n2
  have n3 := need_eq_ok.1 n3
  have n4 := need_eq_ok.1 n4
  have j1 := Except.ok.inj j1
  have j2 := Except.ok.inj j2
  have j3 := Except.ok.inj j3
  have j4 := Except.ok.inj j4
  unfold CooperNathans.matG CooperNathans.collEntry at hg
  obtain ⟨g1, l1, hg⟩ := py_bind_eq_ok.1 hg
  obtain ⟨g2, l2, hg⟩ := py_bind_eq_ok.1 hg
  obtain ⟨g3, l3, hg⟩ := py_bind_eq_ok.1 hg
  obtain ⟨g4, l4, hg⟩ := py_bind_eq_ok.1 hg
  obtain ⟨g5, l5, hg⟩ := py_bind_eq_ok.1 hg
  obtain ⟨g6, l6, hg⟩ := py_bind_eq_ok.1 hg
  obtain ⟨g7, l7, hg⟩ := py_bind_eq_ok.1 hg
  obtain ⟨g8, l8, hg⟩ := py_bind_eq_ok.1 hg
  have hg := Except.ok.inj hg
  unfold CooperNathans.matC at hc
  obtain ⟨c1, o1, hc⟩ := py_bind_eq_ok.1 hc
  obtain ⟨c2, o2, hc⟩ := py_bind_eq_ok.1 hc
  obtain ⟨c3, o3, hc⟩ := py_bind_eq_ok.1 hc
  obtain ⟨c4, o4, hc⟩ := py_bind_eq_ok.1 hc
  have hc := Except.ok.inj hc
  unfold CooperNathans.matA at ha
  obtain ⟨d1, p1, ha⟩ := py_bind_eq_ok.1 ha
  obtain ⟨d2, p2, ha⟩ := py_bind_eq_ok.1 ha
  obtain ⟨d3, p3, ha⟩ := py_bind_eq_ok.1 ha
  obtain ⟨d4, p4, ha⟩ := py_bind_eq_ok.1 ha
  have ha := Except.ok.inj ha
  obtain ⟨-, rfl⟩ := pyDiv_eq_ok.1 k1
  obtain ⟨-, rfl⟩ := pyDiv_eq_ok.1 k2
  obtain ⟨-, rfl⟩ := pyDiv_eq_ok.1 k3
  obtain ⟨-, rfl⟩ := pyDiv_eq_ok.1 k4
  obtain ⟨-, rfl⟩ := pyDiv_eq_ok.1 l1
  obtain ⟨-, rfl⟩ := pyDiv_eq_ok.1 l2
  obtain ⟨-, rfl⟩ := pyDiv_eq_ok.1 l3
  obtain ⟨-, rfl⟩ := pyDiv_eq_ok.1 l4
  obtain ⟨-, rfl⟩ := pyDiv_eq_ok.1 l5
  obtain ⟨-, rfl⟩ := pyDiv_eq_ok.1 l6
  obtain ⟨-, rfl⟩ := pyDiv_eq_ok.1 l7
  obtain ⟨-, rfl⟩ := pyDiv_eq_ok.1 l8
  obtain ⟨sm, rfl⟩ := pyDiv_eq_ok.1 o1
  obtain ⟨-, rfl⟩ := pyDiv_eq_ok.1 o2
  obtain ⟨sa, rfl⟩ := pyDiv_eq_ok.1 o3
  obtain ⟨-, rfl⟩ := pyDiv_eq_ok.1 o4
  obtain ⟨-, rfl⟩ := overTan_ok.1 p1
  obtain ⟨-, rfl⟩ := overTan_ok.1 p2
  obtain ⟨-, rfl⟩ := overTan_ok.1 p3
  obtain ⟨-, rfl⟩ := overTan_ok.1 p4
  refine ⟨q, ki, kf, an.twoTheta, psi, tm, ta, m1, m2, m3, m4, cᵀ * f * c + g,
    CooperNathans.matB ki kf (deg2rad psi) (deg2rad an.twoTheta) * a, hq, hki, hkf, (motorAngles_twoTheta han).1, hpsi, htm,
    hta, n1, n2, n3, n4, (spd_iff _).2 hH, fun u => ?_, fun u => ?_, ?_⟩
  · rw [qform_eq, add_mulVec, dotProduct_add, Matrix.mul_assoc, ← mulVec_mulVec, ← mulVec_mulVec, dotProduct_mulVec, vecMul_transpose,
      ← hc, ← hf, ← hg, ← j1, ← j2, ← j3, ← j4, mulVec_diagonal_eq, mulVec_diagonal_eq]
    simp [dotProduct, mulVec, Fin.sum_univ_succ, Spec.exponent, deg2rad]
    ring
  · rw [← mulVec_mulVec, ← ha]
    ext i
    fin_cases i <;>
      simp [CooperNathans.matB, rotationMatrix2d, mulVec, dotProduct, Fin.sum_univ_succ, Spec.displacement] <;> ring
  · have e : CooperNathans.matCov a (CooperNathans.matB ki kf (deg2rad psi) (deg2rad an.twoTheta)) (cᵀ * f * c + g)⁻¹
        (q ^ 2 * t.sample.mosaicHRad ^ 2) (q ^ 2 * t.sample.mosaicVRad ^ 2)
        = CooperNathans.matB ki kf (deg2rad psi) (deg2rad an.twoTheta) * a * (cᵀ * f * c + g)⁻¹ *
          (CooperNathans.matB ki kf (deg2rad psi) (deg2rad an.twoTheta) * a)ᵀ
          + diagonal ![0, (q * (t.sample.mosaicH / 60 * (Real.pi / 180))) ^ 2,
              (q * (t.sample.mosaicV / 60 * (Real.pi / 180))) ^ 2, 0] := by
      unfold CooperNathans.matCov Sample.mosaicHRad Sample.mosaicVRad deg2rad
      congr 3
      ext i
      fin_cases i <;> simp <;> ring
    rw [← hM, ← e, smul_mul, nonsing_inv_mul _ hdet.isUnit]

end Tavi
