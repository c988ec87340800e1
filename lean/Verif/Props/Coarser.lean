import Verif.Props.Mounting
import Verif.Props.QuadricSmall

/-! # C110: coarser optics never give a better resolution, and wider collimators never less intensity -/

namespace Tavi

open Matrix Spec

/-- Specification: the same spectrometer at the same place, with collimators and crystals (the sample among them) at most as good: no divergence and
no mosaic is smaller in size. -/
structure Spec.Coarser (t t' : Tas) : Prop where
  same : t' = { t with coll := t'.coll, mono := { t.mono with mosaicH := t'.mono.mosaicH, mosaicV := t'.mono.mosaicV },
                       ana := { t.ana with mosaicH := t'.ana.mosaicH, mosaicV := t'.ana.mosaicV },
                       sample := { t.sample with mosaicH := t'.sample.mosaicH, mosaicV := t'.sample.mosaicV } }
  coll_h : ∀ i, |t.coll.h i| ≤ |t'.coll.h i|
  coll_v : ∀ i, |t.coll.v i| ≤ |t'.coll.v i|
  mono_h : ∀ x x', t.mono.mosaicH = some x → t'.mono.mosaicH = some x' → x ≠ 0 ∧ |x| ≤ |x'|
  mono_v : ∀ x x', t.mono.mosaicV = some x → t'.mono.mosaicV = some x' → x ≠ 0 ∧ |x| ≤ |x'|
  ana_h : ∀ x x', t.ana.mosaicH = some x → t'.ana.mosaicH = some x' → x ≠ 0 ∧ |x| ≤ |x'|
  ana_v : ∀ x x', t.ana.mosaicV = some x → t'.ana.mosaicV = some x' → x ≠ 0 ∧ |x| ≤ |x'|
  sample_h : |t.sample.mosaicH| ≤ |t'.sample.mosaicH|
  sample_v : |t.sample.mosaicV| ≤ |t'.sample.mosaicV|
  nonzero : ∀ i, t.coll.h i ≠ 0 ∧ t.coll.v i ≠ 0

/-- The inverse of a positive matrix falls when the matrix rises. -/
theorem inv_anti {n : ℕ} {A B : Mat n n} (hA : SPD A) (hB : SPD B) (h : ∀ x, qform A x ≤ qform B x) (x : Fin n → ℝ) :
    qform B⁻¹ x ≤ qform A⁻¹ x := by
  set y := B⁻¹ *ᵥ x with hy
  have hx : B *ᵥ y = x := by rw [hy, mulVec_mulVec, mul_nonsing_inv _ hB.unit, one_mulVec]
  have hAx : A *ᵥ (A⁻¹ *ᵥ x) = x := by rw [mulVec_mulVec, mul_nonsing_inv _ hA.unit, one_mulVec]
  have h1 : qform B⁻¹ x = x ⬝ᵥ y := qform_eq _ _
  have h2 : qform B y = x ⬝ᵥ y := by rw [qform_eq, hx, dotProduct_comm]
  have hsymm : ∀ u v, u ⬝ᵥ (A *ᵥ v) = v ⬝ᵥ (A *ᵥ u) := by
    intro u v
    have ht : Aᵀ = A := by ext i j; exact hA.symm j i
    rw [dotProduct_mulVec, ← mulVec_transpose, ht, dotProduct_comm]
  have h3 : 0 ≤ qform A (y - A⁻¹ *ᵥ x) := by
    by_cases hz : y - A⁻¹ *ᵥ x = 0
    · rw [hz, qform_eq]; simp
    · exact (hA.pos _ hz).le
  have h4 : qform A (y - A⁻¹ *ᵥ x) = qform A y - 2 * (x ⬝ᵥ y) + qform A⁻¹ x := by
    rw [qform_eq, qform_eq, qform_eq, mulVec_sub, hAx, sub_dotProduct, dotProduct_sub, dotProduct_sub, hsymm (A⁻¹ *ᵥ x) y, hAx,
      dotProduct_comm y x, dotProduct_comm (A⁻¹ *ᵥ x) x]
    ring
  have := h y
  rw [h1]
  linarith

theorem qform_single {n : ℕ} (M : Mat n n) (i : Fin n) : qform M (Pi.single i 1) = M i i := by
  rw [qform_eq]
  simp

/-- Determinants of positive matrices rise with the matrix. -/
theorem det_mono {n : ℕ} : ∀ {A B : Mat n n}, SPD A → SPD B → (∀ x, qform A x ≤ qform B x) → A.det ≤ B.det := by
  induction n with
  | zero => intro A B _ _ _; simp
  | succ n ih =>
    intro A B hA hB h
    have key : ∀ {M : Mat (n + 1) (n + 1)}, SPD M → M.det = (M.submatrix Fin.succ Fin.succ).det / M⁻¹ 0 0 := by
      intro M hM
      have hi := hM.inv.diag_pos 0
      rw [eq_div_iff hi.ne', Matrix.inv_def, Matrix.smul_apply, adjugate_fin_succ_eq_det_submatrix, Ring.inverse_eq_inv']
      have := hM.det_pos.ne'
      simp [Fin.succAbove_zero]
      field_simp
    have hsub : (A.submatrix Fin.succ Fin.succ).det ≤ (B.submatrix Fin.succ Fin.succ).det := by
      refine ih (hA.sub (Fin.succ_injective _)) (hB.sub (Fin.succ_injective _)) fun x => ?_
      have := h (Fin.cons 0 x)
      unfold qform at this ⊢
      simpa [Fin.sum_univ_succ] using this
    have hinv : B⁻¹ 0 0 ≤ A⁻¹ 0 0 := by
      have := inv_anti hA hB h (Pi.single 0 1)
      rwa [qform_single, qform_single] at this
    rw [key hA, key hB]
    exact div_le_div₀ (hB.sub (Fin.succ_injective _)).det_pos.le hsub (hB.inv.diag_pos 0) hinv

theorem sq_div_anti {u a b : ℝ} (ha : a ≠ 0) (h : |a| ≤ |b|) :
    (u / (b / 60 * (Real.pi / 180))) ^ 2 ≤ (u / (a / 60 * (Real.pi / 180))) ^ 2 := by
  have hpi := Real.pi_pos
  have h1 : 0 < |a| := abs_pos.2 ha
  rw [sq_le_sq, abs_div, abs_div]
  have e : ∀ x : ℝ, |x / 60 * (Real.pi / 180)| = |x| / 60 * (Real.pi / 180) := by
    intro x
    rw [abs_mul, abs_div, abs_of_pos (show (0 : ℝ) < 60 by norm_num), abs_of_pos (show 0 < Real.pi / 180 by positivity)]
  rw [e, e]
  exact div_le_div_of_nonneg_left (abs_nonneg u) (by positivity) (by gcongr)

theorem sq_mul_mono {q a b : ℝ} (h : |a| ≤ |b|) : (q * (a / 60 * (Real.pi / 180))) ^ 2 ≤ (q * (b / 60 * (Real.pi / 180))) ^ 2 := by
  have : a ^ 2 ≤ b ^ 2 := sq_le_sq.2 h
  have e : ∀ x : ℝ, (q * (x / 60 * (Real.pi / 180))) ^ 2 = x ^ 2 * (q / 60 * (Real.pi / 180)) ^ 2 := fun x => by ring
  rw [e, e]
  gcongr

/-- **C110** With coarser collimators or crystals of larger mosaic the resolution function falls off more slowly in every direction of momentum and
energy, and every variance is at least as large. -/
theorem C110_coarser {t t' : Tas} {hkl : V3} {ei ef r0 r0' : ℝ} {M M' : Mat 4 4} (hs : Spec.Coarser t t')
    (h : CooperNathans.calculateAt t hkl ei ef = .ok (M, r0)) (h' : CooperNathans.calculateAt t' hkl ei ef = .ok (M', r0')) :
    (∀ x, qform M' x ≤ qform M x) ∧ ∀ x, qform M⁻¹ x ≤ qform M'⁻¹ x := by
  have hM := (C24_positive h).1
  have hM' := (C24_positive h').1
  obtain ⟨q, ki, kf, tt, psi, tm, ta, mh, mv, ah, av, H, T, e1, e2, e3, e4, e5, e6, e7, e8, e9, e10, e11, hH, hu, hT, hc⟩ := C65_textbook h
  obtain ⟨q', ki', kf', tt', psi', tm', ta', mh', mv', ah', av', H', T', f1, f2, f3, f4, f5, f6, f7, f8, f9, f10, f11, hH', hu', hT', hc'⟩ :=
    C65_textbook h'
  have g1 : t'.sample.getQNorm hkl = t.sample.getQNorm hkl := by rw [hs.same]; rfl
  have g4 : t'.getTwoTheta hkl (ei - ef) = t.getTwoTheta hkl (ei - ef) := by rw [hs.same]; rfl
  have g5 : t'.getPsi hkl (ei - ef) = t.getPsi hkl (ei - ef) := by rw [hs.same]; rfl
  have g6 : t'.getThetaM ei = t.getThetaM ei := by rw [hs.same]; rfl
  have g7 : t'.getThetaA ef = t.getThetaA ef := by rw [hs.same]; rfl
  rw [g1, e1] at f1; cases f1
  rw [e2] at f2; cases f2
  rw [e3] at f3; cases f3
  rw [g4, e4] at f4; cases f4
  rw [g5, e5] at f5; cases f5
  rw [g6, e6] at f6; cases f6
  rw [g7, e7] at f7; cases f7
  have hTT : T' = T := by
    apply Matrix.ext_of_mulVec_single
    intro i
    rw [hT, hT']
  subst hTT
  obtain ⟨a1, a2⟩ := hs.mono_h _ _ e8 f8
  obtain ⟨b1, b2⟩ := hs.mono_v _ _ e9 f9
  obtain ⟨c1, c2⟩ := hs.ana_h _ _ e10 f10
  obtain ⟨d1, d2⟩ := hs.ana_v _ _ e11 f11
  have hHH : ∀ u, qform H' u ≤ qform H u := by
    intro u
    rw [hu, hu']
    unfold Spec.exponent
    dsimp only
    gcongr ?_ + ?_ + ?_ + ?_ + ?_ + ?_ + ?_ + ?_ + ?_ + ?_ + ?_ + ?_
    · exact sq_div_anti (hs.nonzero 0).1 (hs.coll_h 0)
    · exact sq_div_anti (hs.nonzero 1).1 (hs.coll_h 1)
    · exact sq_div_anti (hs.nonzero 2).1 (hs.coll_h 2)
    · exact sq_div_anti (hs.nonzero 3).1 (hs.coll_h 3)
    · exact sq_div_anti (hs.nonzero 0).2 (hs.coll_v 0)
    · exact sq_div_anti (hs.nonzero 1).2 (hs.coll_v 1)
    · exact sq_div_anti (hs.nonzero 2).2 (hs.coll_v 2)
    · exact sq_div_anti (hs.nonzero 3).2 (hs.coll_v 3)
    · exact sq_div_anti a1 a2
    · exact sq_div_anti b1 b2
    · exact sq_div_anti c1 c2
    · exact sq_div_anti d1 d2
  have hs0 : (0 : ℝ) < sig2fwhm ^ 2 := by have := sig2fwhm_pos; positivity
  -- the covariances
  have cinv : ∀ {M C : Mat 4 4}, SPD M → M * C = sig2fwhm ^ 2 • (1 : Mat 4 4) → C = sig2fwhm ^ 2 • M⁻¹ := by
    intro M C hM hC
    have : M⁻¹ * (M * C) = M⁻¹ * (sig2fwhm ^ 2 • (1 : Mat 4 4)) := by rw [hC]
    rwa [← Matrix.mul_assoc, nonsing_inv_mul _ hM.unit, Matrix.one_mul, Matrix.mul_smul, Matrix.mul_one] at this
  have k := cinv hM hc
  have k' := cinv hM' hc'
  have hq : ∀ (a : ℝ) (N : Mat 4 4) x, qform (a • N) x = a * qform N x := by
    intro a N x
    rw [qform_eq, qform_eq, smul_mulVec, dotProduct_smul, smul_eq_mul]
  have hcov : ∀ x, qform M⁻¹ x ≤ qform M'⁻¹ x := by
    intro x
    have hle : qform (sig2fwhm ^ 2 • M⁻¹) x ≤ qform (sig2fwhm ^ 2 • M'⁻¹) x := by
      rw [← k, ← k', qform_eq, qform_eq, add_mulVec, add_mulVec, dotProduct_add, dotProduct_add]
      have hcc : ∀ N : Mat 8 8, x ⬝ᵥ ((T' * N * T'ᵀ) *ᵥ x) = qform N (T'ᵀ *ᵥ x) := by
        intro N
        rw [qform_eq, ← mulVec_mulVec, ← mulVec_mulVec, dotProduct_mulVec, ← mulVec_transpose]
      rw [hcc, hcc]
      have h1 := inv_anti hH' hH hHH (T'ᵀ *ᵥ x)
      have h2 : x ⬝ᵥ (diagonal ![0, (q * (t.sample.mosaicH / 60 * (Real.pi / 180))) ^ 2, (q * (t.sample.mosaicV / 60 * (Real.pi / 180))) ^ 2, 0] *ᵥ x) ≤
          x ⬝ᵥ (diagonal ![0, (q * (t'.sample.mosaicH / 60 * (Real.pi / 180))) ^ 2, (q * (t'.sample.mosaicV / 60 * (Real.pi / 180))) ^ 2, 0] *ᵥ x) := by
        simp only [mulVec_diagonal, dotProduct, Fin.sum_univ_four]
        have m1 := sq_mul_mono (q := q) hs.sample_h
        have m2 := sq_mul_mono (q := q) hs.sample_v
        simp
        nlinarith [mul_le_mul_of_nonneg_right m1 (mul_self_nonneg (x 1)), mul_le_mul_of_nonneg_right m2 (mul_self_nonneg (x 2))]
      linarith
    rw [hq, hq] at hle
    exact le_of_mul_le_mul_left hle hs0
  refine ⟨fun x => ?_, hcov⟩
  have := inv_anti hM.inv hM'.inv hcov x
  rwa [nonsing_inv_nonsing_inv _ hM.unit, nonsing_inv_nonsing_inv _ hM'.unit] at this

/-- **C110** The widths: with coarser optics no coherent width is smaller, and (variances below 1e8 as in C25) no incoherent width either. -/
theorem C110_widths {t t' : Tas} {hkl : V3} {ei ef r0 r0' : ℝ} {M M' : Mat 4 4} (hs : Spec.Coarser t t')
    (h : CooperNathans.calculateAt t hkl ei ef = .ok (M, r0)) (h' : CooperNathans.calculateAt t' hkl ei ef = .ok (M', r0')) (axis : Fin 4) :
    (∃ c c', cohFwhm M axis = .ok c ∧ cohFwhm M' axis = .ok c' ∧ c ≤ c') ∧
    ((∀ i, M'⁻¹ i i ≤ 1e8) → ∃ w w', incohFwhm M axis = .ok w ∧ incohFwhm M' axis = .ok w' ∧ w ≤ w') := by
  obtain ⟨k1, k2⟩ := C110_coarser hs h h'
  have hM := (C24_positive h).1
  have hM' := (C24_positive h').1
  have d1 : M' axis axis ≤ M axis axis := by
    have := k1 (Pi.single axis 1)
    rwa [qform_single, qform_single] at this
  have d2 : ∀ i, M⁻¹ i i ≤ M'⁻¹ i i := by
    intro i
    have := k2 (Pi.single i 1)
    rwa [qform_single, qform_single] at this
  constructor
  · obtain ⟨c, _, hc, _, rfl, _⟩ := C25_widths_any hM axis
    obtain ⟨c', _, hc', _, rfl, _⟩ := C25_widths_any hM' axis
    refine ⟨_, _, hc, hc', ?_⟩
    have := hM'.diag_pos axis
    exact div_le_div_of_nonneg_left sig2fwhm_pos.le (Real.sqrt_pos.2 this) (Real.sqrt_le_sqrt d1)
  · intro hV
    obtain ⟨_, w, _, hw, _, rfl, _⟩ := C25_widths hM (fun i => (d2 i).trans (hV i)) axis
    obtain ⟨_, w', _, hw', _, rfl, _⟩ := C25_widths hM' hV axis
    refine ⟨_, _, hw, hw', ?_⟩
    exact mul_le_mul_of_nonneg_left (Real.sqrt_le_sqrt (d2 axis)) sig2fwhm_pos.le

/-- **C110** In any axes: the resolution function of the coarser spectrometer falls off more slowly. -/
theorem C110_axes {t t' : Tas} {hkl : V3} {ei ef : ℝ} {ax : Fin 4 → AxisItem} {e e' : Ellipsoid} (hs : Spec.Coarser t t')
    (h : t.resoAt (some (List.ofFn ax)) (hkl, ei, ef) = .ok e) (h' : t'.resoAt (some (List.ofFn ax)) (hkl, ei, ef) = .ok e') (x : Fin 4 → ℝ) :
    qform e'.mat x ≤ qform e.mat x := by
  unfold Tas.resoAt at h h'
  obtain ⟨⟨m, r0⟩, hm, h⟩ := py_bind_eq_ok.1 h
  obtain ⟨⟨m', r0'⟩, hm', h'⟩ := py_bind_eq_ok.1 h'
  dsimp only at hm hm' h h'
  obtain ⟨k1, _⟩ := C110_coarser hs hm hm'
  obtain ⟨a, R, c, ub, ei1, ef1, q, ha, hR, hc, hub, he, hq, _, hf⟩ := C27_same_form h
  obtain ⟨a', R', c', ub', ei1', ef1', q', ha', hR', hc', hub', he', hq', _, hf'⟩ := C27_same_form h'
  have g1 : t'.motorAngles hkl (ei - ef) = t.motorAngles hkl (ei - ef) := by rw [hs.same]; rfl
  have g2 : t'.goni = t.goni := by rw [hs.same]
  have g3 : t'.sample.ubConf = t.sample.ubConf := by rw [hs.same]
  have g4 : t'.getEiEf none none (ei - ef) = t.getEiEf none none (ei - ef) := by rw [hs.same]; rfl
  rw [g1, ha] at ha'; cases ha'
  rw [g2, hR] at hR'; cases hR'
  rw [g3, hc] at hc'; cases hc'
  rw [hub] at hub'; cases hub'
  rw [g4, he] at he'; cases he'
  rw [hq] at hq'; cases hq'
  rw [hf, hf']
  exact k1 _

/-- The sum of the exponents of crystals and collimators rises with that of the collimators. -/
theorem matG_anti {c c' : Collimators} {g g' : Mat 8 8} (hc : ∀ i, |c.h i| ≤ |c'.h i| ∧ |c.v i| ≤ |c'.v i|)
    (h : CooperNathans.matG c = .ok g) (h' : CooperNathans.matG c' = .ok g') (x : Fin 8 → ℝ) : qform g' x ≤ qform g x := by
  unfold CooperNathans.matG CooperNathans.collEntry at h h'
  obtain ⟨a1, k1, h⟩ := py_bind_eq_ok.1 h
  obtain ⟨a2, k2, h⟩ := py_bind_eq_ok.1 h
  obtain ⟨a3, k3, h⟩ := py_bind_eq_ok.1 h
  obtain ⟨a4, k4, h⟩ := py_bind_eq_ok.1 h
  obtain ⟨a5, k5, h⟩ := py_bind_eq_ok.1 h
  obtain ⟨a6, k6, h⟩ := py_bind_eq_ok.1 h
  obtain ⟨a7, k7, h⟩ := py_bind_eq_ok.1 h
  obtain ⟨a8, k8, h⟩ := py_bind_eq_ok.1 h
  obtain ⟨b1, l1, h'⟩ := py_bind_eq_ok.1 h'
  obtain ⟨b2, l2, h'⟩ := py_bind_eq_ok.1 h'
  obtain ⟨b3, l3, h'⟩ := py_bind_eq_ok.1 h'
  obtain ⟨b4, l4, h'⟩ := py_bind_eq_ok.1 h'
  obtain ⟨b5, l5, h'⟩ := py_bind_eq_ok.1 h'
  obtain ⟨b6, l6, h'⟩ := py_bind_eq_ok.1 h'
  obtain ⟨b7, l7, h'⟩ := py_bind_eq_ok.1 h'
  obtain ⟨b8, l8, h'⟩ := py_bind_eq_ok.1 h'
  rw [← Except.ok.inj h, ← Except.ok.inj h', qform_eq, qform_eq]
  have hle : ∀ {a b r s : ℝ}, |a| ≤ |b| → pyDiv 1 (deg2rad (a / 60) ^ 2) = .ok r → pyDiv 1 (deg2rad (b / 60) ^ 2) = .ok s → s ≤ r := by
    intro a b r s hab hr hs'
    obtain ⟨hn, rfl⟩ := pyDiv_eq_ok.1 hr
    obtain ⟨_, rfl⟩ := pyDiv_eq_ok.1 hs'
    have : a ^ 2 ≤ b ^ 2 := sq_le_sq.2 hab
    have hpos : 0 < deg2rad (a / 60) ^ 2 := lt_of_le_of_ne (sq_nonneg _) hn.symm
    apply one_div_le_one_div_of_le hpos
    have e : ∀ x : ℝ, deg2rad (x / 60) ^ 2 = x ^ 2 * deg2rad (1 / 60) ^ 2 := fun x => by unfold deg2rad; ring
    rw [e a, e b]
    exact mul_le_mul_of_nonneg_right this (sq_nonneg _)
  have m1 := hle (hc 0).1 k1 l1
  have m2 := hle (hc 0).2 k2 l2
  have m3 := hle (hc 1).1 k3 l3
  have m4 := hle (hc 1).2 k4 l4
  have m5 := hle (hc 2).1 k5 l5
  have m6 := hle (hc 2).2 k6 l6
  have m7 := hle (hc 3).1 k7 l7
  have m8 := hle (hc 3).2 k8 l8
  simp only [mulVec_diagonal, dotProduct]
  apply Finset.sum_le_sum
  intro i _
  have : ∀ {p r y : ℝ}, p ≤ r → y * (p * y) ≤ y * (r * y) := by
    intro p r y hpr
    nlinarith [mul_le_mul_of_nonneg_right hpr (mul_self_nonneg y)]
  fin_cases i <;> exact this (by simpa)

/-- **C110** Wider collimators never give a smaller prefactor. -/
theorem C110_intensity {t : Tas} {c : Collimators} {hkl : V3} {ei ef r0 r0' : ℝ} {M M' : Mat 4 4}
    (hc : ∀ i, |t.coll.h i| ≤ |c.h i| ∧ |t.coll.v i| ≤ |c.v i|)
    (h : CooperNathans.calculateAt t hkl ei ef = .ok (M, r0))
    (h' : CooperNathans.calculateAt { t with coll := c } hkl ei ef = .ok (M', r0')) : r0 ≤ r0' := by
  have hn := (C24_positive h).2
  unfold CooperNathans.calculateAt at h h'
  obtain ⟨q, hq, h⟩ := py_bind_eq_ok.1 h
  change (t.sample.getQNorm hkl >>= _) = _ at h'
  rw [hq, py_bind_ok] at h'
  obtain ⟨ki, hki, h⟩ := py_bind_eq_ok.1 h
  rw [hki, py_bind_ok] at h'
  obtain ⟨kf, hkf, h⟩ := py_bind_eq_ok.1 h
  rw [hkf, py_bind_ok] at h'
  obtain ⟨an, han, h⟩ := py_bind_eq_ok.1 h
  change (t.motorAngles hkl (ei - ef) >>= _) = _ at h'
  rw [han, py_bind_ok] at h'
  obtain ⟨psi, hpsi, h⟩ := py_bind_eq_ok.1 h
  change (t.getPsi hkl (ei - ef) >>= _) = _ at h'
  rw [hpsi, py_bind_ok] at h'
  obtain ⟨tm, htm, h⟩ := py_bind_eq_ok.1 h
  change (t.getThetaM ei >>= _) = _ at h'
  rw [htm, py_bind_ok] at h'
  obtain ⟨ta, hta, h⟩ := py_bind_eq_ok.1 h
  change (t.getThetaA ef >>= _) = _ at h'
  rw [hta, py_bind_ok] at h'
  obtain ⟨a, ha, h⟩ := py_bind_eq_ok.1 h
  rw [ha, py_bind_ok] at h'
  obtain ⟨cm, hcm, h⟩ := py_bind_eq_ok.1 h
  rw [hcm, py_bind_ok] at h'
  obtain ⟨f, hf, h⟩ := py_bind_eq_ok.1 h
  change (CooperNathans.matF t.mono t.ana >>= _) = _ at h'
  rw [hf, py_bind_ok] at h'
  obtain ⟨g, hg, h⟩ := py_bind_eq_ok.1 h
  obtain ⟨g', hg', h'⟩ := py_bind_eq_ok.1 h'
  obtain ⟨hi, _, h⟩ := py_bind_eq_ok.1 h
  obtain ⟨hi', _, h'⟩ := py_bind_eq_ok.1 h'
  obtain ⟨ci, _, h⟩ := py_bind_eq_ok.1 h
  obtain ⟨ci', _, h'⟩ := py_bind_eq_ok.1 h'
  obtain ⟨r, hr, h⟩ := py_bind_eq_ok.1 h
  obtain ⟨r', hr', h'⟩ := py_bind_eq_ok.1 h'
  have hr0 : r = r0 := congrArg Prod.snd (Except.ok.inj h)
  have hr0' : r' = r0' := congrArg Prod.snd (Except.ok.inj h')
  subst hr0 hr0'
  have hF := CooperNathans.matF_pos hf
  have hH := CooperNathans.matH_pos (c := cm) hF (CooperNathans.matG_pos hg)
  have hH' := CooperNathans.matH_pos (c := cm) hF (CooperNathans.matG_pos hg')
  have hdet : (cmᵀ * f * cm + g').det ≤ (cmᵀ * f * cm + g).det := by
    refine det_mono ((spd_iff _).2 hH') ((spd_iff _).2 hH) fun x => ?_
    have := matG_anti hc hg hg' x
    rw [qform_eq, qform_eq] at this
    rw [qform_eq, qform_eq, add_mulVec, add_mulVec, dotProduct_add, dotProduct_add]
    linarith
  -- the prefactors
  unfold CooperNathans.prefactor at hr hr'
  obtain ⟨rm, hrm, hr⟩ := py_bind_eq_ok.1 hr
  rw [hrm, py_bind_ok] at hr'
  obtain ⟨ra, hra, hr⟩ := py_bind_eq_ok.1 hr
  rw [hra, py_bind_ok] at hr'
  obtain ⟨x, hx, hr⟩ := py_bind_eq_ok.1 hr
  rw [hx, py_bind_ok] at hr'
  obtain ⟨y, hy, hr⟩ := py_bind_eq_ok.1 hr
  obtain ⟨y', hy', hr'⟩ := py_bind_eq_ok.1 hr'
  obtain ⟨z, hz, hr⟩ := py_bind_eq_ok.1 hr
  obtain ⟨z', hz', hr'⟩ := py_bind_eq_ok.1 hr'
  have hrr : rm * ra * x * z = r := Except.ok.inj hr
  have hrr' : rm * ra * x * z' = r' := Except.ok.inj hr'
  obtain ⟨_, rfl⟩ := pyDiv_eq_ok.1 hy
  obtain ⟨_, rfl⟩ := pyDiv_eq_ok.1 hy'
  have p1 := hF.det_pos
  have p2 := hH.det_pos
  have p3 := hH'.det_pos
  rw [pySqrt_ok (by positivity)] at hz hz'
  have hz := Except.ok.inj hz
  have hz' := Except.ok.inj hz'
  have hzz : z ≤ z' := by
    rw [← hz, ← hz']
    exact Real.sqrt_le_sqrt (div_le_div_of_nonneg_left p1.le p3 hdet)
  have hzp : 0 < z := by rw [← hz]; exact Real.sqrt_pos.2 (by positivity)
  have hk : 0 ≤ rm * ra * x := by
    rw [← hrr] at hn
    exact (mul_nonneg_iff_of_pos_right hzp).1 hn
  rw [← hrr, ← hrr']
  exact mul_le_mul_of_nonneg_left hzz hk

end Tavi
