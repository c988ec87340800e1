import Verif.Props.Coarser

/-! # C65: the prefactor; C111: the mirror image of a spectrometer, and the spectrometer with source and detector exchanged -/

namespace Tavi

open Matrix Spec

/-- Specification: the prefactor of the textbook for the exponent with matrix `H` (Chesser & Axe 1973): reflected intensities of monochromator and
analyser, `(π²/4) / (sin θm sin θa)`, and the ratio of the mosaic determinant to that of the exponent. -/
noncomputable def Spec.textbookPrefactor (ki kf tm ta mh mv ah av detH : ℝ) : ℝ :=
  let rad : ℝ → ℝ := fun m => m / 60 * (Real.pi / 180)
  (ki ^ 3 * (Real.cos tm / Real.sin tm)) * (kf ^ 3 * (Real.cos ta / Real.sin ta)) * (Real.pi ^ 2 / 4 / (Real.sin tm * Real.sin ta)) *
    √((rad mh * rad mv * rad ah * rad av)⁻¹ ^ 2 / detH)

/-- Symmetric matrices with the same quadratic form are the same. -/
theorem qform_inj {n : ℕ} {A B : Mat n n} (hA : ∀ i j, A i j = A j i) (hB : ∀ i j, B i j = B j i) (h : ∀ x, qform A x = qform B x) : A = B := by
  have pol : ∀ {M : Mat n n}, (∀ i j, M i j = M j i) → ∀ i j,
      qform M (Pi.single i 1 + Pi.single j 1) = M i i + M j j + 2 * M i j := by
    intro M hM i j
    rw [qform_eq, mulVec_add, add_dotProduct, dotProduct_add, dotProduct_add]
    simp
    rw [hM j i]
    ring
  ext i j
  have h1 := h (Pi.single i 1 + Pi.single j 1)
  rw [pol hA, pol hB] at h1
  have h2 := h (Pi.single i 1)
  have h3 := h (Pi.single j 1)
  rw [qform_single, qform_single] at h2 h3
  linarith

/-- **C65** The prefactor is that of the textbook, for the matrix of the textbook exponent. -/
theorem C65_prefactor {t : Tas} {hkl : V3} {ei ef r0 : ℝ} {M : Mat 4 4} (h : CooperNathans.calculateAt t hkl ei ef = .ok (M, r0)) :
    ∃ ki kf tm ta mh mv ah av, en2q ei = .ok ki ∧ en2q ef = .ok kf ∧ t.getThetaM ei = .ok tm ∧ t.getThetaA ef = .ok ta ∧
      t.mono.mosaicH = some mh ∧ t.mono.mosaicV = some mv ∧ t.ana.mosaicH = some ah ∧ t.ana.mosaicV = some av ∧
      ∀ H : Mat 8 8, SPD H → (∀ u, qform H u = Spec.exponent t mh mv ah av (deg2rad tm) (deg2rad ta) u) →
        r0 = Spec.textbookPrefactor ki kf (deg2rad tm) (deg2rad ta) mh mv ah av H.det := by
  unfold CooperNathans.calculateAt at h
  obtain ⟨q, hq, h⟩ := py_bind_eq_ok.1 h
  obtain ⟨ki, hki, h⟩ := py_bind_eq_ok.1 h
  obtain ⟨kf, hkf, h⟩ := py_bind_eq_ok.1 h
  obtain ⟨an, han, h⟩ := py_bind_eq_ok.1 h
  obtain ⟨psi, hpsi, h⟩ := py_bind_eq_ok.1 h
  obtain ⟨tm, htm, h⟩ := py_bind_eq_ok.1 h
  obtain ⟨ta, hta, h⟩ := py_bind_eq_ok.1 h
  obtain ⟨a, ha, h⟩ := py_bind_eq_ok.1 h
  obtain ⟨c, hc, h⟩ := py_bind_eq_ok.1 h
  obtain ⟨f, hf, h⟩ := py_bind_eq_ok.1 h
  obtain ⟨g, hg, h⟩ := py_bind_eq_ok.1 h
  obtain ⟨hi, hhi, h⟩ := py_bind_eq_ok.1 h
  obtain ⟨ci, hci, h⟩ := py_bind_eq_ok.1 h
  obtain ⟨r, hr, h⟩ := py_bind_eq_ok.1 h
  have hr0 : r = r0 := congrArg Prod.snd (Except.ok.inj h)
  subst hr0
  have hF := CooperNathans.matF_pos hf
  have hH := CooperNathans.matH_pos (c := c) hF (CooperNathans.matG_pos hg)
  unfold CooperNathans.matF MonoAna.mosaicRad at hf
  obtain ⟨x1, j1, hf⟩ := py_bind_eq_ok.1 hf
  obtain ⟨a1, k1, hf⟩ := py_bind_eq_ok.1 hf
  obtain ⟨x2, j2, hf⟩ := py_bind_eq_ok.1 hf
  obtain ⟨a2, k2, hf⟩ := py_bind_eq_ok.1 hf
  obtain ⟨x3, j3, hf⟩ := py_bind_eq_ok.1 hf
  obtain ⟨a3, k3, hf⟩ := py_bind_eq_ok.1 hf
  obtain ⟨x4, j4, hf⟩ := py_bind_eq_ok.1 hf
  obtain ⟨a4, k4, hf⟩ := py_bind_eq_ok.1 hf
  have hf := Except.ok.inj hf
  obtain ⟨m1, n1, j1⟩ := py_bind_eq_ok.1 j1
  obtain ⟨m2, n2, j2⟩ := py_bind_eq_ok.1 j2
  obtain ⟨m3, n3, j3⟩ := py_bind_eq_ok.1 j3
  obtain ⟨m4, n4, j4⟩ := py_bind_eq_ok.1 j4
  have n1 := need_eq_ok.1 n1
  have n2 := need_eq_ok.1 n2
  have n3 := need_eq_ok.1 n3
  have n4 := need_eq_ok.1 n4
  have j1 := Except.ok.inj j1
  have j2 := Except.ok.inj j2
  have j3 := Except.ok.inj j3
  have j4 := Except.ok.inj j4
  unfold CooperNathans.matG CooperNathans.collEntry at hg
  obtain ⟨g1, l1, hg⟩ := py_bind_eq_ok.1 hg
  obtain ⟨g2, l2, hg⟩ := py_bind_eq_ok.1 hg
  obtain ⟨g3, l3, hg⟩ := py_bind_eq_ok.1 hg
  obtain ⟨g4, l4, hg⟩ := py_bind_eq_ok.1 hg
  obtain ⟨g5, l5, hg⟩ := py_bind_eq_ok.1 hg
  obtain ⟨g6, l6, hg⟩ := py_bind_eq_ok.1 hg
  obtain ⟨g7, l7, hg⟩ := py_bind_eq_ok.1 hg
  obtain ⟨g8, l8, hg⟩ := py_bind_eq_ok.1 hg
  have hg := Except.ok.inj hg
  unfold CooperNathans.matC at hc
  obtain ⟨c1, o1, hc⟩ := py_bind_eq_ok.1 hc
  obtain ⟨c2, o2, hc⟩ := py_bind_eq_ok.1 hc
  obtain ⟨c3, o3, hc⟩ := py_bind_eq_ok.1 hc
  obtain ⟨c4, o4, hc⟩ := py_bind_eq_ok.1 hc
  have hc := Except.ok.inj hc
  obtain ⟨z1, rfl⟩ := pyDiv_eq_ok.1 k1
  obtain ⟨z2, rfl⟩ := pyDiv_eq_ok.1 k2
  obtain ⟨z3, rfl⟩ := pyDiv_eq_ok.1 k3
  obtain ⟨z4, rfl⟩ := pyDiv_eq_ok.1 k4
  obtain ⟨-, rfl⟩ := pyDiv_eq_ok.1 l1
  obtain ⟨-, rfl⟩ := pyDiv_eq_ok.1 l2
  obtain ⟨-, rfl⟩ := pyDiv_eq_ok.1 l3
  obtain ⟨-, rfl⟩ := pyDiv_eq_ok.1 l4
  obtain ⟨-, rfl⟩ := pyDiv_eq_ok.1 l5
  obtain ⟨-, rfl⟩ := pyDiv_eq_ok.1 l6
  obtain ⟨-, rfl⟩ := pyDiv_eq_ok.1 l7
  obtain ⟨-, rfl⟩ := pyDiv_eq_ok.1 l8
  obtain ⟨sm, rfl⟩ := pyDiv_eq_ok.1 o1
  obtain ⟨-, rfl⟩ := pyDiv_eq_ok.1 o2
  obtain ⟨sa, rfl⟩ := pyDiv_eq_ok.1 o3
  obtain ⟨-, rfl⟩ := pyDiv_eq_ok.1 o4
  refine ⟨ki, kf, tm, ta, m1, m2, m3, m4, hki, hkf, htm, hta, n1, n2, n3, n4, fun H hHs hHe => ?_⟩
  have hHH : H = cᵀ * f * c + g := by
    refine qform_inj hHs.symm ((spd_iff _).2 hH).symm fun u => ?_
    rw [hHe, qform_eq, add_mulVec, dotProduct_add, Matrix.mul_assoc, ← mulVec_mulVec, ← mulVec_mulVec, dotProduct_mulVec, vecMul_transpose,
      ← hc, ← hf, ← hg, ← j1, ← j2, ← j3, ← j4, mulVec_diagonal_eq, mulVec_diagonal_eq]
    simp [dotProduct, mulVec, Fin.sum_univ_succ, Spec.exponent, deg2rad]
    ring
  rw [← hHH] at hr
  have hfd : f.det = (x1 * x2 * x3 * x4)⁻¹ ^ 2 := by
    rw [← hf, det_diagonal]
    simp [Fin.prod_univ_succ]
    ring
  unfold CooperNathans.prefactor pyDiv2 at hr
  obtain ⟨rm, hrm, hr⟩ := py_bind_eq_ok.1 hr
  obtain ⟨ra, hra, hr⟩ := py_bind_eq_ok.1 hr
  obtain ⟨x, hx, hr⟩ := py_bind_eq_ok.1 hr
  obtain ⟨y, hy, hr⟩ := py_bind_eq_ok.1 hr
  obtain ⟨z, hz, hr⟩ := py_bind_eq_ok.1 hr
  have hrr : rm * ra * x * z = r := Except.ok.inj hr
  obtain ⟨_, rfl⟩ := overTan_ok.1 hrm
  obtain ⟨_, rfl⟩ := overTan_ok.1 hra
  obtain ⟨w, hw, hx⟩ := py_bind_eq_ok.1 hx
  obtain ⟨_, rfl⟩ := pyDiv_eq_ok.1 hw
  obtain ⟨_, rfl⟩ := pyDiv_eq_ok.1 hx
  obtain ⟨_, rfl⟩ := pyDiv_eq_ok.1 hy
  have p1 := hF.det_pos
  have p2 := hHs.det_pos
  rw [pySqrt_ok (by positivity)] at hz
  have hz := Except.ok.inj hz
  have er : ∀ m : ℝ, deg2rad (m / 60) = m / 60 * (Real.pi / 180) := fun m => by unfold deg2rad; ring
  rw [← hrr, ← hz, hfd, ← j1, ← j2, ← j3, ← j4, er, er, er, er]
  unfold Spec.textbookPrefactor
  dsimp only
  rw [div_div (Real.pi ^ 2 / 4)]
  ring

/-! ## Mirror image and reversal -/

/-- Specification: opposite scattering senses. -/
def Spec.OppositeSense (s s' : List Char) : Prop := (s = "+".toList ∧ s' = "-".toList) ∨ (s = "-".toList ∧ s' = "+".toList)

/-- Specification: the mirror image of a spectrometer in the scattering plane's normal direction: the same but for the three senses, all opposite. -/
structure Spec.MirrorImage (t t' : Tas) : Prop where
  same : t' = { t with goni := { t.goni with sense := t'.goni.sense }, mono := { t.mono with sense := t'.mono.sense },
                       ana := { t.ana with sense := t'.ana.sense } }
  goni : ∃ s s', t.goni.sense = some s ∧ t'.goni.sense = some s' ∧ Spec.OppositeSense s s'
  mono : Spec.OppositeSense t.mono.sense t'.mono.sense
  ana : Spec.OppositeSense t.ana.sense t'.ana.sense

/-- Specification: the spectrometer in which the neutrons travel the other way: monochromator and analyser, the two fixed energies and the order of
the collimators exchanged. -/
def Spec.reversed (t : Tas) : Tas :=
  { t with fixedEi := t.fixedEf, fixedEf := t.fixedEi, mono := t.ana, ana := t.mono,
           coll := { h := fun i => t.coll.h i.rev, v := fun i => t.coll.v i.rev } }

/-- Two resolution calculations that differ by a linear change of the angles and of the displacements. -/
theorem transport {T T' : Mat 4 8} {H H' P : Mat 8 8} {D S S' M M' : Mat 4 4} {s : ℝ} (hH : SPD H) (hH' : SPD H') (hP : P * P = 1)
    (hD : D * D = 1) (hDt : Dᵀ = D) (hPH : ∀ u, qform H' (P *ᵥ u) = qform H u) (hT : ∀ u, T' *ᵥ (P *ᵥ u) = D *ᵥ (T *ᵥ u))
    (hS : S' = D * S * D) (hs : s ≠ 0) (h : M * (T * H⁻¹ * Tᵀ + S) = s • (1 : Mat 4 4))
    (h' : M' * (T' * H'⁻¹ * T'ᵀ + S') = s • (1 : Mat 4 4)) : (∀ x, qform M' (D *ᵥ x) = qform M x) ∧ H'.det = H.det := by
  have hPt : Pᵀ * Pᵀ = 1 := by rw [← Matrix.transpose_mul, hP, Matrix.transpose_one]
  have e1 : Pᵀ * H' * P = H := by
    refine qform_inj ?_ hH.symm fun u => ?_
    · intro i j
      have : (Pᵀ * H' * P)ᵀ = Pᵀ * H' * P := by
        rw [Matrix.transpose_mul, Matrix.transpose_mul, Matrix.transpose_transpose, show H'ᵀ = H' by ext i j; exact hH'.symm j i, Matrix.mul_assoc]
      exact congrFun (congrFun this j) i
    · rw [← hPH, qform_eq, qform_eq, ← mulVec_mulVec, ← mulVec_mulVec, dotProduct_mulVec, vecMul_transpose]
  have e2 : H'⁻¹ = P * H⁻¹ * Pᵀ := by
    apply Matrix.inv_eq_right_inv
    have : H' = Pᵀ * H * P := by
      rw [← e1]
      calc H' = (Pᵀ * Pᵀ) * H' * (P * P) := by rw [hPt, hP, Matrix.one_mul, Matrix.mul_one]
        _ = Pᵀ * (Pᵀ * H' * P) * P := by simp only [Matrix.mul_assoc]
    rw [this]
    calc Pᵀ * H * P * (P * H⁻¹ * Pᵀ) = Pᵀ * H * (P * P) * H⁻¹ * Pᵀ := by simp only [Matrix.mul_assoc]
      _ = 1 := by rw [hP, Matrix.mul_one, Matrix.mul_assoc Pᵀ, mul_nonsing_inv _ hH.unit, Matrix.mul_one, hPt]
  have e3 : T' * P = D * T := by
    apply Matrix.ext_of_mulVec_single
    intro i
    rw [← mulVec_mulVec, ← mulVec_mulVec, hT]
  have e4 : T' * H'⁻¹ * T'ᵀ + S' = D * (T * H⁻¹ * Tᵀ + S) * D := by
    have : Pᵀ * T'ᵀ = Tᵀ * D := by rw [← Matrix.transpose_mul, e3, Matrix.transpose_mul, hDt]
    rw [e2, hS, Matrix.mul_add, Matrix.add_mul]
    congr 1
    calc T' * (P * H⁻¹ * Pᵀ) * T'ᵀ = (T' * P) * H⁻¹ * (Pᵀ * T'ᵀ) := by simp only [Matrix.mul_assoc]
      _ = D * (T * H⁻¹ * Tᵀ) * D := by rw [e3, this]; simp only [Matrix.mul_assoc]
  have e5 : M' = D * M * D := by
    set C := T * H⁻¹ * Tᵀ + S with hC
    have k1 : (D * M * D) * (D * C * D) = s • (1 : Mat 4 4) := by
      calc (D * M * D) * (D * C * D) = D * M * (D * D) * C * D := by simp only [Matrix.mul_assoc]
        _ = D * (M * C) * D := by rw [hD, Matrix.mul_one]; simp only [Matrix.mul_assoc]
        _ = s • (1 : Mat 4 4) := by rw [h, Matrix.mul_smul, Matrix.smul_mul, Matrix.mul_one, hD]
    rw [e4] at h'
    have hu : (D * C * D) * (s⁻¹ • (D * M * D)) = 1 := by
      rw [mul_eq_one_comm, Matrix.smul_mul, k1, smul_smul, inv_mul_cancel₀ hs, one_smul]
    calc M' = M' * ((D * C * D) * (s⁻¹ • (D * M * D))) := by rw [hu, Matrix.mul_one]
      _ = (s • (1 : Mat 4 4)) * (s⁻¹ • (D * M * D)) := by rw [← Matrix.mul_assoc, h']
      _ = D * M * D := by rw [Matrix.smul_mul, Matrix.one_mul, smul_smul, mul_inv_cancel₀ hs, one_smul]
  constructor
  · intro x
    have hd : ∀ y : Fin 4 → ℝ, D *ᵥ (D *ᵥ y) = y := fun y => by rw [mulVec_mulVec, hD, one_mulVec]
    rw [qform_eq, qform_eq, e5, ← mulVec_mulVec, ← mulVec_mulVec, hd, dotProduct_mulVec, ← mulVec_transpose, hDt, hd]
  · rw [← e1, det_mul, det_mul, det_transpose]
    have : P.det * P.det = 1 := by rw [← det_mul, hP, det_one]
    linear_combination (-H'.det) * this

theorem opposite_val {s s' : List Char} (h : Spec.OppositeSense s s') (m : MonoAna) {x x' : ℝ} (hx : ({ m with sense := s } : MonoAna).senseVal = .ok x)
    (hx' : ({ m with sense := s' } : MonoAna).senseVal = .ok x') : x' = -x := by
  have p : ({ m with sense := "+".toList } : MonoAna).senseVal = .ok 1 := rfl
  have n : ({ m with sense := "-".toList } : MonoAna).senseVal = .ok (-1) := rfl
  rcases h with ⟨rfl, rfl⟩ | ⟨rfl, rfl⟩
  · rw [p] at hx; rw [n] at hx'
    rw [← Except.ok.inj hx, ← Except.ok.inj hx']
  · rw [n] at hx; rw [p] at hx'
    rw [← Except.ok.inj hx, ← Except.ok.inj hx', neg_neg]

theorem opposite_goni {s s' : List Char} (h : Spec.OppositeSense s s') (g : Goni) {x x' : ℝ} (hx : ({ g with sense := some s } : Goni).senseVal = .ok x)
    (hx' : ({ g with sense := some s' } : Goni).senseVal = .ok x') : x' = -x := by
  have p : ({ g with sense := some "+".toList } : Goni).senseVal = .ok 1 := rfl
  have n : ({ g with sense := some "-".toList } : Goni).senseVal = .ok (-1) := rfl
  rcases h with ⟨rfl, rfl⟩ | ⟨rfl, rfl⟩
  · rw [p] at hx; rw [n] at hx'
    rw [← Except.ok.inj hx, ← Except.ok.inj hx']
  · rw [n] at hx; rw [p] at hx'
    rw [← Except.ok.inj hx, ← Except.ok.inj hx', neg_neg]

theorem mirror_thetaM {t t' : Tas} (hm : Spec.MirrorImage t t') {e x x' : ℝ} (h : t.getThetaM e = .ok x) (h' : t'.getThetaM e = .ok x') : x' = -x := by
  rw [hm.same] at h'
  unfold Tas.getThetaM at h h'
  obtain ⟨kk, hk, h⟩ := py_bind_eq_ok.1 h
  rw [hk, py_bind_ok] at h'
  obtain ⟨y, hy, h⟩ := py_bind_eq_ok.1 h
  change (angleBragg kk t.mono.dSpacing >>= _) = _ at h'
  rw [hy, py_bind_ok] at h'
  obtain ⟨s, hs, h⟩ := py_bind_eq_ok.1 h
  obtain ⟨s1, hs1, h'⟩ := py_bind_eq_ok.1 h'
  have := opposite_val hm.mono t.mono hs hs1
  rw [← Except.ok.inj h, ← Except.ok.inj h', this]
  unfold rad2deg
  ring

theorem mirror_thetaA {t t' : Tas} (hm : Spec.MirrorImage t t') {e x x' : ℝ} (h : t.getThetaA e = .ok x) (h' : t'.getThetaA e = .ok x') : x' = -x := by
  rw [hm.same] at h'
  unfold Tas.getThetaA at h h'
  obtain ⟨kk, hk, h⟩ := py_bind_eq_ok.1 h
  rw [hk, py_bind_ok] at h'
  obtain ⟨y, hy, h⟩ := py_bind_eq_ok.1 h
  change (angleBragg kk t.ana.dSpacing >>= _) = _ at h'
  rw [hy, py_bind_ok] at h'
  obtain ⟨s, hs, h⟩ := py_bind_eq_ok.1 h
  obtain ⟨s1, hs1, h'⟩ := py_bind_eq_ok.1 h'
  have := opposite_val hm.ana t.ana hs hs1
  rw [← Except.ok.inj h, ← Except.ok.inj h', this]
  unfold rad2deg
  ring

theorem mirror_goni {t t' : Tas} (hm : Spec.MirrorImage t t') {s s1 : ℝ} (h : t.goni.senseVal = .ok s) (h' : t'.goni.senseVal = .ok s1) : s1 = -s := by
  obtain ⟨a, a', e, e', ho⟩ := hm.goni
  have k : ({ t.goni with sense := some a } : Goni).senseVal = .ok s := by rw [← e]; exact h
  have k' : ({ t.goni with sense := some a' } : Goni).senseVal = .ok s1 := by
    rw [hm.same, e'] at h'
    exact h'
  exact opposite_goni ho t.goni k k'

theorem mirror_tt {t t' : Tas} (hm : Spec.MirrorImage t t') {hkl : V3} {en x x' : ℝ} (h : t.getTwoTheta hkl en = .ok x)
    (h' : t'.getTwoTheta hkl en = .ok x') : x' = -x := by
  unfold Tas.getTwoTheta at h h'
  obtain ⟨p, hp, h⟩ := py_bind_eq_ok.1 h
  have hp' : t'.getEiEf none none en = .ok p := by rw [hm.same]; exact hp
  rw [hp', py_bind_ok] at h'
  obtain ⟨b, hb, h⟩ := py_bind_eq_ok.1 h
  have hb' : t'.sample.bMat = .ok b := by rw [hm.same]; exact hb
  change (t'.sample.bMat >>= _) = _ at h'
  rw [hb', py_bind_ok] at h'
  obtain ⟨y, hy, h⟩ := py_bind_eq_ok.1 h
  rw [hy, py_bind_ok] at h'
  obtain ⟨s, hs, h⟩ := py_bind_eq_ok.1 h
  obtain ⟨s1, hs1, h'⟩ := py_bind_eq_ok.1 h'
  rw [← Except.ok.inj h, ← Except.ok.inj h', mirror_goni hm hs hs1]
  ring

theorem mirror_psi {t t' : Tas} (hm : Spec.MirrorImage t t') {hkl : V3} {en x x' : ℝ} (h : t.getPsi hkl en = .ok x)
    (h' : t'.getPsi hkl en = .ok x') : x' = -x := by
  unfold Tas.getPsi at h h'
  obtain ⟨p, hp, h⟩ := py_bind_eq_ok.1 h
  have hp' : t'.getEiEf none none en = .ok p := by rw [hm.same]; exact hp
  rw [hp', py_bind_ok] at h'
  obtain ⟨b, hb, h⟩ := py_bind_eq_ok.1 h
  have hb' : t'.sample.bMat = .ok b := by rw [hm.same]; exact hb
  change (t'.sample.bMat >>= _) = _ at h'
  rw [hb', py_bind_ok] at h'
  obtain ⟨y, hy, h⟩ := py_bind_eq_ok.1 h
  rw [hy, py_bind_ok] at h'
  obtain ⟨s, hs, h⟩ := py_bind_eq_ok.1 h
  obtain ⟨s1, hs1, h'⟩ := py_bind_eq_ok.1 h'
  rw [← Except.ok.inj h, ← Except.ok.inj h', mirror_goni hm hs hs1]
  ring

theorem deg2rad_neg (x : ℝ) : deg2rad (-x) = -deg2rad x := by unfold deg2rad; ring

/-- **C111** The mirror image of a spectrometer has the mirror image of the resolution: the component across `Q` in the plane changes sign, and the
prefactor stays. -/
theorem C111_mirror {t t' : Tas} (hm : Spec.MirrorImage t t') {hkl : V3} {ei ef r0 r0' : ℝ} {M M' : Mat 4 4}
    (h : CooperNathans.calculateAt t hkl ei ef = .ok (M, r0)) (h' : CooperNathans.calculateAt t' hkl ei ef = .ok (M', r0')) :
    (∀ x0 x1 x2 x3, qform M' ![x0, -x1, x2, x3] = qform M ![x0, x1, x2, x3]) ∧ r0' = r0 := by
  obtain ⟨ki1, kf1, tm1, ta1, mh1, mv1, ah1, av1, q1, q2, q3, q4, q5, q6, q7, q8, hr⟩ := C65_prefactor h
  obtain ⟨ki2, kf2, tm2, ta2, mh2, mv2, ah2, av2, p1, p2, p3, p4, p5, p6, p7, p8, hr'⟩ := C65_prefactor h'
  obtain ⟨q, ki, kf, tt, psi, tm, ta, mh, mv, ah, av, H, T, a1, a2, a3, a4, a5, a6, a7, a8, a9, a10, a11, hH, hex, hT, hM⟩ := C65_textbook h
  obtain ⟨q', ki', kf', tt', psi', tm', ta', mh', mv', ah', av', H', T', b1, b2, b3, b4, b5, b6, b7, b8, b9, b10, b11, hH', hex', hT', hM'⟩ :=
    C65_textbook h'
  rw [a2] at q1 b2 p1; rw [a3] at q2 b3 p2; rw [a6] at q3; rw [a7] at q4; rw [a8] at q5; rw [a9] at q6; rw [a10] at q7; rw [a11] at q8
  rw [b6] at p3; rw [b7] at p4; rw [b8] at p5; rw [b9] at p6; rw [b10] at p7; rw [b11] at p8
  cases q1; cases q2; cases q3; cases q4; cases q5; cases q6; cases q7; cases q8
  cases p1; cases p2; cases p3; cases p4; cases p5; cases p6; cases p7; cases p8; cases b2; cases b3
  have c1 := mirror_tt hm a4 b4
  have c2 := mirror_psi hm a5 b5
  have c3 := mirror_thetaM hm a6 b6
  have c4 := mirror_thetaA hm a7 b7
  subst c1 c2 c3 c4
  have hs : t'.sample = t.sample := by rw [hm.same]
  have hcoll : t'.coll = t.coll := by rw [hm.same]
  rw [hs, a1] at b1; cases b1
  have d1 : t'.mono.mosaicH = t.mono.mosaicH := by rw [hm.same]
  have d2 : t'.mono.mosaicV = t.mono.mosaicV := by rw [hm.same]
  have d3 : t'.ana.mosaicH = t.ana.mosaicH := by rw [hm.same]
  have d4 : t'.ana.mosaicV = t.ana.mosaicV := by rw [hm.same]
  rw [d1, a8] at b8; rw [d2, a9] at b9; rw [d3, a10] at b10; rw [d4, a11] at b11
  cases b8; cases b9; cases b10; cases b11
  rw [hs] at hM'
  have key := transport (P := diagonal ![-1, -1, 1, 1, -1, -1, 1, 1]) (D := diagonal ![1, -1, 1, 1]) (s := sig2fwhm ^ 2) hH hH'
    (by rw [diagonal_mul_diagonal, ← diagonal_one]; congr 1; funext i; fin_cases i <;> simp)
    (by rw [diagonal_mul_diagonal, ← diagonal_one]; congr 1; funext i; fin_cases i <;> simp)
    (diagonal_transpose _)
    (fun u => by
      rw [hex', hex]
      unfold Spec.exponent
      simp only [mulVec_diagonal, hcoll, deg2rad_neg, Real.sin_neg]
      simp
      ring)
    (fun u => by
      rw [hT', hT]
      unfold Spec.displacement
      funext i
      have e : -deg2rad psi - -deg2rad tt = -(deg2rad psi - deg2rad tt) := by ring
      simp only [mulVec_diagonal, deg2rad_neg, e, Real.sin_neg, Real.cos_neg]
      fin_cases i
      · simp; ring
      · simp; ring
      · simp
      · simp; left; ring)
    (by rw [diagonal_mul_diagonal, diagonal_mul_diagonal]; congr 1; funext i; fin_cases i <;> simp)
    (pow_ne_zero 2 sig2fwhm_pos.ne') hM hM'
  refine ⟨fun x0 x1 x2 x3 => ?_, ?_⟩
  · rw [← key.1]
    congr 1
    funext i
    fin_cases i <;> simp [mulVec_diagonal]
  · rw [hr H hH hex, hr' H' hH' hex', key.2]
    unfold Spec.textbookPrefactor
    simp only [deg2rad_neg, Real.sin_neg, Real.cos_neg]
    ring

theorem twoTheta_swap (hkl : V3) (ei ef : ℝ) (b : M3) {x y : ℝ} (h : twoThetaFromHkle hkl ei ef b = .ok x) (h' : twoThetaFromHkle hkl ef ei b = .ok y) :
    y = x := by
  unfold twoThetaFromHkle at h h'
  obtain ⟨ki, hki, h⟩ := py_bind_eq_ok.1 h
  obtain ⟨kf, hkf, h⟩ := py_bind_eq_ok.1 h
  rw [hkf, py_bind_ok, hki, py_bind_ok] at h'
  have : angleFromTriangle kf ki (qNormFromHkl hkl b) = angleFromTriangle ki kf (qNormFromHkl hkl b) := by
    unfold angleFromTriangle
    rw [add_comm (kf ^ 2), mul_assoc 2 kf ki, mul_comm kf ki, ← mul_assoc]
    simp only [or_comm]
  rw [this, h] at h'
  exact (Except.ok.inj h').symm

theorem reversed_energies {t : Tas} {ei ef : ℝ} (he : t.getEiEf none none (ei - ef) = .ok (ei, ef)) :
    (Spec.reversed t).getEiEf none none (ef - ei) = .ok (ef, ei) := by
  unfold Tas.getEiEf at he ⊢
  show (match t.fixedEf, t.fixedEi with
    | none, none => Except.error PyErr.valueError
    | none, some ef' => .ok (ef - ei + ef', ef')
    | some ei', none => .ok (ei', ei' - (ef - ei))
    | some ei', some ef' => .ok (ei', ef')) = .ok (ef, ei)
  rcases h1 : t.fixedEi with _ | x <;> rcases h2 : t.fixedEf with _ | y <;> simp only [h1, h2] at he ⊢
  · cases he
  · have := Prod.ext_iff.1 (Except.ok.inj he)
    simp only at this
    rw [this.2]
    congr 2
    ring
  · have := Prod.ext_iff.1 (Except.ok.inj he)
    simp only at this
    rw [this.1]
    congr 2
    ring
  · have := Prod.ext_iff.1 (Except.ok.inj he)
    simp only at this
    rw [this.1, this.2]

/-- The exchange of the angles of the two arms, with opposite sign. -/
def swapAngles : Mat 8 8 :=
  !![0, 0, 0, 0, 0, -1, 0, 0; 0, 0, 0, 0, -1, 0, 0, 0; 0, 0, 0, 0, 0, 0, 0, -1; 0, 0, 0, 0, 0, 0, -1, 0;
     0, -1, 0, 0, 0, 0, 0, 0; -1, 0, 0, 0, 0, 0, 0, 0; 0, 0, 0, -1, 0, 0, 0, 0; 0, 0, -1, 0, 0, 0, 0, 0]

theorem swapAngles_mulVec (u : Fin 8 → ℝ) : swapAngles *ᵥ u = ![-u 5, -u 4, -u 7, -u 6, -u 1, -u 0, -u 3, -u 2] := by
  funext i
  fin_cases i <;> simp [swapAngles, mulVec, dotProduct, Fin.sum_univ_eight]

theorem swapAngles_sq : swapAngles * swapAngles = 1 := by
  apply Matrix.ext_of_mulVec_single
  intro i
  rw [← mulVec_mulVec, swapAngles_mulVec, swapAngles_mulVec, one_mulVec]
  funext j
  fin_cases j <;> simp

/-- **C111** Reciprocity: a spectrometer in which the neutrons travel the other way has, for the opposite energy transfer, the same resolution up to
the sign of the energy and of the component across `Q`, and the same prefactor. -/
theorem C111_reversed {t : Tas} {hkl : V3} {ei ef r0 r0' : ℝ} {M M' : Mat 4 4} (he : t.getEiEf none none (ei - ef) = .ok (ei, ef))
    (h : CooperNathans.calculateAt t hkl ei ef = .ok (M, r0))
    (h' : CooperNathans.calculateAt (Spec.reversed t) hkl ef ei = .ok (M', r0')) :
    (∀ x0 x1 x2 x3, qform M' ![x0, -x1, x2, -x3] = qform M ![x0, x1, x2, x3]) ∧ r0' = r0 := by
  obtain ⟨ki1, kf1, tm1, ta1, mh1, mv1, ah1, av1, q1, q2, q3, q4, q5, q6, q7, q8, hr⟩ := C65_prefactor h
  obtain ⟨ki2, kf2, tm2, ta2, mh2, mv2, ah2, av2, p1, p2, p3, p4, p5, p6, p7, p8, hr'⟩ := C65_prefactor h'
  obtain ⟨q, ki, kf, tt, psi, tm, ta, mh, mv, ah, av, H, T, a1, a2, a3, a4, a5, a6, a7, a8, a9, a10, a11, hH, hex, hT, hM⟩ := C65_textbook h
  obtain ⟨q', ki', kf', tt', psi', tm', ta', mh', mv', ah', av', H', T', b1, b2, b3, b4, b5, b6, b7, b8, b9, b10, b11, hH', hex', hT', hM'⟩ :=
    C65_textbook h'
  have he' := reversed_energies he
  obtain ⟨b, hb⟩ : ∃ b, t.sample.bMat = .ok b := by
    have := a4
    unfold Tas.getTwoTheta at this
    rw [he, py_bind_ok] at this
    obtain ⟨b, hb, _⟩ := py_bind_eq_ok.1 this
    exact ⟨b, hb⟩
  have hb' : (Spec.reversed t).sample.bMat = .ok b := hb
  obtain ⟨k1, k2, f1, f2, _, _, f3, _, _, s1, c1, _⟩ := C13_q_lab hb he a4 a5
  obtain ⟨l1, l2, g1, g2, _, _, _, _, _, s2, c2, _⟩ := C13_q_lab hb' he' b4 b5
  have htt : tt' = tt := by
    unfold Tas.getTwoTheta at a4 b4
    rw [he, py_bind_ok] at a4
    rw [he', py_bind_ok] at b4
    change (t.sample.bMat >>= _) = _ at a4
    change (t.sample.bMat >>= _) = _ at b4
    rw [hb, py_bind_ok] at a4 b4
    obtain ⟨x, hx, a4⟩ := py_bind_eq_ok.1 a4
    obtain ⟨y, hy, b4⟩ := py_bind_eq_ok.1 b4
    obtain ⟨s, hs, a4⟩ := py_bind_eq_ok.1 a4
    change (t.goni.senseVal >>= _) = _ at b4
    rw [hs, py_bind_ok] at b4
    rw [← Except.ok.inj a4, ← Except.ok.inj b4, twoTheta_swap hkl ei ef b hx hy]
  subst htt
  change t.sample.getQNorm hkl = _ at b1
  change t.getThetaA ef = _ at b6
  change t.getThetaM ei = _ at b7
  change t.ana.mosaicH = _ at b8
  change t.ana.mosaicV = _ at b9
  change t.mono.mosaicH = _ at b10
  change t.mono.mosaicV = _ at b11
  change t.getThetaA ef = _ at p3
  change t.getThetaM ei = _ at p4
  change t.ana.mosaicH = _ at p5
  change t.ana.mosaicV = _ at p6
  change t.mono.mosaicH = _ at p7
  change t.mono.mosaicV = _ at p8
  rw [a1] at b1
  rw [a2] at q1 b3 p2 f1 g2; rw [a3] at q2 b2 p1 f2 g1; rw [a6] at q3 b7 p4; rw [a7] at q4 b6 p3; rw [a8] at q5 b10 p7; rw [a9] at q6 b11 p8
  rw [a10] at q7 b8 p5; rw [a11] at q8 b9 p6
  cases q1; cases q2; cases q3; cases q4; cases q5; cases q6; cases q7; cases q8
  cases p1; cases p2; cases p3; cases p4; cases p5; cases p6; cases p7; cases p8
  cases b1; cases b2; cases b3; cases b6; cases b7; cases b8; cases b9; cases b10; cases b11; cases f1; cases f2; cases g1; cases g2
  have hq := f3.ne'
  set Q := qNormFromHkl hkl b with hQ
  have sc := Real.sin_sq_add_cos_sq (deg2rad tt')
  have w1 : Real.cos (deg2rad psi') = -Real.cos (deg2rad psi - deg2rad tt') := by
    apply mul_left_cancel₀ hq
    rw [← c2, Real.cos_sub]
    linear_combination Real.cos (deg2rad tt') * (-c1) + Real.sin (deg2rad tt') * (-s1) + (-kf1) * sc
  have w2 : Real.sin (deg2rad psi') = Real.sin (deg2rad psi - deg2rad tt') := by
    apply mul_left_cancel₀ hq
    rw [← s2, Real.sin_sub]
    linear_combination Real.cos (deg2rad tt') * s1 - Real.sin (deg2rad tt') * c1
  have w3 : Real.cos (deg2rad psi' - deg2rad tt') = -Real.cos (deg2rad psi) := by
    rw [Real.cos_sub, w1, w2, Real.cos_sub, Real.sin_sub]
    linear_combination (-Real.cos (deg2rad psi)) * sc
  have w4 : Real.sin (deg2rad psi' - deg2rad tt') = Real.sin (deg2rad psi) := by
    rw [Real.sin_sub, w1, w2, Real.cos_sub, Real.sin_sub]
    linear_combination (Real.sin (deg2rad psi)) * sc
  have r0' : (0 : Fin 4).rev = 3 := rfl
  have r1' : (1 : Fin 4).rev = 2 := rfl
  have r2' : (2 : Fin 4).rev = 1 := rfl
  have r3' : (3 : Fin 4).rev = 0 := rfl
  have key := transport (P := swapAngles) (D := diagonal ![1, -1, 1, -1]) (s := sig2fwhm ^ 2) hH hH'
    swapAngles_sq
    (by rw [diagonal_mul_diagonal, ← diagonal_one]; congr 1; funext i; fin_cases i <;> simp)
    (diagonal_transpose _)
    (fun u => by
      rw [hex', hex, swapAngles_mulVec]
      unfold Spec.exponent Spec.reversed
      simp only [r0', r1', r2', r3']
      simp
      ring)
    (fun u => by
      rw [hT', hT, swapAngles_mulVec]
      unfold Spec.displacement
      funext i
      simp only [mulVec_diagonal, w3, w4]
      rw [w1, w2]
      fin_cases i
      · simp; ring
      · simp; ring
      · simp; ring
      · simp; ring)
    (by
      show _ = diagonal _ * diagonal _ * diagonal _
      rw [diagonal_mul_diagonal, diagonal_mul_diagonal]; congr 1; funext i; fin_cases i <;> simp [Spec.reversed])
    (pow_ne_zero 2 sig2fwhm_pos.ne') hM hM'
  refine ⟨fun x0 x1 x2 x3 => ?_, ?_⟩
  · rw [← key.1]
    congr 1
    funext i
    fin_cases i <;> simp [mulVec_diagonal]
  · rw [hr H hH hex, hr' H' hH' hex', key.2]
    unfold Spec.textbookPrefactor
    have e : ∀ a b c d : ℝ, c * d * a * b = a * b * c * d := fun a b c d => by ring
    simp only [e (mh1 / 60 * (Real.pi / 180))]
    ring

end Tavi
