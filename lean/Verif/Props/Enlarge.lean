import Verif.Props.Mounting
import Verif.Props.MirrorWidths

/-! # C114: an enlarged experiment: all spacings times a factor, all energies divided by its square -/

namespace Tavi

open Matrix Spec

/-- Specification: the cell with all lengths multiplied by `g`. -/
def Spec.enlargedCell (g : ℝ) (L : Latt) : Latt := { L with a := g * L.a, b := g * L.b, c := g * L.c }

/-- Specification: the same experiment with the lattice of the sample and the spacings of monochromator and analyser `g` times as large and the
energies divided by `g²`, so that all wavelengths are `g` times as long. The orientation of the sample is left open. -/
structure Spec.Enlarged (g : ℝ) (t t' : Tas) : Prop where
  same : t' = { t with fixedEi := t.fixedEi.map (· / g ^ 2), fixedEf := t.fixedEf.map (· / g ^ 2), sample := t'.sample,
                       mono := { t.mono with dSpacing := g * t.mono.dSpacing }, ana := { t.ana with dSpacing := g * t.ana.dSpacing } }
  latt : t'.sample.latt = Spec.enlargedCell g t.sample.latt
  mosaicH : t'.sample.mosaicH = t.sample.mosaicH
  mosaicV : t'.sample.mosaicV = t.sample.mosaicV

theorem enlarged_possible {g : ℝ} (hg : 0 < g) {L : Latt} (h : PossibleCell L) : PossibleCell (Spec.enlargedCell g L) :=
  ⟨mul_pos hg h.1, mul_pos hg h.2, mul_pos hg h.3, h.4, h.5, h.6, h.7, h.8, h.9, h.10⟩

theorem enlarged_metric (g : ℝ) (L : Latt) : metric (Spec.enlargedCell g L) = g ^ 2 • metric L := by
  ext i j
  fin_cases i <;> fin_cases j <;> simp [metric, Spec.enlargedCell] <;> ring

theorem enlarged_length {g : ℝ} (hg : 0 < g) (L : Latt) (hkl : V3) :
    2 * Real.pi * √(hkl ⬝ᵥ ((metric (Spec.enlargedCell g L))⁻¹ *ᵥ hkl)) = 2 * Real.pi * √(hkl ⬝ᵥ ((metric L)⁻¹ *ᵥ hkl)) / g := by
  have hi : (metric (Spec.enlargedCell g L))⁻¹ = (g ^ 2)⁻¹ • (metric L)⁻¹ := by
    rw [enlarged_metric]
    by_cases hd : (metric L).det = 0
    · have h0 : ¬IsUnit (metric L).det := by rw [hd]; simp
      have h1 : ¬IsUnit (g ^ 2 • metric L).det := by rw [det_smul, hd]; simp
      rw [nonsing_inv_apply_not_isUnit _ h0, nonsing_inv_apply_not_isUnit _ h1, smul_zero]
    · apply Matrix.inv_eq_right_inv
      rw [Matrix.smul_mul, Matrix.mul_smul, smul_smul, mul_nonsing_inv _ (isUnit_iff_ne_zero.2 hd), mul_inv_cancel₀ (by positivity), one_smul]
  rw [hi, smul_mulVec, dotProduct_smul, smul_eq_mul, Real.sqrt_mul (by positivity), Real.sqrt_inv, Real.sqrt_sq hg.le]
  field_simp

theorem enlarged_k {g e k k' : ℝ} (hg : 0 < g) (h : en2q e = .ok k) (h' : en2q (e / g ^ 2) = .ok k') : k' = k / g := by
  unfold en2q at h h'
  split_ifs at h h'
  rw [← Except.ok.inj h, ← Except.ok.inj h', div_right_comm, Real.sqrt_div' _ (by positivity), Real.sqrt_sq hg.le]

theorem enlarged_bragg {g k d x x' : ℝ} (hg : 0 < g) (h : angleBragg k d = .ok x) (h' : angleBragg (k / g) (g * d) = .ok x') : x' = x := by
  have e : g * d * (k / g) = d * k := by field_simp
  unfold angleBragg at h h'
  rw [e] at h'
  exact Except.ok.inj (h'.symm.trans h)

theorem enlarged_triangle {g a b c x x' : ℝ} (hg : 0 < g) (h : angleFromTriangle a b c = .ok x)
    (h' : angleFromTriangle (a / g) (b / g) (c / g) = .ok x') : x' = x := by
  have e : ((a / g) ^ 2 + (b / g) ^ 2 - (c / g) ^ 2) / (2 * (a / g) * (b / g)) = (a ^ 2 + b ^ 2 - c ^ 2) / (2 * a * b) := by
    have e1 : (a / g) ^ 2 + (b / g) ^ 2 - (c / g) ^ 2 = (a ^ 2 + b ^ 2 - c ^ 2) / g ^ 2 := by field_simp
    have e2 : 2 * (a / g) * (b / g) = 2 * a * b / g ^ 2 := by field_simp
    rw [e1, e2, div_div_div_cancel_right₀ (by positivity)]
  unfold angleFromTriangle at h h'
  dsimp only at h h'
  rw [e] at h'
  split_ifs at h h'
  exact Except.ok.inj (h'.symm.trans h)

theorem enlarged_energies {g : ℝ} {t t' : Tas} (hs : Spec.Enlarged g t t') {en : ℝ} {p : ℝ × ℝ} (h : t.getEiEf none none en = .ok p) :
    t'.getEiEf none none (en / g ^ 2) = .ok (p.1 / g ^ 2, p.2 / g ^ 2) := by
  rw [hs.same]
  unfold Tas.getEiEf at h ⊢
  dsimp only at h ⊢
  rcases h1 : t.fixedEi with _ | x <;> rcases h2 : t.fixedEf with _ | y <;> simp only [h1, h2, Option.map] at h ⊢
  · cases h
  all_goals
    rw [← Except.ok.inj h]
    try simp only [add_div, sub_div]

theorem enlarged_tt {g : ℝ} (hg : 0 < g) {t t' : Tas} (hs : Spec.Enlarged g t t') (hc : PossibleCell t.sample.latt) {hkl : V3} {en x x' : ℝ}
    (h : t.getTwoTheta hkl en = .ok x) (h' : t'.getTwoTheta hkl (en / g ^ 2) = .ok x') : x' = x := by
  obtain ⟨B, hB, hq, -⟩ := C02_q_norm hc hkl
  obtain ⟨B', hB', hq', -⟩ := C02_q_norm (s := t'.sample) (by rw [hs.latt]; exact enlarged_possible hg hc) hkl
  rw [hs.latt, enlarged_length hg, ← hq] at hq'
  have hgo : t'.goni = t.goni := by rw [hs.same]
  unfold Tas.getTwoTheta at h h'
  obtain ⟨p, hp, h⟩ := py_bind_eq_ok.1 h
  rw [enlarged_energies hs hp, py_bind_ok] at h'
  dsimp only at h h'
  rw [hB, py_bind_ok] at h
  rw [hB', py_bind_ok, hgo] at h'
  unfold twoThetaFromHkle at h h'
  obtain ⟨y, hy, h⟩ := py_bind_eq_ok.1 h
  obtain ⟨y', hy', h'⟩ := py_bind_eq_ok.1 h'
  obtain ⟨ki, h1, hy⟩ := py_bind_eq_ok.1 hy
  obtain ⟨kf, h2, hy⟩ := py_bind_eq_ok.1 hy
  obtain ⟨ki', h1', hy'⟩ := py_bind_eq_ok.1 hy'
  obtain ⟨kf', h2', hy'⟩ := py_bind_eq_ok.1 hy'
  rw [enlarged_k hg h1 h1', enlarged_k hg h2 h2', hq'] at hy'
  have := enlarged_triangle hg hy hy'
  subst this
  exact Except.ok.inj (h'.symm.trans h)

theorem enlarged_psi {g : ℝ} (hg : 0 < g) {t t' : Tas} (hs : Spec.Enlarged g t t') (hc : PossibleCell t.sample.latt) {hkl : V3} {en x x' : ℝ}
    (h : t.getPsi hkl en = .ok x) (h' : t'.getPsi hkl (en / g ^ 2) = .ok x') : x' = x := by
  obtain ⟨B, hB, hq, -⟩ := C02_q_norm hc hkl
  obtain ⟨B', hB', hq', -⟩ := C02_q_norm (s := t'.sample) (by rw [hs.latt]; exact enlarged_possible hg hc) hkl
  rw [hs.latt, enlarged_length hg, ← hq] at hq'
  have hgo : t'.goni = t.goni := by rw [hs.same]
  unfold Tas.getPsi at h h'
  obtain ⟨p, hp, h⟩ := py_bind_eq_ok.1 h
  rw [enlarged_energies hs hp, py_bind_ok] at h'
  dsimp only at h h'
  rw [hB, py_bind_ok] at h
  rw [hB', py_bind_ok, hgo] at h'
  unfold psiFromHkle at h h'
  obtain ⟨y, hy, h⟩ := py_bind_eq_ok.1 h
  obtain ⟨y', hy', h'⟩ := py_bind_eq_ok.1 h'
  obtain ⟨ki, h1, hy⟩ := py_bind_eq_ok.1 hy
  obtain ⟨kf, h2, hy⟩ := py_bind_eq_ok.1 hy
  obtain ⟨ki', h1', hy'⟩ := py_bind_eq_ok.1 hy'
  obtain ⟨kf', h2', hy'⟩ := py_bind_eq_ok.1 hy'
  rw [enlarged_k hg h1 h1', enlarged_k hg h2 h2', hq'] at hy'
  have := enlarged_triangle hg hy hy'
  subst this
  exact Except.ok.inj (h'.symm.trans h)

theorem enlarged_thetaM {g : ℝ} (hg : 0 < g) {t t' : Tas} (hs : Spec.Enlarged g t t') {e x x' : ℝ} (h : t.getThetaM e = .ok x)
    (h' : t'.getThetaM (e / g ^ 2) = .ok x') : x' = x := by
  rw [hs.same] at h'
  unfold Tas.getThetaM at h h'
  obtain ⟨k, hk, h⟩ := py_bind_eq_ok.1 h
  obtain ⟨k', hk', h'⟩ := py_bind_eq_ok.1 h'
  obtain ⟨y, hy, h⟩ := py_bind_eq_ok.1 h
  obtain ⟨y', hy', h'⟩ := py_bind_eq_ok.1 h'
  rw [enlarged_k hg hk hk'] at hy'
  have := enlarged_bragg hg hy hy'
  subst this
  exact Except.ok.inj (h'.symm.trans h)

theorem enlarged_thetaA {g : ℝ} (hg : 0 < g) {t t' : Tas} (hs : Spec.Enlarged g t t') {e x x' : ℝ} (h : t.getThetaA e = .ok x)
    (h' : t'.getThetaA (e / g ^ 2) = .ok x') : x' = x := by
  rw [hs.same] at h'
  unfold Tas.getThetaA at h h'
  obtain ⟨k, hk, h⟩ := py_bind_eq_ok.1 h
  obtain ⟨k', hk', h'⟩ := py_bind_eq_ok.1 h'
  obtain ⟨y, hy, h⟩ := py_bind_eq_ok.1 h
  obtain ⟨y', hy', h'⟩ := py_bind_eq_ok.1 h'
  rw [enlarged_k hg hk hk'] at hy'
  have := enlarged_bragg hg hy hy'
  subst this
  exact Except.ok.inj (h'.symm.trans h)

/-- **C114** The resolution of the enlarged experiment is that of the original in enlarged units: momenta count `g` times, energies `g²` times as much,
and the prefactor is divided by `g⁶` (the two crystals reflect in proportion to `k³`). -/
theorem C114_enlarged {g : ℝ} (hg : 0 < g) {t t' : Tas} (hs : Spec.Enlarged g t t') (hc : PossibleCell t.sample.latt) {hkl : V3}
    {ei ef r0 r0' : ℝ} {M M' : Mat 4 4} (h : CooperNathans.calculateAt t hkl ei ef = .ok (M, r0))
    (h' : CooperNathans.calculateAt t' hkl (ei / g ^ 2) (ef / g ^ 2) = .ok (M', r0')) :
    (∀ x0 x1 x2 x3, qform M' ![x0, x1, x2, x3] = qform M ![g * x0, g * x1, g * x2, g ^ 2 * x3]) ∧ r0' = r0 / g ^ 6 := by
  obtain ⟨ki1, kf1, tm1, ta1, mh1, mv1, ah1, av1, q1, q2, q3, q4, q5, q6, q7, q8, hr⟩ := C65_prefactor h
  obtain ⟨ki2, kf2, tm2, ta2, mh2, mv2, ah2, av2, p1, p2, p3, p4, p5, p6, p7, p8, hr'⟩ := C65_prefactor h'
  obtain ⟨q, ki, kf, tt, psi, tm, ta, mh, mv, ah, av, H, T, a1, a2, a3, a4, a5, a6, a7, a8, a9, a10, a11, hH, hex, hT, hM⟩ := C65_textbook h
  obtain ⟨q', ki', kf', tt', psi', tm', ta', mh', mv', ah', av', H', T', b1, b2, b3, b4, b5, b6, b7, b8, b9, b10, b11, hH', hex', hT', hM'⟩ :=
    C65_textbook h'
  rw [a2] at q1; rw [a3] at q2; rw [a6] at q3; rw [a7] at q4; rw [a8] at q5; rw [a9] at q6; rw [a10] at q7; rw [a11] at q8
  rw [b2] at p1; rw [b3] at p2; rw [b6] at p3; rw [b7] at p4; rw [b8] at p5; rw [b9] at p6; rw [b10] at p7; rw [b11] at p8
  cases q1; cases q2; cases q3; cases q4; cases q5; cases q6; cases q7; cases q8
  cases p1; cases p2; cases p3; cases p4; cases p5; cases p6; cases p7; cases p8
  rw [← sub_div] at b4 b5
  have c1 := enlarged_tt hg hs hc a4 b4
  have c2 := enlarged_psi hg hs hc a5 b5
  have c3 := enlarged_thetaM hg hs a6 b6
  have c4 := enlarged_thetaA hg hs a7 b7
  have c5 := enlarged_k hg a2 b2
  have c6 := enlarged_k hg a3 b3
  subst c1 c2 c3 c4 c5 c6
  have hcoll : t'.coll = t.coll := by rw [hs.same]
  have d1 : t'.mono.mosaicH = t.mono.mosaicH := by rw [hs.same]
  have d2 : t'.mono.mosaicV = t.mono.mosaicV := by rw [hs.same]
  have d3 : t'.ana.mosaicH = t.ana.mosaicH := by rw [hs.same]
  have d4 : t'.ana.mosaicV = t.ana.mosaicV := by rw [hs.same]
  rw [d1, a8] at b8; rw [d2, a9] at b9; rw [d3, a10] at b10; rw [d4, a11] at b11
  cases b8; cases b9; cases b10; cases b11
  have hq : q' = q / g := by
    obtain ⟨-, -, -, hn⟩ := C02_q_norm hc hkl
    obtain ⟨-, -, -, hn'⟩ := C02_q_norm (s := t'.sample) (by rw [hs.latt]; exact enlarged_possible hg hc) hkl
    rw [hs.latt, enlarged_length hg] at hn'
    rw [a1] at hn
    rw [b1] at hn'
    rw [Except.ok.inj hn, Except.ok.inj hn']
  have hHH : H' = H := by
    refine qform_inj hH'.symm hH.symm fun u => ?_
    rw [hex', hex]
    unfold Spec.exponent
    rw [hcoll]
  subst hHH
  have hg0 := hg.ne'
  -- the displacement is that of the original, in enlarged units
  have hTT : T = diagonal ![g, g, g, g ^ 2] * T' := by
    apply Matrix.ext_of_mulVec_single
    intro i
    rw [← mulVec_mulVec, hT, hT']
    generalize (Pi.single i 1 : Fin 8 → ℝ) = u
    unfold Spec.displacement
    funext j
    rw [mulVec_diagonal]
    fin_cases j
    · simp; field_simp
    · simp; field_simp
    · simp; field_simp
    · simp; field_simp
  have hSS : (diagonal ![0, (q * (t.sample.mosaicH / 60 * (Real.pi / 180))) ^ 2, (q * (t.sample.mosaicV / 60 * (Real.pi / 180))) ^ 2, 0] : Mat 4 4)
      = diagonal ![g, g, g, g ^ 2] * diagonal ![0, (q' * (t'.sample.mosaicH / 60 * (Real.pi / 180))) ^ 2,
        (q' * (t'.sample.mosaicV / 60 * (Real.pi / 180))) ^ 2, 0] * diagonal ![g, g, g, g ^ 2] := by
    rw [hs.mosaicH, hs.mosaicV, hq, diagonal_mul_diagonal, diagonal_mul_diagonal]
    congr 1
    funext i
    fin_cases i
    · simp
    · simp; field_simp
    · simp; field_simp
    · simp
  set D : Mat 4 4 := diagonal ![g, g, g, g ^ 2] with hD
  have hDt : Dᵀ = D := diagonal_transpose _
  set C' := T' * H'⁻¹ * T'ᵀ + diagonal ![0, (q' * (t'.sample.mosaicH / 60 * (Real.pi / 180))) ^ 2,
    (q' * (t'.sample.mosaicV / 60 * (Real.pi / 180))) ^ 2, 0] with hC'
  have hC : T * H'⁻¹ * Tᵀ + diagonal ![0, (q * (t.sample.mosaicH / 60 * (Real.pi / 180))) ^ 2,
      (q * (t.sample.mosaicV / 60 * (Real.pi / 180))) ^ 2, 0] = D * C' * D := by
    rw [hSS, hC', Matrix.mul_add, Matrix.add_mul, hTT, Matrix.transpose_mul, hDt]
    simp only [Matrix.mul_assoc]
  rw [hC] at hM
  have hs2 : sig2fwhm ^ 2 ≠ 0 := pow_ne_zero 2 sig2fwhm_pos.ne'
  have hu : C' * ((sig2fwhm ^ 2)⁻¹ • M') = 1 := by
    rw [mul_eq_one_comm, Matrix.smul_mul, hM', smul_smul, inv_mul_cancel₀ hs2, one_smul]
  have hDi : D * diagonal ![g⁻¹, g⁻¹, g⁻¹, (g ^ 2)⁻¹] = 1 := by
    rw [hD, diagonal_mul_diagonal, ← diagonal_one]
    congr 1
    funext i
    fin_cases i <;> simp [hg0]
  have hMM : D * M * D = M' := by
    set E : Mat 4 4 := diagonal ![g⁻¹, g⁻¹, g⁻¹, (g ^ 2)⁻¹]
    have hED : E * D = 1 := mul_eq_one_comm.1 hDi
    have k1 : M * D * C' = sig2fwhm ^ 2 • E := by
      calc M * D * C' = M * (D * C' * D) * E := by
            simp only [Matrix.mul_assoc]; rw [hDi, Matrix.mul_one]
        _ = sig2fwhm ^ 2 • E := by rw [hM, Matrix.smul_mul, Matrix.one_mul]
    have k2 : M * D = E * M' := by
      calc M * D = M * D * (C' * ((sig2fwhm ^ 2)⁻¹ • M')) := by rw [hu, Matrix.mul_one]
        _ = (M * D * C') * ((sig2fwhm ^ 2)⁻¹ • M') := by simp only [Matrix.mul_assoc]
        _ = E * M' := by rw [k1, Matrix.smul_mul, Matrix.mul_smul, smul_smul, mul_inv_cancel₀ hs2, one_smul]
    rw [Matrix.mul_assoc, k2, ← Matrix.mul_assoc, hDi, Matrix.one_mul]
  refine ⟨fun x0 x1 x2 x3 => ?_, ?_⟩
  · have e : ![g * x0, g * x1, g * x2, g ^ 2 * x3] = D *ᵥ ![x0, x1, x2, x3] := by
      funext i
      rw [hD, mulVec_diagonal]
      fin_cases i <;> simp
    rw [e, qform_eq, qform_eq, ← hMM, ← mulVec_mulVec, ← mulVec_mulVec, dotProduct_mulVec, ← mulVec_transpose, hDt]
  · rw [hr H' hH hex, hr' H' hH' hex']
    unfold Spec.textbookPrefactor
    dsimp only
    rw [div_pow, div_pow]
    field_simp

/-- **C114** The ellipsoid of the enlarged experiment stands at the same indices, at the momentum divided by `g` and the energy divided by `g²`, and its
widths at fixed other components are those of the original divided by `g`, the one in energy by `g²`. -/
theorem C114_widths {g : ℝ} (hg : 0 < g) {t t' : Tas} (hs : Spec.Enlarged g t t') (hc : PossibleCell t.sample.latt) {hkl : V3}
    {ei ef : ℝ} {e e' : Ellipsoid} (h : t.resoAt none (hkl, ei, ef) = .ok e)
    (h' : t'.resoAt none (hkl, ei / g ^ 2, ef / g ^ 2) = .ok e') :
    e'.hkl = e.hkl ∧ e'.en = e.en / g ^ 2 ∧ e'.q = e.q / g ∧ e'.r0 = e.r0 / g ^ 6 ∧
      ∀ i w, cohFwhm e.mat i = .ok w → cohFwhm e'.mat i = .ok (w / (![g, g, g, g ^ 2] : Fin 4 → ℝ) i) := by
  obtain ⟨b, m, r0, hb, hcal, rfl, rfl, hq, hh, hen⟩ := resoAt_ok h
  obtain ⟨b', m', r0', hb', hcal', rfl, rfl, hq', hh', hen'⟩ := resoAt_ok h'
  obtain ⟨B, hB, hn, -⟩ := C02_q_norm hc hkl
  obtain ⟨B', hB', hn', -⟩ := C02_q_norm (s := t'.sample) (by rw [hs.latt]; exact enlarged_possible hg hc) hkl
  rw [hs.latt, enlarged_length hg, ← hn] at hn'
  rw [hb] at hB; cases hB
  rw [hb'] at hB'; cases hB'
  obtain ⟨hf, hr⟩ := C114_enlarged hg hs hc hcal hcal'
  refine ⟨by rw [hh, hh'], by rw [hen, hen', sub_div], by rw [hq, hq', qnorm_eq, qnorm_eq, hn'], hr, fun i w hw => ?_⟩
  have key : e'.mat i i = e.mat i i * (![g, g, g, g ^ 2] : Fin 4 → ℝ) i ^ 2 := by
    have k : ∀ j, qform e'.mat (Pi.single j 1) = qform e.mat (Pi.single j ((![g, g, g, g ^ 2] : Fin 4 → ℝ) j)) := by
      intro j
      have := hf ((Pi.single j 1 : Fin 4 → ℝ) 0) ((Pi.single j 1 : Fin 4 → ℝ) 1) ((Pi.single j 1 : Fin 4 → ℝ) 2) ((Pi.single j 1 : Fin 4 → ℝ) 3)
      convert this using 2
      · funext l; fin_cases l <;> rfl
      · funext l; fin_cases j <;> fin_cases l <;> simp
    have := k i
    rw [qform_single, qform_eq] at this
    rw [this]
    simp
    ring
  have hp : 0 < (![g, g, g, g ^ 2] : Fin 4 → ℝ) i := by
    fin_cases i <;> simp <;> positivity
  unfold cohFwhm at hw ⊢
  obtain ⟨s, hs', hw⟩ := py_bind_eq_ok.1 hw
  unfold pySqrt at hs'
  split_ifs at hs' with hneg
  have hs' := Except.ok.inj hs'
  obtain ⟨hs0, rfl⟩ := pyDiv_eq_ok.1 hw
  have hnn := not_lt.1 hneg
  rw [key, pySqrt_ok (by positivity), py_bind_ok, Real.sqrt_mul hnn, Real.sqrt_sq hp.le, hs']
  exact pyDiv_eq_ok.2 ⟨mul_ne_zero hs0 hp.ne', by rw [div_div]⟩

end Tavi
