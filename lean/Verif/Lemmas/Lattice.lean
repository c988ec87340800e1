import Verif.Lemmas.Numpy

/-! Closed forms of the lattice functions for possible cells. -/

namespace Tavi

open Matrix Real

/-- Trigonometric data of a possible cell. -/
structure Trig (L : Latt) where
  ca : ℝ
  cb : ℝ
  cg : ℝ
  sa : ℝ
  sb : ℝ
  sg : ℝ
  v : ℝ
  hca : Real.cos (deg2rad L.alpha) = ca
  hcb : Real.cos (deg2rad L.beta) = cb
  hcg : Real.cos (deg2rad L.gamma) = cg
  hsa : Real.sin (deg2rad L.alpha) = sa
  hsb : Real.sin (deg2rad L.beta) = sb
  hsg : Real.sin (deg2rad L.gamma) = sg
  a0 : 0 < L.a
  b0 : 0 < L.b
  c0 : 0 < L.c
  sa0 : 0 < sa
  sb0 : 0 < sb
  sg0 : 0 < sg
  v0 : 0 < v
  ea : sa ^ 2 = 1 - ca ^ 2
  eb : sb ^ 2 = 1 - cb ^ 2
  eg : sg ^ 2 = 1 - cg ^ 2
  ev : v ^ 2 = 1 - ca ^ 2 - cb ^ 2 - cg ^ 2 + 2 * ca * cb * cg
  hv : vAbg L.alpha L.beta L.gamma = .ok v
  hma : Real.cos (L.alpha * Real.pi / 180) = ca
  hmb : Real.cos (L.beta * Real.pi / 180) = cb
  hmg : Real.cos (L.gamma * Real.pi / 180) = cg
  alpha0 : 0 ≤ L.alpha
  alpha1 : L.alpha ≤ 180
  beta0 : 0 ≤ L.beta
  beta1 : L.beta ≤ 180
  gamma0 : 0 ≤ L.gamma
  gamma1 : L.gamma ≤ 180

noncomputable def trig {L : Latt} (h : Spec.PossibleCell L) : Trig L where
  ca := _
  cb := _
  cg := _
  sa := _
  sb := _
  sg := _
  v := Real.sqrt (1 - Real.cos (deg2rad L.alpha) ^ 2 - Real.cos (deg2rad L.beta) ^ 2
    - Real.cos (deg2rad L.gamma) ^ 2
    + 2 * Real.cos (deg2rad L.alpha) * Real.cos (deg2rad L.beta) * Real.cos (deg2rad L.gamma))
  hca := rfl
  hcb := rfl
  hcg := rfl
  hsa := rfl
  hsb := rfl
  hsg := rfl
  a0 := h.a_pos
  b0 := h.b_pos
  c0 := h.c_pos
  sa0 := sin_deg_pos h.alpha_pos h.alpha_lt
  sb0 := sin_deg_pos h.beta_pos h.beta_lt
  sg0 := sin_deg_pos h.gamma_pos h.gamma_lt
  v0 := by
    have := h.volume_pos
    simp only [← deg2rad_eq] at this
    exact Real.sqrt_pos.2 this
  ea := Real.sin_sq _
  eb := Real.sin_sq _
  eg := Real.sin_sq _
  ev := by
    have := h.volume_pos
    simp only [← deg2rad_eq] at this
    exact Real.sq_sqrt this.le
  hv := by
    have := h.volume_pos
    simp only [← deg2rad_eq] at this
    unfold vAbg
    exact pySqrt_ok this.le
  hma := by rw [deg2rad_eq]
  hmb := by rw [deg2rad_eq]
  hmg := by rw [deg2rad_eq]
  alpha0 := h.alpha_pos.le
  alpha1 := h.alpha_lt.le
  beta0 := h.beta_pos.le
  beta1 := h.beta_lt.le
  gamma0 := h.gamma_pos.le
  gamma1 := h.gamma_lt.le

/-- cosine rule quotients lie in `[-1,1]`, with `sin = v/(s t)`. -/
theorem star_cos {x y z s t v : ℝ} (s0 : 0 < s) (t0 : 0 < t) (v0 : 0 < v)
    (hs : s ^ 2 = 1 - y ^ 2) (ht : t ^ 2 = 1 - z ^ 2)
    (hv : v ^ 2 = 1 - x ^ 2 - y ^ 2 - z ^ 2 + 2 * x * y * z) :
    -1 ≤ (y * z - x) / s / t ∧ (y * z - x) / s / t ≤ 1 ∧
      Real.sin (Real.arccos ((y * z - x) / s / t)) = v / (s * t) := by
  have key : (v / (s * t)) ^ 2 + ((y * z - x) / s / t) ^ 2 = 1 := by
    field_simp
    nlinarith
  have hpos : 0 < v / (s * t) := by positivity
  refine ⟨?_, ?_, ?_⟩
  · nlinarith
  · nlinarith
  · rw [Real.sin_arccos, Real.sqrt_eq_iff_mul_self_eq_of_pos hpos]; nlinarith

theorem reciprocalLattParams_ok {L : Latt} (T : Trig L) :
    reciprocalLattParams L = .ok
      ⟨T.sa / L.a / T.v * π * 2, T.sb / L.b / T.v * π * 2, T.sg / L.c / T.v * π * 2,
        rad2deg (arccos ((T.cb * T.cg - T.ca) / T.sb / T.sg)),
        rad2deg (arccos ((T.cg * T.ca - T.cb) / T.sa / T.sg)),
        rad2deg (arccos ((T.ca * T.cb - T.cg) / T.sb / T.sa))⟩ := by
  have h1 := star_cos (x := T.ca) (y := T.cb) (z := T.cg) T.sb0 T.sg0 T.v0 T.eb T.eg (by rw [T.ev])
  have h2 := star_cos (x := T.cb) (y := T.ca) (z := T.cg) T.sa0 T.sg0 T.v0 T.ea T.eg
    (by rw [T.ev]; ring)
  have h3 := star_cos (x := T.cg) (y := T.cb) (z := T.ca) T.sb0 T.sa0 T.v0 T.eb T.ea
    (by rw [T.ev]; ring)
  rw [mul_comm T.ca T.cg] at h2
  rw [mul_comm T.cb T.ca] at h3
  unfold reciprocalLattParams pyDiv2
  simp only [T.hca, T.hcb, T.hcg, T.hsa, T.hsb, T.hsg, T.hv, py_bind_ok,
    pyDiv_ok T.a0.ne', pyDiv_ok T.b0.ne', pyDiv_ok T.c0.ne', pyDiv_ok T.v0.ne',
    pyDiv_ok T.sa0.ne', pyDiv_ok T.sb0.ne', pyDiv_ok T.sg0.ne',
    pyArccos_ok h1.1 h1.2.1, pyArccos_ok h2.1 h2.2.1, pyArccos_ok h3.1 h3.2.1]
  rfl

/-- The closed form of the B matrix. -/
noncomputable def bClosed {L : Latt} (T : Trig L) : M3 :=
  !![T.sa / (L.a * T.v), (T.ca * T.cb - T.cg) / (L.b * T.v * T.sa),
      (T.cg * T.ca - T.cb) / (L.c * T.v * T.sa);
     0, 1 / (L.b * T.sa), -T.ca / (L.c * T.sa);
     0, 0, 1 / L.c]

/-- The inverse of the closed form; its rows are the lattice vectors. -/
noncomputable def aClosed {L : Latt} (T : Trig L) : M3 :=
  !![L.a * T.v / T.sa, L.a * (T.cg - T.ca * T.cb) / T.sa, L.a * T.cb;
     0, L.b * T.sa, L.b * T.ca;
     0, 0, L.c]

theorem bMatFromLattice_ok {L : Latt} (T : Trig L) : bMatFromLattice L = .ok (bClosed T) := by
  have h2 := star_cos (x := T.cb) (y := T.ca) (z := T.cg) T.sa0 T.sg0 T.v0 T.ea T.eg
    (by rw [T.ev]; ring)
  have h3 := star_cos (x := T.cg) (y := T.cb) (z := T.ca) T.sb0 T.sa0 T.v0 T.eb T.ea
    (by rw [T.ev]; ring)
  rw [mul_comm T.ca T.cg] at h2
  rw [mul_comm T.cb T.ca] at h3
  unfold bMatFromLattice
  rw [reciprocalLattParams_ok T]
  have hpi := Real.pi_ne_zero
  have := T.a0.ne'; have := T.b0.ne'; have := T.c0.ne'; have := T.v0.ne'
  have := T.sa0.ne'; have := T.sb0.ne'; have := T.sg0.ne'
  simp only [py_bind_ok, pyDiv_ok T.c0.ne', deg2rad_rad2deg, Real.cos_arccos h2.1 h2.2.1,
    Real.cos_arccos h3.1 h3.2.1, h2.2.2, h3.2.2, T.hca, py_pure]
  congr 1
  ext i j
  fin_cases i <;> fin_cases j <;> simp [bClosed] <;> field_simp

theorem a_mul_b {L : Latt} (T : Trig L) : aClosed T * bClosed T = 1 := by
  have := T.a0.ne'; have := T.b0.ne'; have := T.c0.ne'; have := T.v0.ne'
  have := T.sa0.ne'
  have e := T.ea
  ext i j
  fin_cases i <;> fin_cases j <;>
    simp [aClosed, bClosed, Matrix.mul_apply, Fin.sum_univ_three] <;> field_simp <;>
    first | ring1 | linear_combination (L.a * T.cb) * e

theorem a_mul_aT {L : Latt} (T : Trig L) : aClosed T * (aClosed T)ᵀ = Spec.metric L := by
  have := T.sa0.ne'
  have e := T.ea
  have ev := T.ev
  ext i j
  fin_cases i <;> fin_cases j <;>
    simp [aClosed, Spec.metric, T.hma, T.hmb, T.hmg, Matrix.mul_apply, Fin.sum_univ_three] <;>
    field_simp <;>
    first
    | ring1
    | linear_combination (L.a ^ 2) * ev + (L.a ^ 2 * T.cb ^ 2 - L.a ^ 2) * e
    | linear_combination (L.b ^ 2) * e
    | linear_combination e

theorem b_mul_a {L : Latt} (T : Trig L) : bClosed T * aClosed T = 1 :=
  mul_eq_one_comm.1 (a_mul_b T)

/-- `Bᵀ B` is inverse to the metric tensor. -/
theorem bTb_metric {L : Latt} (T : Trig L) :
    ((bClosed T)ᵀ * bClosed T) * Spec.metric L = 1 := by
  rw [← a_mul_aT T]
  have h1 := b_mul_a T
  have h2 : (bClosed T)ᵀ * (aClosed T)ᵀ = 1 := by
    rw [← Matrix.transpose_mul, a_mul_b T, Matrix.transpose_one]
  calc (bClosed T)ᵀ * bClosed T * (aClosed T * (aClosed T)ᵀ)
      = (bClosed T)ᵀ * (bClosed T * aClosed T) * (aClosed T)ᵀ := by
        simp only [Matrix.mul_assoc]
    _ = 1 := by rw [h1, Matrix.mul_one, h2]

end Tavi
