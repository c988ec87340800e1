import Verif.Lemmas.Lattice

/-! Lattice parameters from a reciprocal metric tensor. -/

namespace Tavi

open Matrix Real

theorem arccos_cos_deg {x : ℝ} (h0 : 0 ≤ x) (h1 : x ≤ 180) :
    rad2deg (arccos (cos (deg2rad x))) = x := by
  rw [Real.arccos_cos (deg2rad_nonneg h0) (deg2rad_le_pi h1), rad2deg_deg2rad]

theorem lattFromGStar_metric {L : Latt} (h : Spec.PossibleCell L) {gs : M3}
    (hg : gs * Spec.metric L = 1) : lattFromGStar gs = .ok L := by
  have T := trig h
  have hdet : gs.det ≠ 0 := by
    intro h0
    have := congrArg Matrix.det hg
    rw [Matrix.det_mul, h0, zero_mul, Matrix.det_one] at this
    exact zero_ne_one this
  have hinv : gs⁻¹ = Spec.metric L := Matrix.inv_eq_right_inv hg
  have ha := T.a0; have hb := T.b0; have hc := T.c0
  unfold lattFromGStar
  rw [inv3_ok hdet, hinv]
  have g00 : Spec.metric L 0 0 = L.a ^ 2 := by simp [Spec.metric]
  have g11 : Spec.metric L 1 1 = L.b ^ 2 := by simp [Spec.metric]
  have g22 : Spec.metric L 2 2 = L.c ^ 2 := by simp [Spec.metric]
  have g12 : Spec.metric L 1 2 + Spec.metric L 2 1 = 2 * L.b * L.c * cos (deg2rad L.alpha) := by
    simp [Spec.metric, deg2rad_eq]; ring
  have g02 : Spec.metric L 0 2 + Spec.metric L 2 0 = 2 * L.a * L.c * cos (deg2rad L.beta) := by
    simp [Spec.metric, deg2rad_eq]; ring
  have g01 : Spec.metric L 0 1 + Spec.metric L 1 0 = 2 * L.a * L.b * cos (deg2rad L.gamma) := by
    simp [Spec.metric, deg2rad_eq]; ring
  have ebc : (2 * L.b * L.c) ≠ 0 := by positivity
  have eac : (2 * L.a * L.c) ≠ 0 := by positivity
  have eab : (2 * L.a * L.b) ≠ 0 := by positivity
  simp only [g00, g11, g22, g12, g02, g01, pySqrt_ok (sq_nonneg _), py_bind_ok,
    Real.sqrt_sq ha.le, Real.sqrt_sq hb.le, Real.sqrt_sq hc.le,
    pyDiv_ok ebc, pyDiv_ok eac, pyDiv_ok eab, mul_div_cancel_left₀ _ ebc,
    mul_div_cancel_left₀ _ eac, mul_div_cancel_left₀ _ eab,
    pyArccos_ok (Real.neg_one_le_cos _) (Real.cos_le_one _), py_pure,
    arccos_cos_deg T.alpha0 T.alpha1, arccos_cos_deg T.beta0 T.beta1,
    arccos_cos_deg T.gamma0 T.gamma1]

/-- Gram matrix facts for the rows of an invertible matrix. -/
theorem cauchy3 (u v : V3) : (u ⬝ᵥ v) ^ 2 ≤ (u ⬝ᵥ u) * (v ⬝ᵥ v) := by
  simp only [dot3]
  nlinarith [sq_nonneg (u 0 * v 1 - u 1 * v 0), sq_nonneg (u 0 * v 2 - u 2 * v 0),
    sq_nonneg (u 1 * v 2 - u 2 * v 1)]

theorem abs_dot_le (u v : V3) : |u ⬝ᵥ v| ≤ norm3 u * norm3 v := by
  apply abs_le_of_sq_le_sq _ (mul_nonneg (norm3_nonneg _) (norm3_nonneg _))
  rw [mul_pow, norm3_sq, norm3_sq]; exact cauchy3 u v

theorem cos_quot {u v : V3} (hu : u ≠ 0) (hv : v ≠ 0) :
    -1 ≤ u ⬝ᵥ v / (norm3 u * norm3 v) ∧ u ⬝ᵥ v / (norm3 u * norm3 v) ≤ 1 := by
  have hp : 0 < norm3 u * norm3 v := mul_pos (norm3_pos hu) (norm3_pos hv)
  have := abs_le.1 (abs_dot_le u v)
  constructor
  · rw [le_div_iff₀ hp]; linarith
  · rw [div_le_iff₀ hp]; linarith

theorem angle_strict {x y z : ℝ} (h0 : -1 ≤ x) (h1 : x ≤ 1)
    (hV : 0 < 1 - x ^ 2 - y ^ 2 - z ^ 2 + 2 * x * y * z) :
    0 < rad2deg (arccos x) ∧ rad2deg (arccos x) < 180 := by
  have hpi := Real.pi_pos
  have hx1 : x < 1 := by
    rcases lt_or_eq_of_le h1 with h | h
    · exact h
    · subst h; nlinarith [sq_nonneg (y - z)]
  have hx2 : -1 < x := by
    rcases lt_or_eq_of_le h0 with h | h
    · exact h
    · subst h; nlinarith [sq_nonneg (y + z)]
  have e0 : 0 < arccos x := Real.arccos_pos.2 hx1
  have e1 : arccos x < π := Real.arccos_lt_pi.2 hx2
  unfold rad2deg
  constructor
  · positivity
  · calc arccos x * (180 / π) < π * (180 / π) := by
          apply mul_lt_mul_of_pos_right e1; positivity
      _ = 180 := by field_simp

theorem lattFromGStar_of_invertible {M : M3} (hM : M.det ≠ 0) :
    ∃ L, lattFromGStar (Mᵀ * M) = .ok L ∧ Spec.PossibleCell L ∧ (Mᵀ * M) * Spec.metric L = 1 := by
  -- rows of the inverse
  obtain ⟨A, hA1, hA2⟩ : ∃ A : M3, A * M = 1 ∧ M * A = 1 :=
    ⟨M⁻¹, Matrix.nonsing_inv_mul _ (isUnit_iff_ne_zero.2 hM),
      Matrix.mul_nonsing_inv _ (isUnit_iff_ne_zero.2 hM)⟩
  have hAdet : A.det ≠ 0 := by
    intro h0
    have := congrArg Matrix.det hA1
    rw [Matrix.det_mul, h0, zero_mul, Matrix.det_one] at this
    exact zero_ne_one this
  set r0 : V3 := A 0 with hr0
  set r1 : V3 := A 1 with hr1
  set r2 : V3 := A 2 with hr2
  have n0 : r0 ≠ 0 := fun h => hAdet (Matrix.det_eq_zero_of_row_eq_zero 0 (fun j => congrFun h j))
  have n1 : r1 ≠ 0 := fun h => hAdet (Matrix.det_eq_zero_of_row_eq_zero 1 (fun j => congrFun h j))
  have n2 : r2 ≠ 0 := fun h => hAdet (Matrix.det_eq_zero_of_row_eq_zero 2 (fun j => congrFun h j))
  have p0 := norm3_pos n0
  have p1 := norm3_pos n1
  have p2 := norm3_pos n2
  have c12 := cos_quot n1 n2
  have c02 := cos_quot n0 n2
  have c01 := cos_quot n0 n1
  set x := r1 ⬝ᵥ r2 / (norm3 r1 * norm3 r2) with hx
  set y := r0 ⬝ᵥ r2 / (norm3 r0 * norm3 r2) with hy
  set z := r0 ⬝ᵥ r1 / (norm3 r0 * norm3 r1) with hz
  have hV : 0 < 1 - x ^ 2 - y ^ 2 - z ^ 2 + 2 * x * y * z := by
    have hpos : 0 < (norm3 r0 * norm3 r1 * norm3 r2) ^ 2 := by positivity
    have key : (norm3 r0 * norm3 r1 * norm3 r2) ^ 2 *
        (1 - x ^ 2 - y ^ 2 - z ^ 2 + 2 * x * y * z) = A.det ^ 2 := by
      have ex : x * (norm3 r1 * norm3 r2) = r1 ⬝ᵥ r2 := by rw [hx]; field_simp
      have ey : y * (norm3 r0 * norm3 r2) = r0 ⬝ᵥ r2 := by rw [hy]; field_simp
      have ez : z * (norm3 r0 * norm3 r1) = r0 ⬝ᵥ r1 := by rw [hz]; field_simp
      have : (norm3 r0 * norm3 r1 * norm3 r2) ^ 2 *
        (1 - x ^ 2 - y ^ 2 - z ^ 2 + 2 * x * y * z)
        = norm3 r0 ^ 2 * norm3 r1 ^ 2 * norm3 r2 ^ 2
          - norm3 r0 ^ 2 * (x * (norm3 r1 * norm3 r2)) ^ 2
          - norm3 r1 ^ 2 * (y * (norm3 r0 * norm3 r2)) ^ 2
          - norm3 r2 ^ 2 * (z * (norm3 r0 * norm3 r1)) ^ 2
          + 2 * (x * (norm3 r1 * norm3 r2)) * (y * (norm3 r0 * norm3 r2))
            * (z * (norm3 r0 * norm3 r1)) := by ring
      rw [this, ex, ey, ez, norm3_sq, norm3_sq, norm3_sq, Matrix.det_fin_three]
      simp only [dot3, hr0, hr1, hr2]
      ring
    have h2 : 0 < A.det ^ 2 := by positivity
    rw [← key] at h2
    exact (pos_iff_pos_of_mul_pos h2).1 hpos
  have a12 := angle_strict c12.1 c12.2 hV
  have a02 := angle_strict (x := y) (y := x) (z := z) c02.1 c02.2 (by linarith)
  have a01 := angle_strict (x := z) (y := x) (z := y) c01.1 c01.2 (by linarith)
  let L : Latt := ⟨norm3 r0, norm3 r1, norm3 r2, rad2deg (arccos x), rad2deg (arccos y),
    rad2deg (arccos z)⟩
  have hcx : cos (rad2deg (arccos x) * π / 180) = x := by
    rw [← deg2rad_eq, deg2rad_rad2deg, Real.cos_arccos c12.1 c12.2]
  have hcy : cos (rad2deg (arccos y) * π / 180) = y := by
    rw [← deg2rad_eq, deg2rad_rad2deg, Real.cos_arccos c02.1 c02.2]
  have hcz : cos (rad2deg (arccos z) * π / 180) = z := by
    rw [← deg2rad_eq, deg2rad_rad2deg, Real.cos_arccos c01.1 c01.2]
  have hL : Spec.PossibleCell L :=
    { a_pos := p0, b_pos := p1, c_pos := p2
      alpha_pos := a12.1, alpha_lt := a12.2, beta_pos := a02.1, beta_lt := a02.2
      gamma_pos := a01.1, gamma_lt := a01.2
      volume_pos := by
        show 0 < 1 - cos (rad2deg (arccos x) * π / 180) ^ 2 - cos (rad2deg (arccos y) * π / 180) ^ 2
          - cos (rad2deg (arccos z) * π / 180) ^ 2 + 2 * cos (rad2deg (arccos x) * π / 180)
          * cos (rad2deg (arccos y) * π / 180) * cos (rad2deg (arccos z) * π / 180)
        rw [hcx, hcy, hcz]; exact hV }
  have hmet : Spec.metric L = A * Aᵀ := by
    have ex : norm3 r1 * norm3 r2 * x = r1 ⬝ᵥ r2 := by rw [hx]; field_simp
    have ey : norm3 r0 * norm3 r2 * y = r0 ⬝ᵥ r2 := by rw [hy]; field_simp
    have ez : norm3 r0 * norm3 r1 * z = r0 ⬝ᵥ r1 := by rw [hz]; field_simp
    ext i j
    fin_cases i <;> fin_cases j <;>
      simp [Spec.metric, L, hcx, hcy, hcz, ex, ey, ez, norm3_sq, Matrix.mul_apply,
        Fin.sum_univ_three] <;> simp only [dot3, hr0, hr1, hr2] <;> ring1
  have hone : (Mᵀ * M) * Spec.metric L = 1 := by
    rw [hmet]
    calc Mᵀ * M * (A * Aᵀ) = Mᵀ * (M * A) * Aᵀ := by simp only [Matrix.mul_assoc]
      _ = 1 := by rw [hA2, Matrix.mul_one, ← Matrix.transpose_mul, hA1, Matrix.transpose_one]
  exact ⟨L, lattFromGStar_metric hL hone, hL, hone⟩

end Tavi
