import Verif.Lemmas.Numpy
import Verif.Model.UB

/-! Rotations, orthonormal frames, cross products. -/

namespace Tavi

open Matrix Real
open Spec (IsRot IsOrth)

@[simp] theorem cross_0 (a b : V3) : cross a b 0 = a 1 * b 2 - a 2 * b 1 := rfl
@[simp] theorem cross_1 (a b : V3) : cross a b 1 = a 2 * b 0 - a 0 * b 2 := rfl
@[simp] theorem cross_2 (a b : V3) : cross a b 2 = a 0 * b 1 - a 1 * b 0 := rfl

theorem dot_comm3 (u v : V3) : u ⬝ᵥ v = v ⬝ᵥ u := dotProduct_comm u v

theorem dot_cross_left (a b : V3) : a ⬝ᵥ cross a b = 0 := by simp [dot3]; ring
theorem dot_cross_right (a b : V3) : b ⬝ᵥ cross a b = 0 := by simp [dot3]; ring

/-- Lagrange identity -/
theorem cross_dot_self (a b : V3) :
    cross a b ⬝ᵥ cross a b = (a ⬝ᵥ a) * (b ⬝ᵥ b) - (a ⬝ᵥ b) ^ 2 := by simp [dot3]; ring

theorem cross_anticomm' (a b : V3) : cross b a = -cross a b := by
  apply ext3 <;> simp <;> ring

@[simp] theorem cross_smul_left (s : ℝ) (a b : V3) : cross (s • a) b = s • cross a b := by
  apply ext3 <;> simp <;> ring
@[simp] theorem cross_smul_right (s : ℝ) (a b : V3) : cross a (s • b) = s • cross a b := by
  apply ext3 <;> simp <;> ring

theorem cross_cross (a b c : V3) : cross (cross a b) c = (a ⬝ᵥ c) • b - (b ⬝ᵥ c) • a := by
  apply ext3 <;> simp [dot3] <;> ring

theorem norm3_smul (s : ℝ) (v : V3) : norm3 (s • v) = |s| * norm3 v := by
  unfold norm3
  have : (s • v) ⬝ᵥ (s • v) = s ^ 2 * (v ⬝ᵥ v) := by simp [dot3]; ring
  rw [this, Real.sqrt_mul (sq_nonneg s), Real.sqrt_sq_eq_abs]

theorem norm3_neg (v : V3) : norm3 (-v) = norm3 v := by
  unfold norm3; congr 1; simp [dot3]

theorem dot_self_pos {v : V3} (h : v ≠ 0) : 0 < v ⬝ᵥ v := by
  rw [← norm3_sq]; have := norm3_pos h; positivity

/-- For orthogonal vectors, the norm of the cross product is the product of norms. -/
theorem norm3_cross_of_perp {a b : V3} (h : a ⬝ᵥ b = 0) : norm3 (cross a b) = norm3 a * norm3 b := by
  unfold norm3
  rw [cross_dot_self, h, ← Real.sqrt_mul (dot_self_nonneg3 a)]; congr 1; ring

/-! ### rotations -/

theorem isRot_orth {R : M3} (h : IsRot R) : IsOrth R := h.1

theorem isOrth_mul_transpose {R : M3} (h : IsOrth R) : R * Rᵀ = 1 := mul_eq_one_comm.1 h

theorem isRot_one : IsRot 1 := ⟨by simp, by simp⟩

theorem isOrth_mul {R S : M3} (h : IsOrth R) (k : IsOrth S) : IsOrth (R * S) := by
  unfold IsOrth at *
  rw [Matrix.transpose_mul, Matrix.mul_assoc, ← Matrix.mul_assoc Rᵀ, h, Matrix.one_mul, k]

theorem isRot_mul {R S : M3} (h : IsRot R) (k : IsRot S) : IsRot (R * S) :=
  ⟨isOrth_mul h.1 k.1, by rw [Matrix.det_mul, h.2, k.2, one_mul]⟩

theorem isOrth_transpose {R : M3} (h : IsOrth R) : IsOrth Rᵀ := by
  unfold IsOrth; rw [Matrix.transpose_transpose]; exact isOrth_mul_transpose h

theorem isRot_transpose {R : M3} (h : IsRot R) : IsRot Rᵀ :=
  ⟨isOrth_transpose h.1, by rw [Matrix.det_transpose, h.2]⟩

theorem isRot_det_ne {R : M3} (h : IsRot R) : R.det ≠ 0 := by rw [h.2]; exact one_ne_zero

theorem isOrth_det {R : M3} (h : IsOrth R) : R.det ^ 2 = 1 := by
  have := congrArg Matrix.det h
  rw [Matrix.det_mul, Matrix.det_transpose, Matrix.det_one] at this
  rw [sq]; exact this

theorem isOrth_det_ne {R : M3} (h : IsOrth R) : R.det ≠ 0 := by
  intro h0; have := isOrth_det h; rw [h0] at this; norm_num at this

theorem isOrth_inv {R : M3} (h : IsOrth R) : R⁻¹ = Rᵀ := Matrix.inv_eq_left_inv h

theorem inv3_orth {R : M3} (h : IsOrth R) : inv3 R = .ok Rᵀ := by
  rw [inv3_ok (isOrth_det_ne h), isOrth_inv h]

theorem dot_mulVec_orth {R : M3} (h : IsOrth R) (u v : V3) : (R *ᵥ u) ⬝ᵥ (R *ᵥ v) = u ⬝ᵥ v := by
  have e : ∀ i j, (Rᵀ * R) i j = (1 : M3) i j := fun i j => by rw [h]
  have h00 := e 0 0; have h01 := e 0 1; have h02 := e 0 2
  have h11 := e 1 1; have h12 := e 1 2; have h22 := e 2 2
  simp [Matrix.mul_apply, Fin.sum_univ_three] at h00 h01 h02 h11 h12 h22
  simp only [dot3, mulVec3]
  linear_combination (u 0 * v 0) * h00 + (u 0 * v 1 + u 1 * v 0) * h01
    + (u 0 * v 2 + u 2 * v 0) * h02 + (u 1 * v 1) * h11 + (u 1 * v 2 + u 2 * v 1) * h12
    + (u 2 * v 2) * h22

theorem norm3_mulVec_orth {R : M3} (h : IsOrth R) (v : V3) : norm3 (R *ᵥ v) = norm3 v := by
  unfold norm3; rw [dot_mulVec_orth h]

theorem mulVec_orth_transpose {R : M3} (h : IsOrth R) (v : V3) : Rᵀ *ᵥ (R *ᵥ v) = v := by
  rw [Matrix.mulVec_mulVec, h, Matrix.one_mulVec]

theorem mulVec_transpose_orth {R : M3} (h : IsOrth R) (v : V3) : R *ᵥ (Rᵀ *ᵥ v) = v := by
  rw [Matrix.mulVec_mulVec, isOrth_mul_transpose h, Matrix.one_mulVec]

theorem mulVec_orth_ne_zero {R : M3} (h : IsOrth R) {v : V3} (hv : v ≠ 0) : R *ᵥ v ≠ 0 := by
  intro e; apply hv; rw [← mulVec_orth_transpose h v, e, Matrix.mulVec_zero]

theorem mulVec_det_ne_zero {R : M3} (h : R.det ≠ 0) {v : V3} (hv : v ≠ 0) : R *ᵥ v ≠ 0 := by
  intro e; apply hv
  have : R⁻¹ *ᵥ (R *ᵥ v) = v := by
    rw [Matrix.mulVec_mulVec, Matrix.nonsing_inv_mul _ (isUnit_iff_ne_zero.2 h), Matrix.one_mulVec]
  rw [← this, e, Matrix.mulVec_zero]

/-- Any matrix: `(M u) × (M v) = cof(M) (u × v)`, in the form multiplied by `Mᵀ`. -/
theorem transpose_cross_mulVec (M : M3) (u v : V3) :
    Mᵀ *ᵥ cross (M *ᵥ u) (M *ᵥ v) = M.det • cross u v := by
  apply ext3 <;> simp [mulVec3, Matrix.det_fin_three] <;> ring

theorem cross_mulVec_rot {R : M3} (h : IsRot R) (u v : V3) :
    cross (R *ᵥ u) (R *ᵥ v) = R *ᵥ cross u v := by
  have e := transpose_cross_mulVec R u v
  rw [h.2, one_smul] at e
  rw [← e, mulVec_transpose_orth h.1]

/-- Independent vectors stay independent under invertible maps. -/
theorem cross_mulVec_ne_zero {M : M3} (h : M.det ≠ 0) {u v : V3} (hv : cross u v ≠ 0) :
    cross (M *ᵥ u) (M *ᵥ v) ≠ 0 := by
  intro e
  have := transpose_cross_mulVec M u v
  rw [e, Matrix.mulVec_zero] at this
  exact (smul_ne_zero h hv) this.symm

/-! ### frames -/

theorem colMat_transpose_mul (a b c : V3) : (colMat a b c)ᵀ * colMat a b c =
    !![a ⬝ᵥ a, a ⬝ᵥ b, a ⬝ᵥ c; b ⬝ᵥ a, b ⬝ᵥ b, b ⬝ᵥ c; c ⬝ᵥ a, c ⬝ᵥ b, c ⬝ᵥ c] := by
  ext i j
  fin_cases i <;> fin_cases j <;>
    simp [colMat, Matrix.mul_apply, Fin.sum_univ_three, dot3]

theorem colMat_det (a b c : V3) : (colMat a b c).det = cross a b ⬝ᵥ c := by
  simp [colMat, Matrix.det_fin_three, dot3]; ring

theorem colMat_mulVec (a b c v : V3) : colMat a b c *ᵥ v = v 0 • a + v 1 • b + v 2 • c := by
  apply ext3 <;> simp [colMat, mulVec3] <;> ring

theorem mul_colMat (M : M3) (a b c : V3) : M * colMat a b c = colMat (M *ᵥ a) (M *ᵥ b) (M *ᵥ c) := by
  ext i j
  fin_cases i <;> fin_cases j <;> simp [colMat, Matrix.mul_apply, Fin.sum_univ_three, mulVec3]

theorem colMat_orth {a b c : V3} (ha : a ⬝ᵥ a = 1) (hb : b ⬝ᵥ b = 1) (hc : c ⬝ᵥ c = 1)
    (hab : a ⬝ᵥ b = 0) (hac : a ⬝ᵥ c = 0) (hbc : b ⬝ᵥ c = 0) : IsOrth (colMat a b c) := by
  unfold IsOrth
  rw [colMat_transpose_mul, ha, hb, hc, hab, hac, hbc, dot_comm3 b a, dot_comm3 c a, dot_comm3 c b,
    hab, hac, hbc]
  ext i j
  fin_cases i <;> fin_cases j <;> simp

theorem unit_dot_self {v : V3} (h : v ≠ 0) : ((norm3 v)⁻¹ • v) ⬝ᵥ ((norm3 v)⁻¹ • v) = 1 := by
  have := norm3_pos h
  rw [smul_dotProduct, dotProduct_smul, ← norm3_mul_self, smul_eq_mul, smul_eq_mul]; field_simp

theorem unit_smul_pos {s : ℝ} (hs : 0 < s) (v : V3) :
    (norm3 (s • v))⁻¹ • (s • v) = (norm3 v)⁻¹ • v := by
  rw [norm3_smul, abs_of_pos hs, smul_smul, mul_inv]
  congr 1; field_simp

/-- The normalised version of a vector. -/
noncomputable def nrm (v : V3) : V3 := (norm3 v)⁻¹ • v

theorem unit_nrm {v : V3} (h : v ≠ 0) : unit v = .ok (nrm v) := unit_ok h

theorem nrm_dot_self {v : V3} (h : v ≠ 0) : nrm v ⬝ᵥ nrm v = 1 := unit_dot_self h

theorem nrm_dot_of_perp {a b : V3} (h : a ⬝ᵥ b = 0) : nrm a ⬝ᵥ nrm b = 0 := by
  simp [nrm, h]

theorem norm3_smul_nrm {v : V3} (h : v ≠ 0) : norm3 v • nrm v = v := by
  unfold nrm; rw [smul_smul, mul_inv_cancel₀ (norm3_pos h).ne', one_smul]

theorem nrm_mulVec_orth {R : M3} (h : IsOrth R) (v : V3) : nrm (R *ᵥ v) = R *ᵥ nrm v := by
  unfold nrm; rw [norm3_mulVec_orth h, Matrix.mulVec_smul]

theorem norm3_nrm {v : V3} (h : v ≠ 0) : norm3 (nrm v) = 1 := by
  unfold norm3; rw [nrm_dot_self h, Real.sqrt_one]

theorem frameMat_ok {a b c : V3} (ha : a ≠ 0) (hb : b ≠ 0) (hc : c ≠ 0) :
    frameMat a b c = .ok (colMat (nrm a) (nrm b) (nrm c)) := by
  unfold frameMat; rw [unit_nrm ha, unit_nrm hb, unit_nrm hc]; rfl

/-- A right-handed orthogonal triple gives a rotation when normalised. -/
theorem frame_rot {a b c : V3} (ha : a ≠ 0) (hb : b ≠ 0) (hab : a ⬝ᵥ b = 0) {s : ℝ} (hs : 0 < s)
    (hc : c = s • cross a b) : IsRot (colMat (nrm a) (nrm b) (nrm c)) := by
  have hcr : cross a b ≠ 0 := by
    intro h
    have := norm3_cross_of_perp hab
    rw [h, norm3_eq_zero.2 rfl] at this
    exact (mul_pos (norm3_pos ha) (norm3_pos hb)).ne this
  have hc0 : c ≠ 0 := by rw [hc]; exact smul_ne_zero hs.ne' hcr
  have hac : a ⬝ᵥ c = 0 := by rw [hc, dotProduct_smul, dot_cross_left, smul_zero]
  have hbc : b ⬝ᵥ c = 0 := by rw [hc, dotProduct_smul, dot_cross_right, smul_zero]
  refine ⟨colMat_orth (nrm_dot_self ha) (nrm_dot_self hb) (nrm_dot_self hc0)
    (nrm_dot_of_perp hab) (nrm_dot_of_perp hac) (nrm_dot_of_perp hbc), ?_⟩
  rw [colMat_det]
  have e : nrm c = nrm (cross a b) := by rw [hc]; exact unit_smul_pos hs _
  have e2 : cross (nrm a) (nrm b) = nrm (cross a b) := by
    unfold nrm
    rw [cross_smul_left, cross_smul_right, smul_smul, norm3_cross_of_perp hab, mul_inv]
  rw [e, e2, nrm_dot_self hcr]

/-- The frame built from two independent vectors as `t3 = t1 × t2'`, `t2 = t3 × t1`. -/
theorem triple_facts {a b : V3} (h : cross a b ≠ 0) :
    a ≠ 0 ∧ cross (cross a b) a ≠ 0 ∧ a ⬝ᵥ cross (cross a b) a = 0 ∧
      cross a b = (a ⬝ᵥ a)⁻¹ • cross a (cross (cross a b) a) ∧ 0 < (a ⬝ᵥ a)⁻¹ := by
  have ha : a ≠ 0 := by
    rintro rfl; apply h; apply ext3 <;> simp
  have hpos := dot_self_pos ha
  have e : cross a (cross (cross a b) a) = (a ⬝ᵥ a) • cross a b := by
    apply ext3 <;> simp [dot3] <;> ring
  refine ⟨ha, ?_, dot_cross_right _ _, ?_, inv_pos.2 hpos⟩
  · intro h0
    rw [h0] at e
    have : cross a (0 : V3) = 0 := by apply ext3 <;> simp
    rw [this] at e
    exact smul_ne_zero hpos.ne' h e.symm
  · rw [e, smul_smul, inv_mul_cancel₀ hpos.ne', one_smul]

theorem triple_rot {a b : V3} (h : cross a b ≠ 0) :
    IsRot (colMat (nrm a) (nrm (cross (cross a b) a)) (nrm (cross a b))) := by
  obtain ⟨h1, h2, h3, h4, h5⟩ := triple_facts h
  exact frame_rot h1 h2 h3 h5 h4

theorem triple_ok {a b : V3} (h : cross a b ≠ 0) :
    frameMat a (cross (cross a b) a) (cross a b) =
      .ok (colMat (nrm a) (nrm (cross (cross a b) a)) (nrm (cross a b))) := by
  obtain ⟨h1, h2, _⟩ := triple_facts h
  exact frameMat_ok h1 h2 h

/-! ### elementary rotations -/

theorem rotX_rot (t : ℝ) : IsRot (rotX t) := by
  have h := Real.sin_sq_add_cos_sq (deg2rad t)
  constructor
  · ext i j
    fin_cases i <;> fin_cases j <;>
      simp [rotX, Matrix.mul_apply, Fin.sum_univ_three] <;> first | ring1 | linear_combination h
  · simp [rotX, Matrix.det_fin_three]; linear_combination h

theorem rotY_rot (t : ℝ) : IsRot (rotY t) := by
  have h := Real.sin_sq_add_cos_sq (deg2rad t)
  constructor
  · ext i j
    fin_cases i <;> fin_cases j <;>
      simp [rotY, Matrix.mul_apply, Fin.sum_univ_three] <;> first | ring1 | linear_combination h
  · simp [rotY, Matrix.det_fin_three]; linear_combination h

theorem rotZ_rot (t : ℝ) : IsRot (rotZ t) := by
  have h := Real.sin_sq_add_cos_sq (deg2rad t)
  constructor
  · ext i j
    fin_cases i <;> fin_cases j <;>
      simp [rotZ, Matrix.mul_apply, Fin.sum_univ_three] <;> first | ring1 | linear_combination h
  · simp [rotZ, Matrix.det_fin_three]; linear_combination h

end Tavi
