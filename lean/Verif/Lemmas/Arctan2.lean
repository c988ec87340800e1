import Verif.Lemmas.Rot

/-! `arctan2` as polar angle. -/

namespace Tavi

open Real
open Spec (IsRot IsOrth)

theorem norm_mk (x y : ℝ) : ‖(⟨x, y⟩ : ℂ)‖ = √(x ^ 2 + y ^ 2) := by
  rw [Complex.norm_def, Complex.normSq_mk]; congr 1; ring

theorem arctan2_polar {r t : ℝ} (hr : 0 < r) (h1 : -π < t) (h2 : t ≤ π) :
    arctan2 (r * sin t) (r * cos t) = t := by
  unfold arctan2
  have := Complex.arg_mul_cos_add_sin_mul_I hr (θ := t) ⟨h1, h2⟩
  refine Eq.trans ?_ this
  congr 1
  apply Complex.ext <;> simp [Complex.cos_ofReal_re, Complex.sin_ofReal_re]

theorem cos_arctan2 {x y : ℝ} (h : 0 < x ^ 2 + y ^ 2) :
    cos (arctan2 y x) = x / √(x ^ 2 + y ^ 2) := by
  unfold arctan2
  rw [Complex.cos_arg, norm_mk]
  intro h0
  have hx := congrArg Complex.re h0
  have hy := congrArg Complex.im h0
  simp at hx hy
  subst hx hy; simp at h

theorem sin_arctan2 (x y : ℝ) : sin (arctan2 y x) = y / √(x ^ 2 + y ^ 2) := by
  unfold arctan2
  rw [Complex.sin_arg, norm_mk]

theorem arctan2_range (y x : ℝ) : -π < arctan2 y x ∧ arctan2 y x ≤ π :=
  ⟨Complex.neg_pi_lt_arg _, Complex.arg_le_pi _⟩

open Matrix in
/-- Entries of a rotation equal their cofactors. -/
theorem rot_cofactor {R : M3} (h : IsRot R) :
    R 0 1 = R 1 2 * R 2 0 - R 1 0 * R 2 2 ∧ R 0 2 = R 1 0 * R 2 1 - R 1 1 * R 2 0 ∧
    R 2 1 = R 0 2 * R 1 0 - R 0 0 * R 1 2 ∧ R 2 2 = R 0 0 * R 1 1 - R 0 1 * R 1 0 ∧
    R 0 0 = R 1 1 * R 2 2 - R 1 2 * R 2 1 ∧ R 1 1 = R 0 0 * R 2 2 - R 0 2 * R 2 0 ∧
    R 1 0 = R 0 2 * R 2 1 - R 0 1 * R 2 2 ∧ R 2 0 = R 0 1 * R 1 2 - R 0 2 * R 1 1 ∧
    R 1 2 = R 0 1 * R 2 0 - R 0 0 * R 2 1 := by
  have h0 := cross_mulVec_rot h ![0, 1, 0] ![0, 0, 1]
  have h1 := cross_mulVec_rot h ![0, 0, 1] ![1, 0, 0]
  have h2 := cross_mulVec_rot h ![1, 0, 0] ![0, 1, 0]
  have a00 := congrFun h0 0; have a01 := congrFun h0 1; have a02 := congrFun h0 2
  have a10 := congrFun h1 0; have a11 := congrFun h1 1; have a12 := congrFun h1 2
  have a20 := congrFun h2 0; have a21 := congrFun h2 1; have a22 := congrFun h2 2
  simp [mulVec3] at a00 a01 a02 a10 a11 a12 a20 a21 a22
  refine ⟨?_, ?_, ?_, ?_, ?_, ?_, ?_, ?_, ?_⟩ <;> linarith

open Matrix in
theorem orth_cols {R : M3} (h : IsOrth R) :
    R 0 0 ^ 2 + R 1 0 ^ 2 + R 2 0 ^ 2 = 1 ∧ R 0 1 ^ 2 + R 1 1 ^ 2 + R 2 1 ^ 2 = 1 ∧
    R 0 2 ^ 2 + R 1 2 ^ 2 + R 2 2 ^ 2 = 1 := by
  have e : ∀ i j, (Rᵀ * R) i j = (1 : M3) i j := fun i j => by rw [h]
  have h00 := e 0 0; have h11 := e 1 1; have h22 := e 2 2
  simp [Matrix.mul_apply, Fin.sum_univ_three] at h00 h11 h22
  refine ⟨?_, ?_, ?_⟩ <;> linarith

theorem orth_rows {R : M3} (h : IsOrth R) :
    R 0 0 ^ 2 + R 0 1 ^ 2 + R 0 2 ^ 2 = 1 ∧ R 1 0 ^ 2 + R 1 1 ^ 2 + R 1 2 ^ 2 = 1 ∧
    R 2 0 ^ 2 + R 2 1 ^ 2 + R 2 2 ^ 2 = 1 := by
  have := orth_cols (isOrth_transpose h)
  simpa [Matrix.transpose_apply] using this

end Tavi
