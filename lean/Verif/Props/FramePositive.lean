import Verif.Props.Frame
import Verif.Props.Goni

/-! # C27: the ellipsoid of a resolution function is an ellipsoid in every frame -/

namespace Tavi

open Matrix Spec

theorem spd_conj {n : ℕ} {m e : Mat n n} (hm : SPD m) (he : e.det ≠ 0) : SPD (eᵀ * m * e) := by
  constructor
  · intro i j
    have hs : mᵀ = m := by ext a b; exact hm.symm b a
    have : (eᵀ * m * e)ᵀ = eᵀ * m * e := by
      rw [transpose_mul, transpose_mul, transpose_transpose, hs, Matrix.mul_assoc]
    exact congrFun (congrFun this j) i
  · intro x hx
    rw [qform_conj]
    refine hm.pos _ fun h0 => hx ?_
    exact eq_zero_of_mulVec_eq_zero he h0

theorem spd_roll {m : Mat 4 4} (hm : SPD m) (n : ℕ) : SPD (roll m n) := by
  have key : ∀ k, k < 4 → SPD (roll m k) := by
    intro k hk
    constructor
    · intro i j; exact hm.symm _ _
    · intro x hx
      obtain ⟨r0, r1, r2, r3⟩ := qform_roll m x
      have z : ¬ (x 0 = 0 ∧ x 1 = 0 ∧ x 2 = 0 ∧ x 3 = 0) := fun h => hx (by ext i; fin_cases i <;> simp [h])
      interval_cases k
      · rw [r0]; exact hm.pos _ fun h => z ⟨congrFun h 3, congrFun h 0, congrFun h 1, congrFun h 2⟩
      · rw [r1]; exact hm.pos _ fun h => z ⟨congrFun h 0, congrFun h 3, congrFun h 1, congrFun h 2⟩
      · rw [r2]; exact hm.pos _ fun h => z ⟨congrFun h 0, congrFun h 1, congrFun h 3, congrFun h 2⟩
      · rw [r3]; exact hm.pos _ fun h => z ⟨congrFun h 0, congrFun h 1, congrFun h 2, congrFun h 3⟩
  by_cases hn : n < 4
  · exact key n hn
  · have : rollIdx n = rollIdx 3 := by
      unfold rollIdx
      rw [List.take_of_length_le (by simp; omega), List.drop_of_length_le (by simp; omega)]
      rfl
    unfold roll
    rw [this]
    exact key 3 (by norm_num)

theorem embed4_det (m : M3) : (embed4 m).det = m.det := by
  rw [det_succ_row _ 3, det_fin_three]
  simp [embed4, Fin.sum_univ_succ, det_fin_three, submatrix, Fin.succAbove]
  norm_num

theorem labToLocal_det (psi : ℝ) : (labToLocal psi).det = 1 := by
  have := Real.sin_sq_add_cos_sq psi
  rw [det_fin_three]
  simp [labToLocal]
  nlinarith

theorem colMat_det_ne {p1 p2 p3 : V3} {wi : M3} (h : matWInv p1 p2 p3 = .ok wi) : (colMat p1 p2 p3).det ≠ 0 := by
  unfold matWInv at h
  dsimp only at h
  split at h
  · cases h
  rename_i hd
  intro h0
  apply hd
  rw [← h0, det_fin_three, dot3]
  simp [colMat, cross]
  ring

/-- **C27** In whatever axes it is asked for, the ellipsoid of a resolution function is an ellipsoid: its matrix is symmetric and positive
definite (with an orientation that can be inverted, as `cooper_nathans` requires). -/
theorem C27_positive {t : Tas} {hkl : V3} {en r0 : ℝ} {axes : Option (List AxisItem)} {m : Mat 4 4} {e : Ellipsoid} (hm : SPD m)
    (h : mkEllipsoid t hkl en axes m r0 = .ok e)
    (hub : ∀ c ub, t.sample.ubConf = some c → c.ubMat = some ub → ub.det ≠ 0) : SPD e.mat := by
  rcases axes with - | axes
  · unfold mkEllipsoid at h
    obtain ⟨b, _, h⟩ := py_bind_eq_ok.1 h
    obtain ⟨r, hr, h⟩ := py_bind_eq_ok.1 h
    rw [frameOf] at hr
    rw [← Except.ok.inj h, ← Except.ok.inj hr]
    exact hm
  · obtain ⟨conv, hconv, -, -, -, -, -, hcase⟩ := mkEllipsoid_cases h
    obtain ⟨a, R, c, ub, psi, ha, hR, hc, hu, hpsi, rfl⟩ := hklToLocal_cases hconv
    have hdet : (labToLocal (deg2rad psi) * ((2 * Real.pi) • (R * ub))).det ≠ 0 := by
      have hRd : R.det = 1 := by
        obtain ⟨s0, s1, s2, -, ⟨-, w, l, u, -, -, -, rfl⟩ | ⟨-, w, l, u, -, -, -, rfl⟩⟩ := rMat_cases hR
        · exact (isRot_mul (rotY_rot _) (isRot_mul (rotZ_rot _) (rotX_rot _))).2
        · exact (isRot_mul (rotY_rot _) (isRot_mul (rotZ_rot _) (rotY_rot _))).2
      rw [det_mul, labToLocal_det, det_smul, det_mul, hRd]
      have := Real.pi_pos
      have := hub c ub hc hu
      simpa using this
    rcases hcase with ⟨-, hp⟩ | ⟨-, hp⟩
    · unfold projHkl at hp
      obtain ⟨P, -, hp⟩ := py_bind_eq_ok.1 hp
      have hm' := congrArg Prod.fst (Except.ok.inj hp)
      dsimp only at hm'
      rw [← hm']
      exact spd_conj hm (by rwa [embed4_det])
    · obtain ⟨p1, p2, p3, ra, rb, rc, n, wi, a12, a23, a31, -, -, -, -, hw, -, -, -, -, -, hM⟩ := projCustom_cases hp
      rw [hM]
      refine spd_roll (spd_conj hm ?_) n
      rw [embed4_det, det_mul]
      exact mul_ne_zero hdet (colMat_det_ne hw)

end Tavi
