import Verif.Props.UBDet

/-! # C17: U from one peak and a scattering plane -/

namespace Tavi

open Matrix Real
open Spec (IsRot IsOrth PossibleCell IsAngleDeg len)

theorem triad_lift {a b s1 s2 : V3} (hx : cross a b ≠ 0) (hs : cross s1 s2 ≠ 0) :
    IsRot (triad s1 s2 * (triad a b)ᵀ) ∧
    (∃ c : ℝ, 0 < c ∧ (triad s1 s2 * (triad a b)ᵀ) *ᵥ a = c • s1) ∧
    (∃ c : ℝ, 0 < c ∧ (triad s1 s2 * (triad a b)ᵀ) *ᵥ cross a b = c • cross s1 s2) := by
  have hR : IsRot (triad s1 s2 * (triad a b)ᵀ) := isRot_mul (triad_rot hs) (isRot_transpose (triad_rot hx))
  set U := triad s1 s2 * (triad a b)ᵀ with hU
  have h10 := (triple_facts hx).1
  have s10 := (triple_facts hs).1
  have e1 : U *ᵥ nrm a = nrm s1 := by
    rw [hU, ← Matrix.mulVec_mulVec, triad_transpose_nrm hx, triad_e0]
  have e3 : U *ᵥ nrm (cross a b) = nrm (cross s1 s2) := by
    rw [hU, ← Matrix.mulVec_mulVec, triad_transpose_cross hx, triad_e2]
  have lift : ∀ {v w : V3}, v ≠ 0 → w ≠ 0 → U *ᵥ nrm v = nrm w →
      U *ᵥ v = (norm3 v * (norm3 w)⁻¹) • w ∧ 0 < norm3 v * (norm3 w)⁻¹ := by
    intro v w hv hw h
    refine ⟨?_, mul_pos (norm3_pos hv) (inv_pos.2 (norm3_pos hw))⟩
    conv_lhs => rw [← norm3_smul_nrm hv, Matrix.mulVec_smul, h]
    unfold nrm; rw [smul_smul]
  exact ⟨hR, ⟨_, (lift h10 s10 e1).2, (lift h10 s10 e1).1⟩, ⟨_, (lift hx hs e3).2, (lift hx hs e3).1⟩⟩

/-- The auxiliary in-plane reflection the code picks (ub_algorithm.py:440-446). -/
noncomputable def planeAux (v1 v2 hkl : V3) : V3 :=
  if |v1 ⬝ᵥ hkl| > |v2 ⬝ᵥ hkl| then npSign (v1 ⬝ᵥ hkl) • v2 else npSign (v2 ⬝ᵥ hkl) • v1

theorem upright {s1 u : V3} (h : s1 ⬝ᵥ u = 0) : cross s1 (cross u s1) = (s1 ⬝ᵥ s1) • u := by
  rw [dot3] at h
  apply ext3 <;> simp [dot3]
  · linear_combination (-s1 0) * h
  · linear_combination (-s1 1) * h
  · linear_combination (-s1 2) * h

theorem onePeak_core {g : Goni} {ei ef : ℝ} {p : Peak} {v1 v2 : V3} {b : M3} {s1 : V3} (hb : b.det ≠ 0)
    (hx : cross p.hkl (planeAux v1 v2 p.hkl) ≠ 0) (m1 : Spec.MeasuredQ g ei ef p s1) (h0 : s1 ≠ 0) :
    ∃ U R, findUFromOnePeak p v1 v2 b g.rMatInv ei ef = .ok U ∧ IsRot U ∧ g.rMat p.angles = .ok R ∧
      (∃ c : ℝ, 0 < c ∧ U *ᵥ (b *ᵥ p.hkl) = c • s1) ∧
      (∃ c : ℝ, 0 < c ∧ U *ᵥ cross (b *ᵥ p.hkl) (b *ᵥ planeAux v1 v2 p.hkl) = c • (Rᵀ *ᵥ ![0, 1, 0])) := by
  obtain ⟨R, q, h1, h2, h3⟩ := m1
  have hR := (C06_r_mat_rotation h1).1
  have hRt := isRot_transpose hR
  set w := planeAux v1 v2 p.hkl with hw
  set u := Rᵀ *ᵥ ![0, 1, 0] with hu
  have hxb := cross_mulVec_ne_zero hb hx
  have hq1 : q 1 = 0 := by
    unfold qLab at h2
    obtain ⟨ki, hki, h2⟩ := py_bind_eq_ok.1 h2
    obtain ⟨kf, hkf, h2⟩ := py_bind_eq_ok.1 h2
    cases h2
    simp [deg2rad]
  have huu : u ⬝ᵥ u = 1 := by rw [hu, dot_mulVec_orth hRt.1, dot3]; simp
  have hperp : s1 ⬝ᵥ u = 0 := by rw [h3, hu, dot_mulVec_orth hRt.1, dot3]; simp [hq1]
  have hu0 : u ≠ 0 := by intro h; rw [h] at huu; simp at huu
  have hpos := dot_self_pos h0
  have hcr : cross s1 (cross u s1) = (s1 ⬝ᵥ s1) • u := upright hperp
  have hcr0 : cross s1 (cross u s1) ≠ 0 := by rw [hcr]; exact smul_ne_zero hpos.ne' hu0
  have hus : cross u s1 ≠ 0 := by
    intro h; rw [h] at hcr0; apply hcr0; apply ext3 <;> simp
  have hS : frameMat s1 (cross u s1) u = .ok (triad s1 (cross u s1)) := by
    rw [frameMat_ok h0 hus hu0]
    unfold triad
    rw [hcr, cross_smul_left, nrm_smul_pos hpos, nrm_smul_pos hpos]
  obtain ⟨k1, k2, k3, k3p, k4⟩ := triad_lift hxb hcr0
  refine ⟨triad s1 (cross u s1) * (triad (b *ᵥ p.hkl) (b *ᵥ w))ᵀ, R, ?_, k1, h1, k2, ?_⟩
  · have hr : g.rMatInv p.angles = .ok Rᵀ := by unfold Goni.rMatInv; rw [h1]; rfl
    have hau : (if |v1 ⬝ᵥ p.hkl| > |v2 ⬝ᵥ p.hkl| then npSign (v1 ⬝ᵥ p.hkl) • (b *ᵥ v2)
        else npSign (v2 ⬝ᵥ p.hkl) • (b *ᵥ v1)) = b *ᵥ w := by
      rw [hw]; unfold planeAux
      split <;> rw [Matrix.mulVec_smul]
    unfold findUFromOnePeak
    dsimp only
    rw [hau, triple_ok hxb, py_bind_ok, h2, py_bind_ok, hr, py_bind_ok, ← h3, ← hu, hS, py_bind_ok,
      inv3_orth (triple_rot hxb).1]
    rfl
  · refine ⟨k3 * (s1 ⬝ᵥ s1), mul_pos k3p hpos, ?_⟩
    rw [k4, hcr, smul_smul]

/-- The sign with which the documented plane normal `v1 × v2` ends up: the code's choice of auxiliary vector. -/
theorem cross_aux {v1 v2 hkl : V3} {x y : ℝ} (hp : hkl = x • v1 + y • v2) (b : M3) :
    cross (b *ᵥ hkl) (b *ᵥ planeAux v1 v2 hkl) =
      (if |v1 ⬝ᵥ hkl| > |v2 ⬝ᵥ hkl| then npSign (v1 ⬝ᵥ hkl) * x else -(npSign (v2 ⬝ᵥ hkl) * y)) •
        cross (b *ᵥ v1) (b *ᵥ v2) := by
  unfold planeAux
  split
  · generalize npSign (v1 ⬝ᵥ hkl) = s
    rw [hp]
    simp only [Matrix.mulVec_add, Matrix.mulVec_smul]
    apply ext3 <;> simp <;> ring
  · generalize npSign (v2 ⬝ᵥ hkl) = s
    rw [hp]
    simp only [Matrix.mulVec_add, Matrix.mulVec_smul]
    apply ext3 <;> simp <;> ring

theorem npSign_mul_pos {c d : ℝ} (h : 0 < c * d) : 0 < npSign c * d := by
  unfold npSign
  rcases lt_trichotomy c 0 with hc | hc | hc
  · rw [if_pos hc]; nlinarith
  · rw [hc, zero_mul] at h; exact absurd h (lt_irrefl _)
  · rw [if_neg (not_lt.2 hc.le), if_pos hc]; nlinarith

theorem smul_flip {a k : ℝ} {v w : V3} (ha : a ≠ 0) (h : a • v = k • w) : v = (a⁻¹ * k) • w := by
  rw [mul_smul, ← h, smul_smul, inv_mul_cancel₀ ha, one_smul]

/-- **C17** (part) A peak in the plane of two orthogonal vectors `v1, v2` (orthogonal as index triples), with a larger
component along the first vector: `U` is a proper rotation that sends `B·hkl` onto the measured direction and the
documented upward normal `v1 × v2` onto the vertical of the measured position. Missing: peaks with the larger component
along `v2` (see `C17_plane_inverted`), and non-orthogonal plane vectors (see `C17_non_orthogonal_fails`). -/
theorem C17_one_peak_partial {g : Goni} {ei ef x y : ℝ} {p : Peak} {v1 v2 : V3} {b : M3} {s1 : V3}
    (hb : b.det ≠ 0) (hv : cross v1 v2 ≠ 0) (ho : v1 ⬝ᵥ v2 = 0) (hp : p.hkl = x • v1 + y • v2)
    (hc : |v2 ⬝ᵥ p.hkl| < |v1 ⬝ᵥ p.hkl|) (m1 : Spec.MeasuredQ g ei ef p s1) (h0 : s1 ≠ 0) :
    ∃ U R, findUFromOnePeak p v1 v2 b g.rMatInv ei ef = .ok U ∧ IsRot U ∧ g.rMat p.angles = .ok R ∧
      (∃ c : ℝ, 0 < c ∧ U *ᵥ (b *ᵥ p.hkl) = c • s1) ∧
      (∃ c : ℝ, 0 < c ∧ U *ᵥ cross (b *ᵥ v1) (b *ᵥ v2) = c • (Rᵀ *ᵥ ![0, 1, 0])) := by
  have v10 : v1 ≠ 0 := (triple_facts hv).1
  have hc1 : v1 ⬝ᵥ p.hkl = x * (v1 ⬝ᵥ v1) := by
    rw [hp, dotProduct_add, dotProduct_smul, dotProduct_smul, ho]; simp
  have hx : x ≠ 0 := by
    rintro rfl
    rw [hc1, zero_mul, abs_zero] at hc
    exact absurd hc (not_lt.2 (abs_nonneg _))
  have hsx : 0 < npSign (v1 ⬝ᵥ p.hkl) * x := by
    apply npSign_mul_pos
    rw [hc1]
    have := dot_self_pos v10
    have : 0 < x * x := mul_self_pos.2 hx
    nlinarith
  have key := cross_aux hp b
  rw [if_pos hc] at key
  have key1 := cross_aux hp 1
  rw [if_pos hc] at key1
  simp only [Matrix.one_mulVec] at key1
  obtain ⟨U, R, a1, a2, a3, a4, k, hk, a5⟩ := onePeak_core (g := g) (ei := ei) (ef := ef) hb
    (by rw [key1]; exact smul_ne_zero hsx.ne' hv) m1 h0
  refine ⟨U, R, a1, a2, a3, a4, _, mul_pos (inv_pos.2 hsx) hk, smul_flip hsx.ne' ?_⟩
  rw [← a5, key, Matrix.mulVec_smul]

/-- **C17**, negation of "the plane `v1, v2` is right handed, `v1 × v2` points up": when the peak has its larger (or an
equal non-zero) component along the second vector, the crystal is put upside down, `v1 × v2` points down. -/
theorem C17_plane_inverted {g : Goni} {ei ef x y : ℝ} {p : Peak} {v1 v2 : V3} {b : M3} {s1 : V3}
    (hb : b.det ≠ 0) (hv : cross v1 v2 ≠ 0) (ho : v1 ⬝ᵥ v2 = 0) (hp : p.hkl = x • v1 + y • v2)
    (hc : |v1 ⬝ᵥ p.hkl| ≤ |v2 ⬝ᵥ p.hkl|) (hne : p.hkl ≠ 0) (m1 : Spec.MeasuredQ g ei ef p s1) (h0 : s1 ≠ 0) :
    ∃ U R, findUFromOnePeak p v1 v2 b g.rMatInv ei ef = .ok U ∧ IsRot U ∧ g.rMat p.angles = .ok R ∧
      (∃ c : ℝ, 0 < c ∧ U *ᵥ (b *ᵥ p.hkl) = c • s1) ∧
      (∃ c : ℝ, 0 < c ∧ U *ᵥ cross (b *ᵥ v1) (b *ᵥ v2) = (-c) • (Rᵀ *ᵥ ![0, 1, 0])) := by
  have v10 : v1 ≠ 0 := (triple_facts hv).1
  have v20 : v2 ≠ 0 := by rintro rfl; apply hv; apply ext3 <;> simp
  have hc1 : v1 ⬝ᵥ p.hkl = x * (v1 ⬝ᵥ v1) := by
    rw [hp, dotProduct_add, dotProduct_smul, dotProduct_smul, ho]; simp
  have hc2 : v2 ⬝ᵥ p.hkl = y * (v2 ⬝ᵥ v2) := by
    rw [hp, dotProduct_add, dotProduct_smul, dotProduct_smul, dot_comm3 v2 v1, ho]; simp
  have hy : y ≠ 0 := by
    rintro rfl
    rw [hc2, zero_mul, abs_zero, hc1] at hc
    have : x * (v1 ⬝ᵥ v1) = 0 := abs_nonpos_iff.1 hc
    rcases mul_eq_zero.1 this with h | h
    · apply hne; rw [hp, h]; simp
    · exact absurd h (dot_self_pos v10).ne'
  have hsy : 0 < npSign (v2 ⬝ᵥ p.hkl) * y := by
    apply npSign_mul_pos
    rw [hc2]
    have := dot_self_pos v20
    have : 0 < y * y := mul_self_pos.2 hy
    nlinarith
  have hsy' : -(npSign (v2 ⬝ᵥ p.hkl) * y) ≠ 0 := neg_ne_zero.2 hsy.ne'
  have key := cross_aux hp b
  rw [if_neg (not_lt.2 hc)] at key
  have key1 := cross_aux hp 1
  rw [if_neg (not_lt.2 hc)] at key1
  simp only [Matrix.one_mulVec] at key1
  obtain ⟨U, R, a1, a2, a3, a4, k, hk, a5⟩ := onePeak_core (g := g) (ei := ei) (ef := ef) hb
    (by rw [key1]; exact smul_ne_zero hsy' hv) m1 h0
  refine ⟨U, R, a1, a2, a3, a4, _, mul_pos (inv_pos.2 hsy) hk, ?_⟩
  have := smul_flip (k := k) (w := Rᵀ *ᵥ ![0, 1, 0]) hsy' (by rw [← a5, key, Matrix.mulVec_smul])
  rw [this]; congr 1; rw [inv_neg]; ring

/-- **C17**, negation for non-orthogonal plane vectors: for a cubic cell, plane `(1,0,0),(1,1,0)` and peak `(1,0,0)`, the
result is NaN although the peak lies in the plane. -/
theorem C17_non_orthogonal_fails (a : MotorAngles) (rInv : MotorAngles → Py M3) (ei ef : ℝ) :
    findUFromOnePeak ⟨![1, 0, 0], a⟩ ![1, 0, 0] ![1, 1, 0] 1 rInv ei ef = .error .nonFinite := by
  generalize hA : (![1, 0, 0] : V3) = A
  generalize hB : (![1, 1, 0] : V3) = B
  have hA0 : A ≠ 0 := by rintro rfl; simpa using congrFun hA 0
  have hc : ¬ |A ⬝ᵥ A| > |B ⬝ᵥ A| := by
    rw [dot3, dot3, ← hA, ← hB]; simp
  have e : cross (cross A (npSign (B ⬝ᵥ A) • A)) A = 0 := by
    apply ext3 <;> simp <;> ring
  have h0 : unit (0 : V3) = .error .nonFinite := by simp [unit, norm3]
  unfold findUFromOnePeak frameMat
  simp only [Matrix.one_mulVec]
  rw [if_neg hc, unit_nrm hA0, e, h0]; rfl

/-- **C17** (stored plane normal) The plane normal stored with a one-peak UB is the vertical of the measured position,
it is a unit vector perpendicular to the peak, and the in-plane reference is a unit vector perpendicular to both. -/
theorem C17_stored_normal {g : Goni} {ei ef : ℝ} {p : Peak} {ub : M3} {s1 : V3} {c : ℝ} (hc : 0 < c)
    (m1 : Spec.MeasuredQ g ei ef p s1) (h0 : s1 ≠ 0) (hub : ub *ᵥ p.hkl = c • s1) :
    ∃ n r R, planeNormalFromOnePeak p.hkl p.angles g.rMatInv ub = .ok (n, r) ∧ g.rMat p.angles = .ok R ∧
      R *ᵥ n = ![0, 1, 0] ∧ len n = 1 ∧ n ⬝ᵥ (ub *ᵥ p.hkl) = 0 ∧ len r = 1 ∧ n ⬝ᵥ r = 0 ∧
      r ⬝ᵥ (ub *ᵥ p.hkl) = 0 := by
  obtain ⟨R, q, h1, h2, h3⟩ := m1
  have hR := (C06_r_mat_rotation h1).1
  have hRt := isRot_transpose hR
  have hq1 : q 1 = 0 := by
    unfold qLab at h2
    obtain ⟨ki, hki, h2⟩ := py_bind_eq_ok.1 h2
    obtain ⟨kf, hkf, h2⟩ := py_bind_eq_ok.1 h2
    cases h2
    simp [deg2rad]
  have hr : g.rMatInv p.angles = .ok Rᵀ := by unfold Goni.rMatInv; rw [h1]; rfl
  have hne : ub *ᵥ p.hkl ≠ 0 := by rw [hub]; exact smul_ne_zero hc.ne' h0
  set n := Rᵀ *ᵥ ![0, 1, 0] with hn
  have huu : n ⬝ᵥ n = 1 := by rw [hn, dot_mulVec_orth hRt.1, dot3]; simp
  have hperp : n ⬝ᵥ s1 = 0 := by rw [h3, hn, dot_mulVec_orth hRt.1, dot3]; simp [hq1]
  have hperp' : n ⬝ᵥ (ub *ᵥ p.hkl) = 0 := by rw [hub, dotProduct_smul, hperp, smul_zero]
  have hn1 : norm3 n = 1 := by unfold norm3; rw [huu, Real.sqrt_one]
  have hpn : n ⬝ᵥ nrm (ub *ᵥ p.hkl) = 0 := by unfold nrm; rw [dotProduct_smul, hperp', smul_zero]
  refine ⟨n, cross n (nrm (ub *ᵥ p.hkl)), R, ?_, h1, mulVec_transpose_orth hR.1 _, ?_, hperp', ?_,
    dot_cross_left _ _, ?_⟩
  · unfold planeNormalFromOnePeak
    rw [hr, py_bind_ok]
    dsimp only
    rw [unit_nrm hne, py_bind_ok]
    rfl
  · rw [← norm3_eq_len, hn1]
  · rw [← norm3_eq_len, norm3_cross_of_perp hpn, hn1, norm3_nrm hne, one_mul]
  · unfold nrm
    rw [cross_smul_right, smul_dotProduct, dot_comm3, dot_cross_right, smul_zero]

end Tavi
