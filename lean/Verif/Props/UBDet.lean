import Verif.Props.Energy

/-! # C14–C17: UB determination from peaks -/

namespace Tavi

open Matrix Real
open Spec (IsRot IsOrth PossibleCell IsAngleDeg len)

/-! ## C14 -/

/-- Specification: the momentum transfer measured with a peak, in the frame of the sample table: the goniometer undone
from the lab scattering vector. -/
def Spec.MeasuredQ (g : Goni) (ei ef : ℝ) (p : Peak) (s : V3) : Prop :=
  ∃ R q, g.rMat p.angles = .ok R ∧ qLab ei ef p.angles.twoTheta = .ok q ∧ s = Rᵀ *ᵥ q

theorem measured_inv {g : Goni} {ei ef : ℝ} {p : Peak} {s : V3} (h : Spec.MeasuredQ g ei ef p s) :
    ∃ r q, g.rMatInv p.angles = .ok r ∧ qLab ei ef p.angles.twoTheta = .ok q ∧ r *ᵥ q = s ∧ IsRot r := by
  obtain ⟨R, q, h1, h2, h3⟩ := h
  refine ⟨Rᵀ, q, ?_, h2, h3.symm, isRot_transpose (C06_r_mat_rotation h1).1⟩
  unfold Goni.rMatInv; rw [h1]; rfl

/-- The frame matrix of two independent vectors. -/
noncomputable def triad (a b : V3) : M3 := colMat (nrm a) (nrm (cross (cross a b) a)) (nrm (cross a b))

theorem triad_rot {a b : V3} (h : cross a b ≠ 0) : IsRot (triad a b) := triple_rot h

theorem triad_e0 (a b : V3) : triad a b *ᵥ ![1, 0, 0] = nrm a := by
  unfold triad; rw [colMat_mulVec]; apply ext3 <;> simp

theorem triad_e2 (a b : V3) : triad a b *ᵥ ![0, 0, 1] = nrm (cross a b) := by
  unfold triad; rw [colMat_mulVec]; apply ext3 <;> simp

theorem triad_transpose_nrm {a b : V3} (h : cross a b ≠ 0) : (triad a b)ᵀ *ᵥ nrm a = ![1, 0, 0] := by
  rw [← triad_e0 a b, mulVec_orth_transpose (triad_rot h).1]

theorem triad_transpose_cross {a b : V3} (h : cross a b ≠ 0) :
    (triad a b)ᵀ *ᵥ nrm (cross a b) = ![0, 0, 1] := by
  rw [← triad_e2 a b, mulVec_orth_transpose (triad_rot h).1]

theorem triad_mul {R : M3} (hR : IsRot R) (a b : V3) : triad (R *ᵥ a) (R *ᵥ b) = R * triad a b := by
  unfold triad
  rw [mul_colMat, cross_mulVec_rot hR, cross_mulVec_rot hR, nrm_mulVec_orth hR.1, nrm_mulVec_orth hR.1,
    nrm_mulVec_orth hR.1]

theorem nrm_smul_pos {s : ℝ} (hs : 0 < s) (v : V3) : nrm (s • v) = nrm v := unit_smul_pos hs v

theorem triad_smul {s t : ℝ} (hs : 0 < s) (ht : 0 < t) (a b : V3) : triad (s • a) (t • b) = triad a b := by
  unfold triad
  simp only [cross_smul_left, cross_smul_right]
  simp only [nrm_smul_pos hs, nrm_smul_pos ht]

theorem findU2_ok {g : Goni} {ei ef : ℝ} {p1 p2 : Peak} {b : M3} {s1 s2 : V3} (hb : b.det ≠ 0)
    (hh : cross p1.hkl p2.hkl ≠ 0) (m1 : Spec.MeasuredQ g ei ef p1 s1) (m2 : Spec.MeasuredQ g ei ef p2 s2)
    (hs : cross s1 s2 ≠ 0) :
    findUFromTwoPeaks p1 p2 b g.rMatInv ei ef =
      .ok (triad s1 s2 * (triad (b *ᵥ p1.hkl) (b *ᵥ p2.hkl))ᵀ) := by
  obtain ⟨r1, q1, a1, a2, rfl, _⟩ := measured_inv m1
  obtain ⟨r2, q2, b1, b2, rfl, _⟩ := measured_inv m2
  have hx := cross_mulVec_ne_zero hb hh
  unfold findUFromTwoPeaks
  dsimp only
  rw [triple_ok hx, py_bind_ok, a2, py_bind_ok, b2, py_bind_ok, a1, py_bind_ok, b1, py_bind_ok, triple_ok hs,
    py_bind_ok, inv3_orth (triple_rot hx).1]
  rfl

/-- **C14** U from two non-collinear peaks is a proper rotation; it sends `B·hkl1` exactly onto the measured direction of
the first peak and the normal of the reflection plane onto the normal of the measured plane (right handedness). -/
theorem C14_two_peaks {g : Goni} {ei ef : ℝ} {p1 p2 : Peak} {b : M3} {s1 s2 : V3} (hb : b.det ≠ 0)
    (hh : cross p1.hkl p2.hkl ≠ 0) (m1 : Spec.MeasuredQ g ei ef p1 s1) (m2 : Spec.MeasuredQ g ei ef p2 s2)
    (hs : cross s1 s2 ≠ 0) :
    ∃ U, findUFromTwoPeaks p1 p2 b g.rMatInv ei ef = .ok U ∧ IsRot U ∧
      (∃ c : ℝ, 0 < c ∧ U *ᵥ (b *ᵥ p1.hkl) = c • s1) ∧
      (∃ c : ℝ, 0 < c ∧ U *ᵥ cross (b *ᵥ p1.hkl) (b *ᵥ p2.hkl) = c • cross s1 s2) ∧
      (∃ x y : ℝ, 0 < y ∧ U *ᵥ (b *ᵥ p2.hkl) = x • s1 + y • s2) := by
  have hx := cross_mulVec_ne_zero hb hh
  have hR : IsRot (triad s1 s2 * (triad (b *ᵥ p1.hkl) (b *ᵥ p2.hkl))ᵀ) :=
    isRot_mul (triad_rot hs) (isRot_transpose (triad_rot hx))
  set U := triad s1 s2 * (triad (b *ᵥ p1.hkl) (b *ᵥ p2.hkl))ᵀ with hU
  have h10 := (triple_facts hx).1
  have s10 := (triple_facts hs).1
  have e1 : U *ᵥ nrm (b *ᵥ p1.hkl) = nrm s1 := by
    rw [hU, ← Matrix.mulVec_mulVec, triad_transpose_nrm hx, triad_e0]
  have e3 : U *ᵥ nrm (cross (b *ᵥ p1.hkl) (b *ᵥ p2.hkl)) = nrm (cross s1 s2) := by
    rw [hU, ← Matrix.mulVec_mulVec, triad_transpose_cross hx, triad_e2]
  have lift : ∀ {v w : V3}, v ≠ 0 → w ≠ 0 → U *ᵥ nrm v = nrm w →
      U *ᵥ v = (norm3 v * (norm3 w)⁻¹) • w ∧ 0 < norm3 v * (norm3 w)⁻¹ := by
    intro v w hv hw h
    refine ⟨?_, mul_pos (norm3_pos hv) (inv_pos.2 (norm3_pos hw))⟩
    conv_lhs => rw [← norm3_smul_nrm hv, Matrix.mulVec_smul, h]
    unfold nrm; rw [smul_smul]
  refine ⟨U, findU2_ok hb hh m1 m2 hs, hR, ⟨_, (lift h10 s10 e1).2, (lift h10 s10 e1).1⟩,
    ⟨_, (lift hx hs e3).2, (lift hx hs e3).1⟩, ?_⟩
  -- second peak: in the measured plane, on the same side
  obtain ⟨f1, c1⟩ := lift h10 s10 e1
  obtain ⟨f3, c3⟩ := lift hx hs e3
  set a := norm3 (b *ᵥ p1.hkl) * (norm3 s1)⁻¹ with ha
  set c := norm3 (cross (b *ᵥ p1.hkl) (b *ᵥ p2.hkl)) * (norm3 (cross s1 s2))⁻¹ with hc
  set w := U *ᵥ (b *ᵥ p2.hkl) with hw
  have hcr : cross s1 w = (a⁻¹ * c) • cross s1 s2 := by
    have : cross (a • s1) w = c • cross s1 s2 := by
      rw [← f1, hw, cross_mulVec_rot hR, f3]
    rw [cross_smul_left] at this
    rw [mul_smul, ← this, smul_smul, inv_mul_cancel₀ c1.ne', one_smul]
  -- s1 × (w - y s2) = 0 hence w - y s2 is along s1
  have hz : cross s1 (w - (a⁻¹ * c) • s2) = 0 := by
    have h0 := congrFun hcr 0; have h1 := congrFun hcr 1; have h2 := congrFun hcr 2
    simp at h0 h1 h2
    apply ext3 <;> simp <;> linarith
  have hpos := dot_self_pos s10
  refine ⟨(s1 ⬝ᵥ s1)⁻¹ * (s1 ⬝ᵥ (w - (a⁻¹ * c) • s2)), a⁻¹ * c, mul_pos (inv_pos.2 c1) c3, ?_⟩
  set d := w - (a⁻¹ * c) • s2 with hd
  have hdd : (s1 ⬝ᵥ s1) • d = (s1 ⬝ᵥ d) • s1 := by
    have h0 := congrFun hz 0; have h1 := congrFun hz 1; have h2 := congrFun hz 2
    simp only [cross_0, cross_1, cross_2, Pi.zero_apply] at h0 h1 h2
    apply ext3 <;> simp only [dot3, Pi.smul_apply, smul_eq_mul]
    · linear_combination (-s1 1) * h2 + s1 2 * h1
    · linear_combination (s1 0) * h2 - s1 2 * h0
    · linear_combination (-s1 0) * h1 + s1 1 * h0
  have : d = ((s1 ⬝ᵥ s1)⁻¹ * (s1 ⬝ᵥ d)) • s1 := by
    rw [mul_smul, ← hdd, smul_smul, inv_mul_cancel₀ hpos.ne', one_smul]
  rw [← this, hd]; abel

/-- **C14** If the measurements are consistent with a true orientation, that orientation is returned. -/
theorem C14_true_orientation {g : Goni} {ei ef : ℝ} {p1 p2 : Peak} {b U0 : M3} (hb : b.det ≠ 0)
    (hh : cross p1.hkl p2.hkl ≠ 0) (hU : IsRot U0)
    (m1 : Spec.MeasuredQ g ei ef p1 ((2 * π) • (U0 *ᵥ (b *ᵥ p1.hkl))))
    (m2 : Spec.MeasuredQ g ei ef p2 ((2 * π) • (U0 *ᵥ (b *ᵥ p2.hkl)))) :
    findUFromTwoPeaks p1 p2 b g.rMatInv ei ef = .ok U0 := by
  have hpi := Real.pi_pos
  have hx := cross_mulVec_ne_zero hb hh
  have hs : cross ((2 * π) • (U0 *ᵥ (b *ᵥ p1.hkl))) ((2 * π) • (U0 *ᵥ (b *ᵥ p2.hkl))) ≠ 0 := by
    rw [cross_smul_left, cross_smul_right, cross_mulVec_rot hU]
    exact smul_ne_zero (by positivity) (smul_ne_zero (by positivity) (mulVec_orth_ne_zero hU.1 hx))
  rw [findU2_ok hb hh m1 m2 hs, triad_smul (by positivity) (by positivity), triad_mul hU, Matrix.mul_assoc,
    isOrth_mul_transpose (triad_rot hx).1, Matrix.mul_one]

/-- **C14** (what the user of the instrument gets) The instrument stores `U·B` with the plane normal and the peaks. -/
theorem C14_stored {t : Tas} {p1 p2 : Peak} {b : M3} {ei ef : ℝ} {s1 s2 : V3} {pl : Option (V3 × V3)}
    (he : t.getEiEf = .ok (ei, ef)) (hb : t.sample.bMat = .ok b) (hd : b.det ≠ 0)
    (hh : cross p1.hkl p2.hkl ≠ 0) (m1 : Spec.MeasuredQ t.goni ei ef p1 s1)
    (m2 : Spec.MeasuredQ t.goni ei ef p2 s2) (hs : cross s1 s2 ≠ 0) :
    ∃ c U, t.calculateUb false [p1, p2] pl = .ok (some c, { t.sample with ubConf := some c }) ∧
      findUFromTwoPeaks p1 p2 b t.goni.rMatInv ei ef = .ok U ∧ IsRot U ∧
      c.ubMat = some (U * b) ∧ c.bMat = some b ∧ c.ubPeaks = some [p1, p2] ∧ c.convention = t.convention ∧
      (∃ n r, c.planeNormal = some n ∧ c.inPlaneRef = some r ∧ n ⬝ᵥ s1 = 0 ∧ len n = 1 ∧ 0 ≤ n 1 ∧
        len r = 1 ∧ n ⬝ᵥ r = 0) := by
  obtain ⟨U, hU, hR, ⟨k, hk0, hk⟩, _⟩ := C14_two_peaks hd hh m1 m2 hs
  obtain ⟨n, r, hn, n1, n2, _, n4, n5, n6, _⟩ := C18_plane_normal hR.1 hd hh
  refine ⟨⟨t.convention, some (U * b), some n, some r, none, some b, some [p1, p2]⟩, U, ?_, hU, hR, rfl, rfl,
    rfl, rfl, n, r, rfl, rfl, ?_, n1, n4, n5, n6⟩
  · unfold Tas.calculateUb
    rw [he, py_bind_ok]
    simp only [Bool.false_and, Bool.false_eq_true, if_false]
    rw [hb, py_bind_ok, hU, py_bind_ok, hn]
    rfl
  · rw [← Matrix.mulVec_mulVec, hk, dotProduct_smul, smul_eq_mul] at n2
    rcases mul_eq_zero.1 n2 with h | h
    · exact absurd h hk0.ne'
    · exact h

/-! ## C15 -/

/-- Specification: `ub` reproduces the measurement of a peak. -/
def Spec.Reproduces (g : Goni) (ei ef : ℝ) (ub : M3) (p : Peak) : Prop :=
  ∃ s, Spec.MeasuredQ g ei ef p s ∧ (2 * π) • (ub *ᵥ p.hkl) = s

theorem peakQ_ok {g : Goni} {ei ef : ℝ} {p : Peak} {s : V3} (h : Spec.MeasuredQ g ei ef p s) :
    peakQ g.rMatInv ei ef p = .ok ((1 / (2 * π)) • s) := by
  obtain ⟨r, q, a1, a2, rfl, _⟩ := measured_inv h
  unfold peakQ
  rw [a2, py_bind_ok, a1]; rfl

theorem colMat_e (a b c : V3) : colMat a b c *ᵥ ![1, 0, 0] = a ∧ colMat a b c *ᵥ ![0, 1, 0] = b ∧
    colMat a b c *ᵥ ![0, 0, 1] = c := by
  refine ⟨?_, ?_, ?_⟩ <;> rw [colMat_mulVec] <;> apply ext3 <;> simp

theorem triple_dot (a b c : V3) : (colMat a b c).det = a ⬝ᵥ cross b c := by
  rw [colMat_det]; simp [dot3]; ring

theorem three_peaks_core {g : Goni} {ei ef : ℝ} {p1 p2 p3 : Peak} {s1 s2 s3 : V3}
    (hd : p1.hkl ⬝ᵥ cross p2.hkl p3.hkl ≠ 0) (m1 : Spec.MeasuredQ g ei ef p1 s1)
    (m2 : Spec.MeasuredQ g ei ef p2 s2) (m3 : Spec.MeasuredQ g ei ef p3 s3) :
    ∃ ub, findUbFromThreePeaks p1 p2 p3 g.rMatInv ei ef = .ok ub ∧
      (2 * π) • (ub *ᵥ p1.hkl) = s1 ∧ (2 * π) • (ub *ᵥ p2.hkl) = s2 ∧ (2 * π) • (ub *ᵥ p3.hkl) = s3 := by
  have hpi := Real.pi_pos
  have hdet : (colMat p1.hkl p2.hkl p3.hkl).det ≠ 0 := by rw [triple_dot]; exact hd
  set H := colMat p1.hkl p2.hkl p3.hkl with hH
  set S := colMat ((1 / (2 * π)) • s1) ((1 / (2 * π)) • s2) ((1 / (2 * π)) • s3) with hS
  have hinv : S * H⁻¹ * H = S := by
    rw [Matrix.mul_assoc, Matrix.nonsing_inv_mul _ (isUnit_iff_ne_zero.2 hdet), Matrix.mul_one]
  obtain ⟨e1, e2, e3⟩ := colMat_e p1.hkl p2.hkl p3.hkl
  obtain ⟨f1, f2, f3⟩ := colMat_e ((1 / (2 * π)) • s1) ((1 / (2 * π)) • s2) ((1 / (2 * π)) • s3)
  rw [← hH] at e1 e2 e3
  rw [← hS] at f1 f2 f3
  have back : ∀ v : V3, (2 * π) • ((1 / (2 * π)) • v) = v := by
    intro v; rw [smul_smul, mul_one_div_cancel (by positivity), one_smul]
  refine ⟨S * H⁻¹, ?_, ?_, ?_, ?_⟩
  · unfold findUbFromThreePeaks
    rw [peakQ_ok m1, peakQ_ok m2, peakQ_ok m3]
    simp only [py_bind_ok]
    rw [inv3_ok hdet]; rfl
  · rw [← e1, Matrix.mulVec_mulVec, hinv, f1, back]
  · rw [← e2, Matrix.mulVec_mulVec, hinv, f2, back]
  · rw [← e3, Matrix.mulVec_mulVec, hinv, f3, back]

theorem three_unique {A B : M3} {a b c : V3} (hd : (colMat a b c).det ≠ 0) (h1 : A *ᵥ a = B *ᵥ a)
    (h2 : A *ᵥ b = B *ᵥ b) (h3 : A *ᵥ c = B *ᵥ c) : A = B := by
  have h : A * colMat a b c = B * colMat a b c := by rw [mul_colMat, mul_colMat, h1, h2, h3]
  have := congrArg (· * (colMat a b c)⁻¹) h
  simpa [Matrix.mul_assoc, Matrix.mul_nonsing_inv _ (isUnit_iff_ne_zero.2 hd)] using this

/-- **C15** (part) When the three reflections are given in right-handed order with triple product at least `1e-6`, the UB
matrix exists, reproduces all three measurements and is the only matrix doing so; the sample gets a lattice consistent
with it. -/
theorem C15_three_peaks_partial {t : Tas} {p1 p2 p3 : Peak} {ei ef : ℝ} {s1 s2 s3 : V3}
    {pl : Option (V3 × V3)} (he : t.getEiEf = .ok (ei, ef))
    (hd : 1e-6 ≤ p1.hkl ⬝ᵥ cross p2.hkl p3.hkl) (m1 : Spec.MeasuredQ t.goni ei ef p1 s1)
    (m2 : Spec.MeasuredQ t.goni ei ef p2 s2) (m3 : Spec.MeasuredQ t.goni ei ef p3 s3)
    (hs : s1 ⬝ᵥ cross s2 s3 ≠ 0) :
    ∃ c s' ub b, t.calculateUb false [p1, p2, p3] pl = .ok (some c, s') ∧ s'.ubConf = some c ∧
      c.ubMat = some ub ∧ (∀ p ∈ [p1, p2, p3], Spec.Reproduces t.goni ei ef ub p) ∧
      (∀ M, (∀ p ∈ [p1, p2, p3], Spec.Reproduces t.goni ei ef M p) → M = ub) ∧
      PossibleCell s'.latt ∧ s'.bMat = .ok b ∧ c.bMat = some b ∧ bᵀ * b = ubᵀ * ub := by
  have hpi := Real.pi_pos
  have hd0 : p1.hkl ⬝ᵥ cross p2.hkl p3.hkl ≠ 0 := by
    have : (0 : ℝ) < 1e-6 := by norm_num
    intro h; rw [h] at hd; linarith
  obtain ⟨ub, hub, r1, r2, r3⟩ := three_peaks_core hd0 m1 m2 m3
  have hdet : ub.det ≠ 0 := by
    intro h0
    have e : colMat s1 s2 s3 = (2 * π) • (ub * colMat p1.hkl p2.hkl p3.hkl) := by
      rw [mul_colMat, ← r1, ← r2, ← r3]
      ext i j; fin_cases i <;> fin_cases j <;> simp [colMat]
    apply hs
    rw [← triple_dot, e, Matrix.det_smul, Matrix.det_mul, h0, zero_mul, mul_zero]
  obtain ⟨L, l1, l2, l3⟩ := lattFromGStar_of_invertible hdet
  obtain ⟨b, hb, hg⟩ := C02_gram l2
  have hup : t.sample.updateFromGStar (ubᵀ * ub) = .ok { t.sample with latt := L } := by
    unfold Sample.updateFromGStar
    rw [l1, py_bind_ok]
    unfold Sample.updateLatt
    rw [validLatt_ok.2 (possible_acceptable l2)]; rfl
  have hb' : ({ t.sample with latt := L } : Sample).bMat = .ok b := hb
  refine ⟨⟨t.convention, some ub, none, none, none, some b, some [p1, p2, p3]⟩,
    { t.sample with latt := L, ubConf := some _ }, ub, b, ?_, rfl, rfl, ?_, ?_, l2, hb, rfl, ?_⟩
  · unfold Tas.calculateUb
    rw [he, py_bind_ok]
    simp only [Bool.false_and, Bool.false_eq_true, if_false]
    rw [if_neg (not_lt.2 hd), hub, py_bind_ok, hup, py_bind_ok, hb', py_bind_ok]
    rfl
  · intro p hp
    simp only [List.mem_cons, List.not_mem_nil, or_false] at hp
    rcases hp with rfl | rfl | rfl
    · exact ⟨s1, m1, r1⟩
    · exact ⟨s2, m2, r2⟩
    · exact ⟨s3, m3, r3⟩
  · intro M hM
    have same : ∀ p s, p ∈ [p1, p2, p3] → Spec.MeasuredQ t.goni ei ef p s → (2 * π) • (ub *ᵥ p.hkl) = s →
        M *ᵥ p.hkl = ub *ᵥ p.hkl := by
      intro p s hp hm hr
      obtain ⟨s', ⟨R', q', x1, x2, x3⟩, hr'⟩ := hM p hp
      obtain ⟨R, q, y1, y2, y3⟩ := hm
      rw [x1] at y1; rw [x2] at y2
      have y1 := Except.ok.inj y1; have y2 := Except.ok.inj y2
      rw [← y1, ← y2, ← x3] at y3
      rw [← y3, ← hr] at hr'
      exact smul_right_injective _ (by positivity : (2 * π) ≠ 0) hr'
    exact three_unique (by rw [triple_dot]; exact hd0) (same p1 s1 (by simp) m1 r1)
      (same p2 s2 (by simp) m2 r2) (same p3 s3 (by simp) m3 r3)
  · rw [hg]; exact Matrix.inv_eq_left_inv l3

/-- **C15** (part) Coplanar reflections are refused: nothing is computed, nothing is stored. -/
theorem C15_coplanar_refused {t : Tas} {p1 p2 p3 : Peak} {ei ef : ℝ} {pl : Option (V3 × V3)}
    (he : t.getEiEf = .ok (ei, ef)) (hd : p1.hkl ⬝ᵥ cross p2.hkl p3.hkl = 0) :
    t.calculateUb false [p1, p2, p3] pl = .ok (none, t.sample) := by
  unfold Tas.calculateUb
  rw [he, py_bind_ok]
  simp only [Bool.false_and, Bool.false_eq_true, if_false]
  rw [if_pos (by rw [hd]; norm_num)]
  rfl

/-- **C15**, negation of "in any order": whenever three peaks are accepted, the same three peaks with two of them
exchanged are refused as if they were coplanar. -/
theorem C15_order_matters {t : Tas} {p1 p2 p3 : Peak} {ei ef : ℝ} {pl : Option (V3 × V3)}
    (he : t.getEiEf = .ok (ei, ef)) (hd : 1e-6 ≤ p1.hkl ⬝ᵥ cross p2.hkl p3.hkl) :
    t.calculateUb false [p2, p1, p3] pl = .ok (none, t.sample) := by
  have hneg : p2.hkl ⬝ᵥ cross p1.hkl p3.hkl < 1e-6 := by
    have e : p2.hkl ⬝ᵥ cross p1.hkl p3.hkl = -(p1.hkl ⬝ᵥ cross p2.hkl p3.hkl) := by
      simp [dot3]; ring
    have : (0 : ℝ) < 1e-6 := by norm_num
    rw [e]; linarith
  unfold Tas.calculateUb
  rw [he, py_bind_ok]
  simp only [Bool.false_and, Bool.false_eq_true, if_false]
  rw [if_pos hneg]
  rfl

end Tavi
