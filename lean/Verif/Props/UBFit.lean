import Verif.Props.UBDet
import Mathlib.LinearAlgebra.Matrix.ToLinearEquiv

/-! # C16: least-squares UB from many peaks -/

namespace Tavi

open Matrix Real
open Spec (IsRot IsOrth PossibleCell IsAngleDeg len)

/-- Specification: the sum of squared distances between the predicted and the measured momentum transfers. -/
noncomputable def Spec.misfit (peaks : List Peak) (s : Peak → V3) (M : M3) : ℝ :=
  (peaks.map fun p => len ((2 * π) • (M *ᵥ p.hkl) - s p) ^ 2).sum

/-- Specification: the reflections of a list of peaks span reciprocal space (they are not all in one plane). -/
def Spec.Spanning (peaks : List Peak) : Prop :=
  ∀ w : V3, (∀ p ∈ peaks, w ⬝ᵥ p.hkl = 0) → w = 0

/-- entries of `Σ q hᵀ` (transposed as in the code) -/
noncomputable def qvMat (peaks : List Peak) (s : Peak → V3) : M3 :=
  Matrix.of fun j k => (peaks.map fun p => (1 / (2 * π) * s p k) * p.hkl j).sum

noncomputable def vvMat (peaks : List Peak) : M3 :=
  Matrix.of fun j k => (peaks.map fun p => p.hkl k * p.hkl j).sum

theorem accum_ok {g : Goni} {ei ef : ℝ} {peaks : List Peak} {s : Peak → V3}
    (hm : ∀ p ∈ peaks, Spec.MeasuredQ g ei ef p (s p)) (A B : M3) :
    peaks.foldlM (accumPeak g.rMatInv ei ef) (A, B) = .ok (A + qvMat peaks s, B + vvMat peaks) := by
  induction peaks generalizing A B with
  | nil =>
    have h1 : qvMat [] s = 0 := by ext i j; simp [qvMat]
    have h2 : vvMat [] = 0 := by ext i j; simp [vvMat]
    rw [h1, h2, add_zero, add_zero]; rfl
  | cons p l ih =>
    rw [List.foldlM_cons]
    have hp : accumPeak g.rMatInv ei ef (A, B) p =
        .ok (A + Matrix.of (fun j k => ((1 / (2 * π)) • s p) k * p.hkl j),
          B + Matrix.of (fun j k => p.hkl k * p.hkl j)) := by
      unfold accumPeak
      rw [peakQ_ok (hm p (by simp))]; rfl
    rw [hp, py_bind_ok, ih (fun p' hp' => hm p' (by simp [hp']))]
    congr 2
    · ext i j; simp [qvMat]; ring
    · ext i j; simp [vvMat]; ring

theorem multi_eq {g : Goni} {ei ef : ℝ} {peaks : List Peak} {s : Peak → V3}
    (hm : ∀ p ∈ peaks, Spec.MeasuredQ g ei ef p (s p)) :
    findUbFromMultiplePeaks peaks g.rMatInv ei ef =
      (inv3 (vvMat peaks) >>= fun vi => .ok ((qvMat peaks s)ᵀ * viᵀ)) := by
  unfold findUbFromMultiplePeaks
  rw [accum_ok hm]
  simp only [py_bind_ok, zero_add, py_pure]

theorem vvMat_symm (peaks : List Peak) : (vvMat peaks)ᵀ = vvMat peaks := by
  ext i j
  simp only [vvMat, transpose_apply, of_apply]
  congr 1
  apply List.map_congr_left
  intro p _; ring

theorem vv_quad (peaks : List Peak) (w : V3) :
    w ⬝ᵥ (vvMat peaks *ᵥ w) = (peaks.map fun p => (w ⬝ᵥ p.hkl) ^ 2).sum := by
  induction peaks with
  | nil => simp [dot3, mulVec3, vvMat]
  | cons p l ih =>
    have : vvMat (p :: l) = Matrix.of (fun j k => p.hkl k * p.hkl j) + vvMat l := by
      ext i j; simp [vvMat]
    rw [this, Matrix.add_mulVec, dotProduct_add, ih, List.map_cons, List.sum_cons]
    congr 1
    simp only [dot3, mulVec3, of_apply]; ring

theorem vv_det {peaks : List Peak} : (vvMat peaks).det ≠ 0 ↔ Spec.Spanning peaks := by
  rw [Ne, ← Matrix.exists_mulVec_eq_zero_iff]
  constructor
  · intro h w hw
    by_contra hne
    apply h
    refine ⟨w, hne, ?_⟩
    funext i
    simp only [mulVec3, vvMat, of_apply, Pi.zero_apply]
    rw [← List.sum_map_mul_right, ← List.sum_map_mul_right, ← List.sum_map_mul_right, ← List.sum_map_add,
      ← List.sum_map_add]
    apply List.sum_eq_zero
    intro x hx
    obtain ⟨p, hp, rfl⟩ := List.mem_map.1 hx
    have := hw p hp
    rw [dot3] at this
    linear_combination (p.hkl i) * this
  · rintro h ⟨w, hne, hw⟩
    apply hne
    apply h
    have hq := vv_quad peaks w
    rw [hw, dotProduct_zero] at hq
    intro p hp
    have h0 : ∀ x ∈ (peaks.map fun p => (w ⬝ᵥ p.hkl) ^ 2), 0 ≤ x := by
      intro x hx
      obtain ⟨p, _, rfl⟩ := List.mem_map.1 hx
      positivity
    have hle := List.single_le_sum h0 ((w ⬝ᵥ p.hkl) ^ 2) (List.mem_map.2 ⟨p, hp, rfl⟩)
    rw [← hq] at hle
    exact pow_eq_zero_iff (two_ne_zero) |>.1 (le_antisymm hle (sq_nonneg _))

theorem sum_map_sub' {α : Type*} (l : List α) (f g : α → ℝ) :
    (l.map f).sum - (l.map g).sum = (l.map fun x => f x - g x).sum := by
  induction l with
  | nil => simp
  | cons a l ih => simp only [List.map_cons, List.sum_cons, ← ih]; ring

/-- Normal equations: residuals are orthogonal to the reflections. -/
theorem normal_eq {peaks : List Peak} {s : Peak → V3} {ub : M3}
    (h : ub * vvMat peaks = (qvMat peaks s)ᵀ) (i j : Fin 3) :
    (peaks.map fun p => p.hkl j * ((2 * π) • (ub *ᵥ p.hkl) - s p) i).sum = 0 := by
  have hpi := Real.pi_ne_zero
  have e := congrFun (congrFun h i) j
  simp only [Matrix.mul_apply, Fin.sum_univ_three, transpose_apply, vvMat, qvMat, of_apply] at e
  rw [← List.sum_map_mul_left, ← List.sum_map_mul_left, ← List.sum_map_mul_left, ← List.sum_map_add,
    ← List.sum_map_add] at e
  have e2 := congrArg (fun x => 2 * π * x) e
  simp only [← List.sum_map_mul_left] at e2
  have : (peaks.map fun p => p.hkl j * ((2 * π) • (ub *ᵥ p.hkl) - s p) i).sum =
      (peaks.map fun p => 2 * π * (ub i 0 * (p.hkl j * p.hkl 0) + ub i 1 * (p.hkl j * p.hkl 1) +
        ub i 2 * (p.hkl j * p.hkl 2))).sum - (peaks.map fun p => 2 * π * (1 / (2 * π) * s p i * p.hkl j)).sum := by
    rw [sum_map_sub']
    congr 1
    apply List.map_congr_left
    intro p _
    simp only [Pi.sub_apply, Pi.smul_apply, smul_eq_mul, mulVec3]
    field_simp
  rw [this, e2, sub_self]

theorem misfit_split {peaks : List Peak} {s : Peak → V3} {ub : M3}
    (h : ub * vvMat peaks = (qvMat peaks s)ᵀ) (M : M3) :
    Spec.misfit peaks s M = Spec.misfit peaks s ub +
      (peaks.map fun p => len ((2 * π) • ((M - ub) *ᵥ p.hkl)) ^ 2).sum := by
  have lsq : ∀ v : V3, len v ^ 2 = v 0 ^ 2 + v 1 ^ 2 + v 2 ^ 2 := by
    intro v; unfold Spec.len; rw [Real.sq_sqrt (by positivity)]
  have cross0 : (peaks.map fun p => 2 * ∑ i, ∑ j, (2 * π * (M - ub) i j) *
      (p.hkl j * ((2 * π) • (ub *ᵥ p.hkl) - s p) i)).sum = 0 := by
    have gen : ∀ l : List Peak, (l.map fun p => 2 * ∑ i, ∑ j, (2 * π * (M - ub) i j) *
        (p.hkl j * ((2 * π) • (ub *ᵥ p.hkl) - s p) i)).sum =
        2 * ∑ i, ∑ j, (2 * π * (M - ub) i j) *
          (l.map fun p => p.hkl j * ((2 * π) • (ub *ᵥ p.hkl) - s p) i).sum := by
      intro l
      induction l with
      | nil => simp
      | cons p l ih =>
        simp only [List.map_cons, List.sum_cons, ih, mul_add, Finset.sum_add_distrib]
    rw [gen]
    simp only [normal_eq h, mul_zero, Finset.sum_const_zero]
  unfold Spec.misfit
  rw [← add_zero (List.sum _ + _), ← cross0, ← List.sum_map_add, ← List.sum_map_add]
  congr 1
  apply List.map_congr_left
  intro p _
  simp only [lsq, Fin.sum_univ_three, Pi.sub_apply, Pi.smul_apply, smul_eq_mul, mulVec3, Matrix.sub_apply]
  ring

/-- **C16** From non-coplanar reflections the fit returns a matrix; it has the smallest possible misfit between predicted
and measured momentum transfers, and it is the only matrix with that misfit. -/
theorem C16_minimiser {g : Goni} {ei ef : ℝ} {peaks : List Peak} {s : Peak → V3}
    (hm : ∀ p ∈ peaks, Spec.MeasuredQ g ei ef p (s p)) (hsp : Spec.Spanning peaks) :
    ∃ ub, findUbFromMultiplePeaks peaks g.rMatInv ei ef = .ok ub ∧
      (∀ M, Spec.misfit peaks s ub ≤ Spec.misfit peaks s M) ∧
      (∀ M, Spec.misfit peaks s M ≤ Spec.misfit peaks s ub → M = ub) := by
  have hpi := Real.pi_pos
  have hdet := vv_det.2 hsp
  have hne : (qvMat peaks s)ᵀ * ((vvMat peaks)⁻¹)ᵀ * vvMat peaks = (qvMat peaks s)ᵀ := by
    rw [Matrix.transpose_nonsing_inv, vvMat_symm, Matrix.mul_assoc,
      Matrix.nonsing_inv_mul _ (isUnit_iff_ne_zero.2 hdet), Matrix.mul_one]
  refine ⟨(qvMat peaks s)ᵀ * ((vvMat peaks)⁻¹)ᵀ, ?_, ?_, ?_⟩
  · rw [multi_eq hm, inv3_ok hdet]; rfl
  · intro M
    rw [misfit_split hne M, le_add_iff_nonneg_right]
    apply List.sum_nonneg
    intro x hx
    obtain ⟨p, _, rfl⟩ := List.mem_map.1 hx
    positivity
  · intro M hM
    rw [misfit_split hne M] at hM
    set ub := (qvMat peaks s)ᵀ * ((vvMat peaks)⁻¹)ᵀ
    have hz : ∀ p ∈ peaks, (M - ub) *ᵥ p.hkl = 0 := by
      intro p hp
      have h0 : ∀ x ∈ (peaks.map fun p => len ((2 * π) • ((M - ub) *ᵥ p.hkl)) ^ 2), 0 ≤ x := by
        intro x hx
        obtain ⟨p, _, rfl⟩ := List.mem_map.1 hx
        positivity
      have hle := List.single_le_sum h0 _ (List.mem_map.2 ⟨p, hp, rfl⟩)
      have hl0 : len ((2 * π) • ((M - ub) *ᵥ p.hkl)) = 0 := by
        have : len ((2 * π) • ((M - ub) *ᵥ p.hkl)) ^ 2 ≤ 0 := by linarith
        exact pow_eq_zero_iff (two_ne_zero) |>.1 (le_antisymm this (sq_nonneg _))
      rw [← norm3_eq_len, norm3_eq_zero] at hl0
      rcases smul_eq_zero.1 hl0 with h | h
      · exact absurd h (by positivity)
      · exact h
    have hrow : ∀ i, (M - ub) i = 0 := by
      intro i
      apply hsp
      intro p hp
      exact congrFun (hz p hp) i
    have : M - ub = 0 := by
      ext i j; exact congrFun (hrow i) j
    exact sub_eq_zero.1 this

/-- **C16** (refusal) Reflections that all lie in one plane through the origin are refused with `LinAlgError`. -/
theorem C16_coplanar_refused {g : Goni} {ei ef : ℝ} {peaks : List Peak} {s : Peak → V3}
    (hm : ∀ p ∈ peaks, Spec.MeasuredQ g ei ef p (s p)) (hsp : ¬ Spec.Spanning peaks) :
    findUbFromMultiplePeaks peaks g.rMatInv ei ef = .error .linAlgError := by
  have : (vvMat peaks).det = 0 := by
    by_contra h; exact hsp (vv_det.1 h)
  rw [multi_eq hm]
  unfold inv3
  rw [if_pos this]; rfl

/-- **C16** (exactness) If some matrix reproduces every peak, that matrix is returned. -/
theorem C16_exact {g : Goni} {ei ef : ℝ} {peaks : List Peak} {M : M3} (hsp : Spec.Spanning peaks)
    (hM : ∀ p ∈ peaks, Spec.Reproduces g ei ef M p) :
    findUbFromMultiplePeaks peaks g.rMatInv ei ef = .ok M := by
  have hm : ∀ p ∈ peaks, Spec.MeasuredQ g ei ef p ((fun p => (2 * π) • (M *ᵥ p.hkl)) p) := by
    intro p hp
    obtain ⟨s, h1, h2⟩ := hM p hp
    rw [← h2] at h1; exact h1
  obtain ⟨ub, h1, h2, h3⟩ := C16_minimiser hm hsp
  rw [h1]
  congr 1
  symm
  apply h3
  have : Spec.misfit peaks (fun p => (2 * π) • (M *ᵥ p.hkl)) M = 0 := by
    unfold Spec.misfit
    apply List.sum_eq_zero
    intro x hx
    obtain ⟨p, _, rfl⟩ := List.mem_map.1 hx
    simp [Spec.len]
  rw [this]
  unfold Spec.misfit
  apply List.sum_nonneg
  intro x hx
  obtain ⟨p, _, rfl⟩ := List.mem_map.1 hx
  positivity

/-- **C16** For three non-coplanar peaks the fit and the three-peak formula agree. -/
theorem C16_three {g : Goni} {ei ef : ℝ} {p1 p2 p3 : Peak} {s1 s2 s3 : V3}
    (hd : p1.hkl ⬝ᵥ cross p2.hkl p3.hkl ≠ 0) (m1 : Spec.MeasuredQ g ei ef p1 s1)
    (m2 : Spec.MeasuredQ g ei ef p2 s2) (m3 : Spec.MeasuredQ g ei ef p3 s3) :
    findUbFromMultiplePeaks [p1, p2, p3] g.rMatInv ei ef = findUbFromThreePeaks p1 p2 p3 g.rMatInv ei ef := by
  obtain ⟨ub, hub, r1, r2, r3⟩ := three_peaks_core hd m1 m2 m3
  rw [hub]
  apply C16_exact
  · intro w hw
    have a1 := hw p1 (by simp)
    have a2 := hw p2 (by simp)
    have a3 := hw p3 (by simp)
    by_contra hne
    have : (colMat p1.hkl p2.hkl p3.hkl)ᵀ *ᵥ w = 0 := by
      rw [dot3] at a1 a2 a3
      apply ext3 <;> simp [mulVec3, colMat] <;> linarith
    exact mulVec_det_ne_zero (by rw [Matrix.det_transpose, triple_dot]; exact hd) hne this
  · intro p hp
    simp only [List.mem_cons, List.not_mem_nil, or_false] at hp
    rcases hp with rfl | rfl | rfl
    · exact ⟨s1, m1, r1⟩
    · exact ⟨s2, m2, r2⟩
    · exact ⟨s3, m3, r3⟩

/-- **C16** The order of the peaks does not matter. -/
theorem C16_permutation {g : Goni} {ei ef : ℝ} {peaks peaks' : List Peak} {s : Peak → V3}
    (hm : ∀ p ∈ peaks, Spec.MeasuredQ g ei ef p (s p)) (hp : peaks.Perm peaks') :
    findUbFromMultiplePeaks peaks' g.rMatInv ei ef = findUbFromMultiplePeaks peaks g.rMatInv ei ef := by
  have hm' : ∀ p ∈ peaks', Spec.MeasuredQ g ei ef p (s p) := fun p h => hm p (hp.mem_iff.2 h)
  rw [multi_eq hm, multi_eq hm']
  have h1 : qvMat peaks' s = qvMat peaks s := by
    ext i j; simp only [qvMat, of_apply]; exact ((hp.map _).sum_eq).symm
  have h2 : vvMat peaks' = vvMat peaks := by
    ext i j; simp only [vvMat, of_apply]; exact ((hp.map _).sum_eq).symm
  rw [h1, h2]

/-- **C16** (what the instrument stores) With four or more peaks the stored UB is the least-squares one and the sample
lattice is the one implied by it. -/
theorem C16_stored {t : Tas} {peaks : List Peak} {s : Peak → V3} {ei ef : ℝ} {pl : Option (V3 × V3)} {ub : M3}
    (he : t.getEiEf = .ok (ei, ef)) (hlen : 4 ≤ peaks.length)
    (hm : ∀ p ∈ peaks, Spec.MeasuredQ t.goni ei ef p (s p)) (hsp : Spec.Spanning peaks)
    (hmin : ∀ M, Spec.misfit peaks s ub ≤ Spec.misfit peaks s M) (hdet : ub.det ≠ 0) :
    ∃ c s' b, t.calculateUb false peaks pl = .ok (some c, s') ∧ s'.ubConf = some c ∧
      c.ubMat = some ub ∧ c.ubPeaks = some peaks ∧ PossibleCell s'.latt ∧ s'.bMat = .ok b ∧ c.bMat = some b ∧
      bᵀ * b = ubᵀ * ub := by
  obtain ⟨ub', hub, _, h3⟩ := C16_minimiser hm hsp
  obtain rfl : ub = ub' := h3 ub (hmin ub')
  obtain ⟨L, l1, l2, l3⟩ := lattFromGStar_of_invertible hdet
  obtain ⟨b, hb, hg⟩ := C02_gram l2
  have hup : t.sample.updateFromGStar (ubᵀ * ub) = .ok { t.sample with latt := L } := by
    unfold Sample.updateFromGStar
    rw [l1, py_bind_ok]
    unfold Sample.updateLatt
    rw [validLatt_ok.2 (possible_acceptable l2)]; rfl
  have hb' : ({ t.sample with latt := L } : Sample).bMat = .ok b := hb
  refine ⟨⟨t.convention, some ub, none, none, none, some b, some peaks⟩,
    { t.sample with latt := L, ubConf := some _ }, b, ?_, rfl, rfl, rfl, l2, hb, rfl, ?_⟩
  · match peaks, hlen, hub with
    | p1 :: p2 :: p3 :: p4 :: l, _, hub =>
      unfold Tas.calculateUb
      rw [he, py_bind_ok]
      simp only [Bool.false_and, Bool.false_eq_true, if_false]
      rw [hub, py_bind_ok, hup, py_bind_ok, hb', py_bind_ok]
      rfl
  · rw [hg]; exact Matrix.inv_eq_left_inv l3

end Tavi
