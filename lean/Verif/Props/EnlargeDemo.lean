import Verif.Props.Enlarge
import Verif.Props.CoarserDemo

/-! # A concrete case for C114: the spectrometer and the cubic crystal of `Demo`, twice as large at a quarter of the energy -/

namespace Tavi

open Matrix Real
open Spec (IsRot PossibleCell len qform)

namespace Demo

/-- The cell twice as large. -/
noncomputable def conf' : UBConf := { ubMat := some ((1 / 2 : ℝ) • (1 : M3)), planeNormal := some ![0, 1, 0], inPlaneRef := some ![0, 0, 1] }

/-- `tas "Y,-Z,X" "-"` with all spacings doubled and a quarter of the final energy. -/
noncomputable def enlarged : Tas :=
  { tas "Y,-Z,X" "-" with fixedEf := some (ksq2eng * (2 * π) ^ 2 / 2 ^ 2), sample := { latt := Spec.enlargedCell 2 cube, ubConf := some conf' },
                          mono := { optics with dSpacing := 2 * optics.dSpacing },
                          ana := { optics with mosaicH := some 20, dSpacing := 2 * optics.dSpacing } }

theorem enlarged_is : Spec.Enlarged 2 (tas "Y,-Z,X" "-") enlarged := ⟨rfl, rfl, rfl, rfl⟩

theorem consistent' : Spec.Consistent enlarged.sample conf' ((1 / 2 : ℝ) • (1 : M3)) := by
  obtain ⟨b, hb, hg⟩ := C02_gram (enlarged_possible two_pos cube_possible)
  refine ⟨rfl, rfl, by simp, b, hb, ?_⟩
  have : Spec.metric cube = 1 := by
    ext i j
    fin_cases i <;> fin_cases j <;> simp [Spec.metric, cube, cos90]
  rw [hg, enlarged_metric, this]
  apply Matrix.inv_eq_right_inv
  rw [Matrix.transpose_smul, Matrix.transpose_one, Matrix.smul_mul, Matrix.one_mul, Matrix.smul_mul, Matrix.one_mul, smul_smul, smul_smul]
  norm_num

theorem enlarged_k_val : en2q (ksq2eng * (2 * π) ^ 2 / 2 ^ 2) = .ok π := by
  have hpi := Real.pi_pos
  have hk := ksq2eng_pos
  have hpos : 0 < ksq2eng * (2 * π) ^ 2 / 2 ^ 2 := by positivity
  unfold en2q
  rw [if_neg (not_lt.2 hpos.le), show ksq2eng * (2 * π) ^ 2 / 2 ^ 2 / ksq2eng = π ^ 2 by field_simp, Real.sqrt_sq hpi.le]

theorem enlarged_energy : enlarged.getEiEf = .ok (ksq2eng * (2 * π) ^ 2 / 2 ^ 2, ksq2eng * (2 * π) ^ 2 / 2 ^ 2) := by
  simp [enlarged, tas, Tas.getEiEf]

/-- The enlarged experiment reaches (1,0,0). -/
theorem enlarged_reach : ∃ a, enlarged.motorAngles ![1, 0, 0] = .ok a := by
  have hpi := Real.pi_pos
  have hpi2 := Real.two_le_pi
  have hkv := enlarged_k_val
  have hE := enlarged_energy
  have hlen : len (((1 / 2 : ℝ) • (1 : M3)) *ᵥ ![1, 0, 0]) = 1 / 2 := by
    rw [smul_mulVec, one_mulVec]
    simp [Spec.len]
  have hpb : (1e-6 : ℝ) ≤ π := by norm_num; linarith
  obtain ⟨a, ha, _⟩ := C68_in_plane (t := enlarged) (hkl := ![1, 0, 0]) consistent' (Or.inr rfl) rfl (by rw [smul_mulVec, one_mulVec]; simp)
    (huberMode "-") (huberMode' "-") rfl rfl
    (by norm_num [Spec.Within, enlarged, tas]) (by norm_num [Spec.Within, enlarged, tas])
    hE (senseMinus "Y,-Z,X") hkv hkv hpb hpb (by rw [hlen]; linarith)
    (by rw [hlen]; constructor
        · simp; positivity
        · linarith)
  exact ⟨a, ha⟩

/-- C114: the two calculations return at (1,0,0), and the resolution of the one is that of the other in doubled units. -/
theorem enlarged_case : ∃ M r0 M' r0', CooperNathans.calculateAt (tas "Y,-Z,X" "-") ![1, 0, 0] (ksq2eng * (2 * π) ^ 2) (ksq2eng * (2 * π) ^ 2) = .ok (M, r0) ∧
    CooperNathans.calculateAt enlarged ![1, 0, 0] (ksq2eng * (2 * π) ^ 2 / 2 ^ 2) (ksq2eng * (2 * π) ^ 2 / 2 ^ 2) = .ok (M', r0') ∧
    (∀ x0 x1 x2 x3, qform M' ![x0, x1, x2, x3] = qform M ![2 * x0, 2 * x1, 2 * x2, 2 ^ 2 * x3]) ∧ r0' = r0 / 2 ^ 6 := by
  have hpi := Real.pi_pos
  have hpi2 := Real.two_le_pi
  obtain ⟨M, r0, h, _⟩ := reso100
  have hk := ksq2eng_pos
  have hpos : 0 < ksq2eng * (2 * π) ^ 2 / 2 ^ 2 := by positivity
  have hkv := enlarged_k_val
  have hE := enlarged_energy
  obtain ⟨a, ha⟩ := enlarged_reach
  have hdm : enlarged.mono.dSpacing = 6.70832 := by norm_num [enlarged, optics]
  have hda : enlarged.ana.dSpacing = 6.70832 := by norm_num [enlarged, optics]
  obtain ⟨k, hk', _, _, hM, _, hA⟩ := C20_bragg enlarged hpos (by rw [hdm]; norm_num) (by rw [hda]; norm_num)
    (sm := -1) (sa := -1) (by simp [enlarged, optics, MonoAna.senseVal]) (by simp [enlarged, optics, MonoAna.senseVal])
  rw [hkv] at hk'; cases hk'
  have h2 : 2 * π / π = 2 := by field_simp
  obtain ⟨tm, htm, b1, _⟩ := hM (by rw [hdm, h2]; norm_num)
  obtain ⟨ta, hta, c1, _⟩ := hA (by rw [hda, h2]; norm_num)
  rw [hdm, h2] at b1
  rw [hda, h2] at c1
  have hcos : ∀ x : ℝ, 2 = 2 * 6.70832 * Real.sin (-1 * (x * π / 180)) → Real.cos (deg2rad x) ≠ 0 := by
    intro x hx h0
    have h1 := Real.sin_sq_add_cos_sq (deg2rad x)
    rw [h0] at h1
    have e : x * π / 180 = deg2rad x := by unfold deg2rad; ring
    rw [neg_one_mul, Real.sin_neg, e] at hx
    have h3 : Real.sin (deg2rad x) = -(1 / 6.70832) := by field_simp; linarith
    rw [h3] at h1
    norm_num at h1
  obtain ⟨M', r0', h'⟩ := C24_defined (t := enlarged) (enlarged_possible two_pos cube_possible)
    ⟨⟨45, rfl, by norm_num⟩, ⟨30, rfl, by norm_num⟩, ⟨20, rfl, by norm_num⟩, ⟨30, rfl, by norm_num⟩,
      by intro i; norm_num [enlarged, tas], by intro i; norm_num [enlarged, tas]⟩ hE ha htm hta (hcos tm b1) (hcos ta c1)
  obtain ⟨f, g⟩ := C114_enlarged two_pos enlarged_is cube_possible h h'
  exact ⟨M, r0, M', r0', h, h', f, g⟩

/-- C114: the two ellipsoids exist, and the widths of the second are half and a quarter of those of the first. -/
example : ∃ e e', (tas "Y,-Z,X" "-").resoAt none (![1, 0, 0], ksq2eng * (2 * π) ^ 2, ksq2eng * (2 * π) ^ 2) = .ok e ∧
    enlarged.resoAt none (![1, 0, 0], ksq2eng * (2 * π) ^ 2 / 2 ^ 2, ksq2eng * (2 * π) ^ 2 / 2 ^ 2) = .ok e' ∧
    e'.q = e.q / 2 ∧ ∀ i w, cohFwhm e.mat i = .ok w → cohFwhm e'.mat i = .ok (w / (![2, 2, 2, 2 ^ 2] : Fin 4 → ℝ) i) := by
  obtain ⟨M, r0, M', r0', h, h', -⟩ := enlarged_case
  have key : ∀ {t : Tas} {m : Mat 4 4} {r x : ℝ}, (∃ b, t.sample.bMat = .ok b) →
      CooperNathans.calculateAt t ![1, 0, 0] x x = .ok (m, r) → ∃ e, t.resoAt none (![1, 0, 0], x, x) = .ok e := by
    rintro t m r x ⟨b, ht⟩ hm
    unfold Tas.resoAt
    rw [hm, py_bind_ok]
    unfold mkEllipsoid
    dsimp only
    rw [ht, py_bind_ok]
    exact ⟨_, rfl⟩
  obtain ⟨b, hb, -⟩ := cube_b
  obtain ⟨-, -, -, b', hb', -⟩ := consistent'
  obtain ⟨e, k⟩ := key (t := tas "Y,-Z,X" "-") ⟨b, hb⟩ h
  obtain ⟨e', k'⟩ := key (t := enlarged) ⟨b', hb'⟩ h'
  obtain ⟨-, -, f1, -, f2⟩ := C114_widths two_pos enlarged_is cube_possible k k'
  exact ⟨e, e', k, k', f1, f2⟩

end Demo

end Tavi
