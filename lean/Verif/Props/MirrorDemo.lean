import Verif.Props.Mirror
import Verif.Props.CoarserDemo

/-! # A concrete case for C111: the spectrometer of `Demo`, its mirror image, and the one with source and detector exchanged -/

namespace Tavi

open Matrix Real
open Spec (IsRot PossibleCell len qform)

namespace Demo

/-- The mirror image of `tas "Y,-Z,X" "-"`. -/
noncomputable def mirrored : Tas :=
  { tas "Y,-Z,X" "+" with mono := { optics with sense := "+".toList }, ana := { optics with mosaicH := some 20, sense := "+".toList } }

theorem mirrored_image : Spec.MirrorImage (tas "Y,-Z,X" "-") mirrored :=
  ⟨rfl, ⟨_, _, rfl, rfl, Or.inr ⟨rfl, rfl⟩⟩, Or.inr ⟨rfl, rfl⟩, Or.inr ⟨rfl, rfl⟩⟩

/-- The calculation succeeds at (1,0,0) for every spectrometer that reaches it elastically with graphite crystals and real optics. -/
theorem reso_sense {t : Tas} {a : MotorAngles} {s : ℝ} (hopt : Spec.RealOptics t) (ha : t.motorAngles ![1, 0, 0] = .ok a)
    (hlatt : t.sample.latt = cube) (hE : t.getEiEf = .ok (ksq2eng * (2 * π) ^ 2, ksq2eng * (2 * π) ^ 2))
    (hdm : t.mono.dSpacing = 3.35416) (hda : t.ana.dSpacing = 3.35416) (hs : s ^ 2 = 1)
    (hsm : t.mono.senseVal = .ok s) (hsa : t.ana.senseVal = .ok s) :
    ∃ M r0, CooperNathans.calculateAt t ![1, 0, 0] (ksq2eng * (2 * π) ^ 2) (ksq2eng * (2 * π) ^ 2) = .ok (M, r0) := by
  have hpi := Real.pi_pos
  have hpos : 0 < ksq2eng * (2 * π) ^ 2 := by have := ksq2eng_pos; positivity
  obtain ⟨k, hk', _, _, hM', _, hA'⟩ := C20_bragg t hpos (by rw [hdm]; norm_num) (by rw [hda]; norm_num) hsm hsa
  rw [k_val] at hk'; cases hk'
  obtain ⟨tm, htm, b1, _⟩ := hM' (theta_demo _ hdm)
  obtain ⟨ta, hta, c1, _⟩ := hA' (theta_demo _ hda)
  rw [hdm] at b1
  rw [hda] at c1
  have hcos : ∀ x : ℝ, 2 * π / (2 * π) = 2 * 3.35416 * Real.sin (s * (x * π / 180)) → Real.cos (deg2rad x) ≠ 0 := by
    intro x hx h0
    have h1 := Real.sin_sq_add_cos_sq (deg2rad x)
    rw [h0] at h1
    have e : x * π / 180 = deg2rad x := by unfold deg2rad; ring
    rw [div_self (by positivity), e] at hx
    have h2 : Real.sin (s * deg2rad x) ^ 2 = Real.sin (deg2rad x) ^ 2 := by
      rcases sq_eq_one_iff.1 hs with h | h
      · rw [h, one_mul]
      · rw [h, neg_one_mul, Real.sin_neg, neg_sq]
    have h3 : Real.sin (s * deg2rad x) = 1 / (2 * 3.35416) := by field_simp; linarith
    rw [h3] at h2
    rw [← h2] at h1
    norm_num at h1
  exact C24_defined (by rw [hlatt]; exact cube_possible) hopt (en := 0) hE ha htm hta (hcos tm b1) (hcos ta c1)

/-- C111: the resolution at (1,0,0) of the demo spectrometer, its mirror image and its reversal. -/
theorem mirror_case : ∃ M r0 M' r0' M'' r0'', CooperNathans.calculateAt (tas "Y,-Z,X" "-") ![1, 0, 0] (ksq2eng * (2 * π) ^ 2) (ksq2eng * (2 * π) ^ 2) = .ok (M, r0) ∧
    CooperNathans.calculateAt mirrored ![1, 0, 0] (ksq2eng * (2 * π) ^ 2) (ksq2eng * (2 * π) ^ 2) = .ok (M', r0') ∧
    CooperNathans.calculateAt (Spec.reversed (tas "Y,-Z,X" "-")) ![1, 0, 0] (ksq2eng * (2 * π) ^ 2) (ksq2eng * (2 * π) ^ 2) = .ok (M'', r0'') ∧
    (∀ x0 x1 x2 x3, qform M' ![x0, -x1, x2, x3] = qform M ![x0, x1, x2, x3]) ∧
    (∀ x0 x1 x2 x3, qform M'' ![x0, -x1, x2, -x3] = qform M ![x0, x1, x2, x3]) ∧ r0' = r0 ∧ r0'' = r0 := by
  obtain ⟨M, r0, h, _⟩ := reso100
  obtain ⟨a, ha, _⟩ := C68_in_plane (t := mirrored) (consistent "Y,-Z,X" "+") known rfl (by simp) (huberMode "+") (huberMode' "+") rfl rfl
    (by norm_num [Spec.Within, mirrored, tas]) (by norm_num [Spec.Within, mirrored, tas])
    (energies "Y,-Z,X" "+") (sensePlus "Y,-Z,X") k_val k_val big big (by rw [len100, mul_one]; exact big) closes
  obtain ⟨M', r0', h'⟩ := reso_sense (t := mirrored) (s := 1)
    ⟨⟨45, rfl, by norm_num⟩, ⟨30, rfl, by norm_num⟩, ⟨20, rfl, by norm_num⟩, ⟨30, rfl, by norm_num⟩,
      by intro i; norm_num [mirrored, tas], by intro i; norm_num [mirrored, tas]⟩ ha rfl (energies "Y,-Z,X" "+") rfl rfl (by norm_num) rfl rfl
  have hE : (Spec.reversed (tas "Y,-Z,X" "-")).getEiEf = .ok (ksq2eng * (2 * π) ^ 2, ksq2eng * (2 * π) ^ 2) := by
    simp [Spec.reversed, tas, Tas.getEiEf]
  obtain ⟨a, ha, _⟩ := C68_in_plane (t := Spec.reversed (tas "Y,-Z,X" "-")) (consistent "Y,-Z,X" "-") known rfl (by simp) (huberMode "-") (huberMode' "-")
    rfl rfl (by norm_num [Spec.Within, Spec.reversed, tas]) (by norm_num [Spec.Within, Spec.reversed, tas])
    hE (senseMinus "Y,-Z,X") k_val k_val big big (by rw [len100, mul_one]; exact big) closes
  obtain ⟨M'', r0'', h''⟩ := reso_sense (t := Spec.reversed (tas "Y,-Z,X" "-")) (s := -1)
    ⟨⟨20, rfl, by norm_num⟩, ⟨30, rfl, by norm_num⟩, ⟨45, rfl, by norm_num⟩, ⟨30, rfl, by norm_num⟩,
      by intro i; norm_num [Spec.reversed, tas], by intro i; norm_num [Spec.reversed, tas]⟩ ha rfl hE rfl rfl (by norm_num) rfl rfl
  have m := C111_mirror mirrored_image h h'
  have r := C111_reversed (by rw [sub_self]; exact energies _ _) h h''
  exact ⟨M, r0, M', r0', M'', r0'', h, h', h'', m.1, r.1, m.2, r.2⟩

end Demo

end Tavi
