import Verif.Props.Coarser
import Verif.Props.MountingDemo

/-! # A concrete case for C110: the spectrometer of `Demo` with its collimators opened and a worse sample -/

namespace Tavi

open Matrix Real
open Spec (IsRot PossibleCell len qform)

namespace Demo

/-- The collimators of `open2`: 40' in the plane, 120' vertically. -/
def wide : Collimators := { h := fun _ => 40, v := fun _ => 120 }

/-- The spectrometer `tas` with wider collimators, and with a monochromator and a sample of larger mosaic. -/
noncomputable def open2 : Tas :=
  { tas "Y,-Z,X" "-" with
    coll := wide, mono := { optics with mosaicH := some 60 },
    sample := { (tas "Y,-Z,X" "-").sample with mosaicH := 90, mosaicV := 100 } }

theorem coarser : Spec.Coarser (tas "Y,-Z,X" "-") open2 := by
  constructor
  · rfl
  · intro i; norm_num [tas, open2, wide]
  · intro i; norm_num [tas, open2, wide]
  · intro x x' h h'; cases h; cases h'; norm_num
  · intro x x' h h'; cases h; cases h'; norm_num
  · intro x x' h h'; cases h; cases h'; norm_num
  · intro x x' h h'; cases h; cases h'; norm_num
  · norm_num [tas, open2]
  · norm_num [tas, open2]
  · intro i; norm_num [tas]

/-- The calculation succeeds at (1,0,0) for every spectrometer with the crystals and the goniometer of `tas` and real optics. -/
theorem reso_like {t : Tas} (hopt : Spec.RealOptics t)
    (hsame : ∀ a, (tas "Y,-Z,X" "-").motorAngles ![1, 0, 0] = .ok a → t.motorAngles ![1, 0, 0] = .ok a)
    (hlatt : t.sample.latt = cube) (hE : t.fixedEf = (tas "Y,-Z,X" "-").fixedEf ∧ t.fixedEi = none)
    (hM : ∀ e, t.getThetaM e = (tas "Y,-Z,X" "-").getThetaM e) (hA : ∀ e, t.getThetaA e = (tas "Y,-Z,X" "-").getThetaA e) :
    ∃ M r0, CooperNathans.calculateAt t ![1, 0, 0] (ksq2eng * (2 * π) ^ 2) (ksq2eng * (2 * π) ^ 2) = .ok (M, r0) := by
  have hpi := Real.pi_pos
  obtain ⟨a, ha, _⟩ := reach100
  have hpos : 0 < ksq2eng * (2 * π) ^ 2 := by have := ksq2eng_pos; positivity
  obtain ⟨k, hk', _, _, hM', _, hA'⟩ := C20_bragg (tas "Y,-Z,X" "-") hpos (by norm_num [tas, optics]) (by norm_num [tas, optics])
    (sm := -1) (sa := -1) (by simp [tas, optics, MonoAna.senseVal]) (by simp [tas, optics, MonoAna.senseVal])
  rw [k_val] at hk'; cases hk'
  obtain ⟨tm, htm, b1, _⟩ := hM' (theta_demo _ rfl)
  obtain ⟨ta, hta, c1, _⟩ := hA' (theta_demo _ rfl)
  have hcos : ∀ x : ℝ, 2 * π / (2 * π) = 2 * 3.35416 * Real.sin (-1 * (x * π / 180)) → Real.cos (deg2rad x) ≠ 0 := by
    intro x hx h0
    rw [div_self (by positivity), neg_one_mul, Real.sin_neg] at hx
    have h1 := Real.sin_sq_add_cos_sq (deg2rad x)
    rw [h0] at h1
    have : x * π / 180 = deg2rad x := by unfold deg2rad; ring
    rw [this] at hx
    have hs : Real.sin (deg2rad x) = -(1 / (2 * 3.35416)) := by
      field_simp; linarith
    rw [hs] at h1; norm_num at h1
  refine C24_defined (by rw [hlatt]; exact cube_possible) hopt (en := 0) ?_ (hsame a ha) ((hM _).trans htm) ((hA _).trans hta)
    (hcos tm b1) (hcos ta c1)
  unfold Tas.getEiEf
  rw [hE.1, hE.2]
  simp [tas]

/-- C110: at (1,0,0) both spectrometers have a resolution; that of the coarser one falls off more slowly, and opening the collimators alone does
not lower the prefactor. -/
example : ∃ M r0 M' r0' M'' r0'', CooperNathans.calculateAt (tas "Y,-Z,X" "-") ![1, 0, 0] (ksq2eng * (2 * π) ^ 2) (ksq2eng * (2 * π) ^ 2) = .ok (M, r0) ∧
    CooperNathans.calculateAt open2 ![1, 0, 0] (ksq2eng * (2 * π) ^ 2) (ksq2eng * (2 * π) ^ 2) = .ok (M', r0') ∧
    CooperNathans.calculateAt { tas "Y,-Z,X" "-" with coll := wide } ![1, 0, 0] (ksq2eng * (2 * π) ^ 2) (ksq2eng * (2 * π) ^ 2) = .ok (M'', r0'') ∧
    (∀ x, qform M' x ≤ qform M x) ∧ r0 ≤ r0'' := by
  obtain ⟨M, r0, h, _⟩ := reso100
  obtain ⟨M', r0', h'⟩ := reso_like (t := open2)
    ⟨⟨60, rfl, by norm_num⟩, ⟨30, rfl, by norm_num⟩, ⟨20, rfl, by norm_num⟩, ⟨30, rfl, by norm_num⟩,
      by intro i; norm_num [open2, wide], by intro i; norm_num [open2, wide]⟩
    (fun a ha => ha) rfl ⟨rfl, rfl⟩ (fun _ => rfl) (fun _ => rfl)
  obtain ⟨M'', r0'', h''⟩ := reso_like (t := { tas "Y,-Z,X" "-" with coll := wide })
    ⟨⟨45, rfl, by norm_num⟩, ⟨30, rfl, by norm_num⟩, ⟨20, rfl, by norm_num⟩, ⟨30, rfl, by norm_num⟩,
      by intro i; norm_num [wide], by intro i; norm_num [wide]⟩
    (fun a ha => ha) rfl ⟨rfl, rfl⟩ (fun _ => rfl) (fun _ => rfl)
  exact ⟨M, r0, M', r0', M'', r0'', h, h', h'', (C110_coarser coarser h h').1,
    C110_intensity (c := wide) (fun i => by norm_num [tas, wide]) h h''⟩

end Demo

end Tavi
