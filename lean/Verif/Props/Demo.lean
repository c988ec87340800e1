import Verif.Props.Reach
import Verif.Props.UBFit
import Verif.Props.UBPlane
import Verif.Props.Batch
import Verif.Props.Cooper

/-! # Concrete cases meeting the hypotheses of the geometry and resolution theorems

One cubic crystal of lattice constant 1 on a spectrometer with `kf = 2π`, and four measured peaks. -/

namespace Tavi

open Matrix Real
open Spec (IsRot IsOrth PossibleCell IsAngleDeg len)

namespace Demo

def cube : Latt := ⟨1, 1, 1, 90, 90, 90⟩

theorem cos90 : Real.cos (90 * π / 180) = 0 := by
  rw [show 90 * π / 180 = π / 2 by ring, Real.cos_pi_div_two]

theorem cube_possible : PossibleCell cube := by
  constructor <;> norm_num [cube, cos90]

theorem cube_b : ∃ b, bMatFromLattice cube = .ok b ∧ bᵀ * b = 1 := by
  obtain ⟨b, hb, hg⟩ := C02_gram cube_possible
  refine ⟨b, hb, ?_⟩
  rw [hg]
  have : Spec.metric cube = 1 := by
    ext i j
    fin_cases i <;> fin_cases j <;> simp [Spec.metric, cube, cos90]
  rw [this, inv_one]

def conf : UBConf := { ubMat := some 1, planeNormal := some ![0, 1, 0], inPlaneRef := some ![0, 0, 1] }

noncomputable def optics : MonoAna := { mosaicH := some 45, mosaicV := some 30 }

/-- The spectrometer: final energy fixed to the one of `kf = 2π`. -/
noncomputable def tas (type : String) (sense : String) : Tas :=
  { fixedEf := some (ksq2eng * (2 * π) ^ 2), sample := { latt := cube, ubConf := some conf },
    goni := { type := type.toList, sense := some sense.toList }, mono := optics, ana := { optics with mosaicH := some 20 } }

theorem consistent (ty se : String) : Spec.Consistent (tas ty se).sample conf 1 := by
  obtain ⟨b, hb, hg⟩ := cube_b
  exact ⟨rfl, rfl, by simp, b, hb, by simpa using hg⟩

theorem known : Spec.UsesKnownConvention conf := Or.inr rfl

theorem energies (ty se : String) :
    (tas ty se).getEiEf = .ok (ksq2eng * (2 * π) ^ 2, ksq2eng * (2 * π) ^ 2) := by
  simp [tas, Tas.getEiEf]

theorem k_val : en2q (ksq2eng * (2 * π) ^ 2) = .ok (2 * π) := by
  have hk := ksq2eng_pos
  have hpi := Real.pi_pos
  unfold en2q
  rw [if_neg (not_lt.2 (by positivity)), mul_div_cancel_left₀ _ hk.ne', Real.sqrt_sq (by positivity)]

theorem len100 : len ((1 : M3) *ᵥ ![1, 0, 0]) = 1 := by simp [Spec.len]

theorem closes : Spec.Closes (2 * π) (2 * π) (2 * π * len ((1 : M3) *ᵥ ![1, 0, 0])) := by
  have hpi := Real.pi_pos
  rw [len100]
  constructor
  · simp; positivity
  · linarith

theorem big : (1e-6 : ℝ) ≤ 2 * π := by have := Real.two_le_pi; norm_num; linarith

theorem huberMode (se : String) : (tas "Y,-Z,X" se).goni.operatingMode = .ok "YZX".toList := by
  simp [tas, Goni.operatingMode, Goni.stackingOrder, Goni.mode, Goni.axes, splitOn, Goni.unsigned, stripChar]

theorem huberMode' (se : String) : (tas "Y,-Z,X" se).goni.mode = .ok none := by
  simp [tas, Goni.mode, Goni.axes, splitOn]

theorem bisectMode (se : String) : (tas "Y,-Z,Y,bisect" se).goni.operatingMode = .ok "YZYbisect".toList := by
  simp [tas, Goni.operatingMode, Goni.stackingOrder, Goni.mode, Goni.axes, splitOn, Goni.unsigned, stripChar]

theorem bisectMode' (se : String) : (tas "Y,-Z,Y,bisect" se).goni.mode = .ok (some "bisect".toList) := by
  simp [tas, Goni.mode, Goni.axes, splitOn]

theorem senseMinus (ty : String) : (tas ty "-").goni.senseVal = .ok (-1) := by
  simp [tas, Goni.senseVal]

theorem sensePlus (ty : String) : (tas ty "+").goni.senseVal = .ok 1 := by
  simp [tas, Goni.senseVal]

/-- The default Huber table reaches (1,0,0) elastically, without tilt. -/
theorem reach100 : ∃ a, (tas "Y,-Z,X" "-").motorAngles ![1, 0, 0] = .ok a ∧ a.sgl = some 0 ∧ a.sgu = some 0 ∧
    Spec.ObservedAt (tas "Y,-Z,X" "-").goni 1 (ksq2eng * (2 * π) ^ 2) (ksq2eng * (2 * π) ^ 2) ![1, 0, 0] a :=
  C68_in_plane (consistent _ _) known rfl (by simp) (huberMode _) (huberMode' _) rfl rfl
    (by norm_num [Spec.Within, tas]) (by norm_num [Spec.Within, tas])
    (energies _ _) (senseMinus _) k_val k_val big big (by rw [len100, mul_one]; exact big) closes

/-- C09: the request and the way back. -/
example : ∃ a, (tas "Y,-Z,X" "-").motorAngles ![1, 0, 0] = .ok a ∧ (tas "Y,-Z,X" "-").hklFromAngles a = .ok (some ![1, 0, 0]) := by
  obtain ⟨a, ha, h1, _⟩ := reach100
  refine ⟨a, ha, C09_huber_roundtrip_partial (consistent _ _) rfl (by simp [Spec.len]) (Or.inl (by simp)) (huberMode' _) ha ?_⟩
  intro x hx
  rw [h1] at hx; cases hx; norm_num

/-- C10: bisect mode reaches (1,0,0) in both senses; with "-" the way back is exact, with "+" it is inverted. -/
example : (∃ a, (tas "Y,-Z,Y,bisect" "-").motorAngles ![1, 0, 0] = .ok a ∧
      (tas "Y,-Z,Y,bisect" "-").hklFromAngles a = .ok (some ![1, 0, 0])) ∧
    (∃ a, (tas "Y,-Z,Y,bisect" "+").motorAngles ![1, 0, 0] = .ok a ∧
      (tas "Y,-Z,Y,bisect" "+").hklFromAngles a = .ok (some (-![1, 0, 0]))) := by
  constructor
  · obtain ⟨a, ha⟩ := C68_bisect (hkl := ![1, 0, 0]) (consistent "Y,-Z,Y,bisect" "-") known (bisectMode _) (bisectMode' _)
      (by intro m h1 h2; cases m <;> first | rfl | simp at h1 h2)
      (energies _ _) (senseMinus _) k_val k_val big big (by rw [len100, mul_one]; exact big) closes
    exact ⟨a, ha, C10_bisect_roundtrip_partial (consistent _ _) (bisectMode' _) rfl ha⟩
  · obtain ⟨a, ha⟩ := C68_bisect (hkl := ![1, 0, 0]) (consistent "Y,-Z,Y,bisect" "+") known (bisectMode _) (bisectMode' _)
      (by intro m h1 h2; cases m <;> first | rfl | simp at h1 h2)
      (energies _ _) (sensePlus _) k_val k_val big big (by rw [len100, mul_one]; exact big) closes
    exact ⟨a, ha, (C10_sense_plus_inverts (consistent _ _) (bisectMode' _) rfl ha).1⟩

/-- C11 fails on a real request: energy transfer equal to the final energy times three (`ki = 4π`), which reaches (1.5,0,0)... -/
theorem inelastic : ∃ a, (tas "Y,-Z,X" "-").motorAngles ![1.5, 0, 0] (ksq2eng * (4 * π) ^ 2 - ksq2eng * (2 * π) ^ 2) = .ok a ∧
    (tas "Y,-Z,X" "-").hklFromAngles a ≠ .ok (some ![1.5, 0, 0]) := by
  have hpi := Real.pi_pos
  have hk := ksq2eng_pos
  have he : (tas "Y,-Z,X" "-").getEiEf none none (ksq2eng * (4 * π) ^ 2 - ksq2eng * (2 * π) ^ 2) =
      .ok (ksq2eng * (4 * π) ^ 2, ksq2eng * (2 * π) ^ 2) := by
    simp [tas, Tas.getEiEf]
  have hk4 : en2q (ksq2eng * (4 * π) ^ 2) = .ok (4 * π) := by
    unfold en2q
    rw [if_neg (not_lt.2 (by positivity)), mul_div_cancel_left₀ _ hk.ne', Real.sqrt_sq (by positivity)]
  have hl : len ((1 : M3) *ᵥ ![1.5, 0, 0]) = 1.5 := by
    simp [Spec.len]
    rw [Real.sqrt_eq_iff_mul_self_eq (by norm_num) (by norm_num)]; norm_num
  have b4 : (1e-6 : ℝ) ≤ 4 * π := by have := big; linarith
  obtain ⟨a, ha, _, _, o⟩ := C68_in_plane (t := tas "Y,-Z,X" "-") (hkl := ![1.5, 0, 0]) (consistent _ _) known rfl (by simp) (huberMode _)
    (huberMode' _) rfl rfl (by norm_num [Spec.Within, tas]) (by norm_num [Spec.Within, tas])
    he (senseMinus _) hk4 k_val b4 big (by rw [hl]; have := big; nlinarith)
    (by
      rw [hl]
      constructor
      · rw [abs_of_pos (by linarith)]; linarith
      · linarith)
  refine ⟨a, ha, C11_inelastic_fails rfl rfl (Or.inl rfl) ?_ he o⟩
  have : ksq2eng * (4 * π) ^ 2 - ksq2eng * (2 * π) ^ 2 = 12 * (ksq2eng * π ^ 2) := by ring
  rw [this]; positivity

/-! ## Measured peaks -/

theorem k_one : en2q ksq2eng = .ok 1 := by
  have hk := ksq2eng_pos
  unfold en2q
  rw [if_neg (not_lt.2 hk.le), div_self hk.ne', Real.sqrt_one]

theorem rad90 : deg2rad 90 = π / 2 := by unfold deg2rad; ring
theorem radm90 : deg2rad (-90) = -(π / 2) := by unfold deg2rad; ring
theorem rad0 : deg2rad 0 = 0 := by unfold deg2rad; ring

theorem q90 : qLab ksq2eng ksq2eng 90 = .ok ![-1, 0, 1] := by
  unfold qLab
  rw [k_one, py_bind_ok, py_bind_ok, py_pure, rad90, rad0]
  simp

theorem huber_rMat (w l u : ℝ) (tt : ℝ) : ({} : Goni).rMat ⟨tt, some w, some l, some u, none, none⟩ =
    .ok (rotY (w * 1) * (rotZ (l * -1) * rotX (u * 1))) := by
  unfold Goni.rMat
  rw [default_senses, py_bind_ok]
  dsimp only
  rw [default_mode, py_bind_ok, if_pos rfl]
  rfl

noncomputable def pk (hkl : V3) (w l : ℝ) : Peak := ⟨hkl, ⟨90, some w, some l, some 0, none, none⟩⟩

theorem measured1 (h : V3) : Spec.MeasuredQ {} ksq2eng ksq2eng (pk h 0 0) ![-1, 0, 1] := by
  refine ⟨_, _, huber_rMat _ _ _ _, q90, ?_⟩
  apply ext3 <;> simp [mulVec3, rotX, rotY, rotZ, rad0]

theorem measured2 (h : V3) : Spec.MeasuredQ {} ksq2eng ksq2eng (pk h 90 0) ![-1, 0, -1] := by
  refine ⟨_, _, huber_rMat _ _ _ _, q90, ?_⟩
  apply ext3 <;> simp [mulVec3, rotX, rotY, rotZ, rad0, rad90]

theorem measured3 (h : V3) : Spec.MeasuredQ {} ksq2eng ksq2eng (pk h 0 90) ![0, -1, 1] := by
  refine ⟨_, _, huber_rMat _ _ _ _, q90, ?_⟩
  apply ext3 <;> simp [mulVec3, rotX, rotY, rotZ, rad0, radm90]

/-- C14: two peaks at different sample rotations give an orientation. -/
example : ∃ U, findUFromTwoPeaks (pk ![1, 0, 0] 0 0) (pk ![0, 1, 0] 90 0) 1 ({} : Goni).rMatInv ksq2eng ksq2eng = .ok U ∧ IsRot U := by
  obtain ⟨U, h, hr, _⟩ := C14_two_peaks (b := 1) (by simp) (p1 := pk ![1, 0, 0] 0 0) (p2 := pk ![0, 1, 0] 90 0)
    (by intro h; have := congrFun h 2; simp [pk] at this) (measured1 _) (measured2 _)
    (by intro h; have := congrFun h 1; simp at this; norm_num at this)
  exact ⟨U, h, hr⟩

noncomputable def lab : Tas := { fixedEf := some ksq2eng, sample := { latt := cube }, goni := {} }

theorem lab_energies : lab.getEiEf = .ok (ksq2eng, ksq2eng) := by simp [lab, Tas.getEiEf]

/-- C15: three peaks in right-handed order; in the exchanged order the same three peaks are refused. -/
example : (∃ c s, lab.calculateUb false [pk ![1, 0, 0] 0 0, pk ![0, 1, 0] 90 0, pk ![0, 0, 1] 0 90] none = .ok (some c, s)) ∧
    lab.calculateUb false [pk ![0, 1, 0] 90 0, pk ![1, 0, 0] 0 0, pk ![0, 0, 1] 0 90] none = .ok (none, lab.sample) := by
  have hd : (1e-6 : ℝ) ≤ (pk ![1, 0, 0] 0 0).hkl ⬝ᵥ cross (pk ![0, 1, 0] 90 0).hkl (pk ![0, 0, 1] 0 90).hkl := by
    rw [dot3]; simp [pk]; norm_num
  constructor
  · obtain ⟨c, s, _, _, h, _⟩ := C15_three_peaks_partial (pl := none) lab_energies hd (measured1 _) (measured2 _) (measured3 _)
      (by rw [dot3]; simp)
    exact ⟨c, s, h⟩
  · exact C15_order_matters lab_energies hd

/-- C16: four peaks, one of them contradicting another, have a unique best UB matrix. -/
example : ∃ ub, findUbFromMultiplePeaks [pk ![1, 0, 0] 0 0, pk ![0, 1, 0] 90 0, pk ![0, 0, 1] 0 90, pk ![1, 0, 0] 90 0]
    ({} : Goni).rMatInv ksq2eng ksq2eng = .ok ub := by
  have hm : ∀ p ∈ [pk ![1, 0, 0] 0 0, pk ![0, 1, 0] 90 0, pk ![0, 0, 1] 0 90, pk ![1, 0, 0] 90 0],
      ∃ s, Spec.MeasuredQ {} ksq2eng ksq2eng p s := by
    intro p hp
    simp only [List.mem_cons, List.not_mem_nil, or_false] at hp
    rcases hp with rfl | rfl | rfl | rfl
    exacts [⟨_, measured1 _⟩, ⟨_, measured2 _⟩, ⟨_, measured3 _⟩, ⟨_, measured2 _⟩]
  classical
  obtain ⟨ub, h, _⟩ := C16_minimiser (s := fun p => if h : ∃ s, Spec.MeasuredQ {} ksq2eng ksq2eng p s then h.choose else 0)
    (fun p hp => by
      have h := hm p hp
      simp only [dif_pos h]
      exact h.choose_spec)
    (by
      intro w hw
      have a1 := hw (pk ![1, 0, 0] 0 0) (by simp)
      have a2 := hw (pk ![0, 1, 0] 90 0) (by simp)
      have a3 := hw (pk ![0, 0, 1] 0 90) (by simp)
      simp only [dot3, pk] at a1 a2 a3
      simp at a1 a2 a3
      apply ext3 <;> simpa)
  exact ⟨ub, h⟩

/-- C17: a single peak with the scattering plane. -/
example : ∃ U, findUFromOnePeak (pk ![1, 0, 0] 0 0) ![1, 0, 0] ![0, 1, 0] 1 ({} : Goni).rMatInv ksq2eng ksq2eng = .ok U ∧ IsRot U := by
  obtain ⟨U, R, h, hr, _⟩ := C17_one_peak_partial (x := 1) (y := 0) (b := 1) (p := pk ![1, 0, 0] 0 0) (v1 := ![1, 0, 0]) (v2 := ![0, 1, 0])
    (by simp) (by intro h; have := congrFun h 2; simp at this) (by rw [dot3]; simp)
    (by simp [pk]) (by simp only [dot3, pk]; simp) (measured1 _) (by intro h; have := congrFun h 0; simp at this)
  exact ⟨U, h, hr⟩

/-! ## Resolution -/

theorem theta_demo (m : MonoAna) (hd : m.dSpacing = 3.35416) :
    2 * π / (2 * π) ≤ 2 * m.dSpacing := by
  rw [hd, div_self (by positivity)]; norm_num

/-- C24: the resolution of the demo spectrometer at (1,0,0) is defined, positive definite. -/
theorem reso100 : ∃ M r0, CooperNathans.calculateAt (tas "Y,-Z,X" "-") ![1, 0, 0] (ksq2eng * (2 * π) ^ 2) (ksq2eng * (2 * π) ^ 2) = .ok (M, r0) ∧
    Spec.SPD M ∧ 0 ≤ r0 := by
  have hpi := Real.pi_pos
  obtain ⟨a, ha, _⟩ := reach100
  have hpos : 0 < ksq2eng * (2 * π) ^ 2 := by have := ksq2eng_pos; positivity
  obtain ⟨k, hk, _, _, hM, _, hA⟩ := C20_bragg (tas "Y,-Z,X" "-") hpos (by norm_num [tas, optics]) (by norm_num [tas, optics])
    (sm := -1) (sa := -1) (by simp [tas, optics, MonoAna.senseVal]) (by simp [tas, optics, MonoAna.senseVal])
  rw [k_val] at hk; cases hk
  obtain ⟨tm, htm, b1, b2, b3, b4⟩ := hM (theta_demo _ rfl)
  obtain ⟨ta, hta, c1, c2, c3, c4⟩ := hA (theta_demo _ rfl)
  have hcos : ∀ x : ℝ, 2 * π / (2 * π) = 2 * 3.35416 * Real.sin (-1 * (x * π / 180)) → Real.cos (deg2rad x) ≠ 0 := by
    intro x hx h0
    rw [div_self (by positivity), neg_one_mul, Real.sin_neg] at hx
    have h1 := Real.sin_sq_add_cos_sq (deg2rad x)
    rw [h0] at h1
    have : x * π / 180 = deg2rad x := by unfold deg2rad; ring
    rw [this] at hx
    have hs : Real.sin (deg2rad x) = -(1 / (2 * 3.35416)) := by
      field_simp; linarith
    rw [hs] at h1; norm_num at h1
  obtain ⟨M, r0, h⟩ := C24_defined cube_possible
    ⟨⟨45, rfl, by norm_num⟩, ⟨30, rfl, by norm_num⟩, ⟨20, rfl, by norm_num⟩, ⟨30, rfl, by norm_num⟩,
      by intro i; norm_num [tas], by intro i; norm_num [tas]⟩
    (energies _ _) ha htm hta (hcos tm b1) (hcos ta c1)
  obtain ⟨h1, h2⟩ := C24_positive h
  exact ⟨M, r0, h, h1, h2⟩

/-! ## Projection axes -/

theorem _root_.Tavi.angleVec_ok {u v : V3} (hu : u ≠ 0) (hv : v ≠ 0) : ∃ t, angleVec u v = .ok t := by
  have hn : norm3 u ≠ 0 := (norm3_pos hu).ne'
  have hm : norm3 v ≠ 0 := (norm3_pos hv).ne'
  obtain ⟨h1, h2⟩ := cos_quot hu hv
  rw [← div_div] at h1 h2
  unfold angleVec
  rw [pyDiv_ok hn, py_bind_ok, pyDiv_ok hm, py_bind_ok]
  unfold pyArccos
  rw [if_neg (by push Not; exact ⟨h1, h2⟩)]
  exact ⟨_, rfl⟩

theorem _root_.Tavi.inSpace_triple (ra rb rc p1 p2 p3 : V3) :
    Spec.inSpace ra rb rc p1 ⬝ᵥ cross (Spec.inSpace ra rb rc p2) (Spec.inSpace ra rb rc p3) =
      (p1 ⬝ᵥ cross p2 p3) * (ra ⬝ᵥ cross rb rc) := by
  simp only [dot3, Spec.inSpace, cross]
  simp
  ring

theorem _root_.Tavi.triple_ne {a b c : V3} (h : a ⬝ᵥ cross b c ≠ 0) : a ≠ 0 ∧ b ≠ 0 ∧ c ≠ 0 := by
  refine ⟨?_, ?_, ?_⟩ <;> rintro rfl <;> apply h <;> simp only [dot3, cross] <;> simp

theorem _root_.Tavi.motorAngles_rMat {t : Tas} {hkl : V3} {en : ℝ} {a : MotorAngles} (ha : t.motorAngles hkl en = .ok a) :
    ∃ R, t.goni.rMat a = .ok R := by
  rw [C06_success_iff]
  obtain ⟨_, _, _, _, _, _, _, _, _, _, ⟨_, r, _, h⟩ | ⟨_, h⟩⟩ := motorAngles_cases ha
  · obtain ⟨_, _, _, _, hm, rfl, _⟩ := anglesFromRMat_cases h
    exact Or.inl ⟨hm, rfl, rfl, rfl⟩
  · obtain ⟨_, _, _, _, _, _, hm, _, _, rfl, _⟩ := bisect_cases h
    exact Or.inr ⟨hm, rfl, rfl, rfl⟩

/-- **C27** (existence) At every position the spectrometer reaches, every right-handed projection with the energy on one of its
axes gives an ellipsoid. -/
theorem _root_.Tavi.C27_defined {t : Tas} {hkl : V3} {en r0 : ℝ} {ax : List AxisItem} {p1 p2 p3 ra rb rc : V3} {n : ℕ} {m : Mat 4 4}
    {a : MotorAngles} (hcell : PossibleCell t.sample.latt) (ha : t.motorAngles hkl en = .ok a)
    (hv : threeVecs ax = .ok (p1, p2, p3)) (hen : enIndex ax = .ok n)
    (hr : reciprocalSpaceVectors t.sample.latt = .ok (ra, rb, rc))
    (hright : 1e-8 ≤ Spec.inSpace ra rb rc p1 ⬝ᵥ cross (Spec.inSpace ra rb rc p2) (Spec.inSpace ra rb rc p3)) :
    ∃ e, mkEllipsoid t hkl en (some ax) m r0 = .ok e := by
  have hpos : (0 : ℝ) < 1e-8 := by norm_num
  have hne : Spec.inSpace ra rb rc p1 ⬝ᵥ cross (Spec.inSpace ra rb rc p2) (Spec.inSpace ra rb rc p3) ≠ 0 := by
    intro h; rw [h] at hright; linarith
  have hp : p1 ⬝ᵥ cross p2 p3 ≠ 0 := by
    intro h; apply hne; rw [inSpace_triple, h, zero_mul]
  obtain ⟨n1, n2, n3⟩ := triple_ne hne
  obtain ⟨b, hb, _⟩ := C02_gram hcell
  obtain ⟨R, hR⟩ := motorAngles_rMat ha
  obtain ⟨tt, psi, ei, ef, c, _, hpsi, _, hc, ⟨ubm, hubm⟩, _⟩ := motorAngles_cases ha
  obtain ⟨ub, hub⟩ : ∃ ub, c.ubMat = some ub := by
    unfold UBConf.getUbMat at hubm
    split at hubm
    · cases hubm
    · rename_i x hx; exact ⟨x, hx⟩
  have hconv : ∃ conv, hklToLocal t hkl en = .ok conv := by
    unfold hklToLocal
    rw [ha, py_bind_ok, hR, py_bind_ok, hc, need_some, py_bind_ok, hub, need_some, py_bind_ok, hpsi, py_bind_ok]
    exact ⟨_, rfl⟩
  obtain ⟨conv, hconv⟩ := hconv
  have hcust : ∃ r, projCustom t hkl ax conv m = .ok r := by
    obtain ⟨a12, e12⟩ := angleVec_ok n1 n2
    obtain ⟨a23, e23⟩ := angleVec_ok n2 n3
    obtain ⟨a31, e31⟩ := angleVec_ok n3 n1
    unfold projCustom
    rw [hv, py_bind_ok]
    dsimp only
    rw [hr, py_bind_ok]
    dsimp only
    rw [if_neg (by rw [not_lt]; exact hright), if_neg (by rw [not_lt]; exact hright.trans (le_abs_self _))]
    have hw : ∃ wi, matWInv p1 p2 p3 = .ok wi := by
      unfold matWInv; dsimp only; rw [if_neg hp]; exact ⟨_, rfl⟩
    obtain ⟨wi, hw⟩ := hw
    rw [hw, py_bind_ok]
    change ∃ r, (angleVec (Spec.inSpace ra rb rc p1) (Spec.inSpace ra rb rc p2) >>= _) = Except.ok r
    rw [e12, py_bind_ok]
    change ∃ r, (angleVec (Spec.inSpace ra rb rc p2) (Spec.inSpace ra rb rc p3) >>= _) = Except.ok r
    rw [e23, py_bind_ok]
    change ∃ r, (angleVec (Spec.inSpace ra rb rc p3) (Spec.inSpace ra rb rc p1) >>= _) = Except.ok r
    rw [e31, py_bind_ok, hen, py_bind_ok]
    exact ⟨_, rfl⟩
  have hhkl : ∃ r, projHkl t hkl conv m = .ok r := by
    obtain ⟨_, _, _, P, _, hP, _⟩ := C03_reciprocal_params hcell
    unfold projHkl
    rw [hP, py_bind_ok]
    exact ⟨_, rfl⟩
  obtain ⟨r1, hcust⟩ := hcust
  obtain ⟨r2, hhkl⟩ := hhkl
  unfold mkEllipsoid frameOf
  change ∃ e, (bMatFromLattice t.sample.latt >>= _) = Except.ok e
  rw [hb, py_bind_ok]
  dsimp only
  unfold projectToFrame
  rw [hconv, py_bind_ok]
  split
  · rw [hhkl, py_bind_ok, py_bind_ok]; exact ⟨_, rfl⟩
  · rw [hcust, py_bind_ok, py_bind_ok]; exact ⟨_, rfl⟩

theorem cube_recip : reciprocalSpaceVectors cube = .ok (![2 * π, 0, 0], ![0, 2 * π, 0], ![0, 0, 2 * π]) := by
  have hv : vAbg 90 90 90 = .ok 1 := by
    unfold vAbg pySqrt
    rw [rad90, Real.cos_pi_div_two]
    norm_num
  have hs : realSpaceVectors cube = .ok (![1, 0, 0], ![0, 1, 0], ![0, 0, 1]) := by
    unfold realSpaceVectors
    simp only [cube, hv, py_bind_ok, rad90, Real.cos_pi_div_two, Real.sin_pi_div_two]
    simp [pyDiv]
  unfold reciprocalSpaceVectors
  rw [hs]
  simp only [cube, hv, py_bind_ok, mul_one]
  simp [pyDiv, cross]

/-- **C27** fails on a real request: with axes (energy, (1,0,0), (1,1,0), (0,0,1)) on a cubic crystal the angle drawn between
(1,0,0) and (1,1,0) is 90° to within 0.005°, but it is 45°. -/
theorem _root_.Tavi.C27_angle_wrong : ∃ (t : Tas) (e : Ellipsoid) (m : Mat 4 4) (r0 : ℝ) (ra rb rc : V3),
    Spec.SPD m ∧ mkEllipsoid t ![1, 0, 0] 0
      (some (List.ofFn ![.name "en".toList, .vec ![1, 0, 0], .vec ![1, 1, 0], .vec ![0, 0, 1]])) m r0 = .ok e ∧
    reciprocalSpaceVectors t.sample.latt = .ok (ra, rb, rc) ∧
    IsAngleDeg (Spec.inSpace ra rb rc ![1, 0, 0]) (Spec.inSpace ra rb rc ![1, 1, 0]) 45 ∧
    ∀ proj origin el, getEllipse e 1 2 proj origin = .ok el → |el.angle - 90| ≤ 0.005 := by
  have hpi := Real.pi_pos
  obtain ⟨a, ha, _⟩ := reach100
  obtain ⟨M, r0, _, hM, _⟩ := reso100
  obtain ⟨e, he⟩ := C27_defined (t := tas "Y,-Z,X" "-") (m := M) (r0 := r0) (p1 := ![1, 0, 0]) (p2 := ![1, 1, 0]) (p3 := ![0, 0, 1]) (n := 0)
    (ax := List.ofFn ![.name "en".toList, .vec ![1, 0, 0], .vec ![1, 1, 0], .vec ![0, 0, 1]]) cube_possible ha
    (by rw [ofFn4]; rfl) (by rw [ofFn4]; simp [enIndex, List.findIdx_cons]) cube_recip
    (by
      rw [inSpace_triple]
      simp only [dot3, cross]
      simp
      have := Real.two_le_pi
      nlinarith [mul_pos hpi hpi, mul_pos (mul_pos hpi hpi) hpi])
  refine ⟨_, e, M, r0, _, _, _, hM, he, cube_recip, ?_, ?_⟩
  · refine ⟨by norm_num, by norm_num, ?_⟩
    have e1 : len (Spec.inSpace ![2 * π, 0, 0] ![0, 2 * π, 0] ![0, 0, 2 * π] ![1, 0, 0]) = 2 * π := by
      simp [Spec.len, Spec.inSpace, Real.sqrt_sq (show 0 ≤ 2 * π by positivity)]
    have e2 : len (Spec.inSpace ![2 * π, 0, 0] ![0, 2 * π, 0] ![0, 0, 2 * π] ![1, 1, 0]) = 2 * π * √2 := by
      have : (0 : ℝ) ≤ √2 := Real.sqrt_nonneg 2
      simp [Spec.len, Spec.inSpace]
      rw [Real.sqrt_eq_iff_mul_self_eq (by positivity) (by positivity)]
      have := Real.mul_self_sqrt (show (0:ℝ) ≤ 2 by norm_num)
      linear_combination (-4 * π ^ 2) * this
    rw [e1, e2, show 45 * π / 180 = π / 4 by ring, Real.cos_pi_div_four]
    simp [Spec.inSpace]
    have := Real.mul_self_sqrt (show (0:ℝ) ≤ 2 by norm_num)
    linear_combination (-2 * π ^ 2) * this
  · obtain ⟨ra, rb, rc, th12, th23, hr, _, h23, hall⟩ := C27_angle_energy_first (t := tas "Y,-Z,X" "-") cube_possible he
    change reciprocalSpaceVectors cube = _ at hr
    rw [cube_recip] at hr
    cases hr
    intro proj origin el hel
    have := (hall proj origin el).1 hel
    have h90 : IsAngleDeg (Spec.inSpace ![2 * π, 0, 0] ![0, 2 * π, 0] ![0, 0, 2 * π] ![1, 1, 0])
        (Spec.inSpace ![2 * π, 0, 0] ![0, 2 * π, 0] ![0, 0, 2 * π] ![0, 0, 1]) 90 := by
      refine ⟨by norm_num, by norm_num, ?_⟩
      rw [cos90]
      simp [Spec.inSpace]
    rwa [isAngleDeg_unique (by intro h; have := congrFun h 0; simp [Spec.inSpace] at this)
      (by intro h; have := congrFun h 2; simp [Spec.inSpace] at this) h23 h90] at this

/-! ## A batch with a failing position -/

theorem accepted : Spec.Accepted (tas "Y,-Z,X" "-") := by
  constructor
  · norm_num [Tas.validateReso, tas, optics, requirePositive, need, checkSense, requireAllPositive]
  · have : ubMatrixToUv 1 = .ok (![0, 0, 1], ![1, 0, 0]) := by
      unfold ubMatrixToUv
      rw [inv3_ok (by simp), inv_one, py_bind_ok]
      simp
    unfold Tas.describe Tas.uv
    dsimp only [tas, conf]
    rw [this]
    rfl

/-- C28: (1,0,0) succeeds, (5,0,0) does not close; the batch has one result and one `None` with one message. -/
example : ∃ e, (tas "Y,-Z,X" "-").cooperNathans (.many [(![1, 0, 0], 0), (![5, 0, 0], 0)]) none =
    .ok (.tuple [some (.finite e), none], [.valueError]) := by
  have hpi := Real.pi_pos
  obtain ⟨M, r0, hM, _⟩ := reso100
  obtain ⟨b, hb, hg⟩ := cube_b
  set E := ksq2eng * (2 * π) ^ 2 with hE
  have h1 : ∃ e, (tas "Y,-Z,X" "-").resoAt none (![1, 0, 0], E, E) = .ok e := by
    unfold Tas.resoAt
    rw [hM, py_bind_ok]
    unfold mkEllipsoid
    change ∃ e, (bMatFromLattice cube >>= _) = Except.ok e
    rw [hb, py_bind_ok]
    exact ⟨_, rfl⟩
  obtain ⟨e, h1⟩ := h1
  have h2 : (tas "Y,-Z,X" "-").resoAt none (![5, 0, 0], E, E) = .error .valueError := by
    have hl : len ((1 : M3) *ᵥ ![5, 0, 0]) = 5 := by simp [Spec.len]
    have hQe : qNormFromHkl ![5, 0, 0] b = 2 * π * 5 := by
      rw [qLab_norm_eq, gram_norm (B := 1) (by simpa using hg), norm3_eq_len, hl]
    have hen : (tas "Y,-Z,X" "-").getEiEf none none (E - E) = .ok (E, E) := by rw [sub_self]; exact energies _ _
    have hno := (C13_closes_iff (t := tas "Y,-Z,X" "-") (hkl := ![5, 0, 0]) hb hen (senseMinus _) k_val k_val big big
      (by rw [hQe]; have := big; linarith)).2
      (by rw [hQe]; rintro ⟨_, h⟩; linarith)
    obtain ⟨B, _, _, hq⟩ := C02_q_norm (s := (tas "Y,-Z,X" "-").sample) cube_possible ![5, 0, 0]
    have hkE : en2q E = .ok (2 * π) := k_val
    have hma : (tas "Y,-Z,X" "-").motorAngles ![5, 0, 0] (E - E) = .error .valueError := by
      unfold Tas.motorAngles; rw [hno.1]; rfl
    unfold Tas.resoAt CooperNathans.calculateAt
    dsimp only
    rw [hq, py_bind_ok, hkE, py_bind_ok, py_bind_ok, hma]
    rfl
  refine ⟨e, ?_⟩
  unfold Tas.cooperNathans
  rw [accepted.1, py_bind_ok, accepted.2, py_bind_ok]
  have hl : (tas "Y,-Z,X" "-").hkleiefList (HkleArg.many [(![1, 0, 0], 0), (![5, 0, 0], 0)]).toList =
      .ok [(![1, 0, 0], E, E), (![5, 0, 0], E, E)] := by
    unfold Tas.hkleiefList HkleArg.toList
    simp [energies, hE]
  rw [hl, py_bind_ok]
  simp [List.foldlM_cons, resoStep, h1, h2, caught, packReso]

end Demo

end Tavi
