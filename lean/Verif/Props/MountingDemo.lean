import Verif.Props.Mounting

/-! # Concrete cases for C109: the cubic crystal of `Demo` mounted two ways, and equivalent reflections of one mounting -/

namespace Tavi

open Matrix Real
open Spec (IsRot IsOrth PossibleCell IsAngleDeg len hklOf enOf qform)

namespace Demo

/-- A quarter turn about the vertical. -/
def quarter : M3 := !![0, 0, 1; 0, 1, 0; -1, 0, 0]

theorem quarter_rot : IsRot quarter := by
  constructor
  · show quarterᵀ * quarter = 1
    ext i j
    fin_cases i <;> fin_cases j <;> simp [quarter, Matrix.mul_apply, Fin.sum_univ_three]
  · simp [quarter, Matrix.det_fin_three]

/-- The crystal of `tas` turned a quarter about the vertical. -/
def conf2 : UBConf := { ubMat := some quarter, planeNormal := some ![0, 1, 0], inPlaneRef := some ![1, 0, 0] }

noncomputable def tas2 : Tas := { tas "Y,-Z,X" "-" with sample := { latt := cube, ubConf := some conf2 } }

theorem turned : Spec.TurnedBy quarter conf conf2 := by
  refine ⟨?_, ?_, ?_⟩
  · show some quarter = some (quarter * 1)
    rw [mul_one]
  · show some (![0, 1, 0] : V3) = some (quarter *ᵥ ![0, 1, 0])
    congr 1
    apply ext3 <;> simp [quarter, mulVec3]
  · show some (![1, 0, 0] : V3) = some (quarter *ᵥ ![0, 0, 1])
    congr 1
    apply ext3 <;> simp [quarter, mulVec3]

theorem consistent2 : Spec.Consistent tas2.sample conf2 quarter := by
  obtain ⟨b, hb, hg⟩ := cube_b
  exact ⟨rfl, rfl, by rw [quarter_rot.2]; exact one_ne_zero, b, hb, by rw [hg]; exact quarter_rot.1.symm⟩

/-- Reflections of length 1 in the plane are reached, and have a resolution. -/
theorem reso_in_plane {t : Tas} {c : UBConf} {ub : M3} {hkl : V3} (ht : t = { tas "Y,-Z,X" "-" with sample := { latt := cube, ubConf := some c } })
    (hcons : Spec.Consistent t.sample c ub) (hk : Spec.UsesKnownConvention c) (hn : c.planeNormal = some ![0, 1, 0])
    (hin : (ub *ᵥ hkl) 1 = 0) (hlen : len (ub *ᵥ hkl) = 1) :
    ∃ e, t.resoAt (some hklAxes) (hkl, ksq2eng * (2 * π) ^ 2, ksq2eng * (2 * π) ^ 2) = .ok e ∧
      ∀ a x, t.motorAngles hkl (ksq2eng * (2 * π) ^ 2 - ksq2eng * (2 * π) ^ 2) = .ok a → a.sgl = some x → |x| ≠ 90 := by
  have hpi := Real.pi_pos
  have hE : t.getEiEf = .ok (ksq2eng * (2 * π) ^ 2, ksq2eng * (2 * π) ^ 2) := by rw [ht]; exact energies "Y,-Z,X" "-"
  have hm1 : t.goni.operatingMode = .ok "YZX".toList := by rw [ht]; exact huberMode "-"
  have hm2 : t.goni.mode = .ok none := by rw [ht]; exact huberMode' "-"
  have hse : t.goni.senseVal = .ok (-1) := by rw [ht]; exact senseMinus "Y,-Z,X"
  obtain ⟨a, ha, h1, _⟩ := C68_in_plane (hkl := hkl) hcons hk hn hin hm1 hm2 (by rw [ht]; rfl) (by rw [ht]; rfl)
    (by rw [ht]; norm_num [Spec.Within, tas]) (by rw [ht]; norm_num [Spec.Within, tas])
    hE hse k_val k_val big big (by rw [hlen, mul_one]; exact big)
    (by rw [hlen, mul_one]; constructor
        · simp; positivity
        · linarith)
  have hpos : 0 < ksq2eng * (2 * π) ^ 2 := by have := ksq2eng_pos; positivity
  obtain ⟨k, hk', _, _, hM, _, hA⟩ := C20_bragg (tas "Y,-Z,X" "-") hpos (by norm_num [tas, optics]) (by norm_num [tas, optics])
    (sm := -1) (sa := -1) (by simp [tas, optics, MonoAna.senseVal]) (by simp [tas, optics, MonoAna.senseVal])
  rw [k_val] at hk'; cases hk'
  obtain ⟨tm, htm, b1, b2, b3, b4⟩ := hM (theta_demo _ rfl)
  obtain ⟨ta, hta, c1, c2, c3, c4⟩ := hA (theta_demo _ rfl)
  have hcos : ∀ x : ℝ, 2 * π / (2 * π) = 2 * 3.35416 * Real.sin (-1 * (x * π / 180)) → Real.cos (deg2rad x) ≠ 0 := by
    intro x hx h0
    rw [div_self (by positivity), neg_one_mul, Real.sin_neg] at hx
    have h1 := Real.sin_sq_add_cos_sq (deg2rad x)
    rw [h0] at h1
    have : x * π / 180 = deg2rad x := by unfold deg2rad; ring
    rw [this] at hx
    have hs : Real.sin (deg2rad x) = -(1 / (2 * 3.35416)) := by
      field_simp; linarith
    rw [hs] at h1; norm_num at h1
  have hcell : PossibleCell t.sample.latt := by rw [ht]; exact cube_possible
  obtain ⟨M, r0, h⟩ := C24_defined hcell
    (by rw [ht]; exact ⟨⟨45, rfl, by norm_num⟩, ⟨30, rfl, by norm_num⟩, ⟨20, rfl, by norm_num⟩, ⟨30, rfl, by norm_num⟩,
      by intro i; norm_num [tas], by intro i; norm_num [tas]⟩)
    hE ha (by rw [ht]; exact htm) (by rw [ht]; exact hta) (hcos tm b1) (hcos ta c1)
  have ha0 : t.motorAngles hkl (ksq2eng * (2 * π) ^ 2 - ksq2eng * (2 * π) ^ 2) = .ok a := by rw [sub_self]; exact ha
  obtain ⟨e, he⟩ := C27_defined (t := t) (m := M) (r0 := r0) (p1 := ![1, 0, 0]) (p2 := ![0, 1, 0]) (p3 := ![0, 0, 1]) (n := 3)
    (ax := hklAxes) hcell ha0 rfl (by simp [hklAxes, enIndex, List.findIdx_cons]) (by rw [ht]; exact cube_recip)
    (by
      rw [inSpace_triple]
      simp only [dot3, cross]
      simp
      have := Real.two_le_pi
      nlinarith [mul_pos hpi hpi, mul_pos (mul_pos hpi hpi) hpi])
  refine ⟨e, ?_, ?_⟩
  · unfold Tas.resoAt
    dsimp only
    rw [h, py_bind_ok]
    exact he
  · intro a' x hx hs
    rw [ha0] at hx; cases hx
    rw [h1] at hs; cases hs
    norm_num

/-- C109: the crystal and the turned crystal have the same resolution at (1,0,0). -/
example : ∃ e e', (tas "Y,-Z,X" "-").resoAt (some hklAxes) (![1, 0, 0], ksq2eng * (2 * π) ^ 2, ksq2eng * (2 * π) ^ 2) = .ok e ∧
    tas2.resoAt (some hklAxes) (![1, 0, 0], ksq2eng * (2 * π) ^ 2, ksq2eng * (2 * π) ^ 2) = .ok e' ∧
    e'.r0 = e.r0 ∧ ∀ x, qform e'.mat x = qform e.mat x := by
  obtain ⟨e, he, hl⟩ := reso_in_plane (hkl := ![1, 0, 0]) (t := tas "Y,-Z,X" "-") rfl (consistent _ _) known rfl (by simp) len100
  obtain ⟨e', he', hl'⟩ := reso_in_plane (hkl := ![1, 0, 0]) (t := tas2) rfl consistent2 (Or.inr rfl) rfl
    (by rw [mulVec3]; simp [quarter]) (by simp [Spec.len, quarter, mulVec3])
  obtain ⟨a1, _, a3⟩ := C109_mounting (t := tas "Y,-Z,X" "-") (t' := tas2) (ax := ![.vec ![1, 0, 0], .vec ![0, 1, 0], .vec ![0, 0, 1], .name "en".toList])
    ⟨rfl, rfl, rfl⟩ (huberMode' _) cube_possible rfl (consistent _ _) rfl quarter_rot turned rfl (by simp [Spec.len])
    (Or.inl (by simp)) he he' hl hl'
  exact ⟨e, e', he, he', a1, a3⟩

/-- C109: (1,0,0) and the equivalent (0,0,-1); (1,0,0) and the opposite (-1,0,0). -/
example : ∃ e e' e'', (tas "Y,-Z,X" "-").resoAt (some hklAxes) (![1, 0, 0], ksq2eng * (2 * π) ^ 2, ksq2eng * (2 * π) ^ 2) = .ok e ∧
    (tas "Y,-Z,X" "-").resoAt (some hklAxes) (![0, 0, -1], ksq2eng * (2 * π) ^ 2, ksq2eng * (2 * π) ^ 2) = .ok e' ∧
    (tas "Y,-Z,X" "-").resoAt (some hklAxes) (-![1, 0, 0], ksq2eng * (2 * π) ^ 2, ksq2eng * (2 * π) ^ 2) = .ok e'' ∧
    (∀ h k l w, qform e'.mat ![l, k, -h, w] = qform e.mat ![h, k, l, w]) ∧
    (∀ h l w, qform e''.mat ![-h, 0, -l, w] = qform e.mat ![h, 0, l, w]) := by
  obtain ⟨e, he, hl⟩ := reso_in_plane (hkl := ![1, 0, 0]) (t := tas "Y,-Z,X" "-") rfl (consistent _ _) known rfl (by simp) len100
  obtain ⟨e', he', hl'⟩ := reso_in_plane (hkl := ![0, 0, -1]) (t := tas "Y,-Z,X" "-") rfl (consistent _ _) known rfl (by simp) (by simp [Spec.len])
  obtain ⟨e'', he'', hl''⟩ := reso_in_plane (hkl := -![1, 0, 0]) (t := tas "Y,-Z,X" "-") rfl (consistent _ _) known rfl (by simp)
    (by simp [Spec.len])
  have hq : quarter *ᵥ ![1, 0, 0] = ![0, 0, -1] := by apply ext3 <;> simp [quarter, mulVec3]
  refine ⟨e, e', e'', he, he', he'', ?_, ?_⟩
  · rw [← hq] at he' hl'
    obtain ⟨_, _, a3⟩ := C109_equivalent (huberMode' _) cube_possible (consistent _ _) quarter_rot (S := quarter) (by rw [mul_one, one_mul]) rfl
      (by apply ext3 <;> simp [quarter, mulVec3]) (by simp [Spec.len]) (Or.inl (by simp))
      (by intro h0; have := congrFun h0 2; simp at this) he he' hl hl'
    intro h k l w
    have := a3 ![h, k, l] w
    simpa [quarter, mulVec3] using this
  · obtain ⟨_, _, a3⟩ := C109_opposite (ax := ![.vec ![1, 0, 0], .vec ![0, 1, 0], .vec ![0, 0, 1], .name "en".toList])
      (huberMode' _) cube_possible (consistent _ _) rfl (by simp [Spec.len]) (by simp) he he'' hl hl''
    intro h l w
    refine a3 ![h, 0, l, w] ![-h, 0, -l, w] ?_ ?_ ?_
    · rw [dot3]; simp [hklOf, Fin.sum_univ_four]
    · apply ext3 <;> simp [hklOf, Fin.sum_univ_four]
    · simp [enOf, Fin.sum_univ_four]

end Demo

end Tavi
