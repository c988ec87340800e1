import Verif.Props.Frame
import Verif.Props.Demo

/-! # C27: the resolution ellipsoid in the local frame of the momentum transfer -/

namespace Tavi

open Matrix Spec

theorem qnorm_eq (b : M3) (hkl : V3) : norm3 (b *ᵥ hkl) * 2 * Real.pi = qNormFromHkl hkl b := by
  unfold norm3 qNormFromHkl
  ring

/-- **C27** The ellipsoid tells the length of the momentum transfer (from the cell) and which axes were asked for. -/
theorem C27_frame {t : Tas} {hkl : V3} {en r0 : ℝ} {axes : Option (List AxisItem)} {m : Mat 4 4} {e : Ellipsoid}
    (h : mkEllipsoid t hkl en axes m r0 = .ok e) (hc : PossibleCell t.sample.latt) :
    e.hkl = hkl ∧ e.en = en ∧ e.r0 = r0 ∧ e.q = 2 * Real.pi * √(hkl ⬝ᵥ ((metric t.sample.latt)⁻¹ *ᵥ hkl)) ∧
    (axes = none → e.frame = "q".toList) ∧ (axes = some hklAxes → e.frame = "hkl".toList) ∧
    (∀ ax, axes = some ax → ax ≠ hklAxes → e.frame = "proj".toList) := by
  obtain ⟨B, hB, hq, _⟩ := C02_q_norm hc hkl
  rw [mkEllipsoid, hB, py_bind_ok] at h
  obtain ⟨r, hr, h⟩ := py_bind_eq_ok.1 h
  have h := Except.ok.inj h
  subst h
  refine ⟨rfl, rfl, rfl, by dsimp only; rw [qnorm_eq, hq], ?_, ?_, ?_⟩
  · rintro rfl
    rw [frameOf] at hr
    rw [← Except.ok.inj hr]
  · rintro rfl
    rw [frameOf, projectToFrame] at hr
    obtain ⟨conv, _, hr⟩ := py_bind_eq_ok.1 hr
    rw [if_pos rfl] at hr
    obtain ⟨r', _, hr⟩ := py_bind_eq_ok.1 hr
    rw [← Except.ok.inj hr]
  · rintro ax rfl hax
    rw [frameOf, projectToFrame] at hr
    obtain ⟨conv, _, hr⟩ := py_bind_eq_ok.1 hr
    rw [if_neg hax] at hr
    obtain ⟨r', _, hr⟩ := py_bind_eq_ok.1 hr
    rw [← Except.ok.inj hr]

/-- **C27** Without axes the ellipsoid is the one calculated in the local frame, and it is centred on the momentum transfer: its length along
the first axis, nothing along the other two, the energy on the fourth. All axes are perpendicular. -/
theorem C27_local {t : Tas} {hkl : V3} {en r0 : ℝ} {m : Mat 4 4} (hc : PossibleCell t.sample.latt) :
    ∃ e, mkEllipsoid t hkl en none m r0 = .ok e ∧ e.mat = m ∧
      ∀ i j proj el, (getEllipse e i j proj true = .ok el →
          el.cx = (![e.q, 0, 0, en] : Fin 4 → ℝ) i ∧ el.cy = (![e.q, 0, 0, en] : Fin 4 → ℝ) j ∧ el.angle = 90) ∧
        (getEllipse e i j proj false = .ok el → el.cx = 0 ∧ el.cy = 0 ∧ el.angle = 90) := by
  obtain ⟨B, hB, hq, _⟩ := C02_q_norm hc hkl
  refine ⟨_, by rw [mkEllipsoid, hB, py_bind_ok]; rfl, rfl, fun i j proj el => ?_⟩
  have hang : ∀ i j : Fin 4, pairAngle ![90, 90, 90] i j = 90 := by
    have h9 : round2 90 = 90 := by
      unfold round2
      rw [show (90 : ℝ) * 100 = ((9000 : ℤ) : ℝ) by norm_num, round_intCast]
      norm_num
    intro i j
    unfold pairAngle
    split_ifs <;> first | rfl | simpa using h9
  constructor <;> intro hel
  all_goals
    unfold getEllipse at hel
    obtain ⟨n, hn, hel⟩ := py_bind_eq_ok.1 hel
    obtain ⟨cx, hcx, hel⟩ := py_bind_eq_ok.1 hel
    obtain ⟨cy, hcy, hel⟩ := py_bind_eq_ok.1 hel
    obtain ⟨q, hq', hel⟩ := py_bind_eq_ok.1 hel
    have hel := Except.ok.inj hel
    subst hel
    obtain rfl : 3 = n := Except.ok.inj hn
    unfold centreAt at hcx hcy
    refine ⟨?_, ?_, hang i j⟩
  · rw [if_pos rfl] at hcx
    have := need_eq_ok.1 hcx
    fin_cases i <;> simpa [insertEn] using this.symm
  · rw [if_pos rfl] at hcy
    have := need_eq_ok.1 hcy
    fin_cases j <;> simpa [insertEn] using this.symm
  · exact (Except.ok.inj hcx).symm
  · exact (Except.ok.inj hcy).symm

/-- **C27** The first axis of the local frame is the momentum transfer of the two neutrons in the laboratory, and its length is the one the
ellipsoid tells. -/
theorem C27_along_q {t : Tas} {hkl : V3} {en r0 : ℝ} {axes : Option (List AxisItem)} {m : Mat 4 4} {e : Ellipsoid}
    (h : mkEllipsoid t hkl en axes m r0 = .ok e) {ei ef tt psi : ℝ} (he : t.getEiEf none none en = .ok (ei, ef))
    (htt : t.getTwoTheta hkl en = .ok tt) (hpsi : t.getPsi hkl en = .ok psi) :
    ∃ q, qLab ei ef tt = .ok q ∧ len q = e.q ∧ localCoords q q = ![e.q, 0, 0] := by
  rw [mkEllipsoid] at h
  obtain ⟨b, hb, h⟩ := py_bind_eq_ok.1 h
  obtain ⟨r, _, h⟩ := py_bind_eq_ok.1 h
  have h := Except.ok.inj h
  obtain ⟨ki, kf, -, -, -, -, hq, -, hlab, q1, q2, -⟩ := C13_q_lab hb he htt hpsi
  rw [q1, q2] at hlab
  have heq : e.q = qNormFromHkl hkl b := by rw [← h]; exact qnorm_eq b hkl
  rw [heq]
  generalize qNormFromHkl hkl b = n at hq hlab
  have hl : len ![n * Real.sin (deg2rad psi), 0, n * Real.cos (deg2rad psi)] = n := by
    unfold len
    rw [show (![n * Real.sin (deg2rad psi), 0, n * Real.cos (deg2rad psi)] : V3) 0 ^ 2
      + (![n * Real.sin (deg2rad psi), 0, n * Real.cos (deg2rad psi)] : V3) 1 ^ 2
      + (![n * Real.sin (deg2rad psi), 0, n * Real.cos (deg2rad psi)] : V3) 2 ^ 2 = n ^ 2 by
        simp; linear_combination n ^ 2 * Real.sin_sq_add_cos_sq (deg2rad psi)]
    exact Real.sqrt_sq hq.le
  refine ⟨_, hlab, hl, ?_⟩
  rw [← labToLocal_coords hq]
  have := Real.sin_sq_add_cos_sq (deg2rad psi)
  apply ext3 <;> simp [labToLocal, mulVec3]
  · linear_combination n * this
  · ring

/-- The reflection (1, 0, 0) of the cubic crystal, elastic: the ellipsoid is centred on the momentum transfer of the neutrons. -/
example : ∃ (a : MotorAngles) (e : Ellipsoid) (ei ef : ℝ) (q : V3), (Demo.tas "Y,-Z,X" "-").motorAngles ![1, 0, 0] 0 = .ok a ∧
    mkEllipsoid (Demo.tas "Y,-Z,X" "-") ![1, 0, 0] 0 none 1 1 = .ok e ∧ qLab ei ef a.twoTheta = .ok q ∧ len q = e.q := by
  obtain ⟨a, ha, _⟩ := Demo.reach100
  obtain ⟨e, he, _⟩ := C27_local (t := Demo.tas "Y,-Z,X" "-") (hkl := ![1, 0, 0]) (en := 0) (r0 := 1) (m := 1) Demo.cube_possible
  obtain ⟨htt, _⟩ := motorAngles_twoTheta ha
  obtain ⟨_, psi, ei, ef, _, _, hpsi, hen, _⟩ := motorAngles_cases ha
  obtain ⟨q, h1, h2, _⟩ := C27_along_q he hen htt hpsi
  exact ⟨a, e, ei, ef, q, ha, he, h1, h2⟩

end Tavi
