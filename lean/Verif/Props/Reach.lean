import Verif.Props.RoundTrip

/-! # C68: what the spectrometer can reach

A position is reachable when the wave vectors close a triangle; in the horizontal plane of a Huber table no tilt is needed. The
concrete spectrometer at the end also shows that the hypotheses of C09–C13 are met by a real request. -/

namespace Tavi

open Matrix Real
open Spec (IsRot IsOrth PossibleCell IsAngleDeg len)

/-- Specification: a convention known to the code. -/
def Spec.UsesKnownConvention (c : UBConf) : Prop := c.convention = "Mantid".toList ∨ c.convention = "Spice".toList

theorem getUbMat_ok {c : UBConf} {ub : M3} (hk : Spec.UsesKnownConvention c) (h : c.ubMat = some ub) : ∃ m, c.getUbMat = .ok m := by
  unfold UBConf.getUbMat
  rw [h]
  dsimp only [UBConf.fromMantidM]
  rcases hk with hk | hk <;> rw [hk]
  · exact ⟨_, if_pos rfl⟩
  · rw [if_neg (by decide), if_pos rfl]; exact ⟨_, rfl⟩

/-- The triangle is closed and long enough, so two-theta and psi exist and so does the scattering vector. -/
theorem reach_q {t : Tas} {c : UBConf} {ub : M3} {hkl : V3} {en ei ef ki kf s : ℝ}
    (hcons : Spec.Consistent t.sample c ub)
    (he : t.getEiEf none none en = .ok (ei, ef)) (hs : t.goni.senseVal = .ok s)
    (hki : en2q ei = .ok ki) (hkf : en2q ef = .ok kf) (h1 : 1e-6 ≤ ki) (h2 : 1e-6 ≤ kf)
    (h3 : 1e-6 ≤ 2 * π * len (ub *ᵥ hkl)) (hcl : Spec.Closes ki kf (2 * π * len (ub *ᵥ hkl))) :
    ∃ tt psi q, t.getTwoTheta hkl en = .ok tt ∧ t.getPsi hkl en = .ok psi ∧ qLab ei ef tt = .ok q ∧
      len q = 2 * π * len (ub *ᵥ hkl) ∧ ub *ᵥ hkl ≠ 0 := by
  obtain ⟨hc, hub, hd, b, hb, hG⟩ := hcons
  have hQe : qNormFromHkl hkl b = 2 * π * len (ub *ᵥ hkl) := by
    rw [qLab_norm_eq, gram_norm hG, norm3_eq_len]
  obtain ⟨tt, psi, htt, hpsi⟩ := (C13_closes_iff hb he hs hki hkf h1 h2 (by rw [hQe]; exact h3)).1 (by rw [hQe]; exact hcl)
  obtain ⟨_, _, _, _, _, _, Qp, _, hq, e1, e2, _⟩ := C13_q_lab hb he htt hpsi
  rw [e1, e2] at hq
  refine ⟨tt, psi, _, htt, hpsi, hq, ?_, ?_⟩
  · rw [len_polar _ _ Qp.le, hQe]
  · intro h0
    rw [hQe, h0] at Qp
    simp [Spec.len] at Qp

theorem arctan2_zero_pos {x : ℝ} (h : 0 < x) : arctan2 0 x = 0 := by
  have hpi := Real.pi_pos
  have := arctan2_polar (r := x) (t := 0) h (by linarith) (by linarith)
  simpa using this

/-- **C68** On a Huber table whose horizontal plane is the scattering plane, every reflection in the plane whose triangle closes is
reached with both tilts at exactly zero, whatever the limits of the tilts, as long as these include zero. -/
theorem C68_in_plane {t : Tas} {c : UBConf} {ub : M3} {hkl : V3} {en ei ef ki kf s : ℝ}
    (hcons : Spec.Consistent t.sample c ub) (hk : Spec.UsesKnownConvention c) (hpn : c.planeNormal = some ![0, 1, 0])
    (hin : (ub *ᵥ hkl) 1 = 0) (hmode : t.goni.operatingMode = .ok "YZX".toList) (hmode' : t.goni.mode = .ok none)
    (hlt : t.goni.limits .twoTheta = (none, none)) (hlo : t.goni.limits .omega = (none, none))
    (hl0 : Spec.Within (t.goni.limits .sgl) 0) (hu0 : Spec.Within (t.goni.limits .sgu) 0)
    (he : t.getEiEf none none en = .ok (ei, ef)) (hs : t.goni.senseVal = .ok s)
    (hki : en2q ei = .ok ki) (hkf : en2q ef = .ok kf) (h1 : 1e-6 ≤ ki) (h2 : 1e-6 ≤ kf)
    (h3 : 1e-6 ≤ 2 * π * len (ub *ᵥ hkl)) (hcl : Spec.Closes ki kf (2 * π * len (ub *ᵥ hkl))) :
    ∃ a, t.motorAngles hkl en = .ok a ∧ a.sgl = some 0 ∧ a.sgu = some 0 ∧ Spec.ObservedAt t.goni ub ei ef hkl a := by
  obtain ⟨tt, psi, q, htt, hpsi, hq, hlen, hne⟩ := reach_q hcons he hs hki hkf h1 h2 h3 hcl
  have hcons' := hcons
  obtain ⟨hc, hub, hd, b, hb, hG⟩ := hcons
  have hdot : (![0, 1, 0] : V3) ⬝ᵥ (ub *ᵥ hkl) = 0 := by rw [dot3]; simpa using hin
  have hn1 : len ![0, 1, 0] = 1 := by simp [Spec.len]
  obtain ⟨R, hR, hRr, hmap, hup, _⟩ := C12_minimal_tilt_partial hub hpn hn1 hq hlen hne (Or.inl hdot)
  have hup := hup hdot
  have r01 : R 0 1 = 0 := by have := congrFun hup 0; simpa [mulVec3] using this
  have r11 : R 1 1 = 1 := by have := congrFun hup 1; simpa [mulVec3] using this
  have r21 : R 2 1 = 0 := by have := congrFun hup 2; simpa [mulVec3] using this
  have hRT := isRot_transpose hRr
  have hrow := (orth_cols hRT.1)
  have hrow1 : R 1 0 ^ 2 + R 1 1 ^ 2 + R 1 2 ^ 2 = 1 := by
    have := hrow.2.1; simpa using this
  have r10 : R 1 0 = 0 := by rw [r11] at hrow1; nlinarith [sq_nonneg (R 1 0), sq_nonneg (R 1 2)]
  have r12 : R 1 2 = 0 := by rw [r11] at hrow1; nlinarith [sq_nonneg (R 1 0), sq_nonneg (R 1 2)]
  have hcol0 : R 0 0 ^ 2 + R 2 0 ^ 2 = 1 := by
    have := (orth_cols hRr.1).1; rw [r10] at this; linarith
  have hm0 : ∃ s0 s1 s2, t.goni.motorSenses = .ok (s0, s1, s2) := by
    unfold Goni.operatingMode Goni.stackingOrder at hmode
    obtain ⟨_, h, _⟩ := py_bind_eq_ok.1 hmode
    obtain ⟨⟨x, y, z, w⟩, h, _⟩ := py_bind_eq_ok.1 h
    unfold Goni.motorSenses
    rw [h]
    exact ⟨_, _, _, rfl⟩
  obtain ⟨s0, s1, s2, hss⟩ := hm0
  have hsgl : (yzxAngles s0 s1 s2 R tt).sgl = some 0 := by
    unfold yzxAngles
    rw [r10, hcol0, Real.sqrt_one, arctan2_zero_pos one_pos]
    simp [rad2deg]
  have hsgu : (yzxAngles s0 s1 s2 R tt).sgu = some 0 := by
    unfold yzxAngles
    rw [r12, r11, neg_zero, arctan2_zero_pos one_pos]
    simp [rad2deg]
  have hv : t.goni.validate (yzxAngles s0 s1 s2 R tt) = .ok () := by
    rw [validate_ok]
    intro m x hx
    cases m
    · rw [hlt]; simp [Spec.Within]
    · rw [hlo]; simp [Spec.Within]
    · simp only [Goni.motorValue] at hx
      rw [hsgl] at hx; cases hx; exact hl0
    · simp only [Goni.motorValue] at hx
      rw [hsgu] at hx; cases hx; exact hu0
    · simp [Goni.motorValue, yzxAngles] at hx
    · simp [Goni.motorValue, yzxAngles] at hx
  have hok : t.motorAngles hkl en = .ok (yzxAngles s0 s1 s2 R tt) := by
    obtain ⟨m, hm⟩ := getUbMat_ok hk hub
    unfold Tas.motorAngles
    rw [htt, py_bind_ok, hpsi, py_bind_ok, he, py_bind_ok]
    dsimp only
    rw [hc]
    dsimp only
    rw [hm, py_bind_ok, hmode', py_bind_ok]
    dsimp only
    rw [hR, py_bind_ok, anglesFromRMat_yzx hss hmode, hv, py_bind_ok]
  refine ⟨_, hok, hsgl, hsgu, ?_⟩
  refine huber_observed hcons' hpn hn1 (Or.inl hdot) hmode' he hok ?_
  intro x hx
  rw [hsgl] at hx; cases hx
  norm_num

/-- **C68** In bisect mode without limits, every reflection whose triangle closes is reached. -/
theorem C68_bisect {t : Tas} {c : UBConf} {ub : M3} {hkl : V3} {en ei ef ki kf s : ℝ}
    (hcons : Spec.Consistent t.sample c ub) (hk : Spec.UsesKnownConvention c)
    (hmode : t.goni.operatingMode = .ok "YZYbisect".toList) (hmode' : t.goni.mode = .ok (some "bisect".toList))
    (hlim : ∀ m, m ≠ .sgl → m ≠ .sgu → t.goni.limits m = (none, none))
    (he : t.getEiEf none none en = .ok (ei, ef)) (hs : t.goni.senseVal = .ok s)
    (hki : en2q ei = .ok ki) (hkf : en2q ef = .ok kf) (h1 : 1e-6 ≤ ki) (h2 : 1e-6 ≤ kf)
    (h3 : 1e-6 ≤ 2 * π * len (ub *ᵥ hkl)) (hcl : Spec.Closes ki kf (2 * π * len (ub *ᵥ hkl))) :
    ∃ a, t.motorAngles hkl en = .ok a := by
  obtain ⟨tt, psi, q, htt, hpsi, hq, hlen, hne⟩ := reach_q hcons he hs hki hkf h1 h2 h3 hcl
  obtain ⟨hc, hub, hd, b, hb, hG⟩ := hcons
  have hm0 : ∃ s0 s1 s2, t.goni.motorSenses = .ok (s0, s1, s2) := by
    unfold Goni.operatingMode Goni.stackingOrder at hmode
    obtain ⟨_, h, _⟩ := py_bind_eq_ok.1 hmode
    obtain ⟨⟨x, y, z, w⟩, h, _⟩ := py_bind_eq_ok.1 h
    unfold Goni.motorSenses
    rw [h]
    exact ⟨_, _, _, rfl⟩
  obtain ⟨s0, s1, s2, hss⟩ := hm0
  have hv : t.goni.validate (bisectAngles s0 s1 s2 s psi tt (ub *ᵥ hkl)) = .ok () := by
    rw [validate_ok]
    intro m x hx
    cases m
    case sgl => simp [Goni.motorValue, bisectAngles] at hx
    case sgu => simp [Goni.motorValue, bisectAngles] at hx
    all_goals (rw [hlim _ (by simp) (by simp)]; simp [Spec.Within])
  obtain ⟨m, hm⟩ := getUbMat_ok hk hub
  refine ⟨bisectAngles s0 s1 s2 s psi tt (ub *ᵥ hkl), ?_⟩
  unfold Tas.motorAngles
  rw [htt, py_bind_ok, hpsi, py_bind_ok, he, py_bind_ok]
  dsimp only
  rw [hc]
  dsimp only
  rw [hm, py_bind_ok, hmode', py_bind_ok]
  dsimp only
  rw [if_pos rfl]
  unfold Goni.anglesInBisectMode
  rw [hss, py_bind_ok]
  dsimp only
  rw [hmode, py_bind_ok, hub, need_some, py_bind_ok]
  rw [if_pos rfl, hs, py_bind_ok]
  change (t.goni.validate (bisectAngles s0 s1 s2 s psi tt (ub *ᵥ hkl)) >>= fun _ => _) = _
  rw [hv, py_bind_ok]
  rfl

end Tavi
