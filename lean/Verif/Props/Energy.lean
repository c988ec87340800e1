import Verif.Props.Goni
import Verif.Props.Lattice

/-! # C13, C20–C23, C18: scattering triangle, energies, lattice updates, angles, plane normals -/

namespace Tavi

open Matrix Real
open Spec (IsRot IsOrth PossibleCell IsAngleDeg len)

theorem ksq2eng_pos : 0 < ksq2eng := by unfold ksq2eng; norm_num

/-! ## C20 -/

/-- **C20** energy → momentum: refused exactly for negative energies, otherwise the momentum is the
non-negative `q` with `ħ²q²/2m = E`, and converting back returns the energy. -/
theorem C20_energy_momentum (en : ℝ) :
    (en < 0 → en2q en = .error .valueError) ∧
    (0 ≤ en → ∃ q, en2q en = .ok q ∧ 0 ≤ q ∧ 2.072124855 * q ^ 2 = en ∧ q2en q = .ok en) := by
  constructor
  · intro h; unfold en2q; rw [if_pos h]
  · intro h
    have e : ksq2eng * √(en / ksq2eng) ^ 2 = en := by
      rw [Real.sq_sqrt (div_nonneg h ksq2eng_pos.le)]; field_simp [ksq2eng_pos.ne']
    refine ⟨√(en / ksq2eng), ?_, Real.sqrt_nonneg _, e, ?_⟩
    · unfold en2q; rw [if_neg (not_lt.2 h)]
    · unfold q2en; rw [if_neg (not_lt.2 (Real.sqrt_nonneg _)), e]

/-- **C20** momentum → energy → momentum. -/
theorem C20_momentum_energy (q : ℝ) :
    (q < 0 → q2en q = .error .valueError) ∧
    (0 ≤ q → ∃ en, q2en q = .ok en ∧ 0 ≤ en ∧ en2q en = .ok q) := by
  constructor
  · intro h; unfold q2en; rw [if_pos h]
  · intro h
    have hk := ksq2eng_pos
    refine ⟨ksq2eng * q ^ 2, ?_, by positivity, ?_⟩
    · unfold q2en; rw [if_neg (not_lt.2 h)]
    · unfold en2q
      rw [if_neg (not_lt.2 (by positivity)), mul_div_cancel_left₀ _ hk.ne', Real.sqrt_sq h]

example : ∃ q, en2q 14.7 = .ok q ∧ q2en q = .ok 14.7 :=
  let ⟨q, h, _, _, h'⟩ := (C20_energy_momentum 14.7).2 (by norm_num)
  ⟨q, h, h'⟩

theorem en2q_ok {en k : ℝ} (h : en2q en = .ok k) : 0 ≤ en ∧ 0 ≤ k ∧ ksq2eng * k ^ 2 = en := by
  unfold en2q at h
  split at h
  · cases h
  · rename_i hn
    cases h
    have hn := not_lt.1 hn
    refine ⟨hn, Real.sqrt_nonneg _, ?_⟩
    rw [Real.sq_sqrt (div_nonneg hn ksq2eng_pos.le)]; field_simp [ksq2eng_pos.ne']

/-- What a crystal (monochromator or analyser) must do: Bragg's law `λ = 2 d sin|θ|`, sign given by the sense. -/
def Spec.BraggAngle (k d sense theta : ℝ) : Prop :=
  2 * π / k = 2 * d * Real.sin (sense * (theta * π / 180)) ∧ -90 ≤ theta ∧ theta ≤ 90 ∧ 0 < sense * theta

theorem angleBragg_spec {k d : ℝ} (hk : 0 < k) (hd : 0 < d) :
    (2 * d < 2 * π / k → angleBragg k d = .error .valueError) ∧
    (2 * π / k ≤ 2 * d → ∃ x, angleBragg k d = .ok x ∧ 0 < x ∧ x ≤ π / 2 ∧
      2 * π / k = 2 * d * Real.sin x) := by
  have hpos : 0 < π / (d * k) := by have := Real.pi_pos; positivity
  have hdk : d * k ≠ 0 := by positivity
  have hle : π / (d * k) ≤ 1 ↔ 2 * π / k ≤ 2 * d := by
    rw [div_le_one (by positivity), div_le_iff₀ hk]; constructor <;> intro h <;> linarith
  unfold angleBragg
  rw [pyDiv_ok hdk, py_bind_ok]
  constructor
  · intro h
    rw [if_pos]
    left
    by_contra hc
    exact absurd (hle.1 (not_lt.1 hc)) (not_le.2 h)
  · intro h
    have h1 := hle.2 h
    rw [if_neg (by rw [not_or]; constructor <;> linarith)]
    refine ⟨_, rfl, Real.arcsin_pos.2 hpos, Real.arcsin_le_pi_div_two _, ?_⟩
    rw [Real.sin_arcsin (by linarith) h1]; field_simp

theorem mono_sense {m : MonoAna} {s : ℝ} (h : m.senseVal = .ok s) :
    (s = 1 ∧ m.sense = "+".toList) ∨ (s = -1 ∧ m.sense = "-".toList) := by
  unfold MonoAna.senseVal at h
  split at h
  · cases h; left; exact ⟨rfl, by assumption⟩
  · split at h
    · cases h; right; exact ⟨rfl, by assumption⟩
    · cases h

theorem bragg_angle_core {k d x s : ℝ} (hs : s = 1 ∨ s = -1) (hx0 : 0 < x) (hx1 : x ≤ π / 2)
    (hb : 2 * π / k = 2 * d * Real.sin x) : Spec.BraggAngle k d s (rad2deg (x * s)) := by
  have hpi := Real.pi_pos
  have hss : s * s = 1 := by rcases hs with rfl | rfl <;> norm_num
  have e : s * (rad2deg (x * s) * π / 180) = x := by
    unfold rad2deg; field_simp; linear_combination hss
  have e2 : s * rad2deg (x * s) = rad2deg x := by
    unfold rad2deg; linear_combination (x * (180 / π)) * hss
  have hr : 0 < rad2deg x := by unfold rad2deg; positivity
  have hr2 : rad2deg x ≤ 90 := by
    unfold rad2deg
    calc x * (180 / π) ≤ π / 2 * (180 / π) := by gcongr
      _ = 90 := by field_simp; norm_num
  refine ⟨by rw [e]; exact hb, ?_, ?_, by rw [e2]; exact hr⟩ <;>
    rcases hs with rfl | rfl <;> linarith

/-- **C20** The monochromator and analyser angles satisfy Bragg's law with the sign of the crystal's sense, or the
request is refused because the wavelength is too long. -/
theorem C20_bragg (t : Tas) {e : ℝ} (he : 0 < e) (hm : 0 < t.mono.dSpacing) (ha : 0 < t.ana.dSpacing)
    {sm sa : ℝ} (hsm : t.mono.senseVal = .ok sm) (hsa : t.ana.senseVal = .ok sa) :
    ∃ k, en2q e = .ok k ∧ 0 < k ∧
      (2 * t.mono.dSpacing < 2 * π / k → t.getThetaM e = .error .valueError) ∧
      (2 * π / k ≤ 2 * t.mono.dSpacing →
        ∃ th, t.getThetaM e = .ok th ∧ Spec.BraggAngle k t.mono.dSpacing sm th) ∧
      (2 * t.ana.dSpacing < 2 * π / k → t.getThetaA e = .error .valueError) ∧
      (2 * π / k ≤ 2 * t.ana.dSpacing →
        ∃ th, t.getThetaA e = .ok th ∧ Spec.BraggAngle k t.ana.dSpacing sa th) := by
  obtain ⟨k, hk, hk0, hk2, _⟩ := (C20_energy_momentum e).2 he.le
  have hkp : 0 < k := by
    rcases hk0.lt_or_eq with h | h
    · exact h
    · rw [← h] at hk2; norm_num at hk2; linarith
  have hs1 : sm = 1 ∨ sm = -1 := by rcases mono_sense hsm with h | h <;> simp [h.1]
  have hs2 : sa = 1 ∨ sa = -1 := by rcases mono_sense hsa with h | h <;> simp [h.1]
  refine ⟨k, hk, hkp, ?_, ?_, ?_, ?_⟩
  · intro h
    unfold Tas.getThetaM; rw [hk, py_bind_ok, (angleBragg_spec hkp hm).1 h]; rfl
  · intro h
    obtain ⟨x, hx, hx0, hx1, hx2⟩ := (angleBragg_spec hkp hm).2 h
    refine ⟨rad2deg (x * sm), ?_, bragg_angle_core hs1 hx0 hx1 hx2⟩
    unfold Tas.getThetaM; rw [hk, py_bind_ok, hx, hsm]; rfl
  · intro h
    unfold Tas.getThetaA; rw [hk, py_bind_ok, (angleBragg_spec hkp ha).1 h]; rfl
  · intro h
    obtain ⟨x, hx, hx0, hx1, hx2⟩ := (angleBragg_spec hkp ha).2 h
    refine ⟨rad2deg (x * sa), ?_, bragg_angle_core hs2 hx0 hx1 hx2⟩
    unfold Tas.getThetaA; rw [hk, py_bind_ok, hx, hsa]; rfl

/-- **C20**, what the code does for the crystal's own energy ↔ angle pair: the returned energy is the original one
times 81.81/9.045² (= 0.999975…). The two constants in the source are inconsistent. -/
theorem C20_crystal_roundtrip_partial (m : MonoAna) {s e : ℝ} (hs : m.senseVal = .ok s) (hd : 0 < m.dSpacing)
    (he : 0 < e) (hreach : 9.045 ^ 2 ≤ 4 * m.dSpacing ^ 2 * e) :
    ∃ th, m.braggAngleFromEnergy e = .ok th ∧ m.energyFromBraggAngle th = .ok (e * (81.81 / 9.045 ^ 2)) ∧
      |e * (81.81 / 9.045 ^ 2) - e| ≤ 2.5e-5 * e := by
  have hpi := Real.pi_pos
  have hr : 0 < √e := Real.sqrt_pos.2 he
  have hre : √e ^ 2 = e := Real.sq_sqrt he.le
  set y : ℝ := 9.045 / 2 / m.dSpacing / √e with hy
  have hy0 : 0 < y := by positivity
  have hysq : y ^ 2 = 9.045 ^ 2 / (4 * m.dSpacing ^ 2 * e) := by
    rw [hy, div_pow, div_pow, hre]; field_simp; norm_num
  have hy1 : y ≤ 1 := by
    have : y ^ 2 ≤ 1 := by rw [hysq, div_le_one (by positivity)]; exact hreach
    nlinarith
  have hss : s = 1 ∨ s = -1 := by rcases mono_sense hs with h | h <;> simp [h.1]
  refine ⟨rad2deg (Real.arcsin y) * s, ?_, ?_, ?_⟩
  · unfold MonoAna.braggAngleFromEnergy
    rw [pyDiv_ok hd.ne', py_bind_ok, pySqrt_ok he.le, py_bind_ok, pyDiv_ok hr.ne', py_bind_ok, ← hy]
    unfold MonoAna.pyArcsin
    rw [if_neg (by rw [not_or]; constructor <;> linarith), py_bind_ok, hs]
    rfl
  · unfold MonoAna.energyFromBraggAngle
    have hsin : Real.sin (deg2rad (rad2deg (Real.arcsin y) * s)) ^ 2 = y ^ 2 := by
      rcases hss with rfl | rfl
      · rw [mul_one, deg2rad_rad2deg, Real.sin_arcsin (by linarith) hy1]
      · have : deg2rad (rad2deg (Real.arcsin y) * -1) = -Real.arcsin y := by
          have h1 := deg2rad_rad2deg (Real.arcsin y)
          unfold deg2rad at *; linarith
        rw [this, Real.sin_neg, neg_sq, Real.sin_arcsin (by linarith) hy1]
    rw [pyDiv_ok (by positivity), py_bind_ok, hsin, pyDiv_ok (by positivity), hysq]
    congr 1
    field_simp
  · rw [abs_le]; constructor <;> norm_num <;> linarith

/-- **C20**, negation of the stated round trip: no positive energy is returned unchanged. -/
theorem C20_crystal_roundtrip_fails (m : MonoAna) {s e : ℝ} (hs : m.senseVal = .ok s) (hd : 0 < m.dSpacing)
    (he : 0 < e) (hreach : 9.045 ^ 2 ≤ 4 * m.dSpacing ^ 2 * e) :
    (m.braggAngleFromEnergy e >>= m.energyFromBraggAngle) ≠ .ok e := by
  obtain ⟨th, h1, h2, _⟩ := C20_crystal_roundtrip_partial m hs hd he hreach
  rw [h1, py_bind_ok, h2]
  intro h
  have := Except.ok.inj h
  norm_num at this
  linarith

/-- PG002 at 14.7 meV meets the hypotheses. -/
example : (({} : MonoAna).braggAngleFromEnergy 14.7 >>= ({} : MonoAna).energyFromBraggAngle) ≠ .ok 14.7 :=
  C20_crystal_roundtrip_fails {} (s := -1) (by simp [MonoAna.senseVal]) (by norm_num) (by norm_num)
    (by norm_num)

/-! ## C21 -/

/-- **C21** Which energies are used: explicit arguments first, then the fixed ones; a single known energy fixes the
other through `Ei - Ef = en`; none known is refused. -/
theorem C21_ei_ef (t : Tas) (ei ef : Option ℝ) (en : ℝ) :
    (t.getEiEf ei ef en = .error .valueError ↔
      (ei = none ∧ t.fixedEi = none) ∧ (ef = none ∧ t.fixedEf = none)) ∧
    (∀ e, t.getEiEf ei ef en = .error e → e = .valueError) ∧
    ∀ x y, t.getEiEf ei ef en = .ok (x, y) →
      (∀ v, ei = some v → x = v) ∧ (∀ v, ef = some v → y = v) ∧
      (∀ v, ei = none → t.fixedEi = some v → x = v) ∧ (∀ v, ef = none → t.fixedEf = some v → y = v) ∧
      ((ei = none ∧ t.fixedEi = none) ∨ (ef = none ∧ t.fixedEf = none) → x - y = en) := by
  unfold Tas.getEiEf
  rcases ei with _ | ei <;> rcases ef with _ | ef <;> rcases h1 : t.fixedEi with _ | fi <;>
    rcases h2 : t.fixedEf with _ | ff <;> simp

/-- **C21** When both energies are known the requested energy transfer is not consulted (and not checked). -/
theorem C21_both_known (t : Tas) (en : ℝ) {fi ff : ℝ} (h1 : t.fixedEi = some fi) (h2 : t.fixedEf = some ff) :
    t.getEiEf none none en = .ok (fi, ff) := by
  unfold Tas.getEiEf; simp [h1, h2]

example : (Tas.mk "Spice".toList none (some 5) ⟨exCell, none, 30, 30⟩ {} {} {} {}).getEiEf none none 2
    = .ok (7, 5) := by
  norm_num [Tas.getEiEf]

/-! ## C13 -/

/-- Specification: three lengths close to a (possibly flat) triangle. -/
def Spec.Closes (a b c : ℝ) : Prop := |a - b| ≤ c ∧ c ≤ a + b

theorem cos_quot_iff {a b c : ℝ} (ha : 0 < a) (hb : 0 < b) (hc : 0 ≤ c) :
    (-1 ≤ (a ^ 2 + b ^ 2 - c ^ 2) / (2 * a * b) ∧ (a ^ 2 + b ^ 2 - c ^ 2) / (2 * a * b) ≤ 1) ↔
      Spec.Closes a b c := by
  have hab : 0 < 2 * a * b := by positivity
  rw [le_div_iff₀ hab, div_le_iff₀ hab]
  unfold Spec.Closes
  constructor
  · rintro ⟨h1, h2⟩
    constructor
    · apply abs_le_of_sq_le_sq _ hc
      nlinarith
    · nlinarith
  · rintro ⟨h1, h2⟩
    have h3 : (a - b) ^ 2 ≤ c ^ 2 := by
      rw [← sq_abs (a - b)]; exact pow_le_pow_left₀ (abs_nonneg _) h1 2
    have h4 : c ^ 2 ≤ (a + b) ^ 2 := pow_le_pow_left₀ hc h2 2
    constructor <;> nlinarith

/-- **C13** The triangle solver: answers exactly when the sides close, with the angle of the law of cosines. -/
theorem C13_triangle {a b c : ℝ} (ha : 1e-6 ≤ a) (hb : 1e-6 ≤ b) (hc : 0 ≤ c) :
    (Spec.Closes a b c → ∃ x, angleFromTriangle a b c = .ok x ∧ 0 ≤ x ∧ x ≤ π ∧
      c ^ 2 = a ^ 2 + b ^ 2 - 2 * a * b * Real.cos x) ∧
    (¬ Spec.Closes a b c → angleFromTriangle a b c = .error .valueError) := by
  have ha0 : 0 < a := by linarith [show (0 : ℝ) < 1e-6 by norm_num]
  have hb0 : 0 < b := by linarith [show (0 : ℝ) < 1e-6 by norm_num]
  have hq := cos_quot_iff ha0 hb0 hc
  unfold angleFromTriangle
  rw [if_neg (by rw [abs_of_pos ha0, abs_of_pos hb0, not_or]; exact ⟨not_lt.2 ha, not_lt.2 hb⟩)]
  constructor
  · intro h
    obtain ⟨h1, h2⟩ := hq.2 h
    dsimp only
    rw [if_neg (by rw [not_or]; exact ⟨not_lt.2 h2, not_lt.2 h1⟩)]
    refine ⟨_, rfl, Real.arccos_nonneg _, Real.arccos_le_pi _, ?_⟩
    rw [Real.cos_arccos h1 h2]; field_simp; ring
  · intro h
    dsimp only
    rw [if_pos]
    by_contra hn
    rw [not_or] at hn
    exact h (hq.1 ⟨not_lt.1 hn.2, not_lt.1 hn.1⟩)

/-- **C13** The other solver of the triangle is the inverse: the third side closes the triangle and encloses the angle it was
computed from; sides that are too short are refused. -/
theorem C13_side {a b x : ℝ} (ha : 0 ≤ a) (hb : 0 ≤ b) (hx : 0 ≤ x) (hp : x ≤ π) :
    ((1e-6 ≤ a ∧ 1e-6 ≤ b) → ∃ c, sideFromTriangle a b x = .ok c ∧ Spec.Closes a b c ∧ angleFromTriangle a b c = .ok x) ∧
    ((a < 1e-6 ∨ b < 1e-6) → sideFromTriangle a b x = .error .valueError) := by
  unfold sideFromTriangle
  rw [abs_of_nonneg ha, abs_of_nonneg hb]
  refine ⟨fun ⟨h1, h2⟩ => ?_, fun h => by rw [if_pos h]⟩
  have ha0 : 0 < a := by linarith [show (0 : ℝ) < 1e-6 by norm_num]
  have hb0 : 0 < b := by linarith [show (0 : ℝ) < 1e-6 by norm_num]
  have hab := mul_pos ha0 hb0
  have hc1 := Real.cos_le_one x
  have hn : 0 ≤ a ^ 2 + b ^ 2 - 2 * a * b * Real.cos x := by nlinarith [sq_nonneg (a - b)]
  rw [if_neg (by rw [not_or]; exact ⟨not_lt.2 h1, not_lt.2 h2⟩)]
  have hsq := Real.sq_sqrt hn
  have hq : (a ^ 2 + b ^ 2 - √(a ^ 2 + b ^ 2 - 2 * a * b * Real.cos x) ^ 2) / (2 * a * b) = Real.cos x := by
    rw [hsq]; field_simp; ring
  have hcl : Spec.Closes a b √(a ^ 2 + b ^ 2 - 2 * a * b * Real.cos x) :=
    (cos_quot_iff ha0 hb0 (Real.sqrt_nonneg _)).1 (by rw [hq]; exact ⟨Real.neg_one_le_cos x, hc1⟩)
  refine ⟨_, rfl, hcl, ?_⟩
  unfold angleFromTriangle
  rw [if_neg (by rw [abs_of_pos ha0, abs_of_pos hb0, not_or]; exact ⟨not_lt.2 h1, not_lt.2 h2⟩)]
  dsimp only
  rw [hq, if_neg (by rw [not_or]; exact ⟨not_lt.2 hc1, not_lt.2 (Real.neg_one_le_cos x)⟩), Real.arccos_cos hx hp]

theorem angleFromTriangle_ok {a b c x : ℝ} (ha : 0 ≤ a) (hb : 0 ≤ b) (hc : 0 ≤ c)
    (h : angleFromTriangle a b c = .ok x) :
    0 < a ∧ 0 < b ∧ Spec.Closes a b c ∧ 0 ≤ x ∧ x ≤ π ∧ c ^ 2 = a ^ 2 + b ^ 2 - 2 * a * b * Real.cos x := by
  have hs : ¬ (|a| < 1e-6 ∨ |b| < 1e-6) := by
    intro hh; unfold angleFromTriangle at h; rw [if_pos hh] at h; cases h
  rw [not_or, abs_of_nonneg ha, abs_of_nonneg hb, not_lt, not_lt] at hs
  obtain ⟨h1, h2⟩ := C13_triangle hs.1 hs.2 hc
  have hcl : Spec.Closes a b c := by
    by_contra hn; rw [h2 hn] at h; cases h
  obtain ⟨y, hy, h3, h4, h5⟩ := h1 hcl
  rw [hy] at h; cases h
  have : (0 : ℝ) < 1e-6 := by norm_num
  exact ⟨by linarith, by linarith, hcl, h3, h4, h5⟩

theorem goni_sense {g : Goni} {s : ℝ} (h : g.senseVal = .ok s) :
    (s = 1 ∧ g.sense = some "+".toList) ∨ (s = -1 ∧ g.sense = some "-".toList) := by
  unfold Goni.senseVal at h
  split at h
  · cases h; left; exact ⟨rfl, by assumption⟩
  · split at h
    · cases h; right; exact ⟨rfl, by assumption⟩
    · cases h

theorem getTwoTheta_eq {t : Tas} {hkl : V3} {en ei ef : ℝ} {b : M3} (hb : t.sample.bMat = .ok b)
    (he : t.getEiEf none none en = .ok (ei, ef)) : t.getTwoTheta hkl en =
      (twoThetaFromHkle hkl ei ef b >>= fun x => t.goni.senseVal >>= fun s => .ok (rad2deg x * s)) := by
  unfold Tas.getTwoTheta; rw [he, hb]; rfl

theorem getPsi_eq {t : Tas} {hkl : V3} {en ei ef : ℝ} {b : M3} (hb : t.sample.bMat = .ok b)
    (he : t.getEiEf none none en = .ok (ei, ef)) : t.getPsi hkl en =
      (psiFromHkle hkl ei ef b >>= fun x => t.goni.senseVal >>= fun s => .ok (rad2deg x * s * (-1))) := by
  unfold Tas.getPsi; rw [he, hb]; rfl

/-- **C13** (geometry) Whenever both angles are returned, the three lengths close, the lab-frame scattering vector at
the returned two-theta has length `|Q|` and makes the returned psi with the beam (`z`), in the horizontal plane. -/
theorem C13_q_lab {t : Tas} {hkl : V3} {en tt psi ei ef : ℝ} {b : M3}
    (hb : t.sample.bMat = .ok b) (he : t.getEiEf none none en = .ok (ei, ef))
    (htt : t.getTwoTheta hkl en = .ok tt) (hpsi : t.getPsi hkl en = .ok psi) :
    ∃ ki kf, en2q ei = .ok ki ∧ en2q ef = .ok kf ∧ 0 < ki ∧ 0 < kf ∧ 0 < qNormFromHkl hkl b ∧
      Spec.Closes ki kf (qNormFromHkl hkl b) ∧
      qLab ei ef tt = .ok ![-kf * Real.sin (deg2rad tt), 0, ki - kf * Real.cos (deg2rad tt)] ∧
      -kf * Real.sin (deg2rad tt) = qNormFromHkl hkl b * Real.sin (deg2rad psi) ∧
      ki - kf * Real.cos (deg2rad tt) = qNormFromHkl hkl b * Real.cos (deg2rad psi) ∧
      (∀ s, t.goni.senseVal = .ok s → 0 ≤ s * tt ∧ s * tt ≤ 180 ∧ s * psi ≤ 0 ∧ -180 ≤ s * psi) := by
  have hpi := Real.pi_pos
  rw [getTwoTheta_eq hb he] at htt
  obtain ⟨x, hx, htt⟩ := py_bind_eq_ok.1 htt
  obtain ⟨s, hs, htt⟩ := py_bind_eq_ok.1 htt
  have htt : rad2deg x * s = tt := Except.ok.inj htt
  rw [getPsi_eq hb he] at hpsi
  obtain ⟨y, hy, hpsi⟩ := py_bind_eq_ok.1 hpsi
  obtain ⟨s', hs', hpsi⟩ := py_bind_eq_ok.1 hpsi
  have hpsi : rad2deg y * s' * (-1) = psi := Except.ok.inj hpsi
  rw [hs] at hs'
  have hs' : s = s' := Except.ok.inj hs'
  subst hs'
  unfold twoThetaFromHkle at hx
  obtain ⟨ki, hki, hx⟩ := py_bind_eq_ok.1 hx
  obtain ⟨kf, hkf, hx⟩ := py_bind_eq_ok.1 hx
  unfold psiFromHkle at hy
  rw [hki, py_bind_ok, hkf, py_bind_ok] at hy
  have hQ0 : 0 ≤ qNormFromHkl hkl b := by
    unfold qNormFromHkl; have := Real.sqrt_nonneg ((b *ᵥ hkl) ⬝ᵥ (b *ᵥ hkl)); positivity
  set Q := qNormFromHkl hkl b with hQ
  obtain ⟨_, ki0, _⟩ := en2q_ok hki
  obtain ⟨_, kf0, _⟩ := en2q_ok hkf
  obtain ⟨kip, kfp, hcl, x0, x1, ex⟩ := angleFromTriangle_ok ki0 kf0 hQ0 hx
  obtain ⟨_, Qp, _, y0, y1, ey⟩ := angleFromTriangle_ok ki0 hQ0 kf0 hy
  have sx := Real.sin_nonneg_of_nonneg_of_le_pi x0 x1
  have sy := Real.sin_nonneg_of_nonneg_of_le_pi y0 y1
  have ecos : ki - kf * Real.cos x = Q * Real.cos y := by
    have : 2 * ki * (ki - kf * Real.cos x) = 2 * ki * (Q * Real.cos y) := by linear_combination -ey - ex
    exact mul_left_cancel₀ (by positivity) this
  have esin : kf * Real.sin x = Q * Real.sin y := by
    have h1 := Real.sin_sq_add_cos_sq x
    have h2 := Real.sin_sq_add_cos_sq y
    apply (mul_self_inj (by positivity) (by positivity)).1
    linear_combination kf ^ 2 * h1 - Q ^ 2 * h2 - (ki - kf * Real.cos x + Q * Real.cos y) * ecos - ex
  have hss : s = 1 ∨ s = -1 := by rcases goni_sense hs with h | h <;> simp [h.1]
  have e1 : deg2rad tt = x * s := by
    rw [← htt]; have := deg2rad_rad2deg x; unfold deg2rad at *; linear_combination s * this
  have e2 : deg2rad psi = -(y * s) := by
    rw [← hpsi]; have := deg2rad_rad2deg y; unfold deg2rad at *; linear_combination (-s) * this
  refine ⟨ki, kf, hki, hkf, kip, kfp, Qp, hcl, ?_, ?_, ?_, ?_⟩
  · unfold qLab
    rw [hki, py_bind_ok, hkf, py_bind_ok]
    simp [deg2rad]
  · rw [e1, e2, Real.sin_neg]
    rcases hss with rfl | rfl
    · rw [mul_one, mul_one]; linarith
    · rw [mul_neg_one, mul_neg_one, Real.sin_neg, Real.sin_neg]; linarith
  · rw [e1, e2, Real.cos_neg]
    rcases hss with rfl | rfl
    · rw [mul_one, mul_one, ecos]
    · rw [mul_neg_one, mul_neg_one, Real.cos_neg, Real.cos_neg, ecos]
  · intro s' hs'
    rw [hs] at hs'
    cases hs'
    have rx0 : 0 ≤ rad2deg x := by unfold rad2deg; positivity
    have rx1 : rad2deg x ≤ 180 := by
      unfold rad2deg
      calc x * (180 / π) ≤ π * (180 / π) := by gcongr
        _ = 180 := by field_simp
    have ry0 : 0 ≤ rad2deg y := by unfold rad2deg; positivity
    have ry1 : rad2deg y ≤ 180 := by
      unfold rad2deg
      calc y * (180 / π) ≤ π * (180 / π) := by gcongr
        _ = 180 := by field_simp
    rcases hss with rfl | rfl
    · refine ⟨?_, ?_, ?_, ?_⟩ <;> linarith
    · refine ⟨?_, ?_, ?_, ?_⟩ <;> linarith

/-- **C13** (existence) For wave vectors above the code's resolution of `1e-6`, two-theta and psi are returned exactly
when `ki`, `kf`, `|Q|` close; otherwise the request is refused with a `ValueError`. -/
theorem C13_closes_iff {t : Tas} {hkl : V3} {en ei ef ki kf s : ℝ} {b : M3}
    (hb : t.sample.bMat = .ok b) (he : t.getEiEf none none en = .ok (ei, ef)) (hs : t.goni.senseVal = .ok s)
    (hki : en2q ei = .ok ki) (hkf : en2q ef = .ok kf) (h1 : 1e-6 ≤ ki) (h2 : 1e-6 ≤ kf)
    (h3 : 1e-6 ≤ qNormFromHkl hkl b) :
    (Spec.Closes ki kf (qNormFromHkl hkl b) →
      ∃ tt psi, t.getTwoTheta hkl en = .ok tt ∧ t.getPsi hkl en = .ok psi) ∧
    (¬ Spec.Closes ki kf (qNormFromHkl hkl b) →
      t.getTwoTheta hkl en = .error .valueError ∧ t.getPsi hkl en = .error .valueError) := by
  have hp : (0 : ℝ) < 1e-6 := by norm_num
  have hsym : Spec.Closes ki (qNormFromHkl hkl b) kf ↔ Spec.Closes ki kf (qNormFromHkl hkl b) := by
    unfold Spec.Closes
    rw [abs_le, abs_le]
    constructor <;> rintro ⟨⟨h4, h5⟩, h6⟩ <;> refine ⟨⟨?_, ?_⟩, ?_⟩ <;> linarith
  obtain ⟨a1, a2⟩ := C13_triangle h1 h2 (by linarith : (0:ℝ) ≤ qNormFromHkl hkl b)
  obtain ⟨b1, b2⟩ := C13_triangle h1 h3 (by linarith : (0:ℝ) ≤ kf)
  rw [getTwoTheta_eq hb he, getPsi_eq hb he]
  unfold twoThetaFromHkle psiFromHkle
  rw [hki, hkf, hs]
  simp only [py_bind_ok]
  constructor
  · intro h
    obtain ⟨x, hx, _⟩ := a1 h
    obtain ⟨y, hy, _⟩ := b1 (hsym.2 h)
    rw [hx, hy]
    exact ⟨_, _, rfl, rfl⟩
  · intro h
    rw [a2 h, b2 (fun h' => h (hsym.1 h'))]
    exact ⟨rfl, rfl⟩

/-- **C13** (what is too short) A negative energy is refused by both; a wave vector of either neutron below `1e-6` by two-theta, one
of the incoming neutron or a momentum transfer below `1e-6` by psi. -/
theorem C13_too_short {t : Tas} {hkl : V3} {en ei ef : ℝ} {b : M3}
    (hb : t.sample.bMat = .ok b) (he : t.getEiEf none none en = .ok (ei, ef)) :
    (ei < 0 ∨ ef < 0 → t.getTwoTheta hkl en = .error .valueError ∧ t.getPsi hkl en = .error .valueError) ∧
    ∀ ki kf, en2q ei = .ok ki → en2q ef = .ok kf →
      (ki < 1e-6 ∨ kf < 1e-6 → t.getTwoTheta hkl en = .error .valueError) ∧
      (ki < 1e-6 ∨ qNormFromHkl hkl b < 1e-6 → t.getPsi hkl en = .error .valueError) := by
  rw [getTwoTheta_eq hb he, getPsi_eq hb he]
  unfold twoThetaFromHkle psiFromHkle
  have hpos : ∀ {e k : ℝ}, en2q e = .ok k → 0 ≤ k := by
    intro e k h
    by_cases h0 : e < 0
    · rw [(C20_energy_momentum e).1 h0] at h; exact absurd h (by simp)
    · obtain ⟨q, hq, h1, -⟩ := (C20_energy_momentum e).2 (not_lt.1 h0)
      rw [hq] at h
      exact (Except.ok.inj h) ▸ h1
  have hq : 0 ≤ qNormFromHkl hkl b := by
    unfold qNormFromHkl
    positivity
  refine ⟨fun h => ?_, fun ki kf h1 h2 => ?_⟩
  · by_cases h0 : ei < 0
    · rw [(C20_energy_momentum ei).1 h0]; exact ⟨rfl, rfl⟩
    · obtain ⟨q, hq, -⟩ := (C20_energy_momentum ei).2 (not_lt.1 h0)
      rw [hq, (C20_energy_momentum ef).1 (h.resolve_left h0)]
      exact ⟨rfl, rfl⟩
  · rw [h1, h2]
    simp only [py_bind_ok]
    unfold angleFromTriangle
    rw [abs_of_nonneg (hpos h1), abs_of_nonneg (hpos h2), abs_of_nonneg hq]
    exact ⟨fun h => by rw [if_pos h]; rfl, fun h => by rw [if_pos h]; rfl⟩

/-! ## C22 -/

/-- A lattice update request. -/
inductive LattOp where
  | params (L : Latt)
  | fromB (b : M3)

/-- One attempted update; an exception leaves the object as it is. -/
noncomputable def Sample.attempt (s : Sample) : LattOp → Py Sample
  | .params L => s.updateLatt L
  | .fromB b => s.updateFromB b

noncomputable def Sample.session (s : Sample) (ops : List LattOp) : Sample :=
  ops.foldl (fun s o => match s.attempt o with | .ok s' => s' | .error _ => s) s

/-- Specification: the six numbers are acceptable as lattice parameters. -/
def Spec.Acceptable (L : Latt) : Prop :=
  0 < L.a ∧ 0 < L.b ∧ 0 < L.c ∧ (0 ≤ L.alpha ∧ L.alpha ≤ 180) ∧ (0 ≤ L.beta ∧ L.beta ≤ 180) ∧
    (0 ≤ L.gamma ∧ L.gamma ≤ 180)

/-- Specification of what a request asks for: the parameters themselves, or the cell with the metric
`(BᵀB)⁻¹`; a singular `B` asks for the unit cube (as announced on the console). -/
def Spec.Asks (o : LattOp) (L : Latt) : Prop :=
  match o with
  | .params L' => L' = L ∧ Spec.Acceptable L
  | .fromB b => (b.det ≠ 0 ∧ PossibleCell L ∧ bᵀ * b * Spec.metric L = 1) ∨
      (b.det = 0 ∧ L = ⟨1, 1, 1, 90, 90, 90⟩)

theorem validLatt_ok {L : Latt} : Sample.validLatt L = .ok () ↔ Spec.Acceptable L := by
  unfold Sample.validLatt Spec.Acceptable
  split
  · rename_i h
    constructor
    · intro h'; cases h'
    · rintro ⟨h1, h2, h3, _⟩
      rcases h with h | h | h <;> linarith
  · rename_i h
    push Not at h
    split
    · rename_i h'
      constructor
      · intro h''; cases h''
      · rintro ⟨_, _, _, ⟨h1, h2⟩, ⟨h3, h4⟩, ⟨h5, h6⟩⟩
        rcases h' with h' | h' | h' | h' | h' | h' <;> linarith
    · rename_i h'
      push Not at h'
      refine ⟨fun _ => ⟨h.1, h.2.1, h.2.2, ?_⟩, fun _ => rfl⟩
      obtain ⟨h1, h2, h3, h4, h5, h6⟩ := h'
      exact ⟨⟨h1, h2⟩, ⟨h3, h4⟩, ⟨h5, h6⟩⟩

theorem possible_acceptable {L : Latt} (h : PossibleCell L) : Spec.Acceptable L :=
  ⟨h.a_pos, h.b_pos, h.c_pos, ⟨h.alpha_pos.le, h.alpha_lt.le⟩, ⟨h.beta_pos.le, h.beta_lt.le⟩,
    ⟨h.gamma_pos.le, h.gamma_lt.le⟩⟩

theorem metric_inj {L L' : Latt} (h : PossibleCell L) (h' : PossibleCell L') {g : M3}
    (e : g * Spec.metric L = 1) (e' : g * Spec.metric L' = 1) : L = L' := by
  have h1 := lattFromGStar_metric h e
  have h2 := lattFromGStar_metric h' e'
  rw [h1] at h2
  exact Except.ok.inj h2

/-- **C22** One request: accepted iff it asks for acceptable parameters, then exactly these are stored and nothing else
changes; otherwise it is refused with a `ValueError`. -/
theorem C22_one_update (s : Sample) (o : LattOp) :
    (∀ L, Spec.Asks o L → s.attempt o = .ok { s with latt := L }) ∧
    ((¬ ∃ L, Spec.Asks o L) → s.attempt o = .error .valueError) := by
  cases o with
  | params L' =>
    constructor
    · rintro L ⟨rfl, h⟩
      change s.updateLatt L' = _
      unfold Sample.updateLatt
      rw [validLatt_ok.2 h]; rfl
    · intro h
      have : ¬ Spec.Acceptable L' := fun hh => h ⟨L', rfl, hh⟩
      change s.updateLatt L' = _
      unfold Sample.updateLatt
      cases hv : Sample.validLatt L' with
      | ok u => exact absurd (validLatt_ok.1 hv) this
      | error e =>
        have : e = .valueError := by
          unfold Sample.validLatt at hv
          split at hv
          · cases hv; rfl
          · split at hv <;> cases hv; rfl
        rw [this]; rfl
  | fromB b =>
    by_cases hd : b.det = 0
    · have hsing : Sample.attempt s (.fromB b) = .ok { s with latt := ⟨1, 1, 1, 90, 90, 90⟩ } := by
        change s.updateFromB b = _
        unfold Sample.updateFromB
        rw [C01_singular_fallback hd, py_bind_ok]
        unfold Sample.updateLatt
        rw [validLatt_ok.2 (by norm_num [Spec.Acceptable])]; rfl
      constructor
      · rintro L (⟨h, _⟩ | ⟨_, rfl⟩)
        · exact absurd hd h
        · exact hsing
      · intro h; exact absurd ⟨_, Or.inr ⟨hd, rfl⟩⟩ h
    · obtain ⟨L0, h1, h2, h3⟩ := lattFromGStar_of_invertible hd
      have hok : Sample.attempt s (.fromB b) = .ok { s with latt := L0 } := by
        change s.updateFromB b = _
        unfold Sample.updateFromB lattFromBMat
        rw [h1, py_bind_ok]
        unfold Sample.updateLatt
        rw [validLatt_ok.2 (possible_acceptable h2)]; rfl
      constructor
      · rintro L (⟨_, h, h'⟩ | ⟨h, _⟩)
        · rw [hok, metric_inj h2 h h3 h']
        · exact absurd h hd
      · intro h; exact absurd ⟨_, Or.inl ⟨hd, h2, h3⟩⟩ h

/-- **C22** After any session the sample holds the parameters of the last request that was acceptable (or the initial
ones if none was), and everything else about the sample is untouched. -/
theorem C22_history (s : Sample) (ops : List LattOp) :
    (∃ L, s.session ops = { s with latt := L }) ∧
    ((∀ o ∈ ops, ¬ ∃ L, Spec.Asks o L) → s.session ops = s) ∧
    (∀ pre o post L, ops = pre ++ o :: post → Spec.Asks o L → (∀ o' ∈ post, ¬ ∃ L', Spec.Asks o' L') →
      (s.session ops).latt = L) := by
  have step : ∀ l o, s.session (l ++ [o]) =
      match (s.session l).attempt o with | .ok s' => s' | .error _ => s.session l := by
    intro l o; unfold Sample.session; rw [List.foldl_append]; rfl
  have refuse : ∀ (pre post : List LattOp), (∀ o' ∈ post, ¬ ∃ L', Spec.Asks o' L') →
      s.session (pre ++ post) = s.session pre := by
    intro pre post
    induction post using List.reverseRecOn with
    | nil => intro _; rw [List.append_nil]
    | append_singleton l o ih =>
      intro h
      rw [← List.append_assoc, step, (C22_one_update _ o).2 (h o (by simp))]
      exact ih (fun o' ho' => h o' (by simp [ho']))
  refine ⟨?_, ?_, ?_⟩
  · induction ops using List.reverseRecOn with
    | nil => exact ⟨s.latt, rfl⟩
    | append_singleton l o ih =>
      obtain ⟨L, hL⟩ := ih
      rw [step]
      by_cases ho : ∃ L', Spec.Asks o L'
      · obtain ⟨L', hL'⟩ := ho
        rw [(C22_one_update _ o).1 L' hL', hL]
        exact ⟨L', rfl⟩
      · rw [(C22_one_update _ o).2 ho, hL]
        exact ⟨L, rfl⟩
  · intro h
    have := refuse [] ops h
    rw [List.nil_append] at this
    exact this
  · rintro pre o post L rfl hL hpost
    rw [show pre ++ o :: post = (pre ++ [o]) ++ post by simp, refuse _ _ hpost, step,
      (C22_one_update _ o).1 L hL]

/-- **C22**, negation of the last clause: an accepted update need not be a possible cell; here B is undefined
(not a number) after an accepted update. -/
theorem C22_impossible_accepted (s : Sample) :
    ∃ L s', s.attempt (.params L) = .ok s' ∧ s'.latt = L ∧ ¬ PossibleCell L ∧ s'.bMat = .error .nonFinite := by
  refine ⟨⟨1, 1, 1, 120, 120, 180⟩, _, (C22_one_update s _).1 _ ⟨rfl, by norm_num [Spec.Acceptable]⟩, rfl,
    fun h => absurd h.gamma_lt (by norm_num), ?_⟩
  have h120 : Real.cos (120 * (π / 180)) = -(1 / 2) := by
    rw [show 120 * (π / 180) = π - π / 3 by ring, Real.cos_pi_sub, Real.cos_pi_div_three]
  have h180 : Real.cos (180 * (π / 180)) = -1 := by
    rw [show 180 * (π / 180) = π by ring, Real.cos_pi]
  have hv : vAbg 120 120 180 = .error .nonFinite := by
    unfold vAbg
    simp only [deg2rad, h120, h180]
    norm_num [pySqrt]
  unfold Sample.bMat bMatFromLattice reciprocalLattParams
  simp only
  rw [hv]
  rfl

/-- **C22** (the part that holds) Updates through a B matrix and updates with a possible cell always leave a possible
cell with a well-defined, invertible B. -/
theorem C22_accepted_b_defined_partial (s : Sample) (o : LattOp) {L : Latt} (ho : Spec.Asks o L)
    (hL : ∀ L', o = .params L' → PossibleCell L') :
    ∃ s' B, s.attempt o = .ok s' ∧ PossibleCell s'.latt ∧ s'.bMat = .ok B ∧ B.det ≠ 0 := by
  have hp : PossibleCell L := by
    cases o with
    | params L' => obtain ⟨rfl, _⟩ := ho; exact hL _ rfl
    | fromB b =>
      rcases ho with ⟨_, h, _⟩ | ⟨_, rfl⟩
      · exact h
      · have h90 : Real.cos (90 * π / 180) = 0 := by
          rw [show 90 * π / 180 = π / 2 by ring, Real.cos_pi_div_two]
        constructor <;> simp only [h90] <;> norm_num
  obtain ⟨B, hB, _⟩ := C02_gram hp
  exact ⟨_, B, (C22_one_update s o).1 L ho, hp, hB, b_det_ne hp hB⟩

example (s : Sample) : (s.session [.params ⟨5, 5, 5, 90, 90, 120⟩, .params ⟨-1, 2, 3, 90, 90, 90⟩,
    .params ⟨2, 3, 4, 200, 90, 90⟩]).latt = ⟨5, 5, 5, 90, 90, 120⟩ :=
  (C22_history s _).2.2 [] _ _ _ rfl ⟨rfl, by norm_num [Spec.Acceptable]⟩ (by
    intro o ho
    simp at ho
    rcases ho with rfl | rfl <;> rintro ⟨L, rfl, h⟩ <;> norm_num [Spec.Acceptable] at h)

/-! ## C23 -/

theorem cosBetween_ok {u v : V3} (hu : u ≠ 0) (hv : v ≠ 0) :
    cosBetween u v = .ok (u ⬝ᵥ v / norm3 u / norm3 v) := by
  unfold cosBetween
  rw [pyDiv_ok (norm3_pos hu).ne', py_bind_ok, pyDiv_ok (norm3_pos hv).ne']

theorem clip_cos {u v : V3} (hu : u ≠ 0) (hv : v ≠ 0) :
    clip1 (u ⬝ᵥ v / norm3 u / norm3 v) = u ⬝ᵥ v / norm3 u / norm3 v ∧
      -1 ≤ u ⬝ᵥ v / norm3 u / norm3 v ∧ u ⬝ᵥ v / norm3 u / norm3 v ≤ 1 := by
  have h := abs_dot_le u v
  have hp := norm3_pos hu
  have hq := norm3_pos hv
  have h1 : -1 ≤ u ⬝ᵥ v / norm3 u / norm3 v ∧ u ⬝ᵥ v / norm3 u / norm3 v ≤ 1 := by
    rw [div_div, le_div_iff₀ (by positivity), div_le_iff₀ (by positivity)]
    constructor
    · linarith [neg_abs_le (u ⬝ᵥ v)]
    · linarith [le_abs_self (u ⬝ᵥ v)]
  refine ⟨?_, h1⟩
  unfold clip1
  rw [min_eq_left h1.2, max_eq_right h1.1]

theorem angle_deg_spec {u v : V3} (hu : u ≠ 0) (hv : v ≠ 0) :
    IsAngleDeg u v (rad2deg (Real.arccos (clip1 (u ⬝ᵥ v / norm3 u / norm3 v)))) := by
  have hpi := Real.pi_pos
  obtain ⟨h0, h1, h2⟩ := clip_cos hu hv
  rw [h0]
  have a0 := Real.arccos_nonneg (u ⬝ᵥ v / norm3 u / norm3 v)
  have a1 := Real.arccos_le_pi (u ⬝ᵥ v / norm3 u / norm3 v)
  refine ⟨by unfold rad2deg; positivity, ?_, ?_⟩
  · unfold rad2deg
    calc _ ≤ π * (180 / π) := by gcongr
      _ = 180 := by field_simp
  · have : rad2deg (Real.arccos (u ⬝ᵥ v / norm3 u / norm3 v)) * π / 180
        = Real.arccos (u ⬝ᵥ v / norm3 u / norm3 v) := by unfold rad2deg; field_simp
    rw [this, Real.cos_arccos h1 h2, ← norm3_eq_len, ← norm3_eq_len, ← dot3]
    have hp := norm3_pos hu
    have hq := norm3_pos hv
    field_simp

/-- The angle specification determines the angle. -/
theorem isAngleDeg_unique {u v : V3} (hu : u ≠ 0) (hv : v ≠ 0) {s t : ℝ} (hs : IsAngleDeg u v s)
    (ht : IsAngleDeg u v t) : s = t := by
  obtain ⟨s0, s1, s2⟩ := hs
  obtain ⟨t0, t1, t2⟩ := ht
  have hp := norm3_pos hu
  have hq := norm3_pos hv
  rw [norm3_eq_len] at hp hq
  have : Real.cos (s * π / 180) = Real.cos (t * π / 180) := by
    rw [s2] at t2
    exact mul_left_cancel₀ (by positivity) t2
  have hpi := Real.pi_pos
  have := Real.injOn_cos ⟨by positivity, by nlinarith⟩ ⟨by positivity, by nlinarith⟩ this
  field_simp at this
  exact this

theorem isAngleDeg_comm {u v : V3} {t : ℝ} (h : IsAngleDeg u v t) : IsAngleDeg v u t := by
  obtain ⟨h0, h1, h2⟩ := h
  exact ⟨h0, h1, by linear_combination h2⟩

theorem isAngleDeg_smul {u v : V3} {t a b : ℝ} (ha : 0 < a) (hb : 0 < b) (h : IsAngleDeg u v t) :
    IsAngleDeg (a • u) (b • v) t := by
  obtain ⟨h0, h1, h2⟩ := h
  refine ⟨h0, h1, ?_⟩
  rw [← norm3_eq_len, ← norm3_eq_len, norm3_smul, norm3_smul, abs_of_pos ha, abs_of_pos hb,
    norm3_eq_len, norm3_eq_len]
  simp only [Pi.smul_apply, smul_eq_mul]
  linear_combination (a * b) * h2

theorem isAngleDeg_orth {R : M3} (hR : IsOrth R) {u v : V3} {t : ℝ} (h : IsAngleDeg u v t) :
    IsAngleDeg (R *ᵥ u) (R *ᵥ v) t := by
  obtain ⟨h0, h1, h2⟩ := h
  refine ⟨h0, h1, ?_⟩
  rw [← dot3, dot_mulVec_orth hR, ← norm3_eq_len, ← norm3_eq_len, norm3_mulVec_orth hR, norm3_mulVec_orth hR,
    dot3, norm3_eq_len, norm3_eq_len]
  exact h2

theorem angleHkl_ok {h1 h2 : V3} {b : M3} (hu : b *ᵥ h1 ≠ 0) (hv : b *ᵥ h2 ≠ 0) :
    ∃ t, angleBetweenTwoHkls h1 h2 b = .ok t ∧ IsAngleDeg (b *ᵥ h1) (b *ᵥ h2) t := by
  refine ⟨_, ?_, angle_deg_spec hu hv⟩
  unfold angleBetweenTwoHkls; rw [cosBetween_ok hu hv]; rfl

/-- **C23** The angle between two reflections is the angle (in `[0°,180°]`) between their Q vectors, is symmetric, and
does not depend on the orientation `U`. -/
theorem C23_angle_between {h1 h2 : V3} {b : M3} (hb : b.det ≠ 0) (n1 : h1 ≠ 0) (n2 : h2 ≠ 0) :
    ∃ t, angleBetweenTwoHkls h1 h2 b = .ok t ∧ IsAngleDeg (b *ᵥ h1) (b *ᵥ h2) t ∧
      angleBetweenTwoHkls h2 h1 b = .ok t ∧
      ∀ U, IsOrth U → angleBetweenTwoHkls h1 h2 (U * b) = .ok t := by
  have u0 := mulVec_det_ne_zero hb n1
  have v0 := mulVec_det_ne_zero hb n2
  obtain ⟨t, ht, hs⟩ := angleHkl_ok u0 v0
  refine ⟨t, ht, hs, ?_, ?_⟩
  · obtain ⟨t', ht', hs'⟩ := angleHkl_ok v0 u0
    rw [ht', isAngleDeg_unique v0 u0 hs' (isAngleDeg_comm hs)]
  · intro U hU
    obtain ⟨t', ht', hs'⟩ := angleHkl_ok (b := U * b) (h1 := h1) (h2 := h2)
      (by rw [← Matrix.mulVec_mulVec]; exact mulVec_orth_ne_zero hU u0)
      (by rw [← Matrix.mulVec_mulVec]; exact mulVec_orth_ne_zero hU v0)
    rw [ht']
    rw [← Matrix.mulVec_mulVec, ← Matrix.mulVec_mulVec] at hs'
    rw [isAngleDeg_unique (mulVec_orth_ne_zero hU u0) (mulVec_orth_ne_zero hU v0) hs'
      (isAngleDeg_orth hU hs)]

/-- Specification: reflection `hkl` of a crystal oriented by `ub` is observed at motor position `a`: the goniometer turns
`2π·UB·hkl` onto the lab scattering vector. -/
def Spec.ObservedAt (g : Goni) (ub : M3) (ei ef : ℝ) (hkl : V3) (a : MotorAngles) : Prop :=
  ∃ R q, g.rMat a = .ok R ∧ qLab ei ef a.twoTheta = .ok q ∧ q = (2 * π) • (R *ᵥ (ub *ᵥ hkl))

/-- **C23** The angle between two motor positions equals the angle between the reflections observed there. -/
theorem C23_motor_positions {g : Goni} {U b : M3} {ei ef : ℝ} {h1 h2 : V3} {a1 a2 : MotorAngles}
    (hU : IsOrth U) (hb : b.det ≠ 0) (n1 : h1 ≠ 0) (n2 : h2 ≠ 0)
    (o1 : Spec.ObservedAt g (U * b) ei ef h1 a1) (o2 : Spec.ObservedAt g (U * b) ei ef h2 a2) :
    ∃ t, angleBetweenTwoMotorPositions a1 a2 g.rMatInv ei ef = .ok t ∧ angleBetweenTwoHkls h1 h2 b = .ok t := by
  have hpi := Real.pi_pos
  obtain ⟨R1, q1, r1, l1, e1⟩ := o1
  obtain ⟨R2, q2, r2, l2, e2⟩ := o2
  have k1 := (C06_r_mat_rotation r1).1
  have k2 := (C06_r_mat_rotation r2).1
  obtain ⟨t, ht, hs, _⟩ := C23_angle_between hb n1 n2
  refine ⟨t, ?_, ht⟩
  have i1 : g.rMatInv a1 = .ok R1ᵀ := by unfold Goni.rMatInv; rw [r1]; rfl
  have i2 : g.rMatInv a2 = .ok R2ᵀ := by unfold Goni.rMatInv; rw [r2]; rfl
  have f1 : R1ᵀ *ᵥ q1 = (2 * π) • (U *ᵥ (b *ᵥ h1)) := by
    rw [e1, Matrix.mulVec_smul, mulVec_orth_transpose k1.1, Matrix.mulVec_mulVec]
  have f2 : R2ᵀ *ᵥ q2 = (2 * π) • (U *ᵥ (b *ᵥ h2)) := by
    rw [e2, Matrix.mulVec_smul, mulVec_orth_transpose k2.1, Matrix.mulVec_mulVec]
  have z1 : (2 * π) • (U *ᵥ (b *ᵥ h1)) ≠ 0 :=
    smul_ne_zero (by positivity) (mulVec_orth_ne_zero hU (mulVec_det_ne_zero hb n1))
  have z2 : (2 * π) • (U *ᵥ (b *ᵥ h2)) ≠ 0 :=
    smul_ne_zero (by positivity) (mulVec_orth_ne_zero hU (mulVec_det_ne_zero hb n2))
  unfold angleBetweenTwoMotorPositions
  rw [i1, l1, i2, l2]
  simp only [py_bind_ok]
  rw [f1, f2, cosBetween_ok z1 z2]
  have := angle_deg_spec z1 z2
  rw [isAngleDeg_unique z1 z2 (isAngleDeg_smul (by positivity) (by positivity) (isAngleDeg_orth hU hs)) this]
  rfl

/-! ## C18 -/

/-- **C18** Plane normal and in-plane reference after a two-peak determination. -/
theorem C18_plane_normal {U B : M3} (hU : IsOrth U) (hB : B.det ≠ 0) {h1 h2 : V3} (hh : cross h1 h2 ≠ 0) :
    ∃ n r, planeNormalFromTwoPeaks U B h1 h2 = .ok (n, r) ∧
      len n = 1 ∧ n ⬝ᵥ ((U * B) *ᵥ h1) = 0 ∧ n ⬝ᵥ ((U * B) *ᵥ h2) = 0 ∧ 0 ≤ n 1 ∧
      len r = 1 ∧ n ⬝ᵥ r = 0 ∧ ∃ s : ℝ, 0 < s ∧ r = s • ((U * B) *ᵥ h1) := by
  have hx := cross_mulVec_ne_zero hB hh
  have hh1 : h1 ≠ 0 := by rintro rfl; apply hh; apply ext3 <;> simp
  have h10 := mulVec_det_ne_zero hB hh1
  set n0 := U *ᵥ nrm (cross (B *ᵥ h1) (B *ᵥ h2)) with hn0
  have hl : n0 ⬝ᵥ n0 = 1 := by rw [hn0, dot_mulVec_orth hU, nrm_dot_self hx]
  have p1 : n0 ⬝ᵥ ((U * B) *ᵥ h1) = 0 := by
    rw [hn0, ← Matrix.mulVec_mulVec, dot_mulVec_orth hU]; unfold nrm
    rw [smul_dotProduct, dot_comm3, dot_cross_left, smul_zero]
  have p2 : n0 ⬝ᵥ ((U * B) *ᵥ h2) = 0 := by
    rw [hn0, ← Matrix.mulVec_mulVec, dot_mulVec_orth hU]; unfold nrm
    rw [smul_dotProduct, dot_comm3, dot_cross_right, smul_zero]
  have hr : U *ᵥ nrm (B *ᵥ h1) = (norm3 (B *ᵥ h1))⁻¹ • ((U * B) *ᵥ h1) := by
    unfold nrm; rw [Matrix.mulVec_smul, Matrix.mulVec_mulVec]
  have hrl : len (U *ᵥ nrm (B *ᵥ h1)) = 1 := by
    rw [← norm3_eq_len, norm3_mulVec_orth hU, norm3_nrm h10]
  refine ⟨if n0 1 < 0 then -n0 else n0, U *ᵥ nrm (B *ᵥ h1), ?_, ?_, ?_, ?_, ?_, hrl, ?_,
    (norm3 (B *ᵥ h1))⁻¹, inv_pos.2 (norm3_pos h10), hr⟩
  · unfold planeNormalFromTwoPeaks
    dsimp only
    rw [unit_nrm hx, unit_nrm h10]; rfl
  · rw [← norm3_eq_len]
    have : norm3 n0 = 1 := by unfold norm3; rw [hl, Real.sqrt_one]
    split
    · rw [norm3_neg, this]
    · exact this
  · split <;> simp [p1]
  · split <;> simp [p2]
  · split
    · rename_i h; simp; linarith
    · rename_i h; linarith
  · rw [hr]
    split <;> simp [p1]

example : ∃ B n r, bMatFromLattice exCell = .ok B ∧ planeNormalFromTwoPeaks 1 B ![1, 0, 0] ![0, 1, 0] = .ok (n, r) ∧
    len n = 1 := by
  obtain ⟨B, hB, _⟩ := C02_gram exCell_possible
  obtain ⟨n, r, h, h', _⟩ := C18_plane_normal (U := 1) isRot_one.1 (b_det_ne exCell_possible hB)
    (h1 := ![1, 0, 0]) (h2 := ![0, 1, 0]) (by intro h; have := congrFun h 2; simp at this)
  exact ⟨B, n, r, hB, h, h'⟩

end Tavi
