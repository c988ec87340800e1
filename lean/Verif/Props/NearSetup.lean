import Verif.Props.NearTilt
import Verif.Props.Setup

/-! # C85 and C92, continued: every request, for a sample of a scan and for an experiment set up from files -/

namespace Tavi

open Matrix Real
open Spec

theorem off_axes {M : M3} (hM : M = 1 ∨ M = spiceToMantid) (t n : V3) : Spec.off (M *ᵥ t) (M *ᵥ n) = Spec.off t n := by
  rcases hM with rfl | rfl
  · rw [one_mulVec, one_mulVec]
  · unfold Spec.off; rw [axes_dot, axes_cross_len]

theorem len_axes {M : M3} (hM : M = 1 ∨ M = spiceToMantid) (v w : V3) : len (M *ᵥ v - M *ᵥ w) = len (v - w) := by
  rcases hM with rfl | rfl
  · rw [one_mulVec, one_mulVec]
  · rw [← Matrix.mulVec_sub, ← norm3_eq_len, ← norm3_eq_len]; unfold norm3; rw [axes_dot]

/-- **C85**: with the sample of a scan on a Huber table, the motor angles calculated for any elastic reflection lead back to a
reflection as close to it as it is to the plane or to its normal, if that is within the thresholds of the code. The UB matrix of
the header belongs to its lattice parameters, and the normal is a unit vector. -/
theorem C85_close {iso : Str → Py Str} {xml : List Str → Option Str} {fs : FS} {dir : List Str} {file : Str}
    {f : SpiceFile} {ds sn : Str} {s : ScanObj} (h : Loaded iso xml fs dir file f ds sn s) {L : Latt} {mos : Option Val} {ub : M3}
    {n : V3} (hd : DescribesSample f L mos ub n) {b : M3} (hb : bMatFromLattice L = .ok b) (hcons : bᵀ * b = ubᵀ * ub)
    (hn : n ⬝ᵥ n = 1) {hkl : V3}
    {r : SampleRec} (hr : sampleFromScan s = .ok r) {t : Tas} (ht : t.sample = r.forAngles) (hmode : t.goni.mode = .ok none)
    {a : MotorAngles} (ha : t.motorAngles hkl = .ok a) :
    ∃ hkl' x, t.hklFromAngles a = .ok (some hkl') ∧ a.sgl = some x ∧ 0 ≤ cos (deg2rad x) ∧
      len (ub *ᵥ hkl' - ub *ᵥ hkl) * cos (deg2rad x) ≤ 6 * Spec.off (ub *ᵥ hkl) n ∧ Spec.off (ub *ᵥ hkl) n < 1e-5 := by
  obtain ⟨i, _, _, _, e⟩ := fromScan_ok h hd
  rw [e] at hr
  rw [← Except.ok.inj hr] at ht
  have hdet : (spiceToMantid * ub).det ≠ 0 := by
    rw [Matrix.det_mul]
    exact mul_ne_zero (by simp [spiceToMantid, Matrix.det_fin_three]) hd.invertible
  have hlen : len (spiceToMantid *ᵥ n) = 1 := by
    rw [← norm3_eq_len]; unfold norm3; rw [axes_dot, hn, Real.sqrt_one]
  obtain ⟨hkl', x, h1, h2, h3, h4, -⟩ := C09_huber_close (c := spiceConf ub n) (ub := spiceToMantid * ub) (n := spiceToMantid *ᵥ n)
    ⟨by rw [ht]; rfl, rfl, hdet, b, by rw [ht]; exact hb, by rw [axes_gram]; exact hcons⟩ rfl hlen (fun r hr => by cases hr) hmode ha
  rw [← Matrix.mulVec_mulVec, ← Matrix.mulVec_mulVec, off_axes (.inr rfl), len_axes (.inr rfl)] at h4
  exact ⟨hkl', x, h1, h2, h3, h4, Spec.off_lt _ _⟩

theorem fromMantidV_dot {c : UBConf} {v w v' w' : V3} (h1 : c.fromMantidV v = .ok v') (h2 : c.fromMantidV w = .ok w') :
    v ⬝ᵥ w = v' ⬝ᵥ w' := by
  unfold UBConf.fromMantidV at h1 h2
  split_ifs at h1 h2
  · cases h1; cases h2; rfl
  · cases h1; cases h2
    rw [dot3, dot3]
    simp [mantidToSpice, mulVec3]; ring

/-- **C92**: on a goniometer with three axes and no mode, the motor positions for any elastic reflection lead back to a reflection
as close to it as it is to the plane or to its normal, if that is within the thresholds of the code. The files give the
orientation: a UB matrix that belongs to the lattice parameters and a plane normal of length 1, in either convention, and a
reference direction in the plane or none. -/
theorem C92_close {cfg : InstrConfig} {d : Attrs} {t : Tas} (h : FromFiles cfg d t) {p : Attrs}
    (hp : lookupKey "goniometer".toList cfg = some (some p)) {ty : Str} (hty : orDefault p "type" (.str "Y,-Z,X".toList) = .str ty)
    (hm : ty.count ',' = 2) {L : Latt} (hL : LatticeIn d L) {b : M3} (hb : bMatFromLattice L = .ok b) {lu ln : List ℝ}
    (hu : given d "ub_matrix".toList = some (.nums lu)) (hn : given d "plane_normal".toList = some (.nums ln))
    (href : given d "in_plane_ref".toList = none ∨
      ∃ lr, given d "in_plane_ref".toList = some (.nums lr) ∧ vec lr ⬝ᵥ vec ln = 0)
    (hdet : (rows lu).det ≠ 0) (hcons : bᵀ * b = (rows lu)ᵀ * rows lu) (hn1 : vec ln ⬝ᵥ vec ln = 1) {hkl : V3}
    {a : MotorAngles} (ha : t.motorAngles hkl = .ok a) :
    ∃ hkl' x, t.hklFromAngles a = .ok (some hkl') ∧ a.sgl = some x ∧ 0 ≤ cos (deg2rad x) ∧
      len (rows lu *ᵥ hkl' - rows lu *ᵥ hkl) * cos (deg2rad x) ≤ 6 * Spec.off (rows lu *ᵥ hkl) (vec ln) ∧
      Spec.off (rows lu *ᵥ hkl) (vec ln) < 1e-5 := by
  obtain ⟨s, hs, _, e2, _⟩ := fromFiles_sample h
  have elat := fromFiles_latt h hL
  obtain ⟨c, hc, _, _, k1, _, k2, _, k3, k4⟩ := C84_orientation hs
  obtain ⟨lu', eu, _, k1⟩ := k1 _ hu
  obtain rfl := Cfg.nums.inj eu
  obtain ⟨ln', en, _, k2⟩ := k2 _ hn
  obtain rfl := Cfg.nums.inj en
  obtain ⟨M, hM, r1, r2⟩ := raw_orientation k1 k2
  have hdM : M.det ≠ 0 := by
    rcases hM with rfl | rfl
    · simp
    · simp [spiceToMantid, Matrix.det_fin_three]
  have hgram : (M * rows lu)ᵀ * (M * rows lu) = (rows lu)ᵀ * rows lu := by
    rcases hM with rfl | rfl
    · rw [one_mul]
    · exact axes_gram _
  have hlen : len (M *ᵥ vec ln) = 1 := by
    have := len_axes hM (vec ln) 0
    rw [Matrix.mulVec_zero, sub_zero, sub_zero] at this
    rw [this, ← norm3_eq_len]; unfold norm3; rw [hn1, Real.sqrt_one]
  have hmode : t.goni.mode = .ok none := by
    refine mode_none ?_
    have := (fromFiles_goni h hp).1
    rw [hty] at this
    rw [← Cfg.str.inj this]; exact hm
  have hrf : ∀ r, c.inPlaneRef = some r → r ⬝ᵥ (M *ᵥ vec ln) = 0 := by
    intro r hr
    rcases href with hr0 | ⟨lr, hr1, hperp⟩
    · rw [k4 hr0] at hr; cases hr
    · obtain ⟨lr', er, _, k3⟩ := k3 _ hr1
      obtain rfl := Cfg.nums.inj er
      rw [UBConf.getInPlaneRef, hr] at k3
      obtain ⟨v, hv, k3⟩ := py_bind_eq_ok.1 k3
      rw [UBConf.getPlaneNormal, r2] at k2
      obtain ⟨w, hw, k2⟩ := py_bind_eq_ok.1 k2
      rw [fromMantidV_dot hv hw, Option.some.inj (Except.ok.inj k3), Option.some.inj (Except.ok.inj k2)]
      exact hperp
  obtain ⟨hkl', x, h1, h2, h3, h4, -⟩ := C09_huber_close (c := c) (ub := M * rows lu) (n := M *ᵥ vec ln)
    ⟨by rw [e2]; exact hc, r1, by rw [Matrix.det_mul]; exact mul_ne_zero hdM hdet, b,
      by unfold Sample.bMat; rw [elat]; exact hb, by rw [hgram]; exact hcons⟩ r2 hlen hrf hmode ha
  rw [← Matrix.mulVec_mulVec, ← Matrix.mulVec_mulVec, off_axes hM, len_axes hM] at h4
  exact ⟨hkl', x, h1, h2, h3, h4, Spec.off_lt _ _⟩

end Tavi
