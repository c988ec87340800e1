import Verif.Model.Setup
import Verif.Props.SampleScan
import Verif.Props.Energy

/-!
# C92: a spectrometer and a sample set up from files calculate with the numbers of the files
-/

namespace Tavi

open Matrix Real

/-- The limits a goniometer section asks for: those it lists, or without a list 10 degrees either way for the tilts. -/
noncomputable def Spec.limitIn (p : Attrs) (m : Motor) : Limit :=
  match lookupKey "limits".toList p with
  | some (.ranges l) => (lookupKey (motorName m).toList l).getD (none, none)
  | _ => if m = .sgl ∨ m = .sgu then (some (-10), some 10) else (none, none)

/-- The sense a section gives: `+` is 1 and `-` is -1. -/
def Spec.Sense (v : Option Cfg) (s : ℝ) : Prop :=
  (v = some (.str "+".toList) ∧ s = 1) ∨ (v = some (.str "-".toList) ∧ s = -1)

/-- What the file says under that name, or the default. -/
def Spec.orDefault (p : Attrs) (k : String) (d : Cfg) : Cfg := (lookupKey k.toList p).getD d

/-- An experiment set up from files: the configuration has been loaded into a spectrometer (whatever it was before), the sample
read and mounted. -/
structure Spec.FromFiles (cfg : InstrConfig) (d : Attrs) (t : Tas) : Prop where
  decoded : Decoded cfg
  made : ∃ (t0 t1 : TasBase) (path conv : Str) (ei ef : Option ℝ) (s : SampleRec),
    t0.loadJson path (some cfg) = (t1, .ok ()) ∧ sampleFromJson d = .ok s ∧ t1.ready conv ei ef s = .ok t

/-- The value of a number that may be missing. -/
def Spec.numOrNull : Option ℝ → Cfg
  | some x => .num x
  | none => .null

/-- The lattice parameters in a sample file. -/
def Spec.LatticeIn (d : Attrs) (L : Latt) : Prop :=
  lookupKey "a".toList d = some (.num L.a) ∧ lookupKey "b".toList d = some (.num L.b) ∧
  lookupKey "c".toList d = some (.num L.c) ∧ lookupKey "alpha".toList d = some (.num L.alpha) ∧
  lookupKey "beta".toList d = some (.num L.beta) ∧ lookupKey "gamma".toList d = some (.num L.gamma)

open Spec

theorem part_attr {t : TasBase} {n : Str} {a : Attrs} (h : t.part n = .ok a) (x : Str) : attr t n x = lookupKey x a := by
  unfold TasBase.part at h
  unfold attr
  split at h
  · rename_i e
    rw [e, ← Except.ok.inj h]
  · cases h

/-- The parts of a spectrometer that is ready. -/
theorem ready_inv {t : TasBase} {conv : Str} {ei ef : Option ℝ} {s : SampleRec} {r : Tas} (h : t.ready conv ei ef s = .ok r) :
    (∃ a, t.part "goniometer".toList = .ok a ∧ goniOf a = .ok r.goni) ∧
    (∃ a, t.part "monochromator".toList = .ok a ∧ monoOf a = .ok r.mono) ∧
    (∃ a, t.part "analyzer".toList = .ok a ∧ monoOf a = .ok r.ana) ∧
    (∃ a, t.part "collimators".toList = .ok a ∧ collOf a = .ok r.coll) ∧
    s.mounted = .ok r.sample ∧ r.fixedEi = ei ∧ r.fixedEf = ef := by
  obtain ⟨ga, h1, h⟩ := py_bind_eq_ok.1 h
  obtain ⟨g, h2, h⟩ := py_bind_eq_ok.1 h
  obtain ⟨ma, h3, h⟩ := py_bind_eq_ok.1 h
  obtain ⟨m, h4, h⟩ := py_bind_eq_ok.1 h
  obtain ⟨aa, h5, h⟩ := py_bind_eq_ok.1 h
  obtain ⟨an, h6, h⟩ := py_bind_eq_ok.1 h
  obtain ⟨ca, h7, h⟩ := py_bind_eq_ok.1 h
  obtain ⟨c, h8, h⟩ := py_bind_eq_ok.1 h
  obtain ⟨sm, h9, h⟩ := py_bind_eq_ok.1 h
  obtain rfl := (Except.ok.inj h).symm
  exact ⟨⟨ga, h1, h2⟩, ⟨ma, h3, h4⟩, ⟨aa, h5, h6⟩, ⟨ca, h7, h8⟩, h9, rfl, rfl⟩

theorem mounted_inv {s : SampleRec} {m : Sample} (h : s.mounted = .ok m) :
    m.latt = s.latt ∧ m.ubConf = s.ubConf ∧ s.mosaicH = .num m.mosaicH ∧ s.mosaicV = .num m.mosaicV := by
  obtain ⟨x, hx, h⟩ := py_bind_eq_ok.1 h
  obtain ⟨y, hy, h⟩ := py_bind_eq_ok.1 h
  obtain rfl := (Except.ok.inj h).symm
  refine ⟨rfl, rfl, ?_, ?_⟩
  · unfold asNum at hx; split at hx
    · rename_i e; rw [← Except.ok.inj hx]; exact Option.some.inj e
    · cases hx
  · unfold asNum at hy; split at hy
    · rename_i e; rw [← Except.ok.inj hy]; exact Option.some.inj e
    · cases hy

theorem asNum_inv {v : Option Cfg} {x : ℝ} (h : asNum v = .ok x) : v = some (.num x) := by
  unfold asNum at h; split at h
  · rw [Except.ok.inj h]
  · cases h

theorem cfgOptNum_inv {v : Option Cfg} {x : Option ℝ} (h : cfgOptNum v = .ok x) :
    v = some (numOrNull x) := by
  unfold cfgOptNum at h; split at h
  · rw [← Except.ok.inj h]; rfl
  · rw [← Except.ok.inj h]; rfl
  · cases h

theorem goniOf_inv {a : Attrs} {g : Goni} (h : goniOf a = .ok g) :
    lookupKey "type".toList a = some (.str g.type) ∧ g.sense = cfgSense (lookupKey "sense".toList a) ∧
    ∃ l, lookupKey "limits".toList a = some (.ranges l) ∧
      ∀ m, g.limits m = (lookupKey (motorName m).toList l).getD (none, none) := by
  obtain ⟨ty, h1, h⟩ := py_bind_eq_ok.1 h
  obtain ⟨lim, h2, h⟩ := py_bind_eq_ok.1 h
  obtain rfl := (Except.ok.inj h).symm
  refine ⟨?_, rfl, ?_⟩
  · unfold cfgText at h1; split at h1
    · rename_i e; rw [Except.ok.inj h1] at e; exact e
    · cases h1
  · unfold cfgLimits at h2; split at h2
    · rename_i l e
      refine ⟨l, e, fun m => ?_⟩
      rw [← Except.ok.inj h2]
      cases m <;> rfl
    · cases h2

theorem goni_in : ("goniometer".toList, goniClass) ∈ components := by simp [components]
theorem mono_in : ("monochromator".toList, monoAnaClass) ∈ components := by simp [components]
theorem ana_in : ("analyzer".toList, monoAnaClass) ∈ components := by simp [components]
theorem coll_in : ("collimators".toList, collimatorsClass) ∈ components := by simp [components]

/-- The goniometer of an experiment set up from files. -/
theorem fromFiles_goni {cfg : InstrConfig} {d : Attrs} {t : Tas} (h : FromFiles cfg d t) {p : Attrs}
    (hp : lookupKey "goniometer".toList cfg = some (some p)) :
    orDefault p "type" (.str "Y,-Z,X".toList) = .str t.goni.type ∧
    t.goni.sense = cfgSense (lookupKey "sense".toList p) ∧ ∀ m, t.goni.limits m = limitIn p m := by
  obtain ⟨t0, t1, path, conv, ei, ef, s, hl, _, hr⟩ := h.made
  obtain ⟨⟨a, ha, hg⟩, _⟩ := ready_inv hr
  obtain ⟨e1, e2, l, e3, e4⟩ := goniOf_inv hg
  have key : ∀ x : Str, x ≠ "component_name".toList → x ≠ "d_spacing".toList →
      lookupKey x a = (lookupKey x p).or (lookupKey x goniClass.defaults) := fun x h1 h2 => by
    rw [← part_attr ha]; exact (C83_attributes_partial h.decoded hl goni_in hp h1 h2).1
  rw [key _ (by decide) (by decide)] at e1 e2 e3
  refine ⟨?_, ?_, fun m => ?_⟩
  · unfold orDefault
    cases hv : lookupKey "type".toList p with
    | none => rw [hv] at e1; exact Option.some.inj e1
    | some v => rw [hv] at e1; exact Option.some.inj e1
  · rw [e2]
    cases hv : lookupKey "sense".toList p with
    | none => rfl
    | some v => rfl
  · rw [e4]
    unfold limitIn
    cases hv : lookupKey "limits".toList p with
    | none =>
      rw [hv] at e3
      obtain rfl := Cfg.ranges.inj (Option.some.inj e3)
      cases m <;> rfl
    | some v =>
      rw [hv] at e3
      obtain rfl := Option.some.inj e3
      rfl

theorem sense_of {g : Goni} {v : Option Cfg} (hg : g.sense = cfgSense v) {s : ℝ} (h : g.senseVal = .ok s) : Sense v s := by
  unfold Goni.senseVal at h
  rw [hg] at h
  have key : ∀ c : Str, cfgSense v = some c → v = some (.str c) := by
    intro c hc
    unfold cfgSense at hc; split at hc
    · rw [Option.some.inj hc]
    · cases hc
  split_ifs at h with h1 h2
  · exact .inl ⟨key _ h1, (Except.ok.inj h).symm⟩
  · exact .inr ⟨key _ h2, (Except.ok.inj h).symm⟩

/-- **C92**: every motor position calculated is within the limits of the configuration file. -/
theorem C92_limits {cfg : InstrConfig} {d : Attrs} {t : Tas} (h : FromFiles cfg d t) {p : Attrs}
    (hp : lookupKey "goniometer".toList cfg = some (some p)) {hkl : V3} {en : ℝ} {a : MotorAngles}
    (ha : t.motorAngles hkl en = .ok a) {m : Motor} {x : ℝ} (hx : Goni.motorValue a m = some x) : Within (limitIn p m) x := by
  rw [← (fromFiles_goni h hp).2.2]
  exact C08_limits_respected t [] hkl en ha m hx

/-- The sample of an experiment set up from files. -/
theorem fromFiles_sample {cfg : InstrConfig} {d : Attrs} {t : Tas} (h : FromFiles cfg d t) :
    ∃ s, sampleFromJson d = .ok s ∧ t.sample.latt = s.latt ∧ t.sample.ubConf = s.ubConf ∧
      s.mosaicH = .num t.sample.mosaicH ∧ s.mosaicV = .num t.sample.mosaicV := by
  obtain ⟨t0, t1, path, conv, ei, ef, s, _, hs, hr⟩ := h.made
  obtain ⟨_, _, _, _, hm, _⟩ := ready_inv hr
  exact ⟨s, hs, mounted_inv hm⟩

theorem fromFiles_latt {cfg : InstrConfig} {d : Attrs} {t : Tas} (h : FromFiles cfg d t) {L : Latt} (hL : LatticeIn d L) :
    t.sample.latt = L := by
  obtain ⟨s, hs, e, _⟩ := fromFiles_sample h
  obtain ⟨h1, h2, h3, h4, h5, h6, _⟩ := C84_lattice hs
  obtain ⟨g1, g2, g3, g4, g5, g6⟩ := hL
  rw [e]
  rw [h1] at g1; rw [h2] at g2; rw [h3] at g3; rw [h4] at g4; rw [h5] at g5; rw [h6] at g6
  have k : ∀ {x y : ℝ}, some (Cfg.num x) = some (.num y) → x = y := fun h => Cfg.num.inj (Option.some.inj h)
  cases L; cases hsl : s.latt
  rw [hsl] at g1 g2 g3 g4 g5 g6
  simp only [Latt.mk.injEq]
  exact ⟨k g1, k g2, k g3, k g4, k g5, k g6⟩

theorem angles_twoTheta {t : Tas} {hkl : V3} {en : ℝ} {a : MotorAngles} (h : t.motorAngles hkl en = .ok a) :
    ∃ psi, t.getTwoTheta hkl en = .ok a.twoTheta ∧ t.getPsi hkl en = .ok psi := by
  obtain ⟨tt, psi, ei, ef, c, htt, hpsi, _, _, _, ⟨_, r, _, h⟩ | ⟨_, h⟩⟩ := motorAngles_cases h
  · obtain ⟨_, _, _, _, _, rfl, _⟩ := anglesFromRMat_cases h
    exact ⟨psi, htt, hpsi⟩
  · obtain ⟨_, _, _, _, _, _, _, _, _, rfl, _⟩ := bisect_cases h
    exact ⟨psi, htt, hpsi⟩

/-- **C92**: for every reflection and energy transfer, the detector is turned by the angle at which `ki`, `kf` and the `|Q|` of
the lattice in the sample file make a triangle, to the side the configuration file says. -/
theorem C92_detector {cfg : InstrConfig} {d : Attrs} {t : Tas} (h : FromFiles cfg d t) {p : Attrs}
    (hp : lookupKey "goniometer".toList cfg = some (some p)) {L : Latt} (hL : LatticeIn d L) (hc : PossibleCell L) {hkl : V3}
    {en : ℝ} {a : MotorAngles} (ha : t.motorAngles hkl en = .ok a) :
    ∃ σ ei ef ki kf : ℝ, Sense (lookupKey "sense".toList p) σ ∧
      (∀ e, t.fixedEi = some e → ei = e) ∧ (∀ e, t.fixedEf = some e → ef = e) ∧
      (t.fixedEi = none ∨ t.fixedEf = none → ei - ef = en) ∧
      en2q ei = .ok ki ∧ en2q ef = .ok kf ∧ 0 < ki ∧ 0 < kf ∧
      4 * π ^ 2 * (hkl ⬝ᵥ ((metric L)⁻¹ *ᵥ hkl)) = ki ^ 2 + kf ^ 2 - 2 * ki * kf * Real.cos (a.twoTheta * π / 180) ∧
      0 ≤ σ * a.twoTheta ∧ σ * a.twoTheta ≤ 180 := by
  obtain ⟨psi, htt, hpsi⟩ := angles_twoTheta ha
  have hlat := fromFiles_latt h hL
  obtain ⟨b, hb, hq, _⟩ := C02_q_norm (s := t.sample) (hlat ▸ hc) hkl
  rw [hlat] at hq
  obtain ⟨_, _, ei, ef, _, _, _, he, _⟩ := motorAngles_cases ha
  obtain ⟨ki, kf, hki, hkf, pi, pf, pq, _, _, e1, e2, hs⟩ := C13_q_lab hb he htt hpsi
  obtain ⟨σ, hσ⟩ : ∃ σ, t.goni.senseVal = .ok σ := by
    unfold Tas.getTwoTheta at htt
    obtain ⟨_, _, htt⟩ := py_bind_eq_ok.1 htt
    obtain ⟨_, _, htt⟩ := py_bind_eq_ok.1 htt
    obtain ⟨_, _, htt⟩ := py_bind_eq_ok.1 htt
    obtain ⟨σ, hσ, _⟩ := py_bind_eq_ok.1 htt
    exact ⟨σ, hσ⟩
  obtain ⟨_, _, x1⟩ := C21_ei_ef t none none en
  obtain ⟨_, _, x2, x3, x4⟩ := x1 ei ef he
  obtain ⟨s1, s2, _⟩ := hs σ hσ
  refine ⟨σ, ei, ef, ki, kf, sense_of (fromFiles_goni h hp).2.1 hσ, fun e => x2 e rfl, fun e => x3 e rfl,
    fun h => x4 (h.imp (fun h => ⟨rfl, h⟩) fun h => ⟨rfl, h⟩), hki, hkf, pi, pf, ?_, s1, s2⟩
  have hn : 0 ≤ hkl ⬝ᵥ ((metric L)⁻¹ *ᵥ hkl) := by
    by_contra hneg
    rw [hq, Real.sqrt_eq_zero_of_nonpos (le_of_lt (not_le.1 hneg)), mul_zero] at pq
    exact lt_irrefl _ pq
  have hq2 : qNormFromHkl hkl b ^ 2 = 4 * π ^ 2 * (hkl ⬝ᵥ ((metric L)⁻¹ *ᵥ hkl)) := by
    rw [hq, mul_pow, Real.sq_sqrt hn]; ring
  rw [← hq2]
  have c0 : deg2rad a.twoTheta = a.twoTheta * π / 180 := by unfold deg2rad; ring
  rw [← c0]
  have c1 := Real.sin_sq_add_cos_sq (deg2rad psi)
  have c2 := Real.sin_sq_add_cos_sq (deg2rad a.twoTheta)
  linear_combination (-qNormFromHkl hkl b ^ 2) * c1
    - (qNormFromHkl hkl b * Real.sin (deg2rad psi) - kf * Real.sin (deg2rad a.twoTheta)) * e1
    - (qNormFromHkl hkl b * Real.cos (deg2rad psi) + ki - kf * Real.cos (deg2rad a.twoTheta)) * e2 + kf ^ 2 * c2

/-- The stored orientation in terms of the one handed in: nothing but a change of axes. -/
theorem raw_orientation {c : UBConf} {u : M3} {n : V3} (h1 : c.getUbMat = .ok u) (h2 : c.getPlaneNormal = .ok (some n)) :
    ∃ M : M3, (M = 1 ∨ M = spiceToMantid) ∧ c.ubMat = some (M * u) ∧ c.planeNormal = some (M *ᵥ n) := by
  have inv : spiceToMantid * mantidToSpice = 1 := by
    ext i j; fin_cases i <;> fin_cases j <;> simp [spiceToMantid, mantidToSpice, Matrix.mul_apply, Fin.sum_univ_three]
  unfold UBConf.getUbMat at h1
  unfold UBConf.getPlaneNormal at h2
  split at h1
  · cases h1
  rename_i m hm
  split at h2
  · split_ifs at h2
    cases h2
  rename_i v hv
  obtain ⟨w, hw, h2⟩ := py_bind_eq_ok.1 h2
  obtain rfl := Option.some.inj (Except.ok.inj h2)
  unfold UBConf.fromMantidM at h1
  unfold UBConf.fromMantidV at hw
  split_ifs at h1 hw with g1 g2
  · obtain rfl := Except.ok.inj h1
    obtain rfl := Except.ok.inj hw
    exact ⟨1, .inl rfl, by rw [hm, one_mul], by rw [hv, one_mulVec]⟩
  · obtain rfl := Except.ok.inj h1
    obtain rfl := Except.ok.inj hw
    exact ⟨spiceToMantid, .inr rfl, by rw [hm, ← Matrix.mul_assoc, inv, one_mul], by rw [hv, mulVec_mulVec, inv, one_mulVec]⟩

theorem splitOn_count (c : Char) (l : Str) : (splitOn c l).length = l.count c + 1 := by
  induction l with
  | nil => rfl
  | cons x l ih =>
    rw [splitOn]
    split_ifs with h
    · rw [List.length_cons, ih, h, List.count_cons_self]
    · split
      · rename_i e; rw [e] at ih; cases ih
      · rename_i e
        rw [e] at ih
        rw [List.count_cons_of_ne (by simpa using h), ← ih]; rfl

/-- Three axes and no mode: minimal tilt. -/
theorem mode_none {g : Goni} (h : g.type.count ',' = 2) : g.mode = .ok none := by
  have hc := splitOn_count ',' g.type
  rw [h] at hc
  unfold Goni.mode Goni.axes
  rcases hs : splitOn ',' g.type with _ | ⟨a, _ | ⟨b, _ | ⟨c, _ | ⟨r, l⟩⟩⟩⟩ <;> rw [hs] at hc <;> first | rfl | simp at hc

/-- **C92**: on a goniometer with three axes and no mode, the motor positions for an elastic reflection lead back to the
reflection, when the files give the orientation: a UB matrix that belongs to the lattice parameters and a plane normal of
length 1, in either convention. The reflection is in the plane, or clearly out of it and not along its normal. -/
theorem C92_roundtrip_partial {cfg : InstrConfig} {d : Attrs} {t : Tas} (h : FromFiles cfg d t) {p : Attrs}
    (hp : lookupKey "goniometer".toList cfg = some (some p)) {ty : Str} (hty : orDefault p "type" (.str "Y,-Z,X".toList) = .str ty)
    (hm : ty.count ',' = 2) {L : Latt} (hL : LatticeIn d L) {b : M3} (hb : bMatFromLattice L = .ok b) {lu ln : List ℝ}
    (hu : given d "ub_matrix".toList = some (.nums lu)) (hn : given d "plane_normal".toList = some (.nums ln))
    (hdet : (rows lu).det ≠ 0) (hcons : bᵀ * b = (rows lu)ᵀ * rows lu) (hn1 : vec ln ⬝ᵥ vec ln = 1) {hkl : V3}
    (hclear : vec ln ⬝ᵥ (rows lu *ᵥ hkl) = 0 ∨
      (1e-5 ≤ |vec ln ⬝ᵥ (rows lu *ᵥ hkl)| ∧ 1e-5 ≤ len (cross (vec ln) (rows lu *ᵥ hkl))))
    {a : MotorAngles} (ha : t.motorAngles hkl = .ok a) (hl : ∀ x, a.sgl = some x → |x| ≠ 90) :
    t.hklFromAngles a = .ok (some hkl) := by
  obtain ⟨s, hs, _, e2, _⟩ := fromFiles_sample h
  have elat := fromFiles_latt h hL
  obtain ⟨c, hc, _, _, k1, _, k2, _⟩ := C84_orientation hs
  obtain ⟨lu', eu, _, k1⟩ := k1 _ hu
  obtain rfl := Cfg.nums.inj eu
  obtain ⟨ln', en, _, k2⟩ := k2 _ hn
  obtain rfl := Cfg.nums.inj en
  obtain ⟨M, hM, r1, r2⟩ := raw_orientation k1 k2
  have hdM : M.det ≠ 0 := by
    rcases hM with rfl | rfl
    · simp
    · simp [spiceToMantid, Matrix.det_fin_three]
  have hgram : (M * rows lu)ᵀ * (M * rows lu) = (rows lu)ᵀ * rows lu := by
    rcases hM with rfl | rfl
    · rw [one_mul]
    · exact axes_gram _
  have hdot : ∀ v w : V3, (M *ᵥ v) ⬝ᵥ (M *ᵥ w) = v ⬝ᵥ w := by
    intro v w
    rcases hM with rfl | rfl
    · rw [one_mulVec, one_mulVec]
    · exact axes_dot v w
  have hcr : ∀ v w : V3, len (cross (M *ᵥ v) (M *ᵥ w)) = len (cross v w) := by
    intro v w
    rcases hM with rfl | rfl
    · rw [one_mulVec, one_mulVec]
    · exact axes_cross_len v w
  have hlen : len (M *ᵥ vec ln) = 1 := by
    have h1 := hdot (vec ln) (vec ln)
    rw [hn1] at h1
    unfold Spec.len
    rw [show (M *ᵥ vec ln) 0 ^ 2 + (M *ᵥ vec ln) 1 ^ 2 + (M *ᵥ vec ln) 2 ^ 2 = 1 by
      rw [← h1]; simp only [dotProduct, Fin.sum_univ_three]; ring]
    exact Real.sqrt_one
  have hmode : t.goni.mode = .ok none := by
    refine mode_none ?_
    have := (fromFiles_goni h hp).1
    rw [hty] at this
    rw [← Cfg.str.inj this]; exact hm
  refine C09_huber_roundtrip_partial (c := c) (ub := M * rows lu) (n := M *ᵥ vec ln)
    ⟨by rw [e2]; exact hc, r1, by rw [Matrix.det_mul]; exact mul_ne_zero hdM hdet, b, ?_, by rw [hgram]; exact hcons⟩ r2 hlen ?_
    hmode ha hl
  · unfold Sample.bMat; rw [elat]; exact hb
  · rw [← Matrix.mulVec_mulVec]
    unfold Spec.TiltClear
    rw [hdot, hcr]
    exact hclear.imp id fun ⟨h1, h2⟩ => ⟨h1, .inl h2⟩

/-! ## Crystals -/

theorem xtal_pos {s : Str} {x : ℝ} (h : lookupKey s monoAnaXtal = some x) : 0 < x := by
  have := lookupKey_some_mem h
  simp only [monoAnaXtal, List.mem_cons, List.not_mem_nil, or_false, Prod.mk.injEq] at this
  rcases this with ⟨_, rfl⟩ | ⟨_, rfl⟩ | ⟨_, rfl⟩ | ⟨_, rfl⟩ | ⟨_, rfl⟩ | ⟨_, rfl⟩ | ⟨_, rfl⟩ | ⟨_, rfl⟩ | ⟨_, rfl⟩ | ⟨_, rfl⟩ |
    ⟨_, rfl⟩ | ⟨_, rfl⟩ <;> norm_num

theorem monoOf_inv {a : Attrs} {m : MonoAna} (h : monoOf a = .ok m) :
    lookupKey "d_spacing".toList a = some (.num m.dSpacing) ∧ m.sense = (cfgSense (lookupKey "sense".toList a)).getD [] ∧
    lookupKey "mosaic_h".toList a = some (numOrNull m.mosaicH) ∧ lookupKey "mosaic_v".toList a = some (numOrNull m.mosaicV) := by
  obtain ⟨d, h1, h⟩ := py_bind_eq_ok.1 h
  obtain ⟨mh, h2, h⟩ := py_bind_eq_ok.1 h
  obtain ⟨mv, h3, h⟩ := py_bind_eq_ok.1 h
  obtain rfl := (Except.ok.inj h).symm
  exact ⟨asNum_inv h1, rfl, cfgOptNum_inv h2, cfgOptNum_inv h3⟩

/-- A crystal of an experiment set up from files. -/
theorem fromFiles_mono {t0 t1 : TasBase} {path : Str} {cfg : InstrConfig} (hd : Decoded cfg)
    (h : t0.loadJson path (some cfg) = (t1, .ok ())) {n : Str} (hn : n = "monochromator".toList ∨ n = "analyzer".toList)
    {p : Attrs} (hp : lookupKey n cfg = some (some p)) {a : Attrs} (ha : t1.part n = .ok a) {m : MonoAna} (hm : monoOf a = .ok m) :
    (∃ s, orDefault p "type" (.str "PG002".toList) = .str s ∧ lookupKey s monoAnaXtal = some m.dSpacing) ∧
    m.sense = (cfgSense (some (orDefault p "sense" (.str "-".toList)))).getD [] ∧
    orDefault p "mosaic_h" .null = numOrNull m.mosaicH ∧ orDefault p "mosaic_v" .null = numOrNull m.mosaicV := by
  have hin : (n, monoAnaClass) ∈ components := by rcases hn with rfl | rfl <;> simp [components]
  have key : ∀ x : Str, x ≠ "component_name".toList → x ≠ "d_spacing".toList →
      lookupKey x a = (lookupKey x p).or (lookupKey x monoAnaClass.defaults) := fun x h1 h2 => by
    rw [← part_attr ha]; exact (C83_attributes_partial hd h hin hp h1 h2).1
  have key' : ∀ (x : String) (v w : Cfg), x.toList ≠ "component_name".toList → x.toList ≠ "d_spacing".toList →
      lookupKey x.toList monoAnaClass.defaults = some v → lookupKey x.toList a = some w → orDefault p x v = w := by
    intro x v w h1 h2 hv hw
    rw [key _ h1 h2, hv] at hw
    unfold orDefault
    cases hx : lookupKey x.toList p <;> rw [hx] at hw <;> exact Option.some.inj hw
  obtain ⟨g1, g2, g3, g4⟩ := monoOf_inv hm
  obtain ⟨s, d, s1, s2, s3⟩ := C83_crystal h hn hp
  rw [part_attr ha] at s1 s3
  rw [g1] at s3
  obtain rfl := Cfg.num.inj (Option.some.inj s3)
  refine ⟨⟨s, key' _ _ _ (by decide) (by decide) rfl s1, s2⟩, ?_, key' _ _ _ (by decide) (by decide) rfl g3,
    key' _ _ _ (by decide) (by decide) rfl g4⟩
  rw [g2]
  have : lookupKey "sense".toList a = some (orDefault p "sense" (.str "-".toList)) := by
    rw [key _ (by decide) (by decide)]
    unfold orDefault
    cases lookupKey "sense".toList p <;> rfl
  rw [this]

theorem mono_senseVal {m : MonoAna} {v : Cfg} (h : m.sense = (cfgSense (some v)).getD []) {σ : ℝ} (hs : Sense (some v) σ) :
    m.senseVal = .ok σ := by
  unfold MonoAna.senseVal
  rcases hs with ⟨e, rfl⟩ | ⟨e, rfl⟩ <;> rw [Option.some.inj e] at h <;> rw [h]
  · exact if_pos rfl
  · exact (if_neg (by decide)).trans (if_pos rfl)

/-- **C92**: monochromator and analyzer stand at the Bragg angle of the crystal named in the file, turned to the side the file
says; an energy the crystal cannot select is refused. -/
theorem C92_bragg {cfg : InstrConfig} {d : Attrs} {t : Tas} (h : FromFiles cfg d t) {p q : Attrs}
    (hp : lookupKey "monochromator".toList cfg = some (some p)) (hq : lookupKey "analyzer".toList cfg = some (some q))
    {σ τ : ℝ} (hσ : Sense (some (orDefault p "sense" (.str "-".toList))) σ)
    (hτ : Sense (some (orDefault q "sense" (.str "-".toList))) τ) {e : ℝ} (he : 0 < e) :
    ∃ s1 s2 d1 d2 k, orDefault p "type" (.str "PG002".toList) = .str s1 ∧ lookupKey s1 monoAnaXtal = some d1 ∧
      orDefault q "type" (.str "PG002".toList) = .str s2 ∧ lookupKey s2 monoAnaXtal = some d2 ∧ en2q e = .ok k ∧ 0 < k ∧
      (2 * d1 < 2 * π / k → t.getThetaM e = .error .valueError) ∧
      (2 * π / k ≤ 2 * d1 → ∃ th, t.getThetaM e = .ok th ∧ BraggAngle k d1 σ th) ∧
      (2 * d2 < 2 * π / k → t.getThetaA e = .error .valueError) ∧
      (2 * π / k ≤ 2 * d2 → ∃ th, t.getThetaA e = .ok th ∧ BraggAngle k d2 τ th) := by
  obtain ⟨t0, t1, path, conv, ei, ef, s, hl, _, hr⟩ := h.made
  obtain ⟨_, ⟨a1, ha1, hm1⟩, ⟨a2, ha2, hm2⟩, _⟩ := ready_inv hr
  obtain ⟨⟨s1, x1, x2⟩, x3, _⟩ := fromFiles_mono h.decoded hl (.inl rfl) hp ha1 hm1
  obtain ⟨⟨s2, y1, y2⟩, y3, _⟩ := fromFiles_mono h.decoded hl (.inr rfl) hq ha2 hm2
  obtain ⟨k, hk, hk0, r⟩ := C20_bragg t he (xtal_pos x2) (xtal_pos y2) (mono_senseVal x3 hσ) (mono_senseVal y3 hτ)
  exact ⟨s1, s2, _, _, k, x1, x2, y1, y2, hk, hk0, r⟩

/-! ## Resolution parameters -/

/-- **C92**: what the resolution is calculated from are the numbers of the files: the divergences of the collimators (30
minutes where none is given) and the mosaics of the crystals. -/
theorem C92_parameters {cfg : InstrConfig} {d : Attrs} {t : Tas} (h : FromFiles cfg d t) {p q c : Attrs}
    (hp : lookupKey "monochromator".toList cfg = some (some p)) (hq : lookupKey "analyzer".toList cfg = some (some q))
    (hc : lookupKey "collimators".toList cfg = some (some c)) :
    (orDefault c "h_pre_mono" (.num 30) = .num (t.coll.h 0) ∧ orDefault c "h_pre_sample" (.num 30) = .num (t.coll.h 1) ∧
      orDefault c "h_post_sample" (.num 30) = .num (t.coll.h 2) ∧ orDefault c "h_post_ana" (.num 30) = .num (t.coll.h 3)) ∧
    (orDefault c "v_pre_mono" (.num 30) = .num (t.coll.v 0) ∧ orDefault c "v_pre_sample" (.num 30) = .num (t.coll.v 1) ∧
      orDefault c "v_post_sample" (.num 30) = .num (t.coll.v 2) ∧ orDefault c "v_post_ana" (.num 30) = .num (t.coll.v 3)) ∧
    orDefault p "mosaic_h" .null = numOrNull t.mono.mosaicH ∧ orDefault p "mosaic_v" .null = numOrNull t.mono.mosaicV ∧
    orDefault q "mosaic_h" .null = numOrNull t.ana.mosaicH ∧ orDefault q "mosaic_v" .null = numOrNull t.ana.mosaicV ∧
    (∀ x y, given d "mosaic_h".toList = some (.num x) → given d "mosaic_v".toList = some (.num y) →
      t.sample.mosaicH = x ∧ t.sample.mosaicV = y) ∧
    (given d "mosaic_h".toList = none → given d "mosaic_v".toList = none → t.sample.mosaicH = 30 ∧ t.sample.mosaicV = 30) := by
  obtain ⟨t0, t1, path, conv, ei, ef, s, hl, hs, hr⟩ := h.made
  obtain ⟨_, ⟨a1, ha1, hm1⟩, ⟨a2, ha2, hm2⟩, ⟨a3, ha3, hm3⟩, hmt, _⟩ := ready_inv hr
  obtain ⟨_, _, x4, x5⟩ := fromFiles_mono h.decoded hl (.inl rfl) hp ha1 hm1
  obtain ⟨_, _, y4, y5⟩ := fromFiles_mono h.decoded hl (.inr rfl) hq ha2 hm2
  have key : ∀ (x : String) (w : ℝ), x.toList ≠ "component_name".toList → x.toList ≠ "d_spacing".toList →
      lookupKey x.toList collimatorsClass.defaults = some (.num 30) → asNum (lookupKey x.toList a3) = .ok w →
      orDefault c x (.num 30) = .num w := by
    intro x w h1 h2 hv hw
    have hw := asNum_inv hw
    rw [← part_attr ha3, (C83_attributes_partial h.decoded hl coll_in hc h1 h2).1, hv] at hw
    unfold orDefault
    cases hx : lookupKey x.toList c <;> rw [hx] at hw <;> exact Option.some.inj hw
  obtain ⟨h0, q0, hm3⟩ := py_bind_eq_ok.1 hm3
  obtain ⟨h1, q1, hm3⟩ := py_bind_eq_ok.1 hm3
  obtain ⟨h2, q2, hm3⟩ := py_bind_eq_ok.1 hm3
  obtain ⟨h3, q3, hm3⟩ := py_bind_eq_ok.1 hm3
  obtain ⟨v0, p0, hm3⟩ := py_bind_eq_ok.1 hm3
  obtain ⟨v1, p1, hm3⟩ := py_bind_eq_ok.1 hm3
  obtain ⟨v2, p2, hm3⟩ := py_bind_eq_ok.1 hm3
  obtain ⟨v3, p3, hm3⟩ := py_bind_eq_ok.1 hm3
  rw [← Except.ok.inj hm3]
  obtain ⟨_, _, z1, z2⟩ := mounted_inv hmt
  obtain ⟨w1, w2, _⟩ := C84_mosaic_partial hs
  refine ⟨⟨key _ _ (by decide) (by decide) rfl q0, key _ _ (by decide) (by decide) rfl q1,
    key _ _ (by decide) (by decide) rfl q2, key _ _ (by decide) (by decide) rfl q3⟩,
    ⟨key _ _ (by decide) (by decide) rfl p0, key _ _ (by decide) (by decide) rfl p1,
    key _ _ (by decide) (by decide) rfl p2, key _ _ (by decide) (by decide) rfl p3⟩, x4, x5, y4, y5, fun x y g1 g2 => ?_,
    fun g1 g2 => ?_⟩
  · obtain ⟨u1, u2⟩ := w1 _ _ g1 g2
    rw [z1] at u1; rw [z2] at u2
    exact ⟨Cfg.num.inj u1, Cfg.num.inj u2⟩
  · obtain ⟨u1, u2⟩ := w2 ⟨g1, g2⟩
    rw [z1] at u1; rw [z2] at u2
    exact ⟨Cfg.num.inj u1, Cfg.num.inj u2⟩

/-! ## When the experiment can be set up -/

/-- The values of a section are of the kinds the calculations need. -/
structure Spec.WellTyped (cfg : InstrConfig) : Prop where
  goni : ∃ p, lookupKey "goniometer".toList cfg = some (some p) ∧
    (∀ v, lookupKey "type".toList p = some v → ∃ s, v = .str s) ∧
    (∀ v, lookupKey "limits".toList p = some v → ∃ l, v = .ranges l)
  crystal : ∀ n, n = "monochromator".toList ∨ n = "analyzer".toList → ∃ p, lookupKey n cfg = some (some p) ∧
    ∀ k, k = "mosaic_h".toList ∨ k = "mosaic_v".toList → ∀ v, lookupKey k p = some v → v = .null ∨ ∃ x, v = .num x
  coll : ∃ p, lookupKey "collimators".toList cfg = some (some p) ∧
    ∀ k ∈ ["h_pre_mono", "h_pre_sample", "h_post_sample", "h_post_ana", "v_pre_mono", "v_pre_sample", "v_post_sample", "v_post_ana"],
      ∀ v, lookupKey k.toList p = some v → ∃ x, v = .num x

theorem part_loaded {t0 t1 : TasBase} {path : Str} {cfg : InstrConfig} (hd : Decoded cfg)
    (h : t0.loadJson path (some cfg) = (t1, .ok ())) {n : Str} {c : CompClass} (hm : (n, c) ∈ components) {p : Attrs}
    (hp : lookupKey n cfg = some (some p)) : ∃ a, t1.part n = .ok a ∧
      ∀ x : Str, x ≠ "component_name".toList → x ≠ "d_spacing".toList → lookupKey x a = (lookupKey x p).or (lookupKey x c.defaults) := by
  obtain ⟨hl, _⟩ := loadJson_ok h
  obtain ⟨a, ha, hk⟩ := loadParts_made cfg names_nodup hl hm hp
  have hpart : t1.part n = .ok a := by unfold TasBase.part; rw [hk]
  refine ⟨a, hpart, fun x h1 h2 => ?_⟩
  rw [← part_attr hpart]
  exact (C83_attributes_partial hd h hm hp h1 h2).1

theorem monoOf_ok {t0 t1 : TasBase} {path : Str} {cfg : InstrConfig} (hd : Decoded cfg)
    (h : t0.loadJson path (some cfg) = (t1, .ok ())) {n : Str} (hn : n = "monochromator".toList ∨ n = "analyzer".toList)
    {p : Attrs} (hp : lookupKey n cfg = some (some p))
    (hk : ∀ k, k = "mosaic_h".toList ∨ k = "mosaic_v".toList → ∀ v, lookupKey k p = some v → v = .null ∨ ∃ x, v = .num x) :
    ∃ a m, t1.part n = .ok a ∧ monoOf a = .ok m := by
  have hin : (n, monoAnaClass) ∈ components := by rcases hn with rfl | rfl <;> simp [components]
  obtain ⟨a, ha, key⟩ := part_loaded hd h hin hp
  obtain ⟨s, d, _, _, s3⟩ := C83_crystal h hn hp
  rw [part_attr ha] at s3
  have mos : ∀ k, k = "mosaic_h".toList ∨ k = "mosaic_v".toList → ∃ x, cfgOptNum (lookupKey k a) = .ok x := by
    intro k hk'
    rw [key k (by rcases hk' with rfl | rfl <;> decide) (by rcases hk' with rfl | rfl <;> decide)]
    cases hv : lookupKey k p with
    | none => rcases hk' with rfl | rfl <;> exact ⟨none, rfl⟩
    | some v => rcases hk k hk' v hv with rfl | ⟨x, rfl⟩ <;> exact ⟨_, rfl⟩
  obtain ⟨x, hx⟩ := mos _ (.inl rfl)
  obtain ⟨y, hy⟩ := mos _ (.inr rfl)
  exact ⟨a, _, ha, by rw [monoOf, s3, hx, hy]; rfl⟩

/-- **C92**: whenever the configuration is loaded, the four components are described with values of the right kinds and the
mosaic of the sample is in numbers, the experiment is set up. -/
theorem C92_ready {t0 t1 : TasBase} {path conv : Str} {ei ef : Option ℝ} {cfg : InstrConfig} {d : Attrs} {s : SampleRec}
    (hd : Decoded cfg) (hw : WellTyped cfg) (h : t0.loadJson path (some cfg) = (t1, .ok ())) (hs : sampleFromJson d = .ok s)
    {x y : ℝ} (hx : s.mosaicH = .num x) (hy : s.mosaicV = .num y) :
    ∃ t, t1.ready conv ei ef s = .ok t ∧ FromFiles cfg d t ∧ t.fixedEi = ei ∧ t.fixedEf = ef := by
  obtain ⟨p, hp, g1, g2⟩ := hw.goni
  obtain ⟨a1, ha1, key1⟩ := part_loaded hd h goni_in hp
  have hg : ∃ g, goniOf a1 = .ok g := by
    unfold goniOf
    rw [key1 _ (by decide) (by decide), key1 _ (by decide) (by decide)]
    have e1 : ∃ s, cfgText ((lookupKey "type".toList p).or (lookupKey "type".toList goniClass.defaults)) = .ok s := by
      cases hv : lookupKey "type".toList p with
      | none => exact ⟨_, rfl⟩
      | some v => obtain ⟨s, rfl⟩ := g1 v hv; exact ⟨_, rfl⟩
    have e2 : ∃ l, cfgLimits ((lookupKey "limits".toList p).or (lookupKey "limits".toList goniClass.defaults)) = .ok l := by
      cases hv : lookupKey "limits".toList p with
      | none => exact ⟨_, rfl⟩
      | some v => obtain ⟨s, rfl⟩ := g2 v hv; exact ⟨_, rfl⟩
    obtain ⟨s, e1⟩ := e1
    obtain ⟨l, e2⟩ := e2
    rw [e1, py_bind_ok, e2, py_bind_ok]
    exact ⟨_, rfl⟩
  obtain ⟨g, hg⟩ := hg
  obtain ⟨q, hq, gq⟩ := hw.crystal _ (.inl rfl)
  obtain ⟨a2, m2, ha2, hm2⟩ := monoOf_ok hd h (.inl rfl) hq gq
  obtain ⟨q', hq', gq'⟩ := hw.crystal _ (.inr rfl)
  obtain ⟨a3, m3, ha3, hm3⟩ := monoOf_ok hd h (.inr rfl) hq' gq'
  obtain ⟨c, hc, gc⟩ := hw.coll
  obtain ⟨a4, ha4, key4⟩ := part_loaded hd h coll_in hc
  have num : ∀ k : String, k ∈ ["h_pre_mono", "h_pre_sample", "h_post_sample", "h_post_ana", "v_pre_mono", "v_pre_sample",
      "v_post_sample", "v_post_ana"] → k.toList ≠ "component_name".toList → k.toList ≠ "d_spacing".toList →
      lookupKey k.toList collimatorsClass.defaults = some (.num 30) → ∃ x, asNum (lookupKey k.toList a4) = .ok x := by
    intro k hk h1 h2 h3
    rw [key4 _ h1 h2, h3]
    cases hv : lookupKey k.toList c with
    | none => exact ⟨_, rfl⟩
    | some v => obtain ⟨x, rfl⟩ := gc k hk v hv; exact ⟨_, rfl⟩
  have hcl : ∃ cl, collOf a4 = .ok cl := by
    obtain ⟨_, n0⟩ := num "h_pre_mono" (by decide) (by decide) (by decide) rfl
    obtain ⟨_, n1⟩ := num "h_pre_sample" (by decide) (by decide) (by decide) rfl
    obtain ⟨_, n2⟩ := num "h_post_sample" (by decide) (by decide) (by decide) rfl
    obtain ⟨_, n3⟩ := num "h_post_ana" (by decide) (by decide) (by decide) rfl
    obtain ⟨_, n4⟩ := num "v_pre_mono" (by decide) (by decide) (by decide) rfl
    obtain ⟨_, n5⟩ := num "v_pre_sample" (by decide) (by decide) (by decide) rfl
    obtain ⟨_, n6⟩ := num "v_post_sample" (by decide) (by decide) (by decide) rfl
    obtain ⟨_, n7⟩ := num "v_post_ana" (by decide) (by decide) (by decide) rfl
    unfold collOf
    rw [n0, py_bind_ok, n1, py_bind_ok, n2, py_bind_ok, n3, py_bind_ok, n4, py_bind_ok, n5, py_bind_ok, n6, py_bind_ok, n7]
    exact ⟨_, rfl⟩
  obtain ⟨cl, hcl⟩ := hcl
  have hmt : s.mounted = .ok { latt := s.latt, ubConf := s.ubConf, mosaicH := x, mosaicV := y } := by
    unfold SampleRec.mounted; rw [hx, hy]; rfl
  have hr : t1.ready conv ei ef s = .ok (.mk conv ei ef { latt := s.latt, ubConf := s.ubConf, mosaicH := x, mosaicV := y } g m2 m3
      cl) := by
    unfold TasBase.ready
    rw [ha1, py_bind_ok, hg, py_bind_ok, ha2, py_bind_ok, hm2, py_bind_ok, ha3, py_bind_ok, hm3, py_bind_ok, ha4, py_bind_ok, hcl,
      py_bind_ok, hmt]
    rfl
  exact ⟨_, hr, ⟨hd, t0, t1, path, conv, ei, ef, s, h, hs, hr⟩, rfl, rfl⟩

/-- **C92**, what is refused: on a new spectrometer a configuration that lacks one of the four components; it is loaded without
complaint, and `AttributeError` comes when the component is used. -/
theorem C92_missing {t1 : TasBase} {path conv : Str} {ei ef : Option ℝ} {cfg : InstrConfig} {s : SampleRec}
    (h : TasBase.new.loadJson path (some cfg) = (t1, .ok ())) {n : Str}
    (hn : n ∈ ["goniometer".toList, "monochromator".toList, "analyzer".toList, "collimators".toList])
    (hc : ∀ p, lookupKey n cfg ≠ some (some p)) :
    t1.part n = .error .attributeError ∧ ∀ t, t1.ready conv ei ef s ≠ .ok t := by
  have h0 : lookupKey n t1.parts = none := by
    rw [(C83_untouched h (n := n) (.inr fun c e => by cases e; exact hc)).1]
    rw [lookupKey_eq_none]
    simp only [List.mem_cons, List.not_mem_nil, or_false] at hn
    rcases hn with rfl | rfl | rfl | rfl <;> decide
  have h1 : t1.part n = .error .attributeError := by unfold TasBase.part; rw [h0]
  refine ⟨h1, fun t ht => ?_⟩
  obtain ⟨⟨_, g, _⟩, ⟨_, m, _⟩, ⟨_, a, _⟩, ⟨_, c, _⟩, _⟩ := ready_inv ht
  simp only [List.mem_cons, List.not_mem_nil, or_false] at hn
  rcases hn with rfl | rfl | rfl | rfl
  · rw [h1] at g; cases g
  · rw [h1] at m; cases m
  · rw [h1] at a; cases a
  · rw [h1] at c; cases c

/-- **C92 fails**: limits in the configuration do not add to the built-in limits but replace them all: a file that gives limits
for other motors only lets the tilt be anything. -/
theorem C92_limits_lifted {cfg : InstrConfig} {d : Attrs} {t : Tas} (h : FromFiles cfg d t) {p : Attrs}
    (hp : lookupKey "goniometer".toList cfg = some (some p)) {l : List (Str × Limit)}
    (hl : lookupKey "limits".toList p = some (.ranges l)) (hs : lookupKey "sgl".toList l = none) (x : ℝ) (a : MotorAngles)
    (ha : ∀ m, m ≠ .sgl → ∀ y, Goni.motorValue a m = some y → Within (limitIn p m) y) :
    t.goni.validate { a with sgl := some x } = .ok () := by
  rw [validate_ok]
  intro m y hy
  rw [(fromFiles_goni h hp).2.2]
  by_cases hm : m = .sgl
  · subst hm
    unfold limitIn
    rw [hl]
    show Within ((lookupKey "sgl".toList l).getD (none, none)) y
    rw [hs]
    exact ⟨fun _ h => (nomatch h), fun _ h => (nomatch h)⟩
  · refine ha m hm y ?_
    cases m <;> first | exact hy | exact absurd rfl hm

end Tavi
