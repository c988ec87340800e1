import Verif.Props.NearSetup
import Verif.Props.Demo

/-! # C92: a concrete experiment set up from files -/

namespace Tavi

open Matrix Real Spec

namespace Demo

/-- The section of the goniometer, with or without limits. -/
noncomputable def goniSection (lim : List (Str × Cfg)) : Attrs := [("sense".toList, .str "-".toList), ("type".toList, .str "Y,-Z,X".toList)] ++ lim

/-- A configuration: the analyzer is copper, one collimation and one mosaic are given. -/
noncomputable def setupCfg (lim : List (Str × Cfg)) : InstrConfig :=
  [("goniometer".toList, some (goniSection lim)), ("monochromator".toList, some [("sense".toList, .str "+".toList), ("mosaic_h".toList, .num 45)]),
   ("analyzer".toList, some [("type".toList, .str "Cu111".toList)]), ("collimators".toList, some [("h_pre_mono".toList, .num 48)])]

/-- Limits for the detector only. -/
def onlyDetector : List (Str × Cfg) := [("limits".toList, .ranges [("two_theta".toList, (some (-120), some 5))])]

/-- A cubic crystal, oriented. -/
noncomputable def cubeJson : Attrs :=
  [("a".toList, .num 1), ("b".toList, .num 1), ("c".toList, .num 1), ("alpha".toList, .num 90), ("beta".toList, .num 90),
   ("gamma".toList, .num 90), ("convention".toList, .str "Mantid".toList), ("ub_matrix".toList, .nums [1, 0, 0, 0, 1, 0, 0, 0, 1]),
   ("plane_normal".toList, .nums [0, 1, 0])]

theorem setup_decoded (lim : List (Str × Cfg)) (h : lim = [] ∨ lim = onlyDetector) : Decoded (setupCfg lim) := by
  intro comp p hp
  have := lookupKey_some_mem hp
  simp only [setupCfg, List.mem_cons, List.not_mem_nil, or_false, Prod.mk.injEq, Option.some.injEq] at this
  rcases this with ⟨_, rfl⟩ | ⟨_, rfl⟩ | ⟨_, rfl⟩ | ⟨_, rfl⟩
  · rcases h with rfl | rfl
    · show (["sense".toList, "type".toList] : List Str).Nodup
      decide
    · show (["sense".toList, "type".toList, "limits".toList] : List Str).Nodup
      decide
  · show (["sense".toList, "mosaic_h".toList] : List Str).Nodup
    decide
  · exact List.nodup_singleton _
  · exact List.nodup_singleton _

theorem setup_loads (lim : List (Str × Cfg)) (h : lim = [] ∨ lim = onlyDetector) :
    ∃ t1, TasBase.new.loadJson "hb1a.json".toList (some (setupCfg lim)) = (t1, .ok ()) := by
  rcases hr : TasBase.new.loadJson "hb1a.json".toList (some (setupCfg lim)) with ⟨t1, r⟩
  cases r with
  | ok u => exact ⟨t1, rfl⟩
  | error e =>
    exfalso
    obtain ⟨hl, _⟩ := loadJson_error hr
    obtain ⟨n, c, p, hm, hp, he⟩ := loadParts_error _ hl
    rcases h with rfl | rfl
    all_goals
      simp only [components, List.mem_cons, List.not_mem_nil, or_false, Prod.mk.injEq] at hm
      rcases hm with ⟨rfl, rfl⟩ | ⟨rfl, rfl⟩ | ⟨rfl, rfl⟩ | ⟨rfl, rfl⟩ | ⟨rfl, rfl⟩ | ⟨rfl, rfl⟩ | ⟨rfl, rfl⟩ | ⟨rfl, rfl⟩ | ⟨rfl, rfl⟩
      all_goals first
        | (cases hp; cases he)
        | cases hp

theorem setup_typed (lim : List (Str × Cfg)) (h : lim = [] ∨ lim = onlyDetector) : WellTyped (setupCfg lim) := by
  refine ⟨⟨goniSection lim, rfl, fun v hv => ?_, fun v hv => ?_⟩, fun n hn => ?_, ⟨_, rfl, fun k hk v hv => ?_⟩⟩
  · exact ⟨_, (Option.some.inj hv).symm⟩
  · rcases h with rfl | rfl
    · cases hv
    · exact ⟨_, (Option.some.inj hv).symm⟩
  · rcases hn with rfl | rfl
    · refine ⟨_, rfl, fun k hk v hv => ?_⟩
      rcases hk with rfl | rfl
      · exact .inr ⟨_, (Option.some.inj hv).symm⟩
      · cases hv
    · refine ⟨_, rfl, fun k hk v hv => ?_⟩
      rcases hk with rfl | rfl <;> cases hv
  · have := lookupKey_some_mem hv
    simp only [List.mem_cons, List.not_mem_nil, or_false, Prod.mk.injEq] at this
    exact ⟨_, this.2⟩

theorem cubeJson_latt : LatticeIn cubeJson cube := ⟨rfl, rfl, rfl, rfl, rfl, rfl⟩

theorem cubeJson_ub : rows [1, 0, 0, 0, 1, 0, 0, 0, 1] = 1 := by
  ext i j
  fin_cases i <;> fin_cases j <;> rfl

theorem cubeJson_normal : vec [0, 1, 0] = ![0, 1, 0] := by
  ext i
  fin_cases i <;> rfl

/-- The sample read from the file. -/
theorem cubeJson_sample : ∃ s c, sampleFromJson cubeJson = .ok s ∧ s.mosaicH = .num 30 ∧ s.mosaicV = .num 30 ∧ s.ubConf = some c ∧
    c.convention = "Mantid".toList ∧ c.ubMat = some 1 ∧ c.planeNormal = some ![0, 1, 0] := by
  have hk : KnownConvention "Mantid".toList := .inl rfl
  obtain ⟨s, hs, _⟩ := C84_accepted (d := cubeJson) (L := cube) (by norm_num [Acceptable, cube]) rfl rfl rfl rfl rfl rfl
    (fun v hv => ⟨_, (Option.some.inj hv).symm, rfl⟩) (fun v hv => ⟨_, (Option.some.inj hv).symm, rfl⟩) (fun v hv => by cases hv)
    (fun v hv => ⟨_, (Option.some.inj hv).symm, hk⟩)
  obtain ⟨c, hc, k0, _, k1, _, k2, _⟩ := C84_orientation hs
  have k0 := k0 _ rfl
  obtain ⟨_, e1, _, k1⟩ := k1 _ rfl
  rw [← Cfg.nums.inj e1, cubeJson_ub] at k1
  obtain ⟨_, e2, _, k2⟩ := k2 _ rfl
  rw [← Cfg.nums.inj e2, cubeJson_normal] at k2
  have hm := (C84_mosaic_partial hs).2.1 ⟨rfl, rfl⟩
  refine ⟨s, c, hs, hm.1, hm.2, hc, k0, ?_, ?_⟩
  · unfold UBConf.getUbMat UBConf.fromMantidM at k1
    rw [k0] at k1
    split at k1
    · cases k1
    · rename_i m hm
      rw [if_pos rfl] at k1
      rw [hm, Except.ok.inj k1]
  · unfold UBConf.getPlaneNormal UBConf.fromMantidV at k2
    rw [k0] at k2
    split at k2
    · rw [if_pos rfl] at k2; cases k2
    · rename_i m hm
      rw [if_pos rfl] at k2
      rw [hm]; exact Except.ok.inj k2

/-- The experiment, set up on a new spectrometer. -/
theorem setup_ready (lim : List (Str × Cfg)) (h : lim = [] ∨ lim = onlyDetector) : ∃ t c, FromFiles (setupCfg lim) cubeJson t ∧
    t.fixedEi = none ∧ t.fixedEf = some (ksq2eng * (2 * π) ^ 2) ∧ t.sample.ubConf = some c ∧
    c.convention = "Mantid".toList ∧ c.ubMat = some 1 ∧ c.planeNormal = some ![0, 1, 0] := by
  obtain ⟨t1, hl⟩ := setup_loads lim h
  obtain ⟨s, c, hs, m1, m2, hc, c1, c2, c3⟩ := cubeJson_sample
  obtain ⟨t, hr, ht, e1, e2⟩ := C92_ready (conv := "Spice".toList) (ei := none) (ef := some (ksq2eng * (2 * π) ^ 2))
    (setup_decoded lim h) (setup_typed lim h) hl hs m1 m2
  obtain ⟨_, _, _, _, hm, _⟩ := ready_inv hr
  exact ⟨t, c, ht, e1, e2, by rw [(mounted_inv hm).2.1]; exact hc, c1, c2, c3⟩

/-- The reflection (1,0,0): the motor positions exist, they are within the limits, the detector turns to the negative side,
and the positions lead back to the reflection: exactly, and within the bound for all reflections. -/
example : ∃ t a, FromFiles (setupCfg []) cubeJson t ∧ t.motorAngles ![1, 0, 0] = .ok a ∧ a.twoTheta ≤ 0 ∧
    (∀ x, a.sgl = some x → -10 ≤ x ∧ x ≤ 10) ∧ t.hklFromAngles a = .ok (some ![1, 0, 0]) ∧
    ∃ hkl', t.hklFromAngles a = .ok (some hkl') ∧ len (hkl' - ![1, 0, 0]) ≤ 6e-5 := by
  obtain ⟨t, c, ht, e1, e2, hc, c1, c2, c3⟩ := setup_ready [] (.inl rfl)
  obtain ⟨b, hb, hg⟩ := cube_b
  have hlat := fromFiles_latt ht cubeJson_latt
  obtain ⟨g1, g2, g3⟩ := fromFiles_goni ht (p := goniSection []) rfl
  have g1 : t.goni.type = "Y,-Z,X".toList := (Cfg.str.inj g1).symm
  have hom : t.goni.operatingMode = .ok "YZX".toList := by
    simp [g1, Goni.operatingMode, Goni.stackingOrder, Goni.mode, Goni.axes, splitOn, Goni.unsigned, stripChar]
  have hmo : t.goni.mode = .ok none := mode_none (by rw [g1]; decide)
  have hsv : t.goni.senseVal = .ok (-1) := by
    unfold Goni.senseVal
    rw [g2]
    exact (if_neg (by decide)).trans (if_pos rfl)
  obtain ⟨a, ha, hsgl, _, _⟩ := C68_in_plane (t := t) (c := c) (ub := 1) (hkl := ![1, 0, 0]) (en := 0)
    ⟨hc, c2, by simp, b, by unfold Sample.bMat; rw [hlat]; exact hb, by simpa using hg⟩ (.inl c1) c3 (by simp) hom hmo (g3 _) (g3 _)
    (by rw [g3]; exact ⟨fun lo h => by cases h; norm_num, fun hi h => by cases h; norm_num⟩)
    (by rw [g3]; exact ⟨fun lo h => by cases h; norm_num, fun hi h => by cases h; norm_num⟩)
    (by unfold Tas.getEiEf; simp only [e1, e2]; rw [zero_add]) hsv k_val k_val big big (by rw [len100, mul_one]; exact big) closes
  obtain ⟨σ, _, _, _, _, hσ, _, _, _, _, _, _, _, _, hpos, _⟩ := C92_detector ht (p := goniSection []) rfl cubeJson_latt cube_possible ha
  refine ⟨t, a, ht, ha, ?_, fun x hx => ?_, ?_, ?_⟩
  · rcases hσ with ⟨e, _⟩ | ⟨_, rfl⟩
    · exact absurd (Cfg.str.inj (Option.some.inj e)) (by decide)
    · linarith
  · have := C92_limits ht (p := goniSection []) rfl ha (m := .sgl) hx
    exact ⟨this.1 _ rfl, this.2 _ rfl⟩
  · refine C92_roundtrip_partial ht (p := goniSection []) rfl (ty := "Y,-Z,X".toList) rfl (by decide) cubeJson_latt hb
      (lu := [1, 0, 0, 0, 1, 0, 0, 0, 1]) (ln := [0, 1, 0]) rfl rfl (by rw [cubeJson_ub]; simp) (by rw [cubeJson_ub]; simpa using hg)
      (by rw [cubeJson_normal]; simp) (.inl (by rw [cubeJson_ub, cubeJson_normal]; simp)) ha fun x hx => ?_
    rw [hsgl] at hx
    cases hx
    norm_num
  · obtain ⟨hkl', x, k1, k2, _, k4, k5⟩ := C92_close ht (p := goniSection []) rfl (ty := "Y,-Z,X".toList) rfl (by decide) cubeJson_latt hb
      (lu := [1, 0, 0, 0, 1, 0, 0, 0, 1]) (ln := [0, 1, 0]) rfl rfl (.inl rfl) (by rw [cubeJson_ub]; simp)
      (by rw [cubeJson_ub]; simpa using hg) (by rw [cubeJson_normal]; simp) ha
    rw [hsgl] at k2
    cases k2
    rw [show cos (deg2rad 0) = 1 by simp [deg2rad], mul_one] at k4
    rw [cubeJson_ub, one_mulVec, one_mulVec] at k4
    rw [cubeJson_ub, one_mulVec] at k5
    exact ⟨hkl', k1, by linarith⟩

/-- With limits for the detector only, a tilt of 45 degrees is within the limits. -/
example : ∃ t, FromFiles (setupCfg onlyDetector) cubeJson t ∧
    t.goni.validate ⟨-60, some 30, some 45, some 0, none, none⟩ = .ok () ∧
    limitIn (goniSection onlyDetector) .twoTheta = (some (-120), some 5) := by
  obtain ⟨t, c, ht, _⟩ := setup_ready onlyDetector (.inr rfl)
  refine ⟨t, ht, C92_limits_lifted ht (p := goniSection onlyDetector) rfl (l := [("two_theta".toList, (some (-120), some 5))]) rfl rfl 45
    ⟨-60, some 30, none, some 0, none, none⟩ fun m _ y hy => ?_, rfl⟩
  cases m
  · cases hy
    exact ⟨fun lo h => by cases h; norm_num, fun hi h => by cases h; norm_num⟩
  all_goals exact ⟨fun _ h => (by cases h), fun _ h => (by cases h)⟩

/-- Crystals: the analyzer is copper, turned to the default side. -/
example : ∃ t th k, FromFiles (setupCfg []) cubeJson t ∧ en2q (ksq2eng * (2 * π) ^ 2) = .ok k ∧
    t.getThetaA (ksq2eng * (2 * π) ^ 2) = .ok th ∧ BraggAngle k 2.08717 (-1) th := by
  obtain ⟨t, c, ht, _⟩ := setup_ready [] (.inl rfl)
  obtain ⟨s1, s2, d1, d2, k, _, _, q1, q2, hk, _, _, _, _, r⟩ := C92_bragg ht rfl rfl (σ := 1) (τ := -1) (.inl ⟨rfl, rfl⟩) (.inr ⟨rfl, rfl⟩)
    (e := ksq2eng * (2 * π) ^ 2) (by have := ksq2eng_pos; have := Real.pi_pos; positivity)
  obtain rfl := Cfg.str.inj q1
  have q2 : (2.08717 : ℝ) = d2 := Option.some.inj q2
  subst q2
  have hk' := hk
  rw [k_val] at hk
  obtain rfl := Except.ok.inj hk
  obtain ⟨th, h1, h2⟩ := r (by have := Real.pi_pos; rw [div_self (by positivity)]; norm_num)
  exact ⟨t, th, _, ht, hk', h1, h2⟩

/-- Resolution parameters: given and default ones. -/
example : ∃ t, FromFiles (setupCfg []) cubeJson t ∧ t.coll.h 0 = 48 ∧ t.coll.h 1 = 30 ∧ t.mono.mosaicH = some 45 ∧ t.sample.mosaicH = 30 := by
  obtain ⟨t, c, ht, _⟩ := setup_ready [] (.inl rfl)
  obtain ⟨⟨h0, h1, _⟩, _, m, _, _, _, _, s⟩ := C92_parameters ht rfl rfl rfl
  refine ⟨t, ht, (Cfg.num.inj h0).symm, (Cfg.num.inj h1).symm, ?_, (s rfl rfl).1⟩
  cases hm : t.mono.mosaicH with
  | none => rw [hm] at m; cases m
  | some x => rw [hm] at m; rw [← Cfg.num.inj m]

end Demo

end Tavi
