import Verif.Model.Config
import Verif.Props.Convention
import Verif.Props.Components
import Verif.Props.Energy

/-!
# C84: the sample read from a JSON file
-/

namespace Tavi

open Matrix

/-- The entry of the file, if it is there and not `null`. -/
def Spec.given (d : Attrs) (k : Str) : Option Cfg :=
  match lookupKey k d with
  | some .null => none
  | o => o

/-- Nine numbers as a matrix, row by row. -/
noncomputable def Spec.rows (l : List ℝ) : M3 := fun i j => (l[3 * (i : ℕ) + j]?).getD 0

/-- Three numbers as a vector. -/
noncomputable def Spec.vec (l : List ℝ) : V3 := fun i => (l[(i : ℕ)]?).getD 0

open Spec

theorem given_none {d : Attrs} {k : Str} : given d k = none ↔ (getCfg d k).isNull = true := by
  unfold given getCfg
  cases h : lookupKey k d with
  | none => simp [Cfg.isNull]
  | some v => cases v <;> simp [Cfg.isNull]

theorem given_some {d : Attrs} {k : Str} {v : Cfg} (h : given d k = some v) : getCfg d k = v ∧ v.isNull = false := by
  unfold given at h
  unfold getCfg
  split at h
  · cases h
  · rename_i hn
    rw [h]
    refine ⟨rfl, ?_⟩
    cases v with
    | null => exact absurd h hn
    | _ => rfl

theorem cfgMat_inv {v : Cfg} {m : M3} (h : cfgMat v = .ok m) : ∃ l, v = .nums l ∧ l.length = 9 ∧ m = rows l := by
  unfold cfgMat at h
  split at h
  · refine ⟨_, rfl, rfl, ?_⟩
    rw [← Except.ok.inj h]
    ext r q
    fin_cases r <;> fin_cases q <;> rfl
  · cases h

theorem cfgVec_inv {v : Cfg} {m : V3} (h : cfgVec v = .ok m) : ∃ l, v = .nums l ∧ l.length = 3 ∧ m = vec l := by
  unfold cfgVec at h
  split at h
  · refine ⟨_, rfl, rfl, ?_⟩
    rw [← Except.ok.inj h]
    ext r
    fin_cases r <;> rfl
  all_goals cases h

theorem cfgMat_ok {l : List ℝ} (h : l.length = 9) : cfgMat (.nums l) = .ok (rows l) := by
  match l, h with
  | [a, b, c, d, e, f, g, h, i], _ =>
    refine congrArg Except.ok ?_
    ext r q
    fin_cases r <;> fin_cases q <;> rfl

theorem cfgVec_ok {l : List ℝ} (h : l.length = 3) : cfgVec (.nums l) = .ok (vec l) := by
  match l, h with
  | [a, b, c], _ =>
    refine congrArg Except.ok ?_
    ext r
    fin_cases r <;> rfl

/-- The keyword arguments an entry gives rise to. -/
theorem optKw_inv {α : Type} {d : Attrs} {k : Str} {conv : Cfg → Py α} {mk : α → UBConf.Assign} {l : List UBConf.Assign}
    (h : optKw (getCfg d k) conv mk = .ok l) :
    (given d k = none ∧ l = []) ∨ ∃ v x, given d k = some v ∧ conv v = .ok x ∧ l = [mk x] := by
  unfold optKw at h
  split at h
  · rename_i hn
    exact .inl ⟨given_none.2 hn, (Except.ok.inj h).symm⟩
  · rename_i hn
    obtain ⟨x, hx, e⟩ := map_eq_ok.1 h
    cases hg : given d k with
    | none => exact absurd (given_none.1 hg) hn
    | some v =>
      rw [(given_some hg).1] at hx
      exact .inr ⟨v, x, rfl, hx, e.symm⟩

theorem optKw_none {α : Type} {d : Attrs} {k : Str} (h : given d k = none) (conv : Cfg → Py α) (mk : α → UBConf.Assign) :
    optKw (getCfg d k) conv mk = .ok [] := if_pos (given_none.1 h)

theorem optKw_some {α : Type} {d : Attrs} {k : Str} {v : Cfg} (h : given d k = some v) {conv : Cfg → Py α} {x : α}
    (hx : conv v = .ok x) (mk : α → UBConf.Assign) : optKw (getCfg d k) conv mk = .ok [mk x] := by
  obtain ⟨h1, h2⟩ := given_some h
  rw [optKw, h1, if_neg (by rw [h2]; decide), hx]; rfl

theorem needNum_inv {d : Attrs} {k : Str} {x : ℝ} (h : needNum d k = .ok x) : lookupKey k d = some (.num x) := by
  obtain ⟨v, hv, h⟩ := py_bind_eq_ok.1 h
  rw [need_eq_ok.1 hv]
  unfold asNum at h
  split at h
  · rename_i y hy
    rw [hy, Except.ok.inj h]
  · cases h

theorem needNum_ok {d : Attrs} {k : Str} {x : ℝ} (h : lookupKey k d = some (.num x)) : needNum d k = .ok x := by
  rw [needNum, h]; rfl

theorem newSample_inv {L : Latt} {s : SampleRec} (h : newSample L = .ok s) : Acceptable L ∧ s = { latt := L } := by
  obtain ⟨u, hu, e⟩ := map_eq_ok.1 h
  exact ⟨validLatt_ok.1 hu, e.symm⟩

theorem newSample_ok {L : Latt} (h : Acceptable L) : newSample L = .ok { latt := L } := by
  rw [newSample, validLatt_ok.2 h]; rfl

theorem applyShape_keeps (d : Attrs) (s : SampleRec) :
    (applyShape d s).latt = s.latt ∧ (applyShape d s).mosaicH = s.mosaicH ∧ (applyShape d s).mosaicV = s.mosaicV := by
  unfold applyShape; split <;> exact ⟨rfl, rfl, rfl⟩

theorem applyMosaic_keeps (d : Attrs) (s : SampleRec) :
    (applyMosaic d s).latt = s.latt ∧ (applyMosaic d s).shape = s.shape ∧ (applyMosaic d s).width = s.width ∧
    (applyMosaic d s).height = s.height ∧ (applyMosaic d s).depth = s.depth := by
  unfold applyMosaic; split <;> exact ⟨rfl, rfl, rfl, rfl, rfl⟩

/-- The steps of a successful reading. -/
theorem json_inv {d : Attrs} {s : SampleRec} (h : sampleFromJson d = .ok s) :
    lookupKey "a".toList d = some (.num s.latt.a) ∧ lookupKey "b".toList d = some (.num s.latt.b) ∧
    lookupKey "c".toList d = some (.num s.latt.c) ∧ lookupKey "alpha".toList d = some (.num s.latt.alpha) ∧
    lookupKey "beta".toList d = some (.num s.latt.beta) ∧ lookupKey "gamma".toList d = some (.num s.latt.gamma) ∧
    Acceptable s.latt ∧ ∃ u, ubFromJson d = .ok u ∧
      s = { applyMosaic d (applyShape d { latt := s.latt }) with ubConf := some u } := by
  obtain ⟨a, ha, h⟩ := py_bind_eq_ok.1 h
  obtain ⟨b, hb, h⟩ := py_bind_eq_ok.1 h
  obtain ⟨c, hc, h⟩ := py_bind_eq_ok.1 h
  obtain ⟨al, hal, h⟩ := py_bind_eq_ok.1 h
  obtain ⟨be, hbe, h⟩ := py_bind_eq_ok.1 h
  obtain ⟨ga, hga, h⟩ := py_bind_eq_ok.1 h
  obtain ⟨s0, hs0, h⟩ := py_bind_eq_ok.1 h
  obtain ⟨u, hu, h⟩ := py_bind_eq_ok.1 h
  obtain ⟨hacc, rfl⟩ := newSample_inv hs0
  have hl : s.latt = ⟨a, b, c, al, be, ga⟩ := by
    rw [← Except.ok.inj h]
    exact (applyMosaic_keeps _ _).1.trans (applyShape_keeps _ _).1
  rw [hl]
  exact ⟨needNum_inv ha, needNum_inv hb, needNum_inv hc, needNum_inv hal, needNum_inv hbe, needNum_inv hga, hacc, u, hu,
    (Except.ok.inj h).symm⟩

/-- **C84**: the sample has the lattice parameters of the file, and they are possible ones. -/
theorem C84_lattice {d : Attrs} {s : SampleRec} (h : sampleFromJson d = .ok s) :
    lookupKey "a".toList d = some (.num s.latt.a) ∧ lookupKey "b".toList d = some (.num s.latt.b) ∧
    lookupKey "c".toList d = some (.num s.latt.c) ∧ lookupKey "alpha".toList d = some (.num s.latt.alpha) ∧
    lookupKey "beta".toList d = some (.num s.latt.beta) ∧ lookupKey "gamma".toList d = some (.num s.latt.gamma) ∧
    0 < s.latt.a ∧ 0 < s.latt.b ∧ 0 < s.latt.c := by
  obtain ⟨h1, h2, h3, h4, h5, h6, h7, _⟩ := json_inv h
  exact ⟨h1, h2, h3, h4, h5, h6, h7.1, h7.2.1, h7.2.2.1⟩

theorem ref_raw {c c' : UBConf} {l : List UBConf.Assign} (h : l.foldlM UBConf.assign c = .ok c') :
    (lastRef l = none → c'.inPlaneRef = c.inPlaneRef) ∧ (lastNormal l = none → c'.planeNormal = c.planeNormal) := by
  induction l generalizing c with
  | nil => cases h; exact ⟨fun _ => rfl, fun _ => rfl⟩
  | cons a l ih =>
    rw [List.foldlM_cons] at h
    obtain ⟨c1, h1, h⟩ := py_bind_eq_ok.1 h
    obtain ⟨i1, i2⟩ := ih h
    constructor
    · intro hl
      simp only [lastRef] at hl
      split at hl
      · cases hl
      · rename_i hl'
        rw [i1 hl']
        cases a with
        | inPlaneRef v => cases hl
        | _ =>
          simp only [UBConf.assign, UBConf.setUbMat, UBConf.setUMat, UBConf.setPlaneNormal] at h1
          obtain ⟨m, hm, h1⟩ := py_bind_eq_ok.1 h1
          cases h1; rfl
    · intro hl
      simp only [lastNormal] at hl
      split at hl
      · cases hl
      · rename_i hl'
        rw [i2 hl']
        cases a with
        | planeNormal v => cases hl
        | _ =>
          simp only [UBConf.assign, UBConf.setUbMat, UBConf.setUMat, UBConf.setInPlaneRef] at h1
          obtain ⟨m, hm, h1⟩ := py_bind_eq_ok.1 h1
          cases h1; rfl

/-- **C84**: the orientation is the one of the file, in the convention of the file (Spice if none is given): the UB matrix row
by row, the plane normal and the in-plane vector. What the file does not give is not there. -/
theorem C84_orientation {d : Attrs} {s : SampleRec} (h : sampleFromJson d = .ok s) :
    ∃ c, s.ubConf = some c ∧
      (∀ t, given d "convention".toList = some (.str t) → c.convention = t) ∧
      (given d "convention".toList = none → c.convention = "Spice".toList) ∧
      (∀ v, given d "ub_matrix".toList = some v → ∃ l, v = .nums l ∧ l.length = 9 ∧ c.getUbMat = .ok (rows l)) ∧
      (given d "ub_matrix".toList = none → c.getUbMat = .error .attributeError) ∧
      (∀ v, given d "plane_normal".toList = some v → ∃ l, v = .nums l ∧ l.length = 3 ∧ c.getPlaneNormal = .ok (some (vec l))) ∧
      (given d "plane_normal".toList = none → c.planeNormal = none) ∧
      (∀ v, given d "in_plane_ref".toList = some v → ∃ l, v = .nums l ∧ l.length = 3 ∧ c.getInPlaneRef = .ok (some (vec l))) ∧
      (given d "in_plane_ref".toList = none → c.inPlaneRef = none) := by
  obtain ⟨_, _, _, _, _, _, _, c, hu, hs⟩ := json_inv h
  obtain ⟨u, h1, hu⟩ := py_bind_eq_ok.1 hu
  obtain ⟨n, h2, hu⟩ := py_bind_eq_ok.1 hu
  obtain ⟨r, h3, hu⟩ := py_bind_eq_ok.1 hu
  obtain ⟨k0, k1, _, k3, k4⟩ := session_reads hu
  obtain ⟨w1, w2⟩ := ref_raw hu
  have gu := optKw_inv h1
  have gn := optKw_inv h2
  have gr := optKw_inv h3
  have e1 : lastUb (u ++ n ++ r) = lastUb u := by
    rcases gu with ⟨_, rfl⟩ | ⟨_, _, _, _, rfl⟩ <;> rcases gn with ⟨_, rfl⟩ | ⟨_, _, _, _, rfl⟩ <;>
      rcases gr with ⟨_, rfl⟩ | ⟨_, _, _, _, rfl⟩ <;> rfl
  have e2 : lastNormal (u ++ n ++ r) = lastNormal n := by
    rcases gu with ⟨_, rfl⟩ | ⟨_, _, _, _, rfl⟩ <;> rcases gn with ⟨_, rfl⟩ | ⟨_, _, _, _, rfl⟩ <;>
      rcases gr with ⟨_, rfl⟩ | ⟨_, _, _, _, rfl⟩ <;> rfl
  have e3 : lastRef (u ++ n ++ r) = lastRef r := by
    rcases gu with ⟨_, rfl⟩ | ⟨_, _, _, _, rfl⟩ <;> rcases gn with ⟨_, rfl⟩ | ⟨_, _, _, _, rfl⟩ <;>
      rcases gr with ⟨_, rfl⟩ | ⟨_, _, _, _, rfl⟩ <;> rfl
  rw [e1] at k1
  rw [e2] at k3 w2
  rw [e3] at k4 w1
  refine ⟨c, by rw [hs], fun t ht => ?_, fun ht => ?_, fun v hv => ?_, fun hv => ?_, fun v hv => ?_, fun hv => ?_, fun v hv => ?_,
    fun hv => ?_⟩
  · rw [k0, (given_some ht).1]; rfl
  · rw [k0]
    show (conventionOf (getCfg d "convention".toList)).getD "Spice".toList = _
    have := given_none.1 ht
    cases hc : getCfg d "convention".toList with
    | null => rfl
    | _ => rw [hc] at this; cases this
  · rcases gu with ⟨h0, _⟩ | ⟨v', x, hv', hx, rfl⟩
    · rw [hv] at h0; cases h0
    · rw [hv'] at hv
      obtain rfl := Option.some.inj hv
      obtain ⟨l, e, hl, rfl⟩ := cfgMat_inv hx
      exact ⟨l, e, hl, k1⟩
  · rcases gu with ⟨_, rfl⟩ | ⟨v', x, hv', _⟩
    · exact k1
    · rw [hv] at hv'; cases hv'
  · rcases gn with ⟨h0, _⟩ | ⟨v', x, hv', hx, rfl⟩
    · rw [hv] at h0; cases h0
    · rw [hv'] at hv
      obtain rfl := Option.some.inj hv
      obtain ⟨l, e, hl, rfl⟩ := cfgVec_inv hx
      exact ⟨l, e, hl, k3⟩
  · rcases gn with ⟨_, rfl⟩ | ⟨v', x, hv', _⟩
    · exact w2 rfl
    · rw [hv] at hv'; cases hv'
  · rcases gr with ⟨h0, _⟩ | ⟨v', x, hv', hx, rfl⟩
    · rw [hv] at h0; cases h0
    · rw [hv'] at hv
      obtain rfl := Option.some.inj hv
      obtain ⟨l, e, hl, rfl⟩ := cfgVec_inv hx
      exact ⟨l, e, hl, k4⟩
  · rcases gr with ⟨_, rfl⟩ | ⟨v', x, hv', _⟩
    · exact w1 rfl
    · rw [hv] at hv'; cases hv'

/-- **C84**: mosaic and shape are those of the file if the file gives all the numbers; otherwise the defaults, 30 minutes of arc
and a cube of 1 cm. -/
theorem C84_mosaic_partial {d : Attrs} {s : SampleRec} (h : sampleFromJson d = .ok s) :
    (∀ mh mv, given d "mosaic_h".toList = some mh → given d "mosaic_v".toList = some mv → s.mosaicH = mh ∧ s.mosaicV = mv) ∧
    (given d "mosaic_h".toList = none ∧ given d "mosaic_v".toList = none → s.mosaicH = .num 30 ∧ s.mosaicV = .num 30) ∧
    (∀ sh w hh dd, given d "shape".toList = some sh → given d "width".toList = some w → given d "height".toList = some hh →
      given d "depth".toList = some dd → s.shape = sh ∧ s.width = w ∧ s.height = hh ∧ s.depth = dd) := by
  obtain ⟨_, _, _, _, _, _, _, u, _, hs⟩ := json_inv h
  have m1 : s.mosaicH = (applyMosaic d (applyShape d { latt := s.latt })).mosaicH :=
    (congrArg SampleRec.mosaicH hs).trans rfl
  have m2 : s.mosaicV = (applyMosaic d (applyShape d { latt := s.latt })).mosaicV :=
    (congrArg SampleRec.mosaicV hs).trans rfl
  obtain ⟨_, p1, p2, p3, p4⟩ := applyMosaic_keeps d (applyShape d { latt := s.latt })
  have q1 := (congrArg SampleRec.shape hs).trans p1
  have q2 := (congrArg SampleRec.width hs).trans p2
  have q3 := (congrArg SampleRec.height hs).trans p3
  have q4 := (congrArg SampleRec.depth hs).trans p4
  refine ⟨fun mh mv h1 h2 => ?_, fun ⟨h1, h2⟩ => ?_, fun sh w hh dd h1 h2 h3 h4 => ?_⟩
  · obtain ⟨a1, b1⟩ := given_some h1
    obtain ⟨a2, b2⟩ := given_some h2
    rw [m1, m2, applyMosaic, a1, a2, b1, b2]; exact ⟨rfl, rfl⟩
  · rw [m1, m2, applyMosaic, given_none.1 h1, given_none.1 h2]
    exact ⟨(applyShape_keeps d _).2.1, (applyShape_keeps d _).2.2⟩
  · obtain ⟨a1, b1⟩ := given_some h1
    obtain ⟨a2, b2⟩ := given_some h2
    obtain ⟨a3, b3⟩ := given_some h3
    obtain ⟨a4, b4⟩ := given_some h4
    rw [q1, q2, q3, q4, applyShape, a1, a2, a3, a4, b1, b2, b3, b4]; exact ⟨rfl, rfl, rfl, rfl⟩

/-- **C84 fails**: a mosaic given for one direction only is dropped; so is a size when one of the other sizes or the shape is
missing. -/
theorem C84_half_ignored {d : Attrs} {s : SampleRec} (h : sampleFromJson d = .ok s) :
    (given d "mosaic_h".toList = none ∨ given d "mosaic_v".toList = none → s.mosaicH = .num 30 ∧ s.mosaicV = .num 30) ∧
    (given d "shape".toList = none ∨ given d "width".toList = none ∨ given d "height".toList = none ∨
      given d "depth".toList = none →
        s.shape = .str "cuboid".toList ∧ s.width = .num 1 ∧ s.height = .num 1 ∧ s.depth = .num 1) := by
  obtain ⟨_, _, _, _, _, _, _, u, _, hs⟩ := json_inv h
  have m1 : s.mosaicH = (applyMosaic d (applyShape d { latt := s.latt })).mosaicH :=
    (congrArg SampleRec.mosaicH hs).trans rfl
  have m2 : s.mosaicV = (applyMosaic d (applyShape d { latt := s.latt })).mosaicV :=
    (congrArg SampleRec.mosaicV hs).trans rfl
  obtain ⟨_, p1, p2, p3, p4⟩ := applyMosaic_keeps d (applyShape d { latt := s.latt })
  have q1 := (congrArg SampleRec.shape hs).trans p1
  have q2 := (congrArg SampleRec.width hs).trans p2
  have q3 := (congrArg SampleRec.height hs).trans p3
  have q4 := (congrArg SampleRec.depth hs).trans p4
  constructor
  · intro h0
    have : ((getCfg d "mosaic_h".toList).isNull || (getCfg d "mosaic_v".toList).isNull) = true := by
      rcases h0 with h0 | h0 <;> rw [given_none.1 h0]
      · exact Bool.true_or _
      · exact Bool.or_true _
    rw [m1, m2, applyMosaic, if_pos this]
    exact (applyShape_keeps d _).2
  · intro h0
    have : ((getCfg d "shape".toList).isNull || (getCfg d "width".toList).isNull || (getCfg d "height".toList).isNull
        || (getCfg d "depth".toList).isNull) = true := by
      simp only [Bool.or_eq_true]
      rcases h0 with h0 | h0 | h0 | h0
      · exact .inl (.inl (.inl (given_none.1 h0)))
      · exact .inl (.inl (.inr (given_none.1 h0)))
      · exact .inl (.inr (given_none.1 h0))
      · exact .inr (given_none.1 h0)
    rw [q1, q2, q3, q4, applyShape, if_pos this]
    exact ⟨rfl, rfl, rfl, rfl⟩

theorem init_known {conv : Option Str} (hk : KnownConvention (conv.getD "Spice".toList)) (l : List UBConf.Assign) :
    ∃ c, UBConf.init conv l = .ok c := by
  cases l with
  | nil => exact ⟨_, rfl⟩
  | cons a l => exact (C19_unknown_refused conv a l).1 hk

/-- **C84**: what is accepted: six numbers that can be lattice parameters; nine and three numbers where a matrix and vectors
are given; one of the two conventions. -/
theorem C84_accepted {d : Attrs} {L : Latt} (hL : Acceptable L)
    (ha : lookupKey "a".toList d = some (.num L.a)) (hb : lookupKey "b".toList d = some (.num L.b))
    (hc : lookupKey "c".toList d = some (.num L.c)) (hal : lookupKey "alpha".toList d = some (.num L.alpha))
    (hbe : lookupKey "beta".toList d = some (.num L.beta)) (hga : lookupKey "gamma".toList d = some (.num L.gamma))
    (hu : ∀ v, given d "ub_matrix".toList = some v → ∃ l, v = .nums l ∧ l.length = 9)
    (hn : ∀ v, given d "plane_normal".toList = some v → ∃ l, v = .nums l ∧ l.length = 3)
    (hr : ∀ v, given d "in_plane_ref".toList = some v → ∃ l, v = .nums l ∧ l.length = 3)
    (hk : ∀ v, given d "convention".toList = some v → ∃ t, v = .str t ∧ KnownConvention t) :
    ∃ s, sampleFromJson d = .ok s ∧ s.latt = L := by
  have kw : ∀ {α : Type} {k : Str} {conv : Cfg → Py α} (mk : α → UBConf.Assign),
      (∀ v, given d k = some v → ∃ x, conv v = .ok x) → ∃ l, optKw (getCfg d k) conv mk = .ok l := by
    intro α k conv mk h
    cases hg : given d k with
    | none => exact ⟨_, optKw_none hg conv mk⟩
    | some v => obtain ⟨x, hx⟩ := h v hg; exact ⟨_, optKw_some hg hx mk⟩
  obtain ⟨l1, e1⟩ := kw (k := "ub_matrix".toList) (conv := cfgMat) .ubMat fun v hv => by
    obtain ⟨l, rfl, hl⟩ := hu v hv; exact ⟨_, cfgMat_ok hl⟩
  obtain ⟨l2, e2⟩ := kw (k := "plane_normal".toList) (conv := cfgVec) .planeNormal fun v hv => by
    obtain ⟨l, rfl, hl⟩ := hn v hv; exact ⟨_, cfgVec_ok hl⟩
  obtain ⟨l3, e3⟩ := kw (k := "in_plane_ref".toList) (conv := cfgVec) .inPlaneRef fun v hv => by
    obtain ⟨l, rfl, hl⟩ := hr v hv; exact ⟨_, cfgVec_ok hl⟩
  have hconv : KnownConvention ((conventionOf (getCfg d "convention".toList)).getD "Spice".toList) := by
    cases hg : given d "convention".toList with
    | none =>
      have := given_none.1 hg
      cases hc : getCfg d "convention".toList with
      | null => exact .inr rfl
      | _ => rw [hc] at this; cases this
    | some v =>
      obtain ⟨t, rfl, ht⟩ := hk v hg
      rw [(given_some hg).1]; exact ht
  obtain ⟨c, e4⟩ := init_known hconv (l1 ++ l2 ++ l3)
  refine ⟨{ applyMosaic d (applyShape d { latt := L }) with ubConf := some c }, ?_, ?_⟩
  · rw [sampleFromJson, needNum_ok ha, py_bind_ok, needNum_ok hb, py_bind_ok, needNum_ok hc, py_bind_ok, needNum_ok hal,
      py_bind_ok, needNum_ok hbe, py_bind_ok, needNum_ok hga, py_bind_ok, newSample_ok hL, py_bind_ok, ubFromJson, e1,
      py_bind_ok, e2, py_bind_ok, e3, py_bind_ok, e4, py_bind_ok]
  · exact (applyMosaic_keeps _ _).1.trans (applyShape_keeps _ _).1

theorem needNum_missing {d : Attrs} {k : Str} (h : lookupKey k d = none) : needNum d k = .error .keyError := by
  rw [needNum, h]; rfl

/-- The names of the lattice parameters in the file. -/
def Spec.lattNames : List Str :=
  ["a".toList, "b".toList, "c".toList, "alpha".toList, "beta".toList, "gamma".toList]

/-- **C84**: what is refused: a lattice parameter is missing (`KeyError` if the others are numbers), a length is not positive or
an angle out of range (`ValueError`); an unknown convention, if the file gives a matrix or a vector. -/
theorem C84_refused {d : Attrs} :
    ((∃ k ∈ Spec.lattNames, lookupKey k d = none) →
      (∀ s, sampleFromJson d ≠ .ok s) ∧
      ((∀ k ∈ Spec.lattNames, ∀ v, lookupKey k d = some v → ∃ x, v = .num x) → sampleFromJson d = .error .keyError)) ∧
    (∀ L : Latt, lookupKey "a".toList d = some (.num L.a) → lookupKey "b".toList d = some (.num L.b) →
      lookupKey "c".toList d = some (.num L.c) → lookupKey "alpha".toList d = some (.num L.alpha) →
      lookupKey "beta".toList d = some (.num L.beta) → lookupKey "gamma".toList d = some (.num L.gamma) →
      ¬ Acceptable L → sampleFromJson d = .error .valueError) ∧
    (∀ t, given d "convention".toList = some (.str t) → ¬ KnownConvention t →
      (∃ k ∈ ["ub_matrix".toList, "plane_normal".toList, "in_plane_ref".toList], (given d k).isSome) →
      ∀ s, sampleFromJson d ≠ .ok s) := by
  refine ⟨fun h => ⟨fun s hs => ?_, fun hnum => ?_⟩, fun L ha hb hc hal hbe hga hL => ?_, fun t ht hk hu s hs => ?_⟩
  · obtain ⟨k, hk, h0⟩ := h
    obtain ⟨h1, h2, h3, h4, h5, h6, _⟩ := json_inv hs
    simp only [Spec.lattNames, List.mem_cons, List.not_mem_nil, or_false] at hk
    rcases hk with rfl | rfl | rfl | rfl | rfl | rfl
    · rw [h0] at h1; cases h1
    · rw [h0] at h2; cases h2
    · rw [h0] at h3; cases h3
    · rw [h0] at h4; cases h4
    · rw [h0] at h5; cases h5
    · rw [h0] at h6; cases h6
  · have step : ∀ k ∈ Spec.lattNames, needNum d k = .error .keyError ∨ ∃ x, needNum d k = .ok x := by
      intro k hk
      cases h0 : lookupKey k d with
      | none => exact .inl (needNum_missing h0)
      | some v =>
        obtain ⟨x, rfl⟩ := hnum k hk v h0
        exact .inr ⟨x, needNum_ok h0⟩
    obtain ⟨k, hk, h0⟩ := h
    have hkey := needNum_missing h0
    simp only [Spec.lattNames, List.mem_cons, List.not_mem_nil, or_false] at hk
    rw [sampleFromJson]
    rcases step "a".toList (by simp [Spec.lattNames]) with e | ⟨x1, e1⟩
    · rw [e]; rfl
    rcases step "b".toList (by simp [Spec.lattNames]) with e | ⟨x2, e2⟩
    · rw [e1, py_bind_ok, e]; rfl
    rcases step "c".toList (by simp [Spec.lattNames]) with e | ⟨x3, e3⟩
    · rw [e1, py_bind_ok, e2, py_bind_ok, e]; rfl
    rcases step "alpha".toList (by simp [Spec.lattNames]) with e | ⟨x4, e4⟩
    · rw [e1, py_bind_ok, e2, py_bind_ok, e3, py_bind_ok, e]; rfl
    rcases step "beta".toList (by simp [Spec.lattNames]) with e | ⟨x5, e5⟩
    · rw [e1, py_bind_ok, e2, py_bind_ok, e3, py_bind_ok, e4, py_bind_ok, e]; rfl
    rcases step "gamma".toList (by simp [Spec.lattNames]) with e | ⟨x6, e6⟩
    · rw [e1, py_bind_ok, e2, py_bind_ok, e3, py_bind_ok, e4, py_bind_ok, e5, py_bind_ok, e]; rfl
    exfalso
    rcases hk with rfl | rfl | rfl | rfl | rfl | rfl
    · rw [e1] at hkey; cases hkey
    · rw [e2] at hkey; cases hkey
    · rw [e3] at hkey; cases hkey
    · rw [e4] at hkey; cases hkey
    · rw [e5] at hkey; cases hkey
    · rw [e6] at hkey; cases hkey
  · have : newSample L = .error .valueError := by
      unfold newSample Sample.validLatt
      split
      · rfl
      · split
        · rfl
        · rename_i h1 h2
          refine absurd (validLatt_ok.1 ?_) hL
          rw [Sample.validLatt, if_neg h1, if_neg h2]
    rw [sampleFromJson, needNum_ok ha, py_bind_ok, needNum_ok hb, py_bind_ok, needNum_ok hc, py_bind_ok, needNum_ok hal,
      py_bind_ok, needNum_ok hbe, py_bind_ok, needNum_ok hga, py_bind_ok, this]
    rfl
  · obtain ⟨_, _, _, _, _, _, _, c, hc, _⟩ := json_inv hs
    obtain ⟨u, h1, hc⟩ := py_bind_eq_ok.1 hc
    obtain ⟨n, h2, hc⟩ := py_bind_eq_ok.1 hc
    obtain ⟨r, h3, hc⟩ := py_bind_eq_ok.1 hc
    have hne : u ++ n ++ r ≠ [] := by
      intro he
      rw [List.append_assoc, List.append_eq_nil_iff, List.append_eq_nil_iff] at he
      obtain ⟨k, hk', hg⟩ := hu
      simp only [List.mem_cons, List.not_mem_nil, or_false] at hk'
      rcases hk' with rfl | rfl | rfl
      · rcases optKw_inv h1 with ⟨h0, _⟩ | ⟨v, x, _, _, h0⟩
        · rw [h0] at hg; cases hg
        · rw [h0] at he; cases he.1
      · rcases optKw_inv h2 with ⟨h0, _⟩ | ⟨v, x, _, _, h0⟩
        · rw [h0] at hg; cases hg
        · rw [h0] at he; cases he.2.1
      · rcases optKw_inv h3 with ⟨h0, _⟩ | ⟨v, x, _, _, h0⟩
        · rw [h0] at hg; cases hg
        · rw [h0] at he; cases he.2.2
    obtain ⟨a, l, hl⟩ := List.exists_cons_of_ne_nil hne
    rw [(given_some ht).1, hl, (C19_unknown_refused (conventionOf (.str t)) _ _).2 hk] at hc
    cases hc

/-- **C84 fails**: without a matrix and vectors a file with an unknown convention is accepted, and the sample has that
convention: no orientation can be given to it later (`C19_unknown_refused`). -/
theorem C84_unknown_accepted {d : Attrs} {L : Latt} (hL : Acceptable L)
    (ha : lookupKey "a".toList d = some (.num L.a)) (hb : lookupKey "b".toList d = some (.num L.b))
    (hc : lookupKey "c".toList d = some (.num L.c)) (hal : lookupKey "alpha".toList d = some (.num L.alpha))
    (hbe : lookupKey "beta".toList d = some (.num L.beta)) (hga : lookupKey "gamma".toList d = some (.num L.gamma))
    (hno : ∀ k ∈ ["ub_matrix".toList, "plane_normal".toList, "in_plane_ref".toList], given d k = none)
    {t : Str} (ht : given d "convention".toList = some (.str t)) :
    ∃ s c, sampleFromJson d = .ok s ∧ s.latt = L ∧ s.ubConf = some c ∧ c.convention = t ∧
      (¬ KnownConvention t → ∀ a, c.assign a = .error .valueError) := by
  obtain ⟨c, hc4, hconv⟩ : ∃ c, UBConf.init (some t) ([] ++ [] ++ []) = .ok c ∧ c.convention = t := ⟨_, rfl, rfl⟩
  refine ⟨{ applyMosaic d (applyShape d { latt := L }) with ubConf := some c }, c, ?_,
    (applyMosaic_keeps _ _).1.trans (applyShape_keeps _ _).1, rfl, hconv, fun hk a => ?_⟩
  · rw [sampleFromJson, needNum_ok ha, py_bind_ok, needNum_ok hb, py_bind_ok, needNum_ok hc, py_bind_ok, needNum_ok hal,
      py_bind_ok, needNum_ok hbe, py_bind_ok, needNum_ok hga, py_bind_ok, newSample_ok hL, py_bind_ok, ubFromJson,
      optKw_none (hno _ (by simp)), py_bind_ok, optKw_none (hno _ (by simp)), py_bind_ok, optKw_none (hno _ (by simp)), py_bind_ok,
      (given_some ht).1, show conventionOf (.str t) = some t from rfl, hc4, py_bind_ok]
  · obtain rfl := Except.ok.inj hc4
    have := (C19_unknown_refused (some t) a []).2 hk
    rw [UBConf.init, List.foldlM_cons] at this
    rcases ha' : UBConf.assign { convention := t } a with e | c'
    · have h2 : UBConf.assign ({ convention := t } : UBConf) a >>= _ = _ := this
      rw [ha'] at h2
      exact ha'.trans (congrArg Except.error (Except.error.inj h2))
    · have h2 : UBConf.assign ({ convention := t } : UBConf) a >>= _ = _ := this
      rw [ha'] at h2
      cases h2

/-! ## Concrete case -/

namespace Demo

/-- NiTiO₃, with the mosaic given for one direction only. -/
noncomputable def nickelFile : Attrs :=
  [("type".toList, .str "crystal".toList), ("a".toList, .num 5.034785), ("b".toList, .num 5.034785), ("c".toList, .num 13.812004),
   ("alpha".toList, .num 90), ("beta".toList, .num 90), ("gamma".toList, .num 120), ("shape".toList, .str "cylindrical".toList),
   ("width".toList, .num 2), ("height".toList, .num 3), ("depth".toList, .num 4), ("mosaic_h".toList, .num 45),
   ("ub_matrix".toList, .nums [-0.016965, -0.026212, -0.071913, -0.201388, -0.193307, 0.007769, -0.108415, 0.120600, -0.003178]),
   ("plane_normal".toList, .nums [-0.04032, 0.035237, 0.998565]), ("in_plane_ref".toList, .null)]

example : ∃ s c, sampleFromJson nickelFile = .ok s ∧ s.ubConf = some c ∧ s.latt.gamma = 120 ∧ s.mosaicH = .num 30 ∧
    s.height = .num 3 ∧ c.convention = "Spice".toList ∧
    c.getUbMat = .ok !![-0.016965, -0.026212, -0.071913; -0.201388, -0.193307, 0.007769; -0.108415, 0.120600, -0.003178] ∧
    c.getPlaneNormal = .ok (some ![-0.04032, 0.035237, 0.998565]) ∧ c.inPlaneRef = none := by
  obtain ⟨s, hs, hl⟩ := C84_accepted (d := nickelFile) (L := ⟨5.034785, 5.034785, 13.812004, 90, 90, 120⟩)
    (by norm_num [Acceptable]) rfl rfl rfl rfl rfl rfl
    (fun v hv => ⟨_, (Option.some.inj hv).symm, rfl⟩) (fun v hv => ⟨_, (Option.some.inj hv).symm, rfl⟩) (fun v hv => nomatch hv)
    (fun v hv => nomatch hv)
  obtain ⟨c, h1, _, h3, h4, _, h6, _, _, h9⟩ := C84_orientation hs
  obtain ⟨l, e, _, hu⟩ := h4 _ rfl
  obtain ⟨l', e', _, hn⟩ := h6 _ rfl
  refine ⟨s, c, hs, h1, by rw [hl], ((C84_half_ignored hs).1 (.inr rfl)).1, ((C84_mosaic_partial hs).2.2 _ _ _ _ rfl rfl rfl rfl).2.2.1,
    h3 rfl, ?_, ?_, h9 rfl⟩
  · rw [hu, ← Cfg.nums.inj e]
    refine congrArg Except.ok ?_
    ext i j
    fin_cases i <;> fin_cases j <;> rfl
  · rw [hn, ← Cfg.nums.inj e']
    refine congrArg (fun v => Except.ok (some v)) ?_
    ext i
    fin_cases i <;> rfl

/-- A cubic crystal whose convention is misspelt: no complaint. -/
example : ∃ s c, sampleFromJson [("a".toList, .num 5), ("b".toList, .num 5), ("c".toList, .num 5), ("alpha".toList, .num 90),
      ("beta".toList, .num 90), ("gamma".toList, .num 90), ("convention".toList, .str "spice".toList)] = .ok s ∧
    s.ubConf = some c ∧ c.setUbMat 1 = .error .valueError := by
  obtain ⟨s, c, hs, _, h1, _, h2⟩ := C84_unknown_accepted
    (d := [("a".toList, .num 5), ("b".toList, .num 5), ("c".toList, .num 5), ("alpha".toList, .num 90),
      ("beta".toList, .num 90), ("gamma".toList, .num 90), ("convention".toList, .str "spice".toList)])
    (L := ⟨5, 5, 5, 90, 90, 90⟩) (by constructor <;> norm_num) rfl rfl rfl rfl rfl rfl (by
      intro k hk
      simp only [List.mem_cons, List.not_mem_nil, or_false] at hk
      rcases hk with rfl | rfl | rfl <;> rfl) (t := "spice".toList) rfl
  exact ⟨s, c, hs, h1, h2 (by unfold KnownConvention; simp) (.ubMat 1)⟩

end Demo

end Tavi
