import Verif.Model.Scan
import Verif.Props.Rebin2D

/-! # C35 (order of scans), C37, C38, C39: combining scans, subtraction, rebin parameters -/

namespace Tavi

open Classical

/-! ## Evaluation of the column functions -/

theorem mapM_ok {α β : Type} {l : List α} {f : α → Py β} {g : α → β} (h : ∀ a ∈ l, f a = .ok (g a)) :
    l.mapM f = .ok (l.map g) := by
  induction l with
  | nil => rfl
  | cons a l ih =>
    rw [List.mapM_cons, h a (by simp), ih fun b hb => h b (by simp [hb])]
    rfl

theorem mapM_ok_inv {α β : Type} {l : List α} {f : α → Py β} {r : List β} (h : l.mapM f = .ok r) :
    List.Forall₂ (fun a b => f a = .ok b) l r := by
  induction l generalizing r with
  | nil => cases h; exact .nil
  | cons a l ih =>
    rw [List.mapM_cons] at h
    obtain ⟨b, hb, h⟩ := py_bind_eq_ok.1 h
    obtain ⟨bs, hbs, h⟩ := py_bind_eq_ok.1 h
    cases h
    exact .cons hb (ih hbs)

theorem groupCol_ok {scans : List Scan} {name : Str} {f : Scan → List Num} (h : ∀ s ∈ scans, s.col name = .ok (f s)) :
    groupCol scans name = .ok (scans.flatMap f) := by
  unfold groupCol
  rw [mapM_ok h, py_bind_ok]
  rfl

theorem defaultRenorm_ok {scans : List Scan} {ch : Str} {v : ℝ} (hne : scans ≠ [])
    (h : ∀ s ∈ scans, s.preset = .normal ch v) : defaultRenorm scans = .ok (v, ch) := by
  unfold defaultRenorm
  rw [mapM_ok (g := fun _ => (v, ch)) (by intro s hs; rw [h s hs]; rfl), py_bind_ok]
  cases scans with
  | nil => exact absurd rfl hne
  | cons s l =>
    simp only [List.map_cons]
    rw [if_pos (by intro q hq; obtain ⟨_, _, rfl⟩ := List.mem_map.1 hq; rfl)]
    rfl

/-! ## C37 -/

/-- `t` is the scan obtained by appending the scans: each column is the concatenation of the columns, and a column is missing
if a scan lacks it. -/
def Spec.Appended (scans : List Scan) (t : Scan) : Prop :=
  (∀ name, (∃ f : Scan → List Num, (∀ s ∈ scans, lookupKey name s.data = some (f s)) ∧
      lookupKey name t.data = some (scans.flatMap f)) ∨
    ((∃ s ∈ scans, lookupKey name s.data = none) ∧ lookupKey name t.data = none)) ∧
  ∀ s ∈ scans, s.preset = t.preset

theorem groupCol_missing {scans : List Scan} {name : Str} (h : ∃ s ∈ scans, lookupKey name s.data = none) :
    groupCol scans name = .error .keyError := by
  unfold groupCol
  have : (scans.mapM fun s => s.col name) = .error .keyError := by
    induction scans with
    | nil => simp at h
    | cons s l ih =>
      rw [List.mapM_cons]
      unfold Scan.col at *
      cases hs : lookupKey name s.data with
      | none => rfl
      | some c =>
        have : ∃ s ∈ l, lookupKey name s.data = none := by
          obtain ⟨a, ha, h⟩ := h
          rcases List.mem_cons.1 ha with rfl | ha
          · rw [hs] at h; cases h
          · exact ⟨a, ha, h⟩
        rw [need_some, py_bind_ok, ih this]
        rfl
  rw [this]; rfl

theorem appended_col {scans : List Scan} {t : Scan} (h : Spec.Appended scans t) (name : Str) :
    groupCol scans name = t.col name := by
  rcases h.1 name with ⟨f, hf, ht⟩ | ⟨hm, ht⟩
  · rw [groupCol_ok (f := f) (by intro s hs; unfold Scan.col; rw [hf s hs]; rfl)]
    unfold Scan.col; rw [ht]; rfl
  · rw [groupCol_missing hm]; unfold Scan.col; rw [ht]; rfl

theorem ndiv_norm (a n : Num) {v : ℝ} (hv : v ≠ 0) :
    nmul (ndiv a (ndiv n (some v))) (some 1) = nmul (ndiv a n) (some v) := by
  cases a with
  | none => rfl
  | some a =>
    cases n with
    | none => rfl
    | some n =>
      simp only [ndiv, if_neg hv]
      by_cases h : n = 0
      · subst h; simp [nmul]
      · rw [if_neg (div_ne_zero h hv), if_neg h]
        simp only [nmul]
        congr 1
        field_simp

theorem renorm_preset (d : ScanData1D) (c : List Num) {v : ℝ} (hv : v ≠ 0) :
    d.renorm (some (c.map fun n => ndiv n (some v))) 1 = d.renorm (some c) v := by
  have e : ∀ a : List Num, (List.zipWith ndiv a (c.map fun n => ndiv n (some v))).map (nmul · (some 1)) =
      (List.zipWith ndiv a c).map (nmul · (some v)) := by
    intro a
    rw [List.zipWith_map_right, List.map_zipWith, List.map_zipWith]
    congr 1
    funext a n
    exact ndiv_norm a n hv
  unfold ScanData1D.renorm normCol zipN
  simp only [List.length_map, py_bind_ok]
  by_cases h1 : d.y.length = c.length
  · by_cases h2 : d.err.length = c.length
    · simp only [if_pos h1, if_pos h2, py_bind_ok, e]
    · simp only [if_pos h1, if_neg h2, py_bind_ok, py_bind_err]
  · simp only [if_neg h1, py_bind_err]

/-- A column whose name has no underscore and is not a computed `del_q` axis. -/
def Spec.PlainAxes (x y : Str) : Prop := isSubstr "del_q".toList x = false ∧ '_' ∉ y

theorem split_plain {c : Char} {s : Str} (h : c ∉ s) : splitChar c s = [s] := by
  induction s with
  | nil => rfl
  | cons a l ih =>
    have h1 : a ≠ c := fun e => h (by simp [e])
    have h2 : c ∉ l := fun e => h (by simp [e])
    unfold splitChar
    rw [if_neg h1, ih h2]

theorem labelOk_plain {s : Scan} {ch : Str} {v : ℝ} {y : Str} (hp : s.preset = .normal ch v) (h : '_' ∉ y) :
    s.labelOk y = .ok () := by
  unfold Scan.labelOk
  rw [split_plain h]
  simp [hp]

/-- **C37** Combining scans with the same preset gives what the single-scan function gives for the appended scan: same data,
or the same exception. -/
theorem C37_concatenation_partial {scans : List Scan} {t : Scan} (ht : Spec.Appended scans t) (hne : scans ≠ [])
    {ch0 : Str} {v0 : ℝ} (hp : t.preset = .normal ch0 v0) {x y : Str} (ha : Spec.PlainAxes x y)
    {normTo : Option (ℝ × Str)} (hv : ∀ n ∈ normTo, n.1 ≠ 0) (grid tol : Option RebinArg) :
    combine1D scans x y normTo grid tol = t.getData (some x) (some y) normTo grid tol := by
  have hd := defaultRenorm_ok hne (ch := ch0) (v := v0) (by intro s hs; rw [ht.2 s hs, hp])
  unfold combine1D Scan.getData
  simp only [appended_col ht, Option.getD_some, ha.1, labelOk_plain hp ha.2, hd, hp, presetLabelOk]
  cases hx : t.col x with
  | error e => rfl
  | ok cx =>
    cases hy : t.col y with
    | error e => rfl
    | ok cy =>
      simp only [py_bind_ok, Bool.false_eq_true, if_false]
      rcases chooseRebin grid tol with ⟨g, params⟩
      simp only
      by_cases hf : isFalsy params
      · simp only [hf, if_true]
        cases normTo with
        | none => rfl
        | some n =>
          obtain ⟨v, ch⟩ := n
          simp only
          cases hc : t.col ch with
          | error e => rfl
          | ok c =>
            simp only [py_bind_ok]
            rw [renorm_preset _ _ (hv (v, ch) rfl)]
      · simp only [hf]
        cases params with
        | none => rfl
        | some a =>
          simp only [need_some, py_bind_ok]
          cases formatRebin a with
          | error e => rfl
          | ok p =>
            cases g <;> cases normTo <;> simp only [py_bind_ok]
            · rfl
            · rename_i n; obtain ⟨v, ch⟩ := n; rfl
            · cases ScanData1D.rebinGrid (ScanData1D.init cx cy) p <;> rfl
            · rename_i n; obtain ⟨v, ch⟩ := n; rfl

theorem appended_single (s : Scan) : Spec.Appended [s] s := by
  refine ⟨fun name => ?_, by simp⟩
  cases h : lookupKey name s.data with
  | none => exact Or.inr ⟨⟨s, by simp, h⟩, rfl⟩
  | some c => exact Or.inl ⟨fun _ => c, by simp [h], by simp⟩

/-- **C37** A group of one scan gives exactly that scan's data, with explicit and with default axes. -/
theorem C37_single_partial {s : Scan} {ch0 : Str} {v0 : ℝ} (hp : s.preset = .normal ch0 v0)
    {normTo : Option (ℝ × Str)} (hv : ∀ n ∈ normTo, n.1 ≠ 0) (grid tol : Option RebinArg) :
    (∀ x y, Spec.PlainAxes x y → combine1D [s] x y normTo grid tol = s.getData (some x) (some y) normTo grid tol) ∧
    (Spec.PlainAxes s.defX s.defY → combineDefault [s] normTo grid tol = s.getData none none normTo grid tol) := by
  refine ⟨fun x y h => C37_concatenation_partial (appended_single s) (by simp) hp h hv grid tol, fun h => ?_⟩
  unfold combineDefault
  dsimp only
  rw [if_pos (by simp), C37_concatenation_partial (appended_single s) (by simp) hp h hv grid tol]
  rfl

/-- What renormalising one scan without rebinning returns, when it returns something. -/
theorem getData_renorm_inv {s : Scan} {x y ch : Str} {v : ℝ} {r : ScanData1D} (hx : isSubstr "del_q".toList x = false)
    (h : s.getData (some x) (some y) (some (v, ch)) none none = .ok r) :
    ∃ cy c, s.col x = .ok r.x ∧ s.col y = .ok cy ∧ s.col ch = .ok c ∧ cy.length = c.length ∧
      (ScanData1D.init r.x cy).renorm (some (c.map fun n => ndiv n (some v))) 1 = .ok r ∧ r.norm = none := by
  unfold Scan.getData at h
  simp only [Option.getD_some, hx, Bool.false_eq_true, if_false, chooseRebin, isFalsy, if_true] at h
  obtain ⟨cx, hcx, h⟩ := py_bind_eq_ok.1 h
  obtain ⟨cy, hcy, h⟩ := py_bind_eq_ok.1 h
  obtain ⟨_, _, h⟩ := py_bind_eq_ok.1 h
  obtain ⟨c, hc, h⟩ := py_bind_eq_ok.1 h
  have h' := h
  unfold ScanData1D.renorm normCol at h
  simp only [py_bind_ok] at h
  obtain ⟨ry, hry, h⟩ := py_bind_eq_ok.1 h
  obtain ⟨re, hre, h⟩ := py_bind_eq_ok.1 h
  unfold zipN at hry
  split at hry
  · rename_i hl
    cases h
    exact ⟨cy, c, hcx, hcy, hc, by simpa [ScanData1D.init] using hl, h', rfl⟩
  · cases hry

theorem groupCol_cons (s : Scan) (l : List Scan) (name : Str) :
    groupCol (s :: l) name = (s.col name >>= fun c => groupCol l name >>= fun cs => .ok (c ++ cs)) := by
  unfold groupCol
  rw [List.mapM_cons]
  cases s.col name with
  | error e => rfl
  | ok c =>
    simp only [py_bind_ok]
    cases (l.mapM fun s => s.col name) with
    | error e => rfl
    | ok cs => simp

theorem renorm_value {x y c : List Num} {v : ℝ} (hl : y.length = c.length) :
    (ScanData1D.init x y).renorm (some c) v = .ok {
      x := x, y := (List.zipWith ndiv y c).map (nmul · (some v)),
      err := (List.zipWith ndiv (y.map nsqrt) c).map (nmul · (some v)), norm := none } := by
  unfold ScanData1D.renorm normCol zipN ScanData1D.init
  simp only [py_bind_ok, hl, List.length_map, if_true]
  rfl

/-- **C37** Renormalising a group without rebinning is renormalising each scan separately and appending the results. -/
theorem C37_separate_renorm {scans : List Scan} {x y ch : Str} {v : ℝ} (hv : v ≠ 0)
    (hx : isSubstr "del_q".toList x = false) {rs : List ScanData1D}
    (h : scans.mapM (fun s => s.getData (some x) (some y) (some (v, ch)) none none) = .ok rs) :
    combine1D scans x y (some (v, ch)) none none = .ok {
      x := rs.flatMap (·.x), y := rs.flatMap (·.y), err := rs.flatMap (·.err), norm := none } := by
  have key : ∃ cy c, groupCol scans x = .ok (rs.flatMap (·.x)) ∧ groupCol scans y = .ok cy ∧ groupCol scans ch = .ok c ∧
      cy.length = c.length ∧ (List.zipWith ndiv cy c).map (nmul · (some v)) = rs.flatMap (·.y) ∧
      (List.zipWith ndiv (cy.map nsqrt) c).map (nmul · (some v)) = rs.flatMap (·.err) := by
    have h2 := mapM_ok_inv h
    clear h
    induction h2 with
    | nil => exact ⟨[], [], rfl, rfl, rfl, rfl, rfl, rfl⟩
    | @cons s r l rs hs _ ih =>
      obtain ⟨cy, c, i1, i2, i3, i4, i5, i6⟩ := ih
      obtain ⟨cy0, c0, j1, j2, j3, j4, j5, _⟩ := getData_renorm_inv hx hs
      rw [renorm_preset _ _ hv, renorm_value j4] at j5
      have e1 : (List.zipWith ndiv cy0 c0).map (nmul · (some v)) = r.y := by
        have := congrArg (Except.map (·.y)) j5; exact Except.ok.inj this
      have e2 : (List.zipWith ndiv (cy0.map nsqrt) c0).map (nmul · (some v)) = r.err := by
        have := congrArg (Except.map (·.err)) j5; exact Except.ok.inj this
      refine ⟨cy0 ++ cy, c0 ++ c, ?_, ?_, ?_, by simp [i4, j4], ?_, ?_⟩
      · rw [groupCol_cons, j1, i1]; rfl
      · rw [groupCol_cons, j2, i2]; rfl
      · rw [groupCol_cons, j3, i3]; rfl
      · rw [List.zipWith_append j4, List.map_append, e1, i5]; rfl
      · rw [List.map_append, List.zipWith_append (by simpa using j4), List.map_append, e2, i6]; rfl
  obtain ⟨cy, c, i1, i2, i3, i4, i5, i6⟩ := key
  unfold combine1D
  simp only [i1, i2, i3, py_bind_ok, chooseRebin, isFalsy, if_true]
  rw [renorm_value i4, i5, i6]

/-! ### Where the group and the scan disagree -/

/-- A one-point scan with an `s1`, a `q` and two detector columns. -/
noncomputable def exScan : Scan :=
  { data := [("s1".toList, [some 1]), ("q".toList, [some 2]), ("detector".toList, [some 4]), ("detector_1".toList, [some 4]),
      ("mcu".toList, [some 2])],
    preset := .normal "mcu".toList 1 }

/-- **C37 (negation)** A `del_q` axis works for a scan and is refused for the group consisting of that scan. -/
theorem C37_del_q_refused :
    (∃ r, exScan.getData (some "del_q(s1)".toList) (some "detector".toList) none none none = .ok r) ∧
    combine1D [exScan] "del_q(s1)".toList "detector".toList none none none = .error .keyError := by
  constructor
  · have hq : exScan.getDelQ "del_q(s1)".toList = .ok [nmul (Option.map deg2rad (nsub (some 1) (some 1)))
        (ndiv (nadd (some 0) (some 2)) (some ((1 : ℕ) : ℝ)))] := by
      unfold Scan.getDelQ
      have e1 : exScan.qs = .ok [some 2] := by
        unfold Scan.qs
        have : lookupKey "q".toList exScan.data = some [some 2] := by simp [exScan, lookupKey]
        rw [this]
      have e2 : parenName "del_q(s1)".toList = some "s1".toList := by decide
      have e3 : exScan.col (strip "s1".toList) = .ok [some 1] := by
        have : strip "s1".toList = "s1".toList := by decide
        rw [this]; unfold Scan.col; simp [exScan, lookupKey]
      rw [e1, e2]
      simp only [py_bind_ok, npMax, npMin, npFold, List.foldl_nil, need_some, e3]
      rw [if_neg (by show ¬ (2 - 2 : ℝ) > 1.1e-4; norm_num)]
      rfl
    have hs : isSubstr "del_q".toList "del_q(s1)".toList = true := by decide
    have hy : exScan.col "detector".toList = .ok [some 4] := by unfold Scan.col; simp [exScan, lookupKey]
    have hl : exScan.labelOk "detector".toList = .ok () := labelOk_plain (ch := "mcu".toList) (v := 1) rfl (by decide)
    refine ⟨ScanData1D.init [nmul (Option.map deg2rad (nsub (some 1) (some 1)))
        (ndiv (nadd (some 0) (some 2)) (some ((1 : ℕ) : ℝ)))] [some 4], ?_⟩
    unfold Scan.getData
    simp only [Option.getD_some, hs, if_true, hq, hy, hl, py_bind_ok, chooseRebin, isFalsy]
    rfl
  · have : groupCol [exScan] "del_q(s1)".toList = .error .keyError :=
      groupCol_missing ⟨exScan, by simp, by simp [exScan, lookupKey]⟩
    unfold combine1D
    rw [this]; rfl

/-- **C37 (negation)** A counts column whose name contains an underscore can be read through a group, but not from a scan
that was not measured with a count file: building the curve label fails. -/
theorem C37_underscore_refused :
    exScan.getData (some "s1".toList) (some "detector_1".toList) none none none = .error .indexError ∧
    ∃ r, combine1D [exScan] "s1".toList "detector_1".toList none none none = .ok r := by
  have hx : exScan.col "s1".toList = .ok [some 1] := by unfold Scan.col; simp [exScan, lookupKey]
  have hy : exScan.col "detector_1".toList = .ok [some 4] := by unfold Scan.col; simp [exScan, lookupKey]
  have hs : isSubstr "del_q".toList "s1".toList = false := by decide
  constructor
  · have hl : exScan.labelOk "detector_1".toList = .error .indexError := by
      unfold Scan.labelOk
      have e : splitChar '_' "detector_1".toList = ["detector".toList, "1".toList] := by decide
      have e2 : pyInt "1".toList = .ok 1 := by rfl
      rw [e]
      simp only [List.getLast?_cons_cons, List.getLast?_singleton, Option.getD_some, e2]
      rfl
    unfold Scan.getData
    simp only [Option.getD_some, hs, Bool.false_eq_true, if_false, hx, hy, hl, py_bind_ok, py_bind_err]
  · refine ⟨ScanData1D.init [some 1] [some 4], ?_⟩
    unfold combine1D
    rw [groupCol_ok (f := fun _ => [some 1]) (by simpa using hx), groupCol_ok (f := fun _ => [some 4]) (by simpa using hy)]
    simp only [py_bind_ok, chooseRebin, isFalsy, if_true]
    rw [defaultRenorm_ok (ch := "mcu".toList) (v := 1) (by simp) (by simp [exScan])]
    rfl

end Tavi
