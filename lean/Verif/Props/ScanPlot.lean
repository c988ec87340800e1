import Verif.Model.ScanPlot
import Verif.Props.GroupUse
import Verif.Props.Measurement
import Verif.Props.Folder

/-!
# What is shown of a loaded scan is what its file says (C94)
-/

namespace Tavi

open Spec

/-! ## What the statements refer to -/

/-- `l` are the numbers of a column of the file, known under the name `nm` (`none` is `nan` or infinite): numbered detectors only
without a plain one. -/
def Spec.FileNums (f : SpiceFile) (nm : Str) (l : List Num) : Prop :=
  ∃ (n : ℕ) (c : Str) (int : Bool) (qs : List (Option ℚ)), Detectors ((columns f).map Prod.fst) n ∧ KnownColumn (Polarized f) n c nm int ∧
    lookupKey c (columns f) = some qs ∧
    (∀ i, nm = withNumber "detector".toList i → "detector".toList ∉ (columns f).map Prod.fst) ∧ l = shown int qs

/-- The same for a column of finite numbers. -/
abbrev Spec.FileColumn (f : SpiceFile) (nm : Str) (l : List ℝ) : Prop := FileNums f nm (l.map some)

/-- The points of a file: positions, counts and a channel to normalise to. -/
def Spec.FilePoints (f : SpiceFile) (x y ch : Str) (pts : List Pt) : Prop :=
  FileColumn f x (pts.map (·.x)) ∧ FileColumn f y (pts.map (·.y)) ∧ FileColumn f ch (pts.map (·.n))

/-- The header of a scan with default axes `x` and `y`, counted up to the value `v` of the channel `ch`. -/
structure Spec.NormalHeader (f : SpiceFile) (x y ch : Str) (v : ℝ) : Prop where
  abscissa : ∃ x', header f "def_x".toList = some x' ∧ x = (lookupKey x' renamed).getD x'
  ordinate : header f "def_y".toList = some y
  type : header f "preset_type".toList = some "normal".toList
  channel : header f "preset_channel".toList = some ch
  named : ch ≠ []
  value : ∃ n : Numeral, n.Valid ∧ n.sign = none ∧ n.exp = none ∧ header f "preset_value".toList = some n.text ∧ v = n.value

/-- What stands on the axis of the counts: per how much of what. -/
noncomputable def Spec.perText (fmt : Val → Str) (y : Str) (v : ℝ) (c : Str) : Str :=
  let unit := if c = "time".toList then "seconds".toList else c
  open Classical in if v = 1 then y ++ "/ ".toList ++ unit else y ++ " / ".toList ++ fmt (.leaf (.num v)) ++ " ".toList ++ unit

/-- The title of the scan in the header; Python writes `None` for nothing. -/
def Spec.titleText (f : SpiceFile) : Str :=
  match header f "scan_title".toList with
  | none => "None".toList
  | some [] => "None".toList
  | some (c :: t) => c :: t

/-- The data of scan `m` are labelled with the axes, the normalisation, the number and the title. -/
structure Spec.LabelledAs (fmt : Val → Str) (f : SpiceFile) (m : ℕ) (x y : Str) (v : ℝ) (ch suffix : Str) (r : LabelledData) :
    Prop where
  xlabel : r.xlabel = x
  ylabel : r.ylabel = perText fmt y v ch
  label : r.label = "#".toList ++ decStr (m % 10000) ++ " ".toList ++ suffix
  title : r.title = titleText f

/-! ## Columns -/

theorem numColumns_lookup {l : List (Str × Option Val)} {k : Str} {a : List Num}
    (h : lookupKey k l = some (some (.leaf (.arr a)))) : lookupKey k (numColumns l) = some a := by
  induction l with
  | nil => exact absurd h (by simp [lookupKey])
  | cons kv l ih =>
    obtain ⟨q, v⟩ := kv
    unfold numColumns
    rw [List.filterMap_cons]
    by_cases e : q = k
    · subst e
      rw [lookupKey, if_pos rfl] at h
      obtain rfl := Option.some.inj h
      dsimp only
      rw [lookupKey, if_pos rfl]
    · rw [lookupKey, if_neg e] at h
      have ih := ih h
      unfold numColumns at ih
      dsimp only
      split
      · exact ih
      · rename_i b hb
        have : b.1 = q := by
          split at hb
          · rw [← Option.some.inj hb]
          · cases hb
        obtain ⟨b1, b2⟩ := b
        rw [lookupKey, if_neg (fun e' => e (this.symm.trans e'))]
        exact ih

section
variable {iso : Str → Py Str} {xml : List Str → Option Str} {fs : FS} {dir : List Str} {file : Str} {f : SpiceFile} {ds sn : Str}
  {s : ScanObj}

theorem loaded_column (h : Loaded iso xml fs dir file f ds sn s) {nm : Str} {l : List Num} (hc : FileNums f nm l) :
    lookupKey nm s.data = some (some (.leaf (.arr l))) := by
  obtain ⟨n, c, int, qs, hn, hk, hq, hdet, rfl⟩ := hc
  obtain ⟨logs, p, s', _, _, _, hd, hs', _, _, hdat, _⟩ := loaded_inv h
  rw [hdat]
  exact C76_data_partial iso xml fs _ file f h.1 p.entry hd n hn c nm int hk qs hq hdet _ (by simp) _ s' hs'

theorem view_col (h : Loaded iso xml fs dir file f ds sn s) (i : ScanInfo) {nm : Str} {l : List Num} (hc : FileNums f nm l) :
    (s.view i).col nm = .ok l := by
  show need (lookupKey nm (numColumns s.data)) .keyError = _
  rw [numColumns_lookup (loaded_column h hc)]
  rfl

theorem view_measured (h : Loaded iso xml fs dir file f ds sn s) (i : ScanInfo) {x y ch : Str} {pts : List Pt}
    (hp : FilePoints f x y ch pts) : Measured (s.view i) x y ch pts := by
  obtain ⟨h1, h2, h3⟩ := hp
  refine ⟨(view_col h i h1).trans ?_, (view_col h i h2).trans ?_, (view_col h i h3).trans ?_⟩ <;>
    simp [List.map_map, Spec.monitors, Function.comp_def]

/-- No column is called after `del_q`. -/
theorem known_plain {P : Prop} {n : ℕ} {c nm : Str} {int : Bool} (h : KnownColumn P n c nm int) :
    isSubstr "del_q".toList nm = false := by
  have hq : ∀ (t : Str) (i : ℕ), 'q' ∉ t → isSubstr "del_q".toList (withNumber t i) = false := by
    intro t i ht
    rw [Bool.eq_false_iff, ne_eq, isSubstr_iff]
    intro hin
    have : 'q' ∈ withNumber t i := hin.subset (by decide)
    rw [withNumber, List.mem_append, List.mem_cons] at this
    rcases this with h | h | h
    · exact ht h
    · exact absurd h (by decide)
    · obtain ⟨_, h2, _⟩ := decStr_spec i
      exact absurd (List.all_eq_true.1 h2 _ h) (by decide)
  have hsame : ∀ c ∈ sameName, isSubstr "del_q".toList c = false := by decide
  have hren : ∀ c ∈ renamed, isSubstr "del_q".toList c.2 = false := by decide
  cases h with
  | same h => exact hsame _ h
  | renamed h => exact hren _ h
  | detectors => exact hq _ _ (by decide)
  | times => exact hq _ _ (by decide)
  | mcus => exact hq _ _ (by decide)
  | monitors => exact hq _ _ (by decide)
  | _ => decide

theorem column_plain {nm : Str} {l : List Num} (h : FileNums f nm l) : isSubstr "del_q".toList nm = false := by
  obtain ⟨_, _, _, _, _, hk, _⟩ := h
  exact known_plain hk

/-! ## The report -/

theorem shownText_some {t : Str} (h : t ≠ []) : shownText (some t) = some (.leaf (.str t)) := by
  cases t with
  | nil => exact absurd rfl h
  | cons c t => rfl

theorem title_eq (fmt : Val → Str) : fString fmt (shownText (header f "scan_title".toList)) = titleText f := by
  unfold titleText
  cases header f "scan_title".toList with
  | none => rfl
  | some t => cases t <;> rfl

theorem intStr_nat (n : ℕ) : intStr (n : ℤ) = decStr n := by
  rw [intStr, if_pos (by omega), Int.toNat_natCast]

/-- A scan with a simple preset reports it. -/
theorem normal_info {m : ℕ} {x y ch : Str} {v : ℝ} (h : Loaded iso xml fs dir file f ds (scanName m) s)
    (hd : NormalHeader f x y ch v) :
    ∃ i, scanInfo s = .ok i ∧ i.defX = .leaf (.str x) ∧ i.defY = .leaf (.str y) ∧ i.scanNum = (m % 10000 : ℕ) ∧
      i.title = shownText (header f "scan_title".toList) ∧
      i.preset = .normal (some (.leaf (.str ch))) (some (.leaf (.num v))) := by
  obtain ⟨⟨x', hx, rfl⟩, hy, ht, hc, hne, n, hn, h1, h2, hv, rfl⟩ := hd
  obtain ⟨i, e, hr, hnum, _, hp⟩ := C77_normal iso xml fs dir file f ds m s h x' y hx hy ht (some (.leaf (.num (n.value : ℝ))))
    (by rw [hv]; exact .number hn h1 h2)
  refine ⟨i, e, hr.abscissa _ hx, hr.ordinate _ hy, hnum, hr.title, ?_⟩
  rw [hp, hc, shownText_some hne]

end

theorem countLabel_num (fmt : Val → Str) (y : Str) (v : ℝ) (c : Str) :
    countLabel fmt y (some (.leaf (.num v))) (some (.leaf (.str c))) = .ok (perText fmt y v c) := by
  unfold countLabel isOne perText channelText
  rw [py_bind_ok]
  show Except.ok _ = _
  by_cases hv : v = 1
  · simp only [hv, decide_true, if_true]
  · simp only [hv, decide_false, if_false, Bool.false_eq_true, fString]

section
variable {iso : Str → Py Str} {xml : List Str → Option Str} {fs : FS} {dir : List Str} {file : Str} {f : SpiceFile} {ds : Str}
  {m : ℕ} {s : ScanObj}

/-- `get_data` of a scan with a simple preset: the data of its columns, and the labels. -/
theorem getData_normal (fmt : Val → Str) {x0 y0 ch : Str} {v : ℝ} (h : Loaded iso xml fs dir file f ds (scanName m) s)
    (hd : NormalHeader f x0 y0 ch v) : ∃ i : ScanInfo, scanInfo s = .ok i ∧ (s.view i).preset = .normal ch v ∧
      ∀ (xa ya : Option Str) (normTo : Option (ℝ × Str)) (grid tol : Option RebinArg), '_' ∉ ya.getD y0 →
      ∀ d, (s.view i).getData (some (xa.getD x0)) (some (ya.getD y0)) normTo grid tol = .ok d →
      ∃ r, s.getData fmt xa ya normTo grid tol = .ok r ∧ r.data = d ∧
        LabelledAs fmt f m (xa.getD x0) (ya.getD y0) (normTo.getD (v, ch)).1 (normTo.getD (v, ch)).2 [] r := by
  obtain ⟨i, hi, hx, hy, hnum, ht, hp⟩ := normal_info h hd
  refine ⟨i, hi, by show presetView i.preset = _; rw [hp]; rfl, fun xa ya normTo grid tol hu d he => ?_⟩
  have e1 : chosenAxis xa i.defX = .ok (xa.getD x0) := by rw [hx]; cases xa <;> rfl
  have e2 : chosenAxis ya i.defY = .ok (ya.getD y0) := by rw [hy]; cases ya <;> rfl
  have e3 : curveLabel i (ya.getD y0) = .ok ("#".toList ++ decStr (m % 10000) ++ " ".toList) := by
    unfold curveLabel
    rw [split_plain hu, if_neg (by simp), hp, hnum, intStr_nat]
  have e4 : countLabelOf fmt i (ya.getD y0) normTo =
      .ok (perText fmt (ya.getD y0) (normTo.getD (v, ch)).1 (normTo.getD (v, ch)).2) := by
    unfold countLabelOf
    cases normTo with
    | none => rw [hp]; exact countLabel_num _ _ _ _
    | some n => exact countLabel_num _ _ _ _
  refine ⟨⟨d, _, _, _, titleText f⟩, ?_, rfl, ⟨rfl, rfl, List.append_nil _ |>.symm, rfl⟩⟩
  unfold ScanObj.getData
  rw [hi, py_bind_ok, e1, py_bind_ok, e2, py_bind_ok, he, py_bind_ok, e3, py_bind_ok, e4, ← title_eq fmt, ← ht]
  rfl

end

/-! ## C94 -/

/-- **C94**: without normalisation and rebinning the data of a loaded scan are two columns of its file, point by point, with the
square roots of the counts as errors; the axes are labelled with their names and the preset of the header, the curve with the
number of the scan, the plot with its title. -/
theorem C94_shown (iso : Str → Py Str) (xml : List Str → Option Str) (fs : FS) (dir : List Str) (file : Str) (f : SpiceFile)
    (ds : Str) (m : ℕ) (s : ScanObj) (h : Loaded iso xml fs dir file f ds (scanName m) s) (x0 y0 ch : Str) (v : ℝ)
    (hd : NormalHeader f x0 y0 ch v) (fmt : Val → Str) (xa ya : Option Str) (lx ly : List Num)
    (hx : FileNums f (xa.getD x0) lx) (hy : FileNums f (ya.getD y0) ly) (hu : '_' ∉ ya.getD y0) :
    ∃ r, s.getData fmt xa ya none none none = .ok r ∧ r.data.x = lx ∧ r.data.y = ly ∧
      r.data.err = ly.map (fun c => c.bind fun c => if c < 0 then none else some √c) ∧
      LabelledAs fmt f m (xa.getD x0) (ya.getD y0) v ch [] r := by
  obtain ⟨i, hi, hp, hall⟩ := getData_normal fmt h hd
  obtain ⟨r, hr, hdat, hl⟩ := hall xa ya none none none hu (ScanData1D.init lx ly) (by
    unfold Scan.getData
    simp only [Option.getD_some, column_plain hx, Bool.false_eq_true, if_false]
    rw [view_col h i hx, py_bind_ok, view_col h i hy, py_bind_ok, labelOk_plain hp hu, py_bind_ok, hp]
    rfl)
  refine ⟨r, hr, by rw [hdat]; rfl, by rw [hdat]; rfl, ?_, hl⟩
  rw [hdat]
  exact List.map_congr_left fun c _ => by cases c <;> rfl

/-- **C94**: normalised to the value `v'` of a channel, a point shows `counts · v' / channel`. -/
theorem C94_normalised (iso : Str → Py Str) (xml : List Str → Option Str) (fs : FS) (dir : List Str) (file : Str) (f : SpiceFile)
    (ds : Str) (m : ℕ) (s : ScanObj) (h : Loaded iso xml fs dir file f ds (scanName m) s) (x0 y0 ch : Str) (v : ℝ)
    (hd : NormalHeader f x0 y0 ch v) (fmt : Val → Str) (xa ya : Option Str) (c' : Str) (v' : ℝ) (hv : v' ≠ 0) (pts : List Pt)
    (hp : FilePoints f (xa.getD x0) (ya.getD y0) c' pts) (hpos : ∀ q ∈ pts, 0 ≤ q.y) (hu : '_' ∉ ya.getD y0) :
    ∃ r, s.getData fmt xa ya (some (v', c')) none none = .ok r ∧ r.data.x = pts.map (fun q => some q.x) ∧
      r.data.y = pts.map (fun q => ratio (q.y * v') q.n) ∧ r.data.err = pts.map (fun q => ratio (√q.y * v') q.n) ∧
      LabelledAs fmt f m (xa.getD x0) (ya.getD y0) v' c' [] r := by
  obtain ⟨i, hi, hpr, hall⟩ := getData_normal fmt h hd
  obtain ⟨m1, m2, m3⟩ := view_measured h i hp
  obtain ⟨d, hd1, hd2⟩ := C33_renorm (v := v') hpos (norm := none) (col := some (monitors pts)) (.inl rfl)
  obtain ⟨r, hr, hdat, hl⟩ := hall xa ya (some (v', c')) none none hu d (by
    unfold Scan.getData
    simp only [Option.getD_some, column_plain hp.1, Bool.false_eq_true, if_false]
    rw [m1, py_bind_ok, m2, py_bind_ok, labelOk_plain hpr hu, py_bind_ok]
    show ((s.view i).col c' >>= _) = _
    rw [m3, py_bind_ok, renorm_preset _ _ hv, curve_init, hd1])
  exact ⟨r, hr, hdat ▸ hd2.1, hdat ▸ hd2.2.1, hdat ▸ hd2.2.2, hl⟩

/-- **C94**: rebinned on a grid, the bins hold the points of the file: the mean counts at the positions of the grid, or with
normalisation the counts per channel. -/
theorem C94_grid (iso : Str → Py Str) (xml : List Str → Option Str) (fs : FS) (dir : List Str) (file : Str) (f : SpiceFile)
    (ds : Str) (m : ℕ) (s : ScanObj) (h : Loaded iso xml fs dir file f ds (scanName m) s) (x0 y0 ch : Str) (v : ℝ)
    (hd : NormalHeader f x0 y0 ch v) (fmt : Val → Str) (xa ya : Option Str) (normTo : Option (ℝ × Str))
    (hv : ∀ n ∈ normTo, n.1 ≠ 0) (pts : List Pt) (hp : FilePoints f (xa.getD x0) (ya.getD y0) (channel normTo ch) pts)
    (hpos : ∀ q ∈ pts, 0 ≤ q.y) (hu : '_' ∉ ya.getD y0) (a : RebinArg) (ht : a.truthy = true) (tol : Option RebinArg)
    (p : RebinParams) (hf : formatRebin a = .ok p) (mn mx step : ℝ) (N : ℕ) (hr : Range (pts.map (·.x)) p mn mx step)
    (hN : BinCount mn mx step N) :
    ∃ r, s.getData fmt xa ya normTo (some a) tol = .ok r ∧
      r.data.x = (List.range N).map (fun j : ℕ => some (mn + j * step)) ∧
      (normTo = none →
        r.data.y = (List.range N).map (fun j => ratio (counts mn step pts j) (number mn step pts j)) ∧
        r.data.err = (List.range N).map (fun j => ratio √(counts mn step pts j) (number mn step pts j))) ∧
      (∀ v' c', normTo = some (v', c') →
        r.data.y = (List.range N).map (fun j => ratio (counts mn step pts j * v') (monitor mn step pts j)) ∧
        r.data.err = (List.range N).map (fun j => ratio (√(counts mn step pts j) * v') (monitor mn step pts j))) ∧
      LabelledAs fmt f m (xa.getD x0) (ya.getD y0) (normTo.getD (v, ch)).1 (normTo.getD (v, ch)).2 [] r := by
  obtain ⟨i, hi, hpr, hall⟩ := getData_normal fmt h hd
  have hm := view_measured h i hp
  have e : (s.view i).getData (some (xa.getD x0)) (some (ya.getD y0)) normTo (some a) tol = _ :=
    ((C37_single_partial hpr hv (some a) tol).1 _ _ ⟨column_plain hp.1, hu⟩).symm.trans
      (combine1D_measured (scans := [s.view i]) (by simp) (pts := fun _ => pts) (by simpa using hm) (by simpa using hpr)
        (a := a) rfl ht hf)
  simp only [List.flatMap_cons, List.flatMap_nil, List.append_nil, chooseRebin] at e
  cases normTo with
  | none =>
    replace e := e.trans (C30_grid hr hN hpos)
    obtain ⟨r, hr, hdat, hl⟩ := hall xa ya none (some a) tol hu _ e
    exact ⟨r, hr, by rw [hdat], fun _ => ⟨by rw [hdat], by rw [hdat]⟩, fun _ _ h => (nomatch h), hl⟩
  | some n =>
    replace e := e.trans (C30_grid_renorm hr hN hpos (.inl rfl))
    obtain ⟨r, hr, hdat, hl⟩ := hall xa ya (some n) (some a) tol hu _ e
    refine ⟨r, hr, by rw [hdat], fun h => (nomatch h), fun v' c' h => ?_, hl⟩
    obtain rfl := Option.some.inj h
    exact ⟨by rw [hdat], by rw [hdat]⟩

/-- **C94**: rebinned within a tolerance, a bin shows the mean position of its points weighted with the channel. -/
theorem C94_tolerance (iso : Str → Py Str) (xml : List Str → Option Str) (fs : FS) (dir : List Str) (file : Str) (f : SpiceFile)
    (ds : Str) (m : ℕ) (s : ScanObj) (h : Loaded iso xml fs dir file f ds (scanName m) s) (x0 y0 ch : Str) (v : ℝ)
    (hd : NormalHeader f x0 y0 ch v) (fmt : Val → Str) (xa ya : Option Str) (normTo : Option (ℝ × Str))
    (hv : ∀ n ∈ normTo, n.1 ≠ 0) (pts : List Pt) (hp : FilePoints f (xa.getD x0) (ya.getD y0) (channel normTo ch) pts)
    (hpos : ∀ q ∈ pts, 0 ≤ q.y) (hu : '_' ∉ ya.getD y0) (a : RebinArg) (ht : a.truthy = true)
    (p : RebinParams) (hf : formatRebin a = .ok p) (mn mx step : ℝ) (N : ℕ) (hr : Range (pts.map (·.x)) p mn mx step)
    (hN : BinCount mn mx step N) :
    ∃ r, s.getData fmt xa ya normTo none (some a) = .ok r ∧
      r.data.x = (List.range N).map (fun j => ratio (moment mn step pts j) (monitor mn step pts j)) ∧
      (normTo = none →
        r.data.y = (List.range N).map (fun j => ratio (counts mn step pts j) (number mn step pts j)) ∧
        r.data.err = (List.range N).map (fun j => ratio √(counts mn step pts j) (number mn step pts j))) ∧
      (∀ v' c', normTo = some (v', c') →
        r.data.y = (List.range N).map (fun j => ratio (counts mn step pts j * v') (monitor mn step pts j)) ∧
        r.data.err = (List.range N).map (fun j => ratio (√(counts mn step pts j) * v') (monitor mn step pts j))) ∧
      LabelledAs fmt f m (xa.getD x0) (ya.getD y0) (normTo.getD (v, ch)).1 (normTo.getD (v, ch)).2 [] r := by
  obtain ⟨i, hi, hpr, hall⟩ := getData_normal fmt h hd
  have hm := view_measured h i hp
  have e : (s.view i).getData (some (xa.getD x0)) (some (ya.getD y0)) normTo none (some a) = _ :=
    ((C37_single_partial hpr hv none (some a)).1 _ _ ⟨column_plain hp.1, hu⟩).symm.trans
      (combine1D_measured (scans := [s.view i]) (by simp) (pts := fun _ => pts) (by simpa using hm) (by simpa using hpr)
        (a := a) rfl ht hf)
  simp only [List.flatMap_cons, List.flatMap_nil, List.append_nil, chooseRebin] at e
  cases normTo with
  | none =>
    replace e := e.trans (C30_tol hr hN hpos (.inl rfl))
    obtain ⟨r, hr, hdat, hl⟩ := hall xa ya none none (some a) hu _ e
    exact ⟨r, hr, by rw [hdat], fun _ => ⟨by rw [hdat], by rw [hdat]⟩, fun _ _ h => (nomatch h), hl⟩
  | some n =>
    replace e := e.trans (C30_tol_renorm hr hN hpos (.inl rfl))
    obtain ⟨r, hr, hdat, hl⟩ := hall xa ya (some n) none (some a) hu _ e
    refine ⟨r, hr, by rw [hdat], fun h => (nomatch h), fun v' c' h => ?_, hl⟩
    obtain rfl := Option.some.inj h
    exact ⟨by rw [hdat], by rw [hdat]⟩

end Tavi
