import Verif.Model.Builder
import Verif.Model.Misc
import Verif.Model.Plot
import Verif.Model.Scan

/-!
# Model of the data of loaded scans with their labels: `Scan.get_data` and `Scan.plot` (`scan.py` lines 261-367),
`ScanData1D.make_labels` (`scan_data.py` lines 30-47) and `ScanGroup.combine_data` (`scan_group.py` lines 61-123, 206-246)

`Model/Builder.lean` has the scan as it is loaded (an entry, and whatever it holds as data), `Model/Scan.lean` the arithmetic on
columns. Here the two are joined. Simplifications: a column of texts counts as absent (numpy raises another exception); what is
reported about the scan is asked for before the columns, so that of two exceptions another one may come first; how f-strings write
numbers and arrays is a parameter.
-/

namespace Tavi

/-- The columns of numbers. -/
def numColumns (l : List (Str × Option Val)) : List (Str × List Num) :=
  l.filterMap fun kv => match kv.2 with
    | some (.leaf (.arr a)) => some (kv.1, a)
    | _ => none

/-- A text, or the empty one: nothing is found under either. -/
def textOrEmpty : Option Val → Str
  | some (.leaf (.str s)) => s
  | _ => []

/-- A number; the value of a preset is used for labels only. -/
noncomputable def numOrZero : Option Val → ℝ
  | some (.leaf (.num x)) => x
  | _ => 0

/-- The preset as `Model/Scan.lean` has it, scan.py lines 115-129. -/
noncomputable def presetView : PresetInfo → Preset
  | .normal c v => .normal (textOrEmpty c) (numOrZero v)
  | .countfile l => .countfile (l.map fun r => textOrEmpty r.1) (l.map fun r => numOrZero r.2.1) (l.map fun r => textOrEmpty r.2.2)

/-- A scan with what it reports, as `Model/Scan.lean` has it. -/
noncomputable def ScanObj.view (s : ScanObj) (i : ScanInfo) : Scan :=
  { data := numColumns s.data
    scanNum := i.scanNum.toNat
    defX := textOrEmpty (some i.defX)
    defY := textOrEmpty (some i.defY)
    preset := presetView i.preset }

/-- scan.py lines 280-281: the axis asked for or the default one. Another default than a text cannot be searched for `del_q`,
line 283. -/
def chosenAxis (user : Option Str) (dflt : Val) : Py Str :=
  match user with
  | some t => .ok t
  | none => addend (some dflt)

/-- `f"{v}"`; `fmt` writes numbers and arrays. -/
def fString (fmt : Val → Str) : Option Val → Str
  | none => "None".toList
  | some (.leaf (.str s)) => s
  | some v => fmt v

/-- scan.py lines 288-292: the label of the curve. -/
def curveLabel (i : ScanInfo) (y : Str) : Py Str :=
  if 1 < (splitChar '_' y).length then
    pyInt ((splitChar '_' y).getLast?.getD []) >>= fun k => match i.preset with
      | .normal _ _ => .error .indexError
      | .countfile l => pyIndex (l.map fun r => r.2.2) (k - 1) >>= fun o =>
          (addend o).map fun t => "#".toList ++ intStr i.scanNum ++ " ".toList ++ t
  else match i.preset with
    | .normal _ _ => .ok ("#".toList ++ intStr i.scanNum ++ " ".toList)
    | .countfile _ => .error .typeError

/-- `norm_val == 1` as a condition, scan_data.py line 38: arrays other than of one number are refused. -/
noncomputable def isOne : Option Val → Py Bool
  | some (.leaf (.num x)) => .ok (@decide (x = 1) (Classical.propDecidable _))
  | some (.leaf (.arr [x])) => .ok (@decide (x = some 1) (Classical.propDecidable _))
  | some (.leaf (.arr _)) => .error .valueError
  | _ => .ok false

/-- scan_data.py lines 34-37. -/
def channelText (c : Str) : Str := if c = "time".toList then "seconds".toList else c

/-- scan_data.py lines 38-41: the label of the counts. -/
noncomputable def countLabel (fmt : Val → Str) (y : Str) (v c : Option Val) : Py Str :=
  isOne v >>= fun one => (addend c).map fun c =>
    if one then y ++ "/ ".toList ++ channelText c
    else y ++ " / ".toList ++ fString fmt v ++ " ".toList ++ channelText c

/-- The label of the counts, with the given normalisation or else the preset, scan.py line 305. Lists cannot be added to a text. -/
noncomputable def countLabelOf (fmt : Val → Str) (i : ScanInfo) (y : Str) (normTo : Option (ℝ × Str)) : Py Str :=
  match normTo with
  | some vc => countLabel fmt y (some (.leaf (.num vc.1))) (some (.leaf (.str vc.2)))
  | none => match i.preset with
    | .normal c v => countLabel fmt y v c
    | .countfile _ => .error .typeError

/-- A `ScanData1D` after `make_labels`. -/
structure LabelledData where
  data : ScanData1D
  xlabel : Str
  ylabel : Str
  label : Str
  title : Str

/-- scan.py lines 261-341, `get_data`. -/
noncomputable def ScanObj.getData (fmt : Val → Str) (s : ScanObj) (xAxis yAxis : Option Str) (normTo : Option (ℝ × Str))
    (grid tol : Option RebinArg) : Py LabelledData :=
  scanInfo s >>= fun i =>
  chosenAxis xAxis i.defX >>= fun x =>
  chosenAxis yAxis i.defY >>= fun y =>
  (s.view i).getData (some x) (some y) normTo grid tol >>= fun d =>
  curveLabel i y >>= fun label =>
  (countLabelOf fmt i y normTo).map fun yl => ⟨d, x, yl, label, fString fmt i.title⟩

/-- scan.py line 357: what a channel is normalised to; a missing value cannot divide, a missing channel is no column. -/
def channelNorm (r : Option Val × Option Val × Option Val) : Py (ℝ × Str) :=
  match r.2.1, r.1 with
  | some (.leaf (.num v)), some (.leaf (.str c)) => .ok (v, c)
  | some (.leaf (.num _)), _ => .error .keyError
  | _, _ => .error .typeError

/-- scan.py lines 353-365: the curves of `plot`. -/
noncomputable def ScanObj.curves (fmt : Val → Str) (s : ScanObj) (xAxis yAxis : Option Str) (normTo : Option (ℝ × Str))
    (grid tol : Option RebinArg) : Py (List LabelledData) :=
  scanInfo s >>= fun i => match yAxis, i.preset with
    | none, .countfile l => (l.zipIdx).mapM fun rk => channelNorm rk.1 >>= fun n =>
        s.getData fmt none (some ("detector_".toList ++ decStr (rk.2 + 1))) (some n) grid tol
    | _, _ => (s.getData fmt xAxis yAxis normTo grid tol).map fun r => [r]

/-- scan.py lines 359 and 364: the format of a curve. -/
def curveFmt (k : ℕ) (r : LabelledData) : Fmt :=
  [("c".toList, 'C' :: decStr k), ("fmt".toList, "o".toList), ("label".toList, r.label)]

/-- The curve as an object. -/
def LabelledData.plotData (r : LabelledData) : PlotData :=
  { x := r.data.x, y := r.data.y, err := some r.data.err, title := r.title, xlabel := some r.xlabel, ylabel := some r.ylabel, fmt := [] }

/-- scan.py lines 350-367: a new plot, to which the curves are added. -/
noncomputable def plotOf (l : List LabelledData) : PlotWorld :=
  PlotWorld.run
    { data := fun k => (l[k]?.map LabelledData.plotData).getD ⟨[], [], none, [], none, none, []⟩, plots := fun _ => .new }
    (l.zipIdx.flatMap fun rk => [.addScan 0 rk.2 (curveFmt rk.2 rk.1), .setTitle 0 (some rk.1.title)])

/-- scan.py lines 343-367, `plot`: the calls on the axes. -/
noncomputable def ScanObj.plot (fmt : Val → Str) (order : List Str → List Str) (s : ScanObj) (xAxis yAxis : Option Str)
    (normTo : Option (ℝ × Str)) (grid tol : Option RebinArg) : Py (List AxCall) :=
  s.curves fmt xAxis yAxis normTo grid tol >>= fun l => (plotOf l).calls order 0

/-! ## Groups -/

/-- A preset that can be compared with others and written on an axis: scan_group.py lines 41-53. Without a channel the label
cannot be made, lists and arrays cannot be members of a set. (Scans without a preset value are refused here; the code writes
`None` on the axis.) -/
def PresetInfo.plain : PresetInfo → Bool
  | .normal (some (.leaf (.str _))) (some (.leaf (.num _))) => true
  | _ => false

/-- scan_group.py lines 71, 76: the title. -/
def groupTitle (l : List ScanInfo) : Str := "Combined scans: ".toList ++ l.flatMap fun i => intStr i.scanNum ++ " ".toList

/-- What `_combine_data_1d` normalises to or writes on the axis, scan_group.py lines 84-121. -/
noncomputable def groupNorm (l : List ScanInfo) (views : List Scan) (normTo : Option (ℝ × Str)) : Py (ℝ × Str) :=
  match normTo with
  | some vc => .ok vc
  | none => if l.all fun i => i.preset.plain then defaultRenorm views else .error .typeError

/-- scan_group.py lines 61-123, `_combine_data_1d`, the curve without a label. -/
noncomputable def combineObjs (fmt : Val → Str) (scans : List ScanObj) (x y : Str) (normTo : Option (ℝ × Str))
    (grid tol : Option RebinArg) : Py LabelledData :=
  scans.mapM scanInfo >>= fun l =>
  combine1D (List.zipWith ScanObj.view scans l) x y normTo grid tol >>= fun d =>
  groupNorm l (List.zipWith ScanObj.view scans l) normTo >>= fun vc =>
  (countLabel fmt y (some (.leaf (.num vc.1))) (some (.leaf (.str vc.2)))).map fun yl => ⟨d, x, yl, [], groupTitle l⟩

end Tavi
