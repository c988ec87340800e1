import Verif.Model.ScanPlot

/-!
# Model of maps of loaded scans with their labels: `ScanGroup._combine_data_2d` and `combine_data_hkle` (`scan_group.py` lines
125-204, 238-246 and 248-378) and `ScanData2D.make_labels` (`scan_data.py` lines 266-288)

As `Model/ScanPlot.lean` for curves: the arithmetic is that of `Model/Scan.lean`, and of two exceptions another one may come first.
-/

namespace Tavi

/-- A `ScanData2D` after `make_labels`. -/
structure LabelledMap where
  data : Map2D
  xlabel : Str
  ylabel : Str
  zlabel : Str
  title : Str

/-- scan_data.py lines 266-288, `make_labels`. -/
noncomputable def Map2D.labelled (fmt : Val → Str) (d : Map2D) (x y z : Str) (vc : ℝ × Str) (title : Str) : Py LabelledMap :=
  (countLabel fmt z (some (.leaf (.num vc.1))) (some (.leaf (.str vc.2)))).map fun zl =>
    ⟨d, x, y, zl, joinStr ", ".toList [zl, title]⟩

/-- scan_group.py lines 125-204, `_combine_data_2d`. -/
noncomputable def combineMap (fmt : Val → Str) (scans : List ScanObj) (x y z : Str) (normTo : Option (ℝ × Str))
    (grid : Option Grid2Arg) : Py LabelledMap :=
  scans.mapM scanInfo >>= fun l =>
  combine2D (List.zipWith ScanObj.view scans l) x y z normTo grid >>= fun d =>
  groupNorm l (List.zipWith ScanObj.view scans l) normTo >>= fun vc =>
  d.labelled fmt x y z vc (groupTitle l)

/-- scan_group.py lines 239-245: one default axis of each kind. -/
def commonAxes : List (Str × Str) → Py (Str × Str)
  | [] => .error .valueError
  | p :: ps => if (∀ q ∈ ps, q.1 = p.1) ∧ ∀ q ∈ ps, q.2 = p.2 then .ok p else .error .valueError

/-- scan_group.py lines 238-246, `combine_data` without axes: the default axes of all scans. -/
noncomputable def combineObjsDefault (fmt : Val → Str) (scans : List ScanObj) (normTo : Option (ℝ × Str)) (grid tol : Option RebinArg) :
    Py LabelledData :=
  scans.mapM scanInfo >>= fun l =>
  commonAxes (l.map fun i => (textOrEmpty (some i.defX), textOrEmpty (some i.defY))) >>= fun p =>
  combineObjs fmt scans p.1 p.2 normTo grid tol

/-! ## Cuts -/

/-- An entry of `axes` as the user writes it: a vector with its numbers as `int` or `float`, or a name. -/
inductive HklAxis where
  | vec (a b c : LabelNum)
  | name (s : Str)

/-- The entry as `combine_data_hkle` calculates with it. -/
noncomputable def HklAxis.item : HklAxis → AxisItem
  | .vec a b c => .vec ![(a.val : ℝ), (b.val : ℝ), (c.val : ℝ)]
  | .name s => .name s

/-- The entry as `labels_from_projection` takes it; of another name than `en` the letters would be formatted as numbers. -/
def HklAxis.forLabel : HklAxis → Py LabelAxis
  | .vec a b c => .ok (.vec a b c)
  | .name s => if s = "en".toList then .ok .en else .error .valueError

/-- scan_group.py lines 263-271 and 367: the energy moved to the place before the last, all but the last entry labelled. The list
is never equal to the tuple of line 242 in utilities.py. -/
noncomputable def cutLabels (fmt3 : ℚ → Str) (axes : List HklAxis) : Py (List Str) :=
  enIndex (axes.map HklAxis.item) >>= fun en =>
  need axes[en]? .indexError >>= fun ea =>
  ((((axes.eraseIdx en).take ((axes.eraseIdx en).length - 1) ++
    ea :: (axes.eraseIdx en).drop ((axes.eraseIdx en).length - 1)).dropLast).mapM HklAxis.forLabel) >>= fun l =>
  labelLoop fmt3 [0, 1, 2] l

/-- `re.sub(r"\([^()]*\)$", "", label)`, scan_group.py line 370: a parenthesis at the end is taken off. -/
def stripParen (s : Str) : Str :=
  match s.reverse with
  | ')' :: r => match r.dropWhile fun c => decide (c ≠ '(' ∧ c ≠ ')') with
    | '(' :: rest => rest.reverse
    | _ => s
  | _ => s

/-- The entries that are not plotted, scan_group.py lines 369, 371. -/
def notPlotted {α : Type} (a b : ℕ) (l : List α) : List α := (l.zipIdx.filter fun p => decide (p.2 ≠ a ∧ p.2 ≠ b)).map Prod.fst

/-- One interval in the title, scan_group.py line 373; `fmt4` is `f"{x:.4g}"`. -/
def intervalText (fmt4 : ℝ → Str) (label : Str) (p : RebinParams) : Py Str :=
  need p.min .typeError >>= fun lo => (need p.max .typeError).map fun hi =>
    stripParen label ++ "= (".toList ++ fmt4 lo ++ ", ".toList ++ fmt4 hi ++ ")".toList

/-- scan_group.py line 373: the title. -/
def cutTitle (fmt4 : ℝ → Str) (labels : List Str) (params : List RebinParams) : Py Str :=
  need labels[0]? .indexError >>= fun l0 => need params[0]? .indexError >>= fun p0 =>
  need labels[1]? .indexError >>= fun l1 => need params[1]? .indexError >>= fun p1 =>
  intervalText fmt4 l0 p0 >>= fun t0 => (intervalText fmt4 l1 p1).map fun t1 => t0 ++ ", ".toList ++ t1

/-- The columns only: with a normalisation given, nothing else of the scans is looked at. -/
noncomputable def ScanObj.bare (s : ScanObj) : Scan := { data := numColumns s.data, preset := .normal [] 0 }

/-- The scans and the normalisation, scan_group.py lines 297-299. -/
noncomputable def cutScans (scans : List ScanObj) (normTo : Option (ℝ × Str)) : Py (List Scan × (ℝ × Str)) :=
  match normTo with
  | some vc => .ok (scans.map ScanObj.bare, vc)
  | none => scans.mapM scanInfo >>= fun l =>
      (groupNorm l (List.zipWith ScanObj.view scans l) none).map fun vc => (List.zipWith ScanObj.view scans l, vc)

/-- scan_group.py lines 248-378, `combine_data_hkle`; line 368: the counts are labelled `detector`, whichever column they are. -/
noncomputable def combineCut (fmt : Val → Str) (fmt3 : ℚ → Str) (fmt4 : ℝ → Str) (scans : List ScanObj) (grid : List RebinArg)
    (axes : List HklAxis) (normTo : Option (ℝ × Str)) : Py LabelledMap :=
  cutScans scans normTo >>= fun views =>
  combineHkle views.1 grid (axes.map HklAxis.item) normTo >>= fun d =>
  reorder (axes.map HklAxis.item) grid >>= fun o =>
  cutLabels fmt3 axes >>= fun labels =>
  o.2.1.mapM formatRebin >>= fun params =>
  need labels[o.2.2.1]? .indexError >>= fun lx =>
  need labels[o.2.2.2]? .indexError >>= fun ly =>
  cutTitle fmt4 (notPlotted o.2.2.1 o.2.2.2 labels) (notPlotted o.2.2.1 o.2.2.2 params) >>= fun title =>
  d.labelled fmt lx ly "detector".toList views.2 title

end Tavi
