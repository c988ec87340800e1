import Verif.Model.ScanData
import Verif.Model.Str

/-!
# Model of `Plot1D`, `plotter.py`

Plots and scan data are objects: a plot keeps references, so that two plots may hold the same data. Drawing is the list of calls
made on the axes, in order. Simplifications: the values of formats are texts; the curve of a fit is given (`add_fit` takes it from
the fit, `Model/Fit.lean`); calls on the axes succeed. The order in which Python runs through a set of labels is a parameter.
-/

namespace Tavi

/-- A format: keyword arguments for matplotlib. -/
abbrev Fmt := List (Str × Str)

/-- scan_data.py lines 12-46, `ScanData1D`: labels are there once `make_labels` has been called. -/
structure PlotData where
  x : List Num
  y : List Num
  err : Option (List Num)
  title : Str
  xlabel : Option Str
  ylabel : Option Str
  fmt : Fmt

/-- plotter.py lines 26-30, `FitData1D`. -/
structure PlotFit where
  x : List Num
  y : List Num
  fmt : Fmt

/-- plotter.py lines 33-37, `ResoBar`. -/
structure PlotBar where
  pos : ℝ × ℝ
  fwhm : ℝ
  fmt : Fmt

/-- plotter.py lines 54-67, `Plot1D`; `scans` are references. -/
structure Plot1D where
  scans : List ℕ
  fits : List PlotFit
  bars : List PlotBar
  title : Option Str
  xlabel : Option Str
  ylabel : Option Str
  xlim : Option (ℝ × ℝ)
  ylim : Option (ℝ × ℝ)

/-- `Plot1D()`. -/
def Plot1D.new : Plot1D := ⟨[], [], [], some [], none, none, none, none⟩

/-- All plots and all scan data. -/
structure PlotWorld where
  data : ℕ → PlotData
  plots : ℕ → Plot1D

/-- What a program does with plots. -/
inductive PlotOp where
  | addScan (p o : ℕ) (kw : Fmt)
  | addFit (p : ℕ) (x y : List Num) (kw : Fmt)
  | addBar (p : ℕ) (pos : ℝ × ℝ) (fwhm : ℝ) (kw : Fmt)
  | setTitle (p : ℕ) (t : Option Str)
  | setXlabel (p : ℕ) (t : Option Str)
  | setYlabel (p : ℕ) (t : Option Str)
  | setXlim (p : ℕ) (l : Option (ℝ × ℝ))
  | setYlim (p : ℕ) (l : Option (ℝ × ℝ))
  | draw (p : ℕ)

/-- Change one plot. -/
def PlotWorld.at (w : PlotWorld) (p : ℕ) (f : Plot1D → Plot1D) : PlotWorld :=
  { w with plots := fun q => if q = p then f (w.plots q) else w.plots q }

/-- plotter.py lines 162-163: the bar after it has been drawn. -/
def PlotBar.capped (b : PlotBar) : PlotBar :=
  if (lookupKey "capsize".toList b.fmt).isSome then b else { b with fmt := assocSet b.fmt "capsize".toList "3".toList }

/-- plotter.py line 155: the title after the loop over the scans. -/
def PlotWorld.titleAfter (w : PlotWorld) (q : Plot1D) : Option Str :=
  match q.scans.getLast? with
  | some o => some (w.data o).title
  | none => q.title

/-- One operation: `add_scan` (lines 69-72), `add_fit` (lines 83-104), `add_reso_bar` (lines 143-147), attributes set by the user,
`plot` (lines 149-190). -/
noncomputable def PlotWorld.step (w : PlotWorld) : PlotOp → PlotWorld
  | .addScan p o kw =>
    { data := fun n => if n = o then { w.data n with fmt := assocUpdate (w.data n).fmt kw } else w.data n
      plots := (w.at p fun q => { q with scans := q.scans ++ [o] }).plots }
  | .addFit p x y kw => w.at p fun q => { q with fits := q.fits ++ [⟨x, y, assocUpdate [] kw⟩] }
  | .addBar p pos fwhm kw => w.at p fun q => { q with bars := q.bars ++ [⟨pos, fwhm, assocUpdate [] kw⟩] }
  | .setTitle p t => w.at p fun q => { q with title := t }
  | .setXlabel p t => w.at p fun q => { q with xlabel := t }
  | .setYlabel p t => w.at p fun q => { q with ylabel := t }
  | .setXlim p l => w.at p fun q => { q with xlim := l }
  | .setYlim p l => w.at p fun q => { q with ylim := l }
  | .draw p => w.at p fun q => { q with title := w.titleAfter q, bars := q.bars.map PlotBar.capped }

/-- Several operations. -/
noncomputable def PlotWorld.run (w : PlotWorld) (ops : List PlotOp) : PlotWorld := ops.foldl PlotWorld.step w

/-- A call on the axes. -/
inductive AxCall where
  | line (x y : List Num) (fmt : Fmt)
  | errorbar (x y err : List Num) (fmt : Fmt)
  | bar (pos : ℝ × ℝ) (xerr : ℝ) (fmt : Fmt)
  | xlim (l : ℝ × ℝ)
  | ylim (l : ℝ × ℝ)
  | title (t : Str)
  | xlabel (t : Str)
  | ylabel (t : Str)
  | grid
  | legend

/-- Lines 150-154: one scan. -/
def scanCall (d : PlotData) : AxCall :=
  match d.err with
  | none => .line d.x d.y d.fmt
  | some e => .errorbar d.x d.y e d.fmt

/-- Lines 174-178 (and 180-184): the label of an axis; `order` is the order of the set. -/
def labelCall (order : List Str → List Str) (user : Option Str) (labels : List (Option Str)) (mk : Str → AxCall) : Py (List AxCall) :=
  match user with
  | some _ => .ok []
  | none => (labels.mapM fun l => need l .attributeError).map fun ls => [mk (joinStr ",".toList (order ls))]

/-- Lines 149-190, `plot(ax)`: the calls on the axes. -/
noncomputable def PlotWorld.calls (order : List Str → List Str) (w : PlotWorld) (p : ℕ) : Py (List AxCall) :=
  labelCall order (w.plots p).xlabel ((w.plots p).scans.map fun o => (w.data o).xlabel) .xlabel >>= fun lx =>
  labelCall order (w.plots p).ylabel ((w.plots p).scans.map fun o => (w.data o).ylabel) .ylabel >>= fun ly =>
  .ok ((w.plots p).scans.map (fun o => scanCall (w.data o)) ++ (w.plots p).fits.map (fun f => .line f.x f.y f.fmt) ++
    (w.plots p).bars.map (fun b => .bar b.pos (b.fwhm / 2) b.capped.fmt) ++ ((w.plots p).xlim.map AxCall.xlim).toList ++
    ((w.plots p).ylim.map AxCall.ylim).toList ++ ((w.titleAfter (w.plots p)).map AxCall.title).toList ++ lx ++ ly ++ [.grid] ++
    if ((w.plots p).scans.map fun o => (w.data o).fmt).any (fun f => (lookupKey "label".toList f).isSome) ||
        (w.plots p).fits.any (fun f => (lookupKey "label".toList f.fmt).isSome) then [.legend] else [])

end Tavi
