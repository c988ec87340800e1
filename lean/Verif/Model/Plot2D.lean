import Verif.Model.Plot
import Verif.Model.App
import Verif.Model.Misc
import Verif.Model.Resolution

/-!
# Model of `Plot2D`, `plotter.py` lines 192-277

Contour maps, curves and ellipses are objects that may be in several plots; adding one to a plot changes its format. Drawing is the
list of calls on the axes, as in `Model/Plot.lean`. Simplifications: the method called (`add_contour`, `add_curve`, `add_reso`) is the
one for the kind of the object; the eigen-decomposition of an ellipse is given; axes at a multiple of 180 degrees, for which numpy
draws nothing finite, are the error `nonFinite`; calls on the axes succeed. `grid_helper` (the grid of skewed axes) only passes `tr` and
`inv_tr` on to matplotlib.
-/

namespace Tavi

/-- ellipse.py lines 27-36, `ResoEllipse`: the matrix, its eigenvalues and eigenvectors, the centre, the angle between the axes. -/
structure EllipseObj where
  mat : Mat 2 2
  evals : Fin 2 → ℝ
  evecs : Mat 2 2
  centre : ℝ × ℝ
  angle : ℝ
  xlabel : Option Str
  ylabel : Option Str

/-- What can be added to a plot: a `ScanData2D` (scan_data.py lines 246-288; labels are there once `make_labels` has been called), a
`ScanData1D`, a `ResoEllipse`. -/
inductive Obj2 where
  | contour (x y z : List (List Num)) (title : Str) (labels : Option (Str × Str))
  | curve (x y : List Num) (err : Option (List Num))
  | ellipse (e : EllipseObj)

/-- plotter.py lines 193-209. -/
structure Plot2D where
  contours : List ℕ
  curves : List ℕ
  resos : List ℕ
  title : Option Str
  xlabel : Option Str
  ylabel : Option Str
  xlim : Option (ℝ × ℝ)
  ylim : Option (ℝ × ℝ)

/-- `Plot2D()`. -/
def Plot2D.new : Plot2D := ⟨[], [], [], some [], none, none, none, none⟩

/-- All plots, and the formats of all objects. -/
structure Plots2 where
  fmt : ℕ → Fmt
  plots : ℕ → Plot2D

/-- What a program does with plots; `addNone` is `add_reso(None)`. -/
inductive Plot2Op where
  | add (p o : ℕ) (kw : Fmt)
  | addNone (p : ℕ) (kw : Fmt)
  | setTitle (p : ℕ) (t : Option Str)
  | setXlabel (p : ℕ) (t : Option Str)
  | setYlabel (p : ℕ) (t : Option Str)
  | setXlim (p : ℕ) (l : Option (ℝ × ℝ))
  | setYlim (p : ℕ) (l : Option (ℝ × ℝ))
  | draw (p : ℕ)

/-- Change one plot. -/
def Plots2.at (w : Plots2) (p : ℕ) (f : Plot2D → Plot2D) : Plots2 :=
  { w with plots := fun q => if q = p then f (w.plots q) else w.plots q }

/-- Lines 213, 218, 224: the object goes to the list of its kind. -/
def Plot2D.append (obj : ℕ → Obj2) (q : Plot2D) (o : ℕ) : Plot2D :=
  match obj o with
  | .contour _ _ _ _ _ => { q with contours := q.contours ++ [o] }
  | .curve _ _ _ => { q with curves := q.curves ++ [o] }
  | .ellipse _ => { q with resos := q.resos ++ [o] }

/-- The title of a contour map. -/
def Obj2.title : Obj2 → Str
  | .contour _ _ _ t _ => t
  | _ => []

/-- Line 242: the title after the loop over the contour maps. -/
def Plot2D.titleAfter (obj : ℕ → Obj2) (q : Plot2D) : Option Str :=
  match q.contours.getLast? with
  | some o => some (obj o).title
  | none => q.title

/-- One operation: lines 211-224, attributes set by the user, `plot`. -/
noncomputable def Plots2.step (obj : ℕ → Obj2) (w : Plots2) : Plot2Op → Plots2
  | .add p o kw =>
    { fmt := fun n => if n = o then assocUpdate (w.fmt n) kw else w.fmt n
      plots := (w.at p fun q => q.append obj o).plots }
  | .addNone _ _ => w
  | .setTitle p t => w.at p fun q => { q with title := t }
  | .setXlabel p t => w.at p fun q => { q with xlabel := t }
  | .setYlabel p t => w.at p fun q => { q with ylabel := t }
  | .setXlim p l => w.at p fun q => { q with xlim := l }
  | .setYlim p l => w.at p fun q => { q with ylim := l }
  | .draw p => w.at p fun q => { q with title := q.titleAfter obj }

/-- Several operations. -/
noncomputable def Plots2.run (obj : ℕ → Obj2) (w : Plots2) (ops : List Plot2Op) : Plots2 := ops.foldl (Plots2.step obj) w

/-- A call on the axes. -/
inductive Ax2Call where
  | mesh (x y z : List (List Num)) (fmt : Fmt)
  | errorbar (x y : List Num) (err : Option (List Num))
  | line (pts : List (ℝ × ℝ)) (fmt : Fmt)
  | xlim (l : ℝ × ℝ)
  | ylim (l : ℝ × ℝ)
  | title (t : Str)
  | xlabel (t : Str)
  | ylabel (t : Str)
  | grid
  | legend

/-- Line 241. -/
def meshCall (f : Fmt) : Obj2 → List Ax2Call
  | .contour x y z _ _ => [.mesh x y z f]
  | _ => []

/-- Line 244: the format is not passed on. -/
def errorbarCall : Obj2 → List Ax2Call
  | .curve x y e => [.errorbar x y e]
  | _ => []

/-- `np.isclose(angle, 90, atol=1e-2)`, line 247 (the relative tolerance is 1e-5). -/
def isRightAngle (angle : ℝ) : Prop := |angle - 90| ≤ 1e-2 + 1e-5 * |(90 : ℝ)|

open Classical in
/-- Lines 246-250: an ellipse. -/
noncomputable def ellipseCall (f : Fmt) : Obj2 → Py (List Ax2Call)
  | .ellipse e => ellipsePoints e.evals e.evecs e.centre.1 e.centre.2 128 >>= fun pts =>
    (if isRightAngle e.angle then .ok pts else pts.mapM fun p => tr p.1 p.2 e.angle).map fun pts' => [.line pts' f]
  | _ => .ok []

/-- `data.xlabel` (`AttributeError` for a contour map without labels); `none` is `None`. -/
def Obj2.xlab : Obj2 → Py (Option Str)
  | .contour _ _ _ _ l => (need l .attributeError).map fun l => some l.1
  | .ellipse e => .ok e.xlabel
  | .curve _ _ _ => .error .attributeError

/-- `data.ylabel`. -/
def Obj2.ylab : Obj2 → Py (Option Str)
  | .contour _ _ _ _ l => (need l .attributeError).map fun l => some l.2
  | .ellipse e => .ok e.ylabel
  | .curve _ _ _ => .error .attributeError

/-- Lines 268-270 (and 272-274): the label of an axis. -/
def labelOf (user : Option Str) (lab : Obj2 → Py (Option Str)) (source : List Obj2) (mk : Str → Ax2Call) : Py (List Ax2Call) :=
  match user with
  | some _ => .ok []
  | none => (source.mapM lab).map fun ls => [mk (joinStr ", ".toList (sortStr ((ls.filterMap id).dedup)))]

/-- Lines 239-281, `plot(ax)`: the calls on the axes, and which of the contour maps is returned (for the colour bar). -/
noncomputable def Plots2.calls (obj : ℕ → Obj2) (w : Plots2) (p : ℕ) : Py (List Ax2Call × Option ℕ) :=
  ((w.plots p).resos.mapM fun o => ellipseCall (w.fmt o) (obj o)) >>= fun ells =>
  labelOf (w.plots p).xlabel Obj2.xlab ((if (w.plots p).resos ≠ [] then (w.plots p).resos else (w.plots p).contours).map obj) .xlabel >>= fun lx =>
  labelOf (w.plots p).ylabel Obj2.ylab ((if (w.plots p).resos ≠ [] then (w.plots p).resos else (w.plots p).contours).map obj) .ylabel >>= fun ly =>
  .ok ((w.plots p).contours.flatMap (fun o => meshCall (w.fmt o) (obj o)) ++
    (w.plots p).curves.flatMap (fun o => errorbarCall (obj o)) ++ ells.flatten ++
    ((w.plots p).xlim.map Ax2Call.xlim).toList ++ ((w.plots p).ylim.map Ax2Call.ylim).toList ++
    (((w.plots p).titleAfter obj).map Ax2Call.title).toList ++ lx ++ ly ++ [.grid] ++
    (if ((w.plots p).contours ++ (w.plots p).resos ++ (w.plots p).curves).any fun o => (lookupKey "label".toList (w.fmt o)).isSome
      then [.legend] else []), (w.plots p).contours.getLast?)

end Tavi
