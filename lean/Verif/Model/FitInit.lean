import Verif.Model.FitCurve

/-!
# Model of the constructors of fits: `fit.py`, `convfit.py`

A constructor that raises returns nothing, whatever it had done to the object. The arrays of the data are shared with the
object; `set_range` replaces them in the object and leaves the data alone, fit.py lines 85-88.
-/

namespace Tavi

/-- The argument `signals` or `backgrounds`, fit.py lines 67-79: nothing, one name, a tuple of names, or something else that is
iterable, such as a list of names. -/
inductive ShapesArg where
  | nothing
  | one (s : Str)
  | tuple (l : List Str)
  | list (l : List Str)

/-- An operation inside a constructor: an exception ends the construction. -/
def orRaise {F : Type} : F × Option PyErr → Py F
  | (_, some e) => .error e
  | (f, none) => .ok f

/-- fit.py lines 67-72 and 74-79, with `add` for `add_signal` or `add_background`; a list is not a key of `models`. -/
def ShapesArg.addAll {F : Type} (add : F → Str → F × Option PyErr) (f : F) : ShapesArg → Py F
  | .nothing => .ok f
  | .one s => orRaise (add f s)
  | .tuple l => l.foldlM (fun f s => orRaise (add f s)) f
  | .list _ => .error .typeError

/-- fit.py lines 64-65 and convfit.py lines 83-84. -/
noncomputable def rangeGiven {F : Type} (set : F → ℝ → ℝ → F × Option PyErr) (f : F) : Option (ℝ × ℝ) → Py F
  | none => .ok f
  | some r => orRaise (set f r.1 r.2)

/-- `Fit1D(data, signals, backgrounds, fit_range)`, fit.py lines 37-79. -/
noncomputable def Fit1D.init (d : ScanData1D) (signals backgrounds : ShapesArg) (range : Option (ℝ × ℝ)) : Py Fit1D :=
  rangeGiven Fit1D.setRange ⟨⟨d.x, d.y, some d.err⟩, [], [], 0, 0⟩ range >>= fun f =>
  signals.addAll Fit1D.addSignal f >>= fun f => backgrounds.addAll Fit1D.addBackground f

/-- `ConvFit1D(data, rez_params, fit_range)`, convfit.py lines 54-84. -/
noncomputable def ConvFit1D.init (d : ScanData1D) (rez : List (ℝ × ℝ)) (range : Option (ℝ × ℝ)) : Py ConvFit1D :=
  rangeGiven ConvFit1D.setRange ⟨⟨d.x, d.y, some d.err⟩, rez, [], [], [], 0, 0⟩ range

end Tavi
