import Verif.Model.Utilities
import Verif.Model.ScanData
import Verif.Model.Str
import Mathlib.Algebra.BigOperators.Group.Finset.Basic
import Mathlib.Data.Finset.Range
import Mathlib.Analysis.SpecialFunctions.Exp

/-!
# Model of `src/tavi/data/fit.py` and `src/tavi/data/convfit.py`

Both classes keep the selected points, two counters and the lists of components. Operations may fail after having changed part
of the state, so they return the state together with the exception, if any. The model shapes of lmfit are not modelled (a
component is its prefix and the name of its shape), nor is the minimiser: of `Model.fit` only the documented quantity to be
minimised is modelled, the sum of squares of `(model - data) * weights`.
-/

namespace Tavi

/-- `x[mask]` with a boolean mask: numpy refuses a mask of another length. -/
def boolMask {α : Type} (mask : List Bool) (l : List α) : Py (List α) :=
  if mask.length = l.length then .ok (((mask.zip l).filter Prod.fst).map Prod.snd) else .error .indexError

/-- `fit_min <= x <= fit_max`; comparing nan gives `False`. fit.py:84, convfit.py:89 -/
noncomputable def inRange (lo hi : ℝ) : Num → Bool
  | none => false
  | some v => decide (lo ≤ v) && decide (v ≤ hi)

/-- The numbers `set_range` works on: `x`, `y`, `err`. fit.py:50-52, convfit.py:67-69 -/
structure FitData where
  x : List Num
  y : List Num
  err : Option (List Num)

/-- `set_range`, fit.py:81-88 and convfit.py:86-93 (the same text). -/
noncomputable def FitData.setRange (d : FitData) (lo hi : ℝ) : FitData × Option PyErr :=
  let mask := d.x.map (inRange lo hi)
  match boolMask mask d.x with
  | .error e => (d, some e)
  | .ok x' =>
    match boolMask mask d.y with
    | .error e => ({ d with x := x' }, some e)
    | .ok y' =>
      match d.err with
      | none => ({ d with x := x', y := y' }, none)
      | some err =>
        match boolMask mask err with
        | .error e => ({ d with x := x', y := y' }, some e)
        | .ok err' => ({ x := x', y := y', err := some err' }, none)

/-- A component of a fit: a model of lmfit, by prefix and shape, or (only in `ConvFit1D`) a text left in the list. -/
inductive FitComp where
  | model (pre shape : Str)
  | text (s : Str)
  deriving DecidableEq

/-- `Fit1D`, fit.py:37-79. -/
structure Fit1D where
  data : FitData
  signals : List FitComp := []
  backgrounds : List FitComp := []
  numSignals : ℕ := 0
  numBackgrounds : ℕ := 0

/-- The shapes that can be built from prefix and policy alone, fit.py:17-31. -/
def fitShapes : List Str :=
  ["Gaussian".toList, "Lorentzian".toList, "Voigt".toList, "PseudoVoigt".toList, "DampedOscillator".toList,
   "DampedHarmonicOscillator".toList, "Constant".toList, "Linear".toList, "Quadratic".toList, "Polynomial".toList,
   "Exponential".toList, "PowerLaw".toList]

/-- The shapes that need further arguments, fit.py:33-34. -/
def fitShapesArgs : List Str := ["Expression".toList, "Spline".toList]

/-- `type(self).models[model]` and the call of the constructor, fit.py:108-109 and 124-125. -/
def buildShape (pre shape : Str) : Py FitComp :=
  if shape ∈ fitShapes then .ok (.model pre shape)
  else if shape ∈ fitShapesArgs then .error .typeError
  else .error .keyError

/-- `f"s{n}_"`, fit.py:107 -/
def signalPrefix (n : ℕ) : Str := 's' :: (decStr n ++ ['_'])

/-- `f"b{n}_"`, fit.py:123 -/
def backgroundPrefix (n : ℕ) : Str := 'b' :: (decStr n ++ ['_'])

/-- `Fit1D.add_signal`, fit.py:95-109. -/
def Fit1D.addSignal (f : Fit1D) (shape : Str) : Fit1D × Option PyErr :=
  let f := { f with numSignals := f.numSignals + 1 }
  match buildShape (signalPrefix f.numSignals) shape with
  | .error e => (f, some e)
  | .ok c => ({ f with signals := f.signals ++ [c] }, none)

/-- `Fit1D.add_background`, fit.py:111-125. -/
def Fit1D.addBackground (f : Fit1D) (shape : Str) : Fit1D × Option PyErr :=
  let f := { f with numBackgrounds := f.numBackgrounds + 1 }
  match buildShape (backgroundPrefix f.numBackgrounds) shape with
  | .error e => (f, some e)
  | .ok c => ({ f with backgrounds := f.backgrounds ++ [c] }, none)

/-- `ConvFit1D`, convfit.py:47-84; `rez` is `rez_params`. -/
structure ConvFit1D where
  data : FitData
  rez : List (ℝ × ℝ)
  signals : List FitComp := []
  signalsIntrinsic : List FitComp := []
  backgrounds : List FitComp := []
  numSignals : ℕ := 0
  numBackgrounds : ℕ := 0

/-- `ConvFit1D.set_range`, convfit.py:86-93. -/
noncomputable def ConvFit1D.setRange (f : ConvFit1D) (lo hi : ℝ) : ConvFit1D × Option PyErr :=
  ({ f with data := (f.data.setRange lo hi).1 }, (f.data.setRange lo hi).2)

/-- `Fit1D.set_range`, fit.py:81-88. -/
noncomputable def Fit1D.setRange (f : Fit1D) (lo hi : ℝ) : Fit1D × Option PyErr :=
  ({ f with data := (f.data.setRange lo hi).1 }, (f.data.setRange lo hi).2)

/-- `ConvFit1D.add_signal`, convfit.py:95-115: for an unknown name the text itself is appended, then `model_intrinsic` is
unbound. -/
def ConvFit1D.addSignal (f : ConvFit1D) (shape : Str) : ConvFit1D × Option PyErr :=
  let f := { f with numSignals := f.numSignals + 1 }
  if shape = "Gaussian".toList then
    ({ f with signals := f.signals ++ [.model (signalPrefix f.numSignals) "conv_gaussian".toList],
              signalsIntrinsic := f.signalsIntrinsic ++ [.model (signalPrefix f.numSignals) "Gaussian".toList] }, none)
  else ({ f with signals := f.signals ++ [.text shape] }, some .unboundLocal)

/-- `ConvFit1D.add_background`, convfit.py:117-131: for an unknown name the text itself is appended. -/
def ConvFit1D.addBackground (f : ConvFit1D) (shape : Str) : ConvFit1D × Option PyErr :=
  let f := { f with numBackgrounds := f.numBackgrounds + 1 }
  if shape = "Constant".toList then
    ({ f with backgrounds := f.backgrounds ++ [.model (backgroundPrefix f.numBackgrounds) "conv_constant".toList] }, none)
  else ({ f with backgrounds := f.backgrounds ++ [.text shape] }, none)

/-- `gaussian`, convfit.py:11-14, for `sigma ≠ 0`. -/
noncomputable def gaussian (x amplitude center sigma : ℝ) : ℝ :=
  amplitude / (Real.sqrt (2 * Real.pi) * sigma) * Real.exp (-((x - center) ^ 2) / (2 * sigma ^ 2))

/-- One turn of the loop of `conv_1d`, convfit.py:28-33. A resolution width of zero gives nan, as does nan for `x`. -/
noncomputable def convPoint (signal : ℝ → ℝ) : Num → ℝ × ℝ → Num
  | none, _ => none
  | some x, (r0, fwhm) =>
    let sigma := fwhm / (2 * Real.sqrt (2 * Real.log 2))
    if sigma = 0 then none
    else
      let del := 2 * 5 * sigma / 10000
      let xr := fun k : ℕ => -(5 * sigma) + k * ((5 * sigma + 5 * sigma) / 9999)
      some ((∑ k ∈ Finset.range 10000, gaussian (xr k) r0 0 sigma * signal (x - xr k)) * del)

/-- `conv_1d`, convfit.py:21-34: the resolution parameters are found by the position in `x`; `IndexError` when there are too
few. -/
noncomputable def conv1d (x : List Num) (signal : ℝ → ℝ) (rez : List (ℝ × ℝ)) : Py (List Num) :=
  if x.length ≤ rez.length then .ok (List.zipWith (convPoint signal) x rez) else .error .indexError

/-- `signal` with `constant`, convfit.py:17-18, 41-44. -/
def constantSignal (c : ℝ) : ℝ → ℝ := fun _ => c

/-- What lmfit minimises, by its documentation: the sum of squares of `(model - data) * weights`, without weights when they are
`None`. Used by `fit`, fit.py:193-197 and convfit.py:189-193. -/
noncomputable def lmfitObjective (weights : Option (List ℝ)) (y model : List ℝ) : ℝ :=
  match weights with
  | none => ((List.zipWith (· - ·) model y).map (· ^ 2)).sum
  | some w => ((List.zipWith (· * ·) (List.zipWith (· - ·) model y) w).map (· ^ 2)).sum

/-- The call of `Model.fit` made by `fit`, fit.py:193-197: `weights=self.err`. -/
noncomputable def fitObjective (useErrorbar : Bool) (err : Option (List ℝ)) (y model : List ℝ) : ℝ :=
  if useErrorbar then lmfitObjective err y model else lmfitObjective none y model

end Tavi
