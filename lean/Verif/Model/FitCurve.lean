import Verif.Model.Fit
import Verif.Model.Plot
import Verif.Model.Spice

/-!
# Model of fitting and of the curves of fits: `fit.py`, `convfit.py`, `plotter.py`

Of lmfit the model takes what its documentation says. A model is a shape with a prefix; its parameters are named by the prefix
followed by the name of an argument of the shape (or of a derived quantity such as `fwhm`). Evaluating a model looks its
arguments up among the parameters with the prefix taken off (`Model.make_funcargs`), evaluating a sum of models adds the values
(`CompositeModel.eval`), `eval_components` gives the values by prefix, and a `ModelResult` keeps the model it was made from and the
parameters it started with, with new values. What the shapes are, what their `guess` returns and what the minimiser finds are
arbitrary (`Lmfit`). Parameters are names and values; bounds, expressions and uncertainties are left out. Two models with a
parameter of the same name cannot be added (`NameError`); this never happens here, see C59, and is left out.
-/

namespace Tavi

/-- lmfit's `Parameters`: names and values in order. -/
abbrev FitPars := List (Str × ℝ)

/-- What lmfit is taken to be: for every shape the names of its arguments and of all its parameters, its value at a point, its
`guess` for given `y` and `x`; and the minimiser, given model, resolution of the convolutions, parameters, `y`, `x` and weights:
`success`, `errorbars` and the new value of every parameter. -/
structure Lmfit where
  args : Str → List Str
  names : Str → List Str
  args_names : ∀ s, ∀ a ∈ args s, a ∈ names s
  names_nodup : ∀ s, (names s).Nodup
  args_plain : ∀ s, ∀ a ∈ args s, '_' ∉ a
  value : Str → (Str → ℝ) → Num → Num
  value_args : ∀ s (f g : Str → ℝ) x, (∀ a ∈ args s, f a = g a) → value s f x = value s g x
  guess : Str → List Num → List Num → Py (Str → ℝ)
  minimise : List FitComp → List (ℝ × ℝ) → FitPars → List Num → List Num → Option (List Num) → Py (Bool × Bool × (Str → ℝ))

/-- The arguments of a shape; those of the functions defined in convfit.py lines 99-102 and 41-44. -/
def Lmfit.argsOf (L : Lmfit) (shape : Str) : List Str :=
  if shape = "conv_gaussian".toList then ["amplitude".toList, "center".toList, "sigma".toList]
  else if shape = "conv_constant".toList then ["c".toList]
  else L.args shape

/-- `name` with the prefix taken off, if it has it (`Model._strip_prefix`). -/
def stripPre (pre name : Str) : Str := if startsWith pre name then name.drop pre.length else name

/-- The value of argument `a` of a model with this prefix (`Model.make_funcargs`): the last parameter whose name, without the
prefix, is `a`. -/
def argValue (pre : Str) (pars : FitPars) (a : Str) : Option ℝ :=
  lookupKey a (assocUpdate [] (pars.map fun p => (stripPre pre p.1, p.2)))

/-- The values of a shape at the points `x`; convfit.py lines 99-102 (`conv_gaussian`; a width of zero gives nan everywhere),
41-44 (`conv_constant`), otherwise the shapes of lmfit. -/
noncomputable def Lmfit.values (L : Lmfit) (rez : List (ℝ × ℝ)) (shape : Str) (arg : Str → ℝ) (x : List Num) : Py (List Num) :=
  if shape = "conv_gaussian".toList then
    if arg "sigma".toList = 0 then
      if x.length ≤ rez.length then .ok (x.map fun _ => none) else .error .indexError
    else conv1d x (fun t => gaussian t (arg "amplitude".toList) (arg "center".toList) (arg "sigma".toList)) rez
  else if shape = "conv_constant".toList then conv1d x (constantSignal (arg "c".toList)) rez
  else .ok (x.map (L.value shape arg))

/-- `Model.eval`: a missing argument is a `TypeError`; a text is no model. -/
noncomputable def Lmfit.evalOne (L : Lmfit) (rez : List (ℝ × ℝ)) (pars : FitPars) (x : List Num) : FitComp → Py (List Num)
  | .text _ => .error .attributeError
  | .model pre shape =>
    if (L.argsOf shape).all (fun a => (argValue pre pars a).isSome) then
      L.values rez shape (fun a => (argValue pre pars a).getD 0) x
    else .error .typeError

/-- `np.sum(self._signal_models + self._background_models)` and the use of an attribute of it, fit.py lines 170-174 and convfit.py
lines 158-170: the sum of no models is `0.0`, which has neither `eval` nor `fit`; a text cannot be added. -/
def composite : List FitComp → Py (List FitComp)
  | [] => .error .attributeError
  | .text _ :: _ => .error .typeError
  | c :: cs => if cs.all (fun d => match d with | .model _ _ => true | .text _ => false) then .ok (c :: cs)
      else .error .valueError

/-- Arrays are added value by value (lmfit adds from the left, which is the same for real numbers). -/
noncomputable def addCurves : List (List Num) → List Num
  | [] => []
  | [y] => y
  | y :: ys => List.zipWith nadd y (addCurves ys)

/-- `self.model.eval(pars, x=x)`, fit.py lines 190-191, convfit.py lines 186-187. -/
noncomputable def Lmfit.evalSum (L : Lmfit) (rez : List (ℝ × ℝ)) (comps : List FitComp) (pars : FitPars) (x : List Num) :
    Py (List Num) :=
  composite comps >>= fun cs => cs.mapM (L.evalOne rez pars x) >>= fun ys => .ok (addCurves ys)

/-- `signal.guess(self.y, x=self.x)` and `bkg.guess(…)`: the parameters of one model. -/
noncomputable def Lmfit.guessOne (L : Lmfit) (d : FitData) : FitComp → Py FitPars
  | .text _ => .error .attributeError
  | .model pre shape => (L.guess shape d.y d.x).map fun v => (L.names shape).map fun n => (pre ++ n, v n)

/-- fit.py lines 156-167 and convfit.py lines 145-156, `guess`: `pars +=` overwrites parameters of the same name. -/
noncomputable def Lmfit.guessAll (L : Lmfit) (d : FitData) (comps : List FitComp) : Py FitPars :=
  comps.foldlM (fun pars c => (L.guessOne d c).map fun more => assocUpdate pars more) []

/-- A `ModelResult`: the model it was made from, with the resolution its convolutions use, and its parameters. -/
structure FitResult where
  comps : List FitComp
  rez : List (ℝ × ℝ)
  params : FitPars

/-- What `fit`, `params`, `eval` and the plots use of a `Fit1D` or a `ConvFit1D`: the selected points, the models, the models
`guess` goes through, the resolution, the models of `model_intrinsic` (which only `ConvFit1D` has) and whether error bars are
asked for. -/
structure FitView where
  data : FitData
  comps : List FitComp
  guessed : List FitComp
  rez : List (ℝ × ℝ)
  intrinsic : Option (List FitComp)
  needErrorbars : Bool

/-- fit.py lines 156-174 and 193-206. -/
def Fit1D.fitView (f : Fit1D) : FitView :=
  ⟨f.data, f.signals ++ f.backgrounds, f.signals ++ f.backgrounds, [], none, true⟩

/-- convfit.py lines 145-170 and 189-199; `_background_models_instrinsic` is created empty (line 72) and never added to. -/
def ConvFit1D.fitView (f : ConvFit1D) : FitView :=
  ⟨f.data, f.signals ++ f.backgrounds, f.signalsIntrinsic ++ [], f.rez, some (f.signalsIntrinsic ++ []), false⟩

/-- lmfit's `Model.fit` refuses parameters that are not there. -/
def Lmfit.hasAll (L : Lmfit) (comps : List FitComp) (pars : FitPars) : Bool :=
  comps.all fun c => match c with
    | .model pre shape => (L.argsOf shape).all fun a => (lookupKey (pre ++ a) pars).isSome
    | .text _ => true

/-- fit.py lines 193-206 and convfit.py lines 189-199, `fit`: the result, when there is one. -/
noncomputable def Lmfit.fit (L : Lmfit) (v : FitView) (pars : FitPars) (useErrorbar : Bool) : Py FitResult :=
  composite v.comps >>= fun cs =>
  if L.hasAll cs pars then
    L.minimise cs v.rez pars v.data.y v.data.x (if useErrorbar then v.data.err else none) >>= fun o =>
    if o.1 then
      if v.needErrorbars && !o.2.1 then .error .valueError
      else .ok ⟨cs, v.rez, pars.map fun p => (p.1, o.2.2 p.1)⟩
    else .error .valueError
  else .error .valueError

/-- A `Fit1D` or `ConvFit1D` with its attribute `result`. -/
structure Fitting (F : Type) where
  base : F
  result : Option FitResult

/-- `fit`, as a change of the object: the attribute is set only at the end, fit.py lines 200-201, convfit.py lines 195-196. -/
noncomputable def Fitting.fit {F : Type} (L : Lmfit) (view : F → FitView) (f : Fitting F) (pars : FitPars) (useErrorbar : Bool) :
    Fitting F × Option PyErr :=
  match L.fit (view f.base) pars useErrorbar with
  | .ok r => ({ f with result := some r }, none)
  | .error e => (f, some e)

/-- fit.py lines 145-154 and convfit.py lines 134-143, `params`. -/
noncomputable def Fitting.params {F : Type} (L : Lmfit) (view : F → FitView) (f : Fitting F) : Py FitPars :=
  match f.result with
  | some r => .ok r.params
  | none => L.guessAll (view f.base).data (view f.base).guessed

/-- plotter.py lines 83-100, `add_fit`: the curve. -/
noncomputable def Fitting.curve {F : Type} (L : Lmfit) (view : F → FitView) (f : Fitting F) (x : Option (List Num))
    (deconv : Bool) : Py (List Num × List Num) :=
  (match f.result with
  | none => f.params L view >>= fun p => L.evalSum (view f.base).rez (view f.base).comps p (x.getD (view f.base).data.x)
  | some r =>
    if deconv then need (view f.base).intrinsic .attributeError >>= fun cs =>
      f.params L view >>= fun p => L.evalSum (view f.base).rez cs p (x.getD (view f.base).data.x)
    else f.params L view >>= fun p => L.evalSum r.rez r.comps p (x.getD (view f.base).data.x)) >>= fun y =>
  .ok (x.getD (view f.base).data.x, y)

/-- `Model.eval_components`: prefix and values of one model. -/
noncomputable def Lmfit.component (L : Lmfit) (r : FitResult) (x : List Num) : FitComp → Py (Str × List Num)
  | .model pre shape => (L.evalOne r.rez r.params x (.model pre shape)).map fun y => (pre, y)
  | .text _ => .error .attributeError

/-- `ModelResult.eval_components`: the values of every model by prefix. -/
noncomputable def Lmfit.components (L : Lmfit) (r : FitResult) (x : List Num) : Py (List (Str × List Num)) :=
  r.comps.mapM (L.component r x) >>= fun l => .ok (assocUpdate [] l)

/-- plotter.py lines 106-127, `add_fit_components`: the curves added. Every keyword has a list of values. -/
noncomputable def Fitting.componentCurves {F : Type} (L : Lmfit) (view : F → FitView) (f : Fitting F) (x : Option (List Num))
    (kw : List (Str × List Str)) : Py (List PlotFit) :=
  match f.result with
  | none => .ok []
  | some r => L.components r (x.getD (view f.base).data.x) >>= fun cs =>
    if kw.all fun k => k.2.length = cs.length then
      .ok (cs.zipIdx.map fun c => ⟨x.getD (view f.base).data.x, c.1.2,
        assocUpdate (assocSet [] "label".toList c.1.1.dropLast) (kw.map fun k => (k.1, k.2.getD c.2 []))⟩)
    else .error .valueError

/-- `eval_components` at a number: `conv_1d` asks for the length of it, convfit.py line 26. -/
noncomputable def Lmfit.evalAt (L : Lmfit) (pars : FitPars) (x : ℝ) : FitComp → Py (Str × Num)
  | .text _ => .error .attributeError
  | .model pre shape =>
    if (L.argsOf shape).all (fun a => (argValue pre pars a).isSome) then
      if shape = "conv_gaussian".toList ∨ shape = "conv_constant".toList then .error .typeError
      else .ok (pre, L.value shape (fun a => (argValue pre pars a).getD 0) (some x))
    else .error .typeError

/-- plotter.py lines 136-142, `add_reso_bar` given a `ModelResult`: where the bar is put. -/
noncomputable def Lmfit.barPos (L : Lmfit) (r : FitResult) : Py (ℝ × Num) :=
  need (lookupKey "s1_center".toList r.params) .keyError >>= fun x =>
  r.comps.mapM (L.evalAt r.params x) >>= fun l =>
  need (lookupKey "s1_".toList (assocUpdate [] l)) .keyError >>= fun y =>
  .ok (x, nadd (ndiv y (some 2)) (((assocUpdate [] l).filter fun p => p.1 ≠ "s1_".toList).foldl (fun s p => nadd s p.2) (some 0)))

/-- fit.py lines 176-188 and convfit.py lines 172-184, `x_to_plot`; nan for a limit gives nan everywhere. -/
noncomputable def FitData.xToPlot (d : FitData) (lo hi : Option ℝ) (num : ℤ) : Py (List Num) :=
  pickLimit lo (npMin d.x) >>= fun a => pickLimit hi (npMax d.x) >>= fun b =>
  match a, b with
  | some a, some b => (linspace a b num).map fun l => l.map some
  | _, _ => if num < 0 then .error .valueError else .ok (List.replicate num.toNat none)

/-- plotter.py lines 74-78, `_add_fit_from_fitting`: the number of points is handed over as the first argument of `x_to_plot`. -/
noncomputable def Fitting.privateCurve (L : Lmfit) (f : Fitting Fit1D) (num : Option ℕ) : Py (List Num × List Num) :=
  need f.result .valueError >>= fun r =>
  f.base.data.xToPlot (num.map (Nat.cast : ℕ → ℝ)) none 100 >>= fun x =>
  L.evalSum r.rez r.comps r.params x >>= fun y => .ok (x, y)

end Tavi
