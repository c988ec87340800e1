import Verif.Model.Utilities
import Verif.Model.ScanData
import Verif.Model.Str

/-!
# Model of `ResoCurve`, `instrument/resolution/curve.py`

Simplification: a width of zero, for which numpy gives `nan` and `inf`, is the error `nonFinite`.
-/

namespace Tavi

/-- curve.py lines 24-33: `center` and the attributes used by `generate_curve`; `cen` is there only if the user sets it. -/
structure ResoCurve where
  center : ℝ
  cen : Option ℝ
  fwhm : Option ℝ
  r0 : Option ℝ
  x : Option (List ℝ)
  y : Option (List ℝ)

/-- `ResoCurve()`. -/
def ResoCurve.new : ResoCurve := ⟨0, none, none, none, none, none⟩

/-- curve.py lines 35-47, `generate_curve(num_of_sigmas, points)`. -/
noncomputable def ResoCurve.generate (c : ResoCurve) (sigmas : ℝ) (points : ℤ) : Py ResoCurve :=
  need c.fwhm .typeError >>= fun fwhm =>
  need c.cen .attributeError >>= fun cen =>
  linspace (-sigmas * (fwhm / sig2fwhm) + cen) (sigmas * (fwhm / sig2fwhm) + cen) points >>= fun x =>
  need c.r0 .typeError >>= fun r0 =>
  if fwhm / sig2fwhm = 0 then .error .nonFinite
  else .ok { c with
    x := some x
    y := some (x.map fun t => r0 / Real.sqrt (2 * Real.pi) / (fwhm / sig2fwhm) *
      Real.exp (-((t - cen) ^ 2) / (fwhm / sig2fwhm) ^ 2 / 2)) }

/-- curve.py lines 30-33: the texts of a plot. -/
structure CurveTexts where
  xlabel : Option Str := none
  ylabel : Option Str := none
  title : Option Str := none
  legend : Option Str := none

/-- What `generate_plot` asks of the axes, curve.py lines 52-63: the line with its colour, style and entry in the legend, and the texts. -/
structure CurveDrawn where
  x : List ℝ
  y : List ℝ
  colour : Str
  style : Str
  label : Option Str
  xlabel : Option Str
  ylabel : Option Str
  title : Option Str

/-- curve.py lines 48-63, `generate_plot(ax, c, linestyle)`: the curve afterwards and what is drawn. The curve is generated anew with the
default range of three standard deviations and 100 points (line 35). -/
noncomputable def ResoCurve.plot (c : ResoCurve) (l : CurveTexts) (colour style : Str) : Py (ResoCurve × CurveDrawn) :=
  c.generate 3 100 >>= fun c' =>
  need c'.x .typeError >>= fun x =>
  need c'.y .typeError >>= fun y =>
  .ok (c', { x := x, y := y, colour := colour, style := style, label := l.legend, xlabel := l.xlabel, ylabel := l.ylabel, title := l.title })

end Tavi
