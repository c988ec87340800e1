import Verif.Model.Curve
import Verif.Props.Group
import Verif.Props.Cooper
import Mathlib.Analysis.SpecialFunctions.Gaussian.GaussianIntegral

/-!
# The resolution curve (C89)
-/

namespace Tavi

open Spec

/-- A bell curve, by its centre, its full width at half maximum and its area. -/
def Spec.Bell (g : ℝ → ℝ) (cen fwhm area : ℝ) : Prop :=
  (∀ t, g (cen + t) = g cen * (2 : ℝ) ^ (-(2 * t / fwhm) ^ 2)) ∧ ∫ t, g t = area

/-- `n` points from `a` to `b` at equal distances. -/
def Spec.Even (a b : ℝ) (n : ℤ) (x : List ℝ) : Prop :=
  (x.length : ℤ) = n ∧ (∀ i, ∀ h : i + 2 < x.length, x[i + 2] - x[i + 1] = x[i + 1] - x[i]) ∧ x.head? = (if n = 0 then none else some a) ∧
    (2 ≤ n → x.getLast? = some b)

theorem sig2fwhm_sq : sig2fwhm ^ 2 = 8 * Real.log 2 := by
  rw [sig2fwhm, mul_pow, Real.sq_sqrt (by have := Real.log_pos one_lt_two; positivity)]; ring

theorem linspace_even {a b : ℝ} {n : ℤ} (hn : 0 ≤ n) : ∃ x, linspace a b n = .ok x ∧ Even a b n x := by
  obtain ⟨m, rfl⟩ := Int.eq_ofNat_of_zero_le hn
  refine ⟨_, if_neg (not_lt.2 hn), by simp, fun i h => ?_, ?_, fun h2 => ?_⟩
  · simp only [List.getElem_map, List.getElem_range]
    push_cast
    ring
  · cases m with
    | zero => rfl
    | succ m =>
      rw [List.head?_map, Int.toNat_natCast, List.head?_range]
      simp
      omega
  · have hm : 2 ≤ m := by exact_mod_cast h2
    obtain ⟨k, rfl⟩ : ∃ k, m = k + 2 := ⟨m - 2, by omega⟩
    rw [Int.toNat_natCast, List.getLast?_map, List.getLast?_range]
    simp only [Nat.add_eq_zero_iff, OfNat.ofNat_ne_zero, and_false, if_false, Option.map_some]
    congr 1
    have : ((k : ℝ) + 1) ≠ 0 := by positivity
    rw [show ((k + 2 - 1 : ℕ) : ℝ) = (k : ℝ) + 1 by push_cast [Nat.add_sub_cancel]; ring,
      show ((k + 2 : ℕ) : ℝ) - 1 = (k : ℝ) + 1 by push_cast; ring, mul_div_cancel₀ _ this]
    ring

theorem bell_of {w cen r0 : ℝ} (hw : 0 < w) :
    Bell (fun t => r0 / Real.sqrt (2 * Real.pi) / (w / sig2fwhm) * Real.exp (-((t - cen) ^ 2) / (w / sig2fwhm) ^ 2 / 2)) cen w r0 := by
  have hs := sig2fwhm_pos
  have hl := Real.log_pos one_lt_two
  constructor
  · intro t
    dsimp only
    rw [add_sub_cancel_left, sub_self, show -(0 : ℝ) ^ 2 / (w / sig2fwhm) ^ 2 / 2 = 0 by simp, Real.exp_zero, mul_one,
      Real.rpow_def_of_pos two_pos]
    congr 2
    rw [div_pow, sig2fwhm_sq]
    field_simp
    ring
  · have h1 : ∀ t : ℝ, Real.exp (-((t - cen) ^ 2) / (w / sig2fwhm) ^ 2 / 2) =
        Real.exp (-(1 / (2 * (w / sig2fwhm) ^ 2)) * (t - cen) ^ 2) := fun t => by
      congr 1
      field_simp
    simp only [h1]
    rw [MeasureTheory.integral_const_mul,
      MeasureTheory.integral_sub_right_eq_self (fun t => Real.exp (-(1 / (2 * (w / sig2fwhm) ^ 2)) * t ^ 2)) cen, integral_gaussian,
      show Real.pi / (1 / (2 * (w / sig2fwhm) ^ 2)) = (2 * Real.pi) * (w / sig2fwhm) ^ 2 by field_simp,
      Real.sqrt_mul (show (0 : ℝ) ≤ 2 * Real.pi by positivity), Real.sqrt_sq (show 0 ≤ w / sig2fwhm by positivity)]
    have : Real.sqrt (2 * Real.pi) ≠ 0 := by positivity
    field_simp

/-- **C89** (partial): once the user has set `cen`, the curve has that centre, the width and the area asked for, at points that are
spread evenly over as many standard deviations as asked for. Missing: the centre is not the attribute `center`, see
`C89_center_fails`. -/
theorem C89_curve_partial (c : ResoCurve) (w cen r0 sigmas : ℝ) (points : ℤ) (hw : 0 < w) (h1 : c.fwhm = some w) (h2 : c.cen = some cen)
    (h3 : c.r0 = some r0) (hn : 0 ≤ points) :
    ∃ c' x g, c.generate sigmas points = .ok c' ∧ c'.x = some x ∧ c'.y = some (x.map g) ∧ Bell g cen w r0 ∧
      Even (cen - sigmas * (w / Real.sqrt (8 * Real.log 2))) (cen + sigmas * (w / Real.sqrt (8 * Real.log 2))) points x := by
  obtain ⟨x, hx, he⟩ := linspace_even (a := -sigmas * (w / sig2fwhm) + cen) (b := sigmas * (w / sig2fwhm) + cen) hn
  have hs : sig2fwhm = Real.sqrt (8 * Real.log 2) := by
    rw [← sig2fwhm_sq, Real.sqrt_sq sig2fwhm_pos.le]
  refine ⟨{ c with x := some x, y := some (x.map _) }, x, _, ?_, rfl, rfl, bell_of hw, ?_⟩
  · rw [ResoCurve.generate, h1, need_some, py_bind_ok, h2, need_some, py_bind_ok, hx, py_bind_ok, h3, need_some, py_bind_ok,
      if_neg (div_pos hw sig2fwhm_pos).ne']
  · rw [← hs, show cen - sigmas * (w / sig2fwhm) = -sigmas * (w / sig2fwhm) + cen by ring,
      show cen + sigmas * (w / sig2fwhm) = sigmas * (w / sig2fwhm) + cen by ring]
    exact he

/-- **C89**: a bell curve is half as high half a width away from its centre, on both sides. -/
theorem C89_half (g : ℝ → ℝ) (cen w area : ℝ) (hw : w ≠ 0) (h : Bell g cen w area) :
    g (cen + w / 2) = g cen / 2 ∧ g (cen - w / 2) = g cen / 2 := by
  constructor
  · rw [h.1, show -(2 * (w / 2) / w) ^ 2 = (-1 : ℝ) by field_simp]
    rw [Real.rpow_neg_one]; ring
  · rw [sub_eq_add_neg, h.1, show -(2 * -(w / 2) / w) ^ 2 = (-1 : ℝ) by field_simp]
    rw [Real.rpow_neg_one]; ring

/-- **C89**: centre, width and area determine the curve. -/
theorem C89_unique (g g' : ℝ → ℝ) (cen w area : ℝ) (hw : 0 < w) (h : Bell g cen w area) (h' : Bell g' cen w area) : g = g' := by
  have key : ∀ g : ℝ → ℝ, Bell g cen w area → ∀ t, g t = area * (Real.sqrt (8 * Real.log 2) / w / Real.sqrt (2 * Real.pi)) *
      (2 : ℝ) ^ (-(2 * (t - cen) / w) ^ 2) := by
    intro g hg
    have hb := bell_of (cen := cen) (r0 := g cen * (Real.sqrt (2 * Real.pi) * (w / sig2fwhm))) hw
    have hs := sig2fwhm_pos
    have hp : Real.sqrt (2 * Real.pi) ≠ 0 := by positivity
    have heq : ∀ t, g t = g cen * (2 : ℝ) ^ (-(2 * (t - cen) / w) ^ 2) := fun t => by
      have := hg.1 (t - cen)
      rwa [add_sub_cancel] at this
    have hfun : g = fun t => g cen * (Real.sqrt (2 * Real.pi) * (w / sig2fwhm)) / Real.sqrt (2 * Real.pi) / (w / sig2fwhm) *
        Real.exp (-((t - cen) ^ 2) / (w / sig2fwhm) ^ 2 / 2) := by
      funext t
      have h2 := hb.1 (t - cen)
      rw [add_sub_cancel] at h2
      dsimp only at h2
      rw [h2, heq t, sub_self, show -(0 : ℝ) ^ 2 / (w / sig2fwhm) ^ 2 / 2 = 0 by simp, Real.exp_zero]
      field_simp
    have harea : area = g cen * (Real.sqrt (2 * Real.pi) * (w / sig2fwhm)) := by
      rw [← hg.2]
      conv_lhs => rw [hfun]
      exact hb.2
    intro t
    rw [heq t, harea, show Real.sqrt (8 * Real.log 2) = sig2fwhm by rw [← sig2fwhm_sq, Real.sqrt_sq hs.le]]
    field_simp
  funext t
  rw [key g h, key g' h']

/-! ## The code disagrees -/

/-- **C89**, the code disagrees: the centre is read from an attribute that does not exist, so that a curve with a centre, a width
and an area cannot be generated. -/
theorem C89_center_fails (center w r0 sigmas : ℝ) (points : ℤ) :
    ({ ResoCurve.new with center := center, fwhm := some w, r0 := some r0 } : ResoCurve).generate sigmas points =
      .error .attributeError := rfl

/-- **C89**: without a width there is no curve. -/
theorem C89_no_width (c : ResoCurve) (h : c.fwhm = none) (sigmas : ℝ) (points : ℤ) : c.generate sigmas points = .error .typeError := by
  rw [ResoCurve.generate, h]; rfl

/-- **C89** (partial, as above): what is drawn is the curve over three standard deviations, with 100 points, in the colour and style asked for
and with the texts of the curve. The range of an earlier `generate_curve` does not matter: its points are replaced. -/
theorem C89_plot_partial (c : ResoCurve) (l : CurveTexts) (colour style : Str) (w cen r0 : ℝ) (hw : 0 < w) (h1 : c.fwhm = some w)
    (h2 : c.cen = some cen) (h3 : c.r0 = some r0) : ∃ c' d g, c.plot l colour style = .ok (c', d) ∧ d.y = d.x.map g ∧ Bell g cen w r0 ∧
      Even (cen - 3 * (w / Real.sqrt (8 * Real.log 2))) (cen + 3 * (w / Real.sqrt (8 * Real.log 2))) 100 d.x ∧
      c'.x = some d.x ∧ c'.y = some d.y ∧ d.colour = colour ∧ d.style = style ∧ d.label = l.legend ∧ d.xlabel = l.xlabel ∧
      d.ylabel = l.ylabel ∧ d.title = l.title ∧
      ∀ sigmas points c₀, c.generate sigmas points = .ok c₀ → c₀.plot l colour style = .ok (c', d) := by
  have hgen : ∀ c : ResoCurve, c.fwhm = some w → c.cen = some cen → c.r0 = some r0 → ∀ s n c', c.generate s n = .ok c' →
      c' = { c with x := c'.x, y := c'.y } := by
    intro c h1 h2 h3 s n c' h
    unfold ResoCurve.generate at h
    rw [h1, need_some, py_bind_ok, h2, need_some, py_bind_ok] at h
    obtain ⟨x, _, h⟩ := py_bind_eq_ok.1 h
    rw [h3, need_some, py_bind_ok] at h
    split at h
    · cases h
    · cases h; rw [h1, h2, h3]
  obtain ⟨c', x, g, k1, k2, k3, k4, k5⟩ := C89_curve_partial c w cen r0 3 100 hw h1 h2 h3 (by norm_num)
  refine ⟨c', ⟨x, x.map g, colour, style, l.legend, l.xlabel, l.ylabel, l.title⟩, g, ?_, rfl, k4, k5, k2, k3, rfl, rfl, rfl, rfl, rfl, rfl, ?_⟩
  · rw [ResoCurve.plot, k1, py_bind_ok, k2, need_some, py_bind_ok, k3, need_some, py_bind_ok]
  · intro s n c₀ h₀
    have e := hgen c h1 h2 h3 s n c₀ h₀
    have same : c₀.generate 3 100 = c.generate 3 100 := by
      rw [e]; rfl
    rw [ResoCurve.plot, same, k1, py_bind_ok, k2, need_some, py_bind_ok, k3, need_some, py_bind_ok]

/-- **C89**: nothing is drawn of a curve that cannot be generated. -/
theorem C89_plot_fails (c : ResoCurve) (l : CurveTexts) (colour style : Str) {e : PyErr} (h : c.generate 3 100 = .error e) :
    c.plot l colour style = .error e := by
  rw [ResoCurve.plot, h]; rfl

/-- A plot of the curve of width 2, area 3 and centre 1. -/
example : ∃ c' d, ({ ResoCurve.new with cen := some 1, fwhm := some 2, r0 := some 3 } : ResoCurve).plot { legend := some "hk".toList }
    "red".toList "solid".toList = .ok (c', d) ∧ d.x.length = 100 ∧ d.label = some "hk".toList := by
  obtain ⟨c', d, g, h, _, _, h5, _, _, _, _, h6, _⟩ := C89_plot_partial
    { ResoCurve.new with cen := some 1, fwhm := some 2, r0 := some 3 } { legend := some "hk".toList } "red".toList "solid".toList 2 1 3
    two_pos rfl rfl rfl
  exact ⟨c', d, h, by have := h5.1; exact_mod_cast this, h6⟩

/-- A concrete case: width 2, area 3, centre 1. -/
example : ∃ c' x g, ({ ResoCurve.new with cen := some 1, fwhm := some 2, r0 := some 3 } : ResoCurve).generate 3 100 = .ok c' ∧
    c'.x = some x ∧ c'.y = some (x.map g) ∧ Bell g 1 2 3 ∧ g 2 = g 1 / 2 := by
  obtain ⟨c', x, g, h1, h2, h3, h4, _⟩ := C89_curve_partial
    { ResoCurve.new with cen := some 1, fwhm := some 2, r0 := some 3 } 2 1 3 3 100 two_pos rfl rfl rfl (by norm_num)
  refine ⟨c', x, g, h1, h2, h3, h4, ?_⟩
  have := (C89_half g 1 2 3 two_ne_zero h4).1
  norm_num at this ⊢
  exact this

end Tavi
