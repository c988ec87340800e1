import Verif.Props.FitBar
import Verif.Props.FitConv

/-!
# C93: a fit, in the concrete

A peak on a flat background, fitted with and without convolution.
-/

namespace Tavi

/-- An lmfit with two shapes, whose minimiser finds a peak of amplitude 2 and width 2 at 1 on a background of 3. -/
noncomputable def demoLmfit : Lmfit where
  args s := if s = "Gaussian".toList then ["amplitude".toList, "center".toList, "sigma".toList]
    else if s = "Constant".toList then ["c".toList] else []
  names s := if s = "Gaussian".toList then ["amplitude".toList, "center".toList, "sigma".toList, "fwhm".toList]
    else if s = "Constant".toList then ["c".toList] else []
  args_names s := by split <;> [decide; (split <;> simp)]
  names_nodup s := by split <;> [decide; (split <;> simp)]
  args_plain s := by split <;> [decide; (split <;> [decide; simp])]
  value s f x := if s = "Gaussian".toList then x.map fun t => gaussian t (f "amplitude".toList) (f "center".toList) (f "sigma".toList)
    else if s = "Constant".toList then x.map fun _ => f "c".toList else none
  value_args s f g x h := by
    by_cases hs : s = "Gaussian".toList
    · rw [if_pos hs] at h
      rw [if_pos hs, if_pos hs, h _ (by simp), h _ (by simp), h _ (by simp)]
    · rw [if_neg hs] at h
      rw [if_neg hs, if_neg hs]
      by_cases hc : s = "Constant".toList
      · rw [if_pos hc] at h
        rw [if_pos hc, if_pos hc, h _ (by simp)]
      · rw [if_neg hc, if_neg hc]
  guess _ _ _ := .ok fun _ => 1
  minimise _ _ _ _ _ _ := .ok (true, true, fun k => if k = "b1_c".toList then 3 else if k = "s1_center".toList then 1 else 2)

/-- Three points. -/
noncomputable def demoPoints : FitData := ⟨[some 0, some 1, some 2], [some 3, some 4, some 3], none⟩

/-- What the fit is started with. -/
def demoStart : FitPars := [("s1_amplitude".toList, 1), ("s1_center".toList, 1), ("s1_sigma".toList, 1), ("b1_c".toList, 1)]

/-- A shape nobody knows, a peak, a background, a fit; another background afterwards. The name that failed took the number 1, so
here it comes after the others. -/
def demoActs : List FitAct :=
  [.op (.signal "Gaussian".toList), .op (.background "Constant".toList), .op (.signal "Nothing".toList), .fit demoStart true,
   .op (.background "Constant".toList)]

theorem demo_named : Spec.NamedFits demoActs := by
  intro p u h
  have : p = demoStart := by simp [demoActs] at h; exact h.1
  subst this
  exact ⟨by rw [demoStart]; decide, by rw [demoStart]; decide⟩

/-- The result of the fit. -/
def demoResult : FitResult :=
  ⟨[.model "s1_".toList "Gaussian".toList, .model "b1_".toList "Constant".toList], [],
   [("s1_amplitude".toList, 2), ("s1_center".toList, 1), ("s1_sigma".toList, 2), ("b1_c".toList, 3)]⟩

theorem demo_s1 : signalPrefix 1 = "s1_".toList := by rw [signalPrefix, decStr, if_pos (by decide)]; decide

theorem demo_b1 : backgroundPrefix 1 = "b1_".toList := by rw [backgroundPrefix, decStr, if_pos (by decide)]; decide

/-- The fit before the fitting. -/
noncomputable def demoBefore : Fit1D :=
  ⟨demoPoints, [.model "s1_".toList "Gaussian".toList], [.model "b1_".toList "Constant".toList], 2, 1⟩

theorem demo_before : ((newFit demoPoints).acts demoLmfit Fit1D.step Fit1D.fitView (demoActs.take 3)).base = demoBefore := by
  rw [acts_base]
  show ((((Fit1D.mk demoPoints [] [] 0 0).addSignal "Gaussian".toList).1.addBackground "Constant".toList).1.addSignal "Nothing".toList).1 = _
  have h1 : (Fit1D.mk demoPoints [] [] 0 0).addSignal "Gaussian".toList = (Fit1D.mk demoPoints [.model "s1_".toList "Gaussian".toList] [] 1 0, none) := by
    rw [Fit1D.addSignal]; dsimp only
    rw [Nat.zero_add, demo_s1, buildShape, if_pos (by decide)]; rfl
  have h2 : (Fit1D.mk demoPoints [.model "s1_".toList "Gaussian".toList] [] 1 0).addBackground "Constant".toList =
      (Fit1D.mk demoPoints [.model "s1_".toList "Gaussian".toList] [.model "b1_".toList "Constant".toList] 1 1, none) := by
    rw [Fit1D.addBackground]; dsimp only
    rw [Nat.zero_add, demo_b1, buildShape, if_pos (by decide)]; rfl
  rw [h1, h2, Fit1D.addSignal]; dsimp only
  rw [buildShape, if_neg (by decide), if_neg (by decide)]; rfl

theorem demo_fit : demoLmfit.fit demoBefore.fitView demoStart true = .ok demoResult := by
  rw [Lmfit.fit, composite_ok (by simp [Fit1D.fitView, demoBefore]) (by simp [Fit1D.fitView, demoBefore, Spec.AllModels]), py_bind_ok,
    if_pos]
  · show Except.ok (FitResult.mk _ _ _) = _
    rw [demoResult]
    congr 2
  · rfl

theorem demo_result : ((newFit demoPoints).acts demoLmfit Fit1D.step Fit1D.fitView demoActs).result = some demoResult :=
  (C93_result demoLmfit _ _ _ _ _).2 ⟨demoActs.take 3, demoStart, true, _, rfl, by
    rw [← demo_fit, ← demo_before]; rfl, fun mid p u rest h => by
    rcases mid with _ | ⟨a, _ | ⟨b, mid⟩⟩ <;> cases h⟩

theorem demo_s1_value (t : ℝ) :
    Spec.fitValue demoLmfit demoResult.params (some t) (.model "s1_".toList "Gaussian".toList) = some (gaussian t 2 1 2) := by
  show some (gaussian t ((lookupKey ("s1_".toList ++ "amplitude".toList) demoResult.params).getD 0)
    ((lookupKey ("s1_".toList ++ "center".toList) demoResult.params).getD 0)
    ((lookupKey ("s1_".toList ++ "sigma".toList) demoResult.params).getD 0)) = _
  rw [show lookupKey ("s1_".toList ++ "amplitude".toList) demoResult.params = some 2 from rfl,
    show lookupKey ("s1_".toList ++ "center".toList) demoResult.params = some 1 from rfl,
    show lookupKey ("s1_".toList ++ "sigma".toList) demoResult.params = some 2 from rfl]
  rfl

theorem demo_b1_value (t : ℝ) :
    Spec.fitValue demoLmfit demoResult.params (some t) (.model "b1_".toList "Constant".toList) = some 3 := by
  show some ((lookupKey ("b1_".toList ++ "c".toList) demoResult.params).getD 0) = _
  rw [show lookupKey ("b1_".toList ++ "c".toList) demoResult.params = some 3 from rfl]
  rfl

theorem demo_total (t : ℝ) : Spec.fitTotal demoLmfit demoResult.params demoResult.comps (some t) = some (gaussian t 2 1 2 + 3) := by
  show nadd (Spec.fitValue demoLmfit demoResult.params (some t) (.model "s1_".toList "Gaussian".toList))
    (nadd (Spec.fitValue demoLmfit demoResult.params (some t) (.model "b1_".toList "Constant".toList)) (some 0)) = _
  rw [demo_s1_value, demo_b1_value]
  simp [nadd]

/-- The curve drawn without points to draw it at: peak and background at the three points, not the background added later. -/
example : ((newFit demoPoints).acts demoLmfit Fit1D.step Fit1D.fitView demoActs).curve demoLmfit Fit1D.fitView none false =
    .ok ([some 0, some 1, some 2], [some (gaussian 0 2 1 2 + 3), some (gaussian 1 2 1 2 + 3), some (gaussian 2 2 1 2 + 3)]) := by
  rw [C93_curve_fitted _ _ _ demo_named none _ demo_result]
  have hb : ((newFit demoPoints).acts demoLmfit Fit1D.step Fit1D.fitView demoActs).base.data.x = [some 0, some 1, some 2] := by
    rw [acts_base]
    rfl
  rw [hb]
  simp only [Option.getD_none, List.map_cons, List.map_nil, demo_total]

/-- The resolution bar is at the centre of the peak, half of the peak above the background. -/
example : demoLmfit.barPos demoResult = .ok (1, some (gaussian 1 2 1 2 / 2 + 3)) := by
  rw [C93_bar _ _ _ demo_named _ "Gaussian".toList 1 demo_result (by rw [demoResult]; exact List.mem_cons_self) rfl, demo_s1_value]
  have : Spec.fitOthers demoLmfit demoResult.params demoResult.comps "s1_".toList (some 1) = some 3 := by
    show nadd (Spec.fitValue demoLmfit demoResult.params (some 1) (.model "b1_".toList "Constant".toList)) (some 0) = _
    rw [demo_b1_value, nadd_zero]
  rw [this]
  simp [nadd, ndiv]

/-- The components: two curves; with formats for three none. -/
example : ∃ a b, ((newFit demoPoints).acts demoLmfit Fit1D.step Fit1D.fitView demoActs).componentCurves demoLmfit Fit1D.fitView
    (some [some 1]) [("c".toList, ["C0".toList, "C1".toList])] = .ok [a, b] ∧ a.y = [some (gaussian 1 2 1 2)] ∧ b.y = [some 3] := by
  obtain ⟨qs, h1, h2, h3⟩ := (C93_components demoLmfit demoPoints demoActs demo_named (some [some 1])
    [("c".toList, ["C0".toList, "C1".toList])] (by simp) _ demo_result).1 (fun k vals h => by
      obtain ⟨-, rfl⟩ := Prod.mk.inj (List.mem_singleton.1 h); rfl)
  obtain ⟨a, b, rfl⟩ := List.length_eq_two.1 h2
  refine ⟨a, b, h1, ?_, ?_⟩
  · rw [(h3 0 _ a rfl rfl).2.1]
    show [Spec.fitValue demoLmfit demoResult.params (some 1) (.model "s1_".toList "Gaussian".toList)] = _
    rw [demo_s1_value]
  · rw [(h3 1 _ b rfl rfl).2.1]
    show [Spec.fitValue demoLmfit demoResult.params (some 1) (.model "b1_".toList "Constant".toList)] = _
    rw [demo_b1_value]

/-! ## With a resolution -/

/-- A peak, a background, a fit. -/
def demoConvActs : List FitAct :=
  [.op (.signal "Gaussian".toList), .op (.background "Constant".toList), .fit demoStart false]

theorem demo_conv_named : Spec.NamedFits demoConvActs := by
  intro p u h
  have : p = demoStart := by simp [demoConvActs] at h; exact h.1
  subst this
  exact ⟨by rw [demoStart]; decide, by rw [demoStart]; decide⟩

/-- The fit before the fitting. -/
noncomputable def demoConvBefore : ConvFit1D :=
  ⟨demoPoints, [(1, 1), (1, 1), (1, 1)], [.model "s1_".toList "conv_gaussian".toList], [.model "s1_".toList "Gaussian".toList],
   [.model "b1_".toList "conv_constant".toList], 1, 1⟩

/-- The fit, whatever was done up to now. -/
noncomputable def demoConv (as : List FitAct) : Fitting ConvFit1D :=
  (newConvFit demoPoints [(1, 1), (1, 1), (1, 1)]).acts demoLmfit ConvFit1D.step ConvFit1D.fitView as

theorem demo_conv_before : (demoConv (demoConvActs.take 2)).base = demoConvBefore := by
  rw [demoConv, acts_base]
  show (((ConvFit1D.mk demoPoints [(1, 1), (1, 1), (1, 1)] [] [] [] 0 0).addSignal "Gaussian".toList).1.addBackground "Constant".toList).1 = _
  rw [ConvFit1D.addSignal]; dsimp only
  rw [Nat.zero_add, demo_s1, if_pos rfl, ConvFit1D.addBackground]; dsimp only
  rw [Nat.zero_add, demo_b1, if_pos rfl]; rfl

theorem demo_conv_base : (demoConv demoConvActs).base = demoConvBefore := by
  rw [← demo_conv_before, demoConv, demoConv, acts_base, acts_base]; rfl

/-- The result of the fit. -/
noncomputable def demoConvResult : FitResult :=
  ⟨[.model "s1_".toList "conv_gaussian".toList, .model "b1_".toList "conv_constant".toList], [(1, 1), (1, 1), (1, 1)], demoResult.params⟩

theorem demo_conv_fit : demoLmfit.fit demoConvBefore.fitView demoStart false = .ok demoConvResult := by
  rw [Lmfit.fit, composite_ok (by simp [ConvFit1D.fitView, demoConvBefore]) (by simp [ConvFit1D.fitView, demoConvBefore, Spec.AllModels]),
    py_bind_ok, if_pos]
  · show Except.ok (FitResult.mk _ _ _) = _
    rw [demoConvResult, demoResult]
    congr 2
  · rfl

theorem demo_conv_result : (demoConv demoConvActs).result = some demoConvResult :=
  (C93_result demoLmfit _ _ _ _ _).2 ⟨demoConvActs.take 2, demoStart, false, [], rfl, by
    rw [← demo_conv_fit, ← demo_conv_before]; rfl, fun mid p u rest h => by cases mid <;> cases h⟩

/-- The guess has nothing for the background: neither a fit nor a curve comes of it. -/
example (pars : FitPars) (h : demoLmfit.guessAll (demoConv (demoConvActs.take 2)).base.data
    (demoConv (demoConvActs.take 2)).base.fitView.guessed = .ok pars) :
    lookupKey "b1_c".toList pars = none ∧ ∃ e, (demoConv (demoConvActs.take 2)).curve demoLmfit ConvFit1D.fitView none false = .error e := by
  obtain ⟨h1, -, h3⟩ := C93_conv_background demoLmfit demoPoints [(1, 1), (1, 1), (1, 1)] (demoConvActs.take 2) pars "b1_".toList
    "conv_constant".toList (by
      show _ ∈ (demoConv (demoConvActs.take 2)).base.backgrounds
      rw [demo_conv_before]; exact List.mem_cons_self) h
  exact ⟨h1, h3 rfl none false⟩

/-- There is such a guess. -/
example : ∃ pars, demoLmfit.guessAll (demoConv (demoConvActs.take 2)).base.data
    (demoConv (demoConvActs.take 2)).base.fitView.guessed = .ok pars := by
  rw [demo_conv_before]
  exact ⟨_, rfl⟩

/-- The deconvolved curve at 1 is the peak without the background of 3. -/
theorem demo_deconv : (demoConv demoConvActs).curve demoLmfit ConvFit1D.fitView (some [some 1]) true =
    .ok ([some 1], [some (gaussian 1 2 1 2)]) := by
  rw [Fitting.curve, Fitting.params, demo_conv_result]
  dsimp only
  rw [if_pos rfl, demo_conv_base]
  show (demoLmfit.evalSum demoConvBefore.rez [.model "s1_".toList "Gaussian".toList] demoResult.params [some 1]) >>=
    (fun y => .ok ([some 1], y)) = _
  rw [evalSum_ok demoLmfit _ ⟨by rw [demoResult]; decide, by rw [demoResult]; decide⟩ _ (by simp)
    (fun c hc => ⟨_, _, List.mem_singleton.1 hc, ⟨by decide, by decide⟩⟩)]
  · show Except.ok ([some 1], [nadd (Spec.fitValue demoLmfit demoResult.params (some 1) (.model "s1_".toList "Gaussian".toList)) (some 0)]) = _
    rw [demo_s1_value, nadd_zero]
  · intro p s h a ha
    obtain ⟨rfl, rfl⟩ := FitComp.model.inj (List.mem_singleton.1 h)
    have ha : a ∈ ["amplitude".toList, "center".toList, "sigma".toList] := ha
    rcases List.mem_cons.1 ha with rfl | ha
    · exact ⟨_, rfl⟩
    · rcases List.mem_cons.1 ha with rfl | ha
      · exact ⟨_, rfl⟩
      · obtain rfl := List.mem_singleton.1 ha
        exact ⟨_, rfl⟩

/-- What should have been drawn is higher by 3. -/
example : Spec.deconvTotal demoLmfit demoResult.params (demoConv demoConvActs).base (some 1) = some (gaussian 1 2 1 2 + 3) :=
  (C93_deconv_background demoLmfit demoPoints _ demoConvActs demo_conv_named (some [some 1]) demoConvResult _ _ "b1_".toList 3
    (by norm_num) demo_conv_result demo_deconv (by
      show Spec.prefixes (demoConv demoConvActs).base.backgrounds = _
      rw [demo_conv_base]; rfl) rfl 0 _ _ rfl rfl).1

/-- The curve of the fit has three points at most, there being three resolutions. -/
example (x : List Num) (h : x.length = 4) :
    (demoConv demoConvActs).curve demoLmfit ConvFit1D.fitView (some x) false = .error .indexError :=
  (C93_conv_curve demoLmfit demoPoints _ demoConvActs demo_conv_named (some x) _ demo_conv_result).2 (by
    rw [Option.getD_some, h]; simp)

end Tavi
