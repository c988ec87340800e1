import Verif.Props.FitScan
import Verif.Props.FitDemo
import Verif.Props.ScanPlotDemo

/-!
# A fit of the energy scan of the loading examples (a case for C96)
-/

namespace Tavi

open Spec

namespace Demo

/-- The energy scan, restricted to energies above -3.1 when the fit is made: the point at -3.0007 with 22 counts is left, and the
fit of a peak on a background works on it. -/
example (fmt : Val → Str) : ∃ (s : ScanObj) (r : LabelledData) (f0 : Fit1D), s.getData fmt none none none none none = .ok r ∧
    Fit1D.init r.data (.one "Gaussian".toList) (.tuple ["Constant".toList]) (some (-31 / 10, 0)) = .ok f0 ∧
    f0.data = ⟨[some (-30007 / 10000)], [some 22], some [some √22]⟩ ∧
    ((⟨f0, none⟩ : Fitting Fit1D).acts demoLmfit Fit1D.step Fit1D.fitView [.fit demoStart true]).result ≠ none := by
  obtain ⟨f, s, hm, hc, h⟩ := energy_loaded
  obtain ⟨hx, hy, -⟩ := energy_points hm hc
  obtain ⟨r, hr, hs⟩ := (C96_scan plainDate _ loadDisk loadDir _ f _ 27 s h _ _ _ _ (energy_header hm) fmt none none (by decide)).1
    _ _ hx hy (by simp) (by simp [energyPts])
  obtain ⟨h1, h2⟩ := C96_init r.data _ hs (.one "Gaussian".toList) (.tuple ["Constant".toList]) (some (-31 / 10, 0))
  obtain ⟨f0, hf0⟩ := h2.2 ⟨_, _, rfl, rfl, by decide⟩
  refine ⟨s, r, f0, hr, hf0, ?_, ?_⟩
  · obtain ⟨ss, bs, n1, n2, hof⟩ := h1 f0 hf0
    obtain rfl : ss = _ := n1
    obtain rfl : bs = _ := n2
    rw [hof.data]
    have hrg : rangesOf (initOps (some (-31 / 10, 0)) ["Gaussian".toList] ["Constant".toList]) = [(-31 / 10, 0)] := by
      simp [rangesOf, initOps]
    have hsel : selected [(-31 / 10, 0)] (countRows (energyPts.map (·.x)) (energyPts.map (·.y))) =
        [⟨some (-30007 / 10000), some 22, some √22⟩] := by
      simp only [selected, countRows, energyPts, List.map_cons, List.map_nil, List.zipWith_cons_cons, List.zipWith_nil_left,
        List.filter_cons, List.filter_nil, List.mem_singleton, forall_eq, Inside]
      norm_num
    rw [hrg, hsel]
    rfl
  · obtain ⟨ss, bs, n1, n2, hof⟩ := h1 f0 hf0
    obtain rfl : ss = _ := n1
    obtain rfl : bs = _ := n2
    intro hn
    have e1 : f0.signals = [.model "s1_".toList "Gaussian".toList] := by
      rw [hof.signals, show signalsOf (initOps (some (-31 / 10, 0)) ["Gaussian".toList] ["Constant".toList]) = ["Gaussian".toList] by
        simp [signalsOf, initOps]]
      decide +kernel
    have e2 : f0.backgrounds = [.model "b1_".toList "Constant".toList] := by
      rw [hof.backgrounds, show backgroundsOf (initOps (some (-31 / 10, 0)) ["Gaussian".toList] ["Constant".toList]) =
        ["Constant".toList] by simp [backgroundsOf, initOps]]
      decide +kernel
    have hfit : ∃ res, demoLmfit.fit f0.fitView demoStart true = .ok res := by
      refine ⟨_, (C93_fit _ _ _ _ _).2 ⟨?_, ?_, ?_, true, _, rfl, fun _ => rfl, rfl⟩⟩
      · rw [Fit1D.fitView, e1]; simp
      · intro c hc
        rw [Fit1D.fitView, e1, e2] at hc
        simp only [List.mem_append, List.mem_singleton] at hc
        rcases hc with rfl | rfl <;> exact ⟨_, _, rfl⟩
      · intro p sh hc a ha
        rw [Fit1D.fitView, e1, e2] at hc
        simp only [List.mem_append, List.mem_singleton] at hc
        rcases hc with hc | hc
        · obtain ⟨rfl, rfl⟩ := FitComp.model.inj hc
          rw [argsOf_eq _ ⟨by decide, by decide⟩] at ha
          have : a ∈ ["amplitude".toList, "center".toList, "sigma".toList] := ha
          simp only [List.mem_cons, List.not_mem_nil, or_false] at this
          rcases this with rfl | rfl | rfl
          · exact ⟨1, by rw [demoStart]; rfl⟩
          · exact ⟨1, by rw [demoStart]; rfl⟩
          · exact ⟨1, by rw [demoStart]; rfl⟩
        · obtain ⟨rfl, rfl⟩ := FitComp.model.inj hc
          rw [argsOf_eq _ ⟨by decide, by decide⟩] at ha
          have : a ∈ ["c".toList] := ha
          obtain rfl := List.mem_singleton.1 this
          exact ⟨1, by rw [demoStart]; rfl⟩
    obtain ⟨res, hres⟩ := hfit
    change (Fitting.fit demoLmfit Fit1D.fitView ⟨f0, none⟩ demoStart true).1.result = none at hn
    rw [Fitting.fit, hres] at hn
    cases hn

end Demo

end Tavi
