import Verif.Props.ScanDrawn
import Verif.Props.MeasurementDemo

/-!
# What is shown of the scans of the loading examples (cases for C94)
-/

namespace Tavi

open Spec

namespace Demo

/-- The points of the energy scan with their monitor counts. -/
noncomputable def energyPts : List Pt :=
  [⟨((-30007 / 10000 : ℚ) : ℝ), ((22 : ℤ) : ℝ), ((50 : ℚ) : ℝ)⟩, ⟨((-32501 / 10000 : ℚ) : ℝ), ((36 : ℤ) : ℝ), ((50 : ℚ) : ℝ)⟩]

theorem energy_loaded : ∃ (f : SpiceFile) (s : ScanObj), f.metadata = normalMeta ∧ columns f = normalCols ∧
    Loaded plainDate (fun _ => none) loadDisk loadDir "HB1A_exp0266_scan0027.dat".toList f "IPTS890_HB1A_exp266".toList (scanName 27) s := by
  obtain ⟨f, hf, hc, hm, d, hd⟩ := normal_loads
  obtain ⟨s, hs⟩ := demo_scan hf (.inl hm) hd (by rw [hc]; decide +kernel) (by decide) (scanName 27)
  exact ⟨f, _, hm, hc, loaded_of hf hd hs _⟩

theorem energy_header {f : SpiceFile} (hm : f.metadata = normalMeta) :
    NormalHeader f "en".toList "detector".toList "mcu".toList (((dec false "50".toList "000000".toList).value : ℚ) : ℝ) where
  abscissa := ⟨"e".toList, header_of hm (by decide), by decide⟩
  ordinate := header_of hm (by decide)
  type := header_of hm (by decide)
  channel := header_of hm (by decide)
  named := by decide
  value := ⟨_, dec_valid (by decide), rfl, rfl, header_of hm (by decide), rfl⟩

theorem energy_points {f : SpiceFile} (hm : f.metadata = normalMeta) (hc : columns f = normalCols) :
    FilePoints f "en".toList "detector".toList "mcu".toList energyPts := by
  have hn : Detectors ((columns f).map Prod.fst) 0 := by
    rw [hc]
    exact ⟨fun i h1 h2 => absurd (h1.trans h2) (by decide), by decide +kernel⟩
  have hp : ¬ Polarized f := by unfold Polarized header; rw [hm]; decide
  have h7 : toZero 22 = 22 := by decide +kernel
  have h6 : toZero 36 = 36 := by decide +kernel
  refine ⟨⟨0, "e".toList, false, [some (-30007 / 10000), some (-32501 / 10000)], hn, .renamed (by decide), by rw [hc]; decide +kernel,
      fun i hi => ?_, by simp [energyPts, shown]⟩,
    ⟨0, "detector".toList, true, [some 22, some 36], hn, .detector, by rw [hc]; decide +kernel, fun i hi => ?_,
      by simp [energyPts, shown, h7, h6]⟩,
    ⟨0, "mcu".toList, false, [some 50, some 50], hn, .mcu hp, by rw [hc]; decide +kernel, fun i hi => ?_, by simp [energyPts, shown]⟩⟩
  all_goals
    have := congrArg (fun l : Str => '_' ∈ l) hi
    simp [withNumber] at this

/-- The energy scan normalised to ten monitor units: drawn with the number of the scan in the legend and with its title. -/
example (fmt : Val → Str) : ∃ s : ScanObj, s.plot fmt id none none (some (10, "mcu".toList)) none none = .ok
    [.errorbar [some (-30007 / 10000), some (-32501 / 10000)] [some (22 / 5), some (36 / 5)]
        [some (√22 / 5), some (√36 / 5)]
        [("c".toList, "C0".toList), ("fmt".toList, "o".toList), ("label".toList, "#27 ".toList)],
      .title "T2110, focused".toList, .xlabel "en".toList,
      .ylabel ("detector / ".toList ++ fmt (.leaf (.num 10)) ++ " mcu".toList), .grid, .legend] := by
  obtain ⟨f, s, hm, hc, h⟩ := energy_loaded
  obtain ⟨r, hr, h1, h2, h3, h4⟩ := C94_normalised plainDate _ loadDisk loadDir _ f _ 27 s h _ _ _ _ (energy_header hm) fmt none none
    "mcu".toList 10 (by norm_num) energyPts (energy_points hm hc) (by simp [energyPts]) (by decide)
  refine ⟨s, ?_⟩
  have hcv : s.curves fmt none none (some (10, "mcu".toList)) none none = .ok [r] := by
    obtain ⟨i, hi, _, _, _, _, hp⟩ := normal_info h (energy_header hm)
    unfold ScanObj.curves
    rw [hi, py_bind_ok, hp, hr]
    rfl
  rw [C94_drawn fmt id s none none _ none none [r] r rfl hcv]
  refine congrArg Except.ok ?_
  have e2 : r.data.y = [some (22 / 5), some (36 / 5)] := by
    rw [h2]; norm_num [energyPts, ratio]
  have e3 : r.data.err = [some (√22 / 5), some (√36 / 5)] := by
    rw [h3]
    have : ∀ a : ℝ, a * 10 / 50 = a / 5 := fun a => by ring
    simp [energyPts, ratio, this]
  have e1 : r.data.x = [some (-30007 / 10000), some (-32501 / 10000)] := by
    rw [h1]; norm_num [energyPts]
  have e4 : r.label = "#27 ".toList := by
    rw [h4.label, show decStr (27 % 10000) = "27".toList by decide +kernel]; rfl
  have e5 : r.title = "T2110, focused".toList := by
    rw [h4.title, titleText, header_of hm (k := "scan_title".toList) (v := "T2110, focused".toList) (by decide)]
    rfl
  have e6 : r.ylabel = "detector / ".toList ++ fmt (.leaf (.num 10)) ++ " mcu".toList := by
    rw [h4.ylabel, perText]
    simp only [show ("mcu".toList = "time".toList) = False by simp, if_false, show ((10 : ℝ) = 1) = False by norm_num]
    exact List.append_assoc _ " ".toList "mcu".toList
  rw [List.zipIdx_singleton, List.map_cons, List.map_nil]
  dsimp only
  rw [e1, e2, e3, e4, e5]
  simp only [id, List.map_cons, List.map_nil, h4.xlabel, e6]
  have hd0 : ('C' :: decStr 0 : Str) = "C0".toList := by decide +kernel
  rw [hd0]
  rfl

/-- Asked for by a name with an underscore, an unpolarised scan shows nothing. -/
example (fmt : Val → Str) : ∃ s : ScanObj, (∃ l, lookupKey "Pt.".toList s.data = some l) ∧
    ∀ r, s.getData fmt none (some "tilt_x".toList) none none none ≠ .ok r := by
  obtain ⟨f, s, hm, hc, h⟩ := energy_loaded
  refine ⟨s, ⟨_, loaded_column (nm := "Pt.".toList) (l := shown true [some 1, some 2]) h
      ⟨0, _, true, [some 1, some 2], ⟨fun i h1 h2 => absurd (h1.trans h2) (by decide), by rw [hc]; decide +kernel⟩, .point,
        by rw [hc]; decide +kernel, fun i hi => ?_, rfl⟩⟩, fun r => ?_⟩
  · have := congrArg (fun l : Str => '_' ∈ l) hi
    simp [withNumber] at this
  · exact C94_underscore_fails plainDate _ loadDisk loadDir _ f _ 27 s h _ _ _ _ (energy_header hm) fmt none _ (by decide) none none
      none r

/-- The energy scan rebinned: one bin of half a unit about each point of the grid. -/
theorem energy_count : BinCount (-32501 / 10000) (-30007 / 10000) (2494 / 10000) 2 := by
  intro j
  constructor
  · intro hj
    interval_cases j <;> norm_num
  · intro hj
    by_contra hc
    have : (2 : ℝ) ≤ j := by exact_mod_cast not_lt.1 hc
    linarith

example (fmt : Val → Str) : ∃ (s : ScanObj) (r : LabelledData),
    s.getData fmt none none none (some (.num (2494 / 10000))) none = .ok r ∧
    r.data.x = (List.range 2).map (fun j : ℕ => some (-32501 / 10000 + (j : ℝ) * (2494 / 10000))) ∧ r.xlabel = "en".toList := by
  obtain ⟨f, s, hm, hc, h⟩ := energy_loaded
  obtain ⟨r, h1, h2, _, _, h3⟩ := C94_grid plainDate _ loadDisk loadDir _ f _ 27 s h _ _ _ _ (energy_header hm) fmt none none none
    (by simp) energyPts (energy_points hm hc) (by simp [energyPts]) (by decide) (.num (2494 / 10000))
    (by simp [RebinArg.truthy]) none ⟨none, none, some (2494 / 10000)⟩ (by norm_num [formatRebin, checkRebin]) (-32501 / 10000) (-30007 / 10000) (2494 / 10000) 2
    (by
      refine ⟨.inr ⟨rfl, ?_, ?_⟩, .inr ⟨rfl, ?_, ?_⟩, rfl, by norm_num, by norm_num⟩ <;> norm_num [energyPts]) energy_count
  exact ⟨s, r, h1, h2, h3.xlabel⟩

example (fmt : Val → Str) : ∃ (s : ScanObj) (r : LabelledData),
    s.getData fmt none none none none (some (.num (2494 / 10000))) = .ok r ∧ r.xlabel = "en".toList := by
  obtain ⟨f, s, hm, hc, h⟩ := energy_loaded
  obtain ⟨r, h1, h2, _, _, h3⟩ := C94_tolerance plainDate _ loadDisk loadDir _ f _ 27 s h _ _ _ _ (energy_header hm) fmt none none none
    (by simp) energyPts (energy_points hm hc) (by simp [energyPts]) (by decide) (.num (2494 / 10000))
    (by simp [RebinArg.truthy]) ⟨none, none, some (2494 / 10000)⟩ (by norm_num [formatRebin, checkRebin]) (-32501 / 10000) (-30007 / 10000) (2494 / 10000) 2
    (by
      refine ⟨.inr ⟨rfl, ?_, ?_⟩, .inr ⟨rfl, ?_, ?_⟩, rfl, by norm_num, by norm_num⟩ <;> norm_num [energyPts]) energy_count
  exact ⟨s, r, h1, h3.xlabel⟩

/-- The scan combined with itself. -/
example (fmt : Val → Str) : ∃ (s : ScanObj) (r : LabelledData),
    combineObjs fmt [s, s] "en".toList "detector".toList none none none = .ok r ∧
    r.data.y = [some 22, some 36, some 22, some 36] ∧ r.title = "Combined scans: 27 27 ".toList := by
  obtain ⟨f, s, hm, hc, h⟩ := energy_loaded
  obtain ⟨r, h1, _, h2, _, h3⟩ := C94_group fmt [⟨s, f, 27, energyPts⟩, ⟨s, f, 27, energyPts⟩] (by simp) "en".toList "detector".toList
    "mcu".toList _ none (by
      intro g hg
      obtain rfl : g = ⟨s, f, 27, energyPts⟩ := by simpa using hg
      exact ⟨⟨_, _, _, _, _, _, h⟩, ⟨_, _, energy_header hm⟩, energy_points hm hc⟩) (by
      intro g hg
      obtain rfl : g = ⟨s, f, 27, energyPts⟩ := by simpa using hg
      simp [energyPts])
  refine ⟨s, r, h1, ?_, ?_⟩
  · rw [(h2 rfl).1]; simp [energyPts]
  · exact h3.title.trans (show membersTitle [⟨s, f, 27, energyPts⟩, ⟨s, f, 27, energyPts⟩] = "Combined scans: 27 27 ".toList by
      have hd : decStr 27 = "27".toList := by decide +kernel
      show "Combined scans: ".toList ++ (decStr 27 ++ " ".toList ++ (decStr 27 ++ " ".toList ++ [])) = _
      rw [hd]
      decide +kernel)

/-! ## The polarised scan -/

/-- The points of the two detectors with their channels. -/
noncomputable def polarPts : ℕ → List Pt
  | 0 => [⟨((-7 / 2 : ℚ) : ℝ), ((22 : ℤ) : ℝ), ((5 : ℚ) : ℝ)⟩, ⟨((-9 / 2 : ℚ) : ℝ), ((36 : ℤ) : ℝ), ((5 : ℚ) : ℝ)⟩]
  | _ => [⟨((-7 / 2 : ℚ) : ℝ), ((7 : ℤ) : ℝ), ((3 : ℚ) : ℝ)⟩, ⟨((-9 / 2 : ℚ) : ℝ), ((6 : ℤ) : ℝ), ((3 : ℚ) : ℝ)⟩]

/-- The two states of the polarised scan are drawn as two curves, each per its own channel; axis and normalisation of the caller
make no difference. -/
example (fmt : Val → Str) : ∃ (s : ScanObj) (a b : LabelledData),
    s.curves fmt (some "h".toList) none (some (1, "time".toList)) none none = .ok [a, b] ∧
    s.curves fmt none none none none none = .ok [a, b] ∧
    a.data.y = [some 22, some 36] ∧ b.data.y = [some 7, some 6] ∧ a.xlabel = "en".toList ∧
    a.label = "#28 Px NSF".toList ∧ b.label = "#28 Px SF".toList := by
  obtain ⟨f, hf, hc, hm, d, hd⟩ := polar_loads
  obtain ⟨s, hs⟩ := demo_scan hf (.inr hm) hd (by rw [hc]; decide +kernel) (by decide) (scanName 28)
  have hp : Polarized f := by unfold Polarized header; rw [hm]; decide
  have hn : Detectors ((columns f).map Prod.fst) 2 := by
    rw [hc]
    exact ⟨fun i h1 h2 => by interval_cases i <;> decide +kernel, by decide +kernel⟩
  have hd : CountHeader f "en".toList ["mcu_1".toList, "time_2".toList] [5, 3] ["Px NSF".toList, "Px SF".toList] :=
    ⟨⟨"e".toList, header_of hm (by decide), by decide⟩, by rw [header_of hm (v := "detector".toList) (by decide)]; rfl, hp,
      by rw [hm]; rfl, by rw [hm]; rfl, by rw [hm]; rfl, by decide⟩
  have hnd : "detector".toList ∉ (columns f).map Prod.fst := by rw [hc]; decide +kernel
  have z1 : toZero 22 = 22 := by decide +kernel
  have z2 : toZero 36 = 36 := by decide +kernel
  have z3 : toZero 7 = 7 := by decide +kernel
  have z4 : toZero 6 = 6 := by decide +kernel
  obtain ⟨l, hl, hlen, hall⟩ := C94_polarised plainDate _ loadDisk loadDir _ f [] 28 _ (loaded_of hf ‹_› hs []) _ _ _ _ hd 2 hn fmt
    (fun k => if k = 0 then "mcu_1".toList else "time_2".toList) (fun k => if k = 0 then "Px NSF".toList else "Px SF".toList)
    (fun k => if k = 0 then 5 else 3) polarPts (by
      have hx : FileNums f "en".toList (shown false [some (-7 / 2), some (-9 / 2)]) :=
        ⟨2, "e".toList, false, [some (-7 / 2), some (-9 / 2)], hn, .renamed (by decide), by rw [hc]; decide +kernel, fun _ _ => hnd, rfl⟩
      intro k hk
      interval_cases k
      · refine ⟨rfl, rfl, by norm_num, rfl, by decide, ⟨?_, ?_, ?_⟩, by simp [polarPts]⟩
        · simpa [polarPts, shown, FileColumn] using hx
        · exact ⟨2, _, true, [some 22, some 36], hn, .detectors (by decide) (by decide), by rw [hc]; decide +kernel, fun _ _ => hnd,
            by simp [polarPts, shown, z1, z2]⟩
        · rw [if_pos rfl, show "mcu_1".toList = withNumber "mcu".toList 1 by decide +kernel]
          exact ⟨2, _, false, [some 5, some 5], hn, .mcus (i := 1) hp (by decide) (by decide), by rw [hc]; decide +kernel, fun _ _ => hnd,
            by simp [polarPts, shown]⟩
      · refine ⟨rfl, rfl, by norm_num, rfl, by decide, ⟨?_, ?_, ?_⟩, by simp [polarPts]⟩
        · simpa [polarPts, shown, FileColumn] using hx
        · exact ⟨2, _, true, [some 7, some 6], hn, .detectors (by decide) (by decide), by rw [hc]; decide +kernel, fun _ _ => hnd,
            by simp [polarPts, shown, z3, z4]⟩
        · rw [if_neg (by decide), show "time_2".toList = withNumber "time".toList 2 by decide +kernel]
          exact ⟨2, _, false, [some 3, some 3], hn, .times (i := 2) hp (by decide) (by decide), by rw [hc]; decide +kernel, fun _ _ => hnd,
            by simp [polarPts, shown]⟩) none none
  obtain ⟨a, b, rfl⟩ : ∃ a b, l = [a, b] := List.length_eq_two.1 hlen
  obtain ⟨_, a2, _, a4⟩ := hall 0 a rfl
  obtain ⟨_, b2, _, b4⟩ := hall 1 b rfl
  refine ⟨_, a, b, ?_, hl, ?_, ?_, a4.xlabel, ?_, ?_⟩
  · rw [C94_abscissa_ignored plainDate _ loadDisk loadDir _ f [] 28 _ (loaded_of hf ‹_› hs []) _ _ _ _ hd 2 hn fmt]
    exact hl
  · rw [a2]; norm_num [polarPts, ratio]
  · rw [b2]; norm_num [polarPts, ratio]
  · rw [a4.label, show decStr (28 % 10000) = "28".toList by decide +kernel]; rfl
  · rw [b4.label, show decStr (28 % 10000) = "28".toList by decide +kernel]; rfl

end Demo

end Tavi
