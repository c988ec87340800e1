import Verif.Props.ScanNumber
import Verif.Props.MeasurementDemo

/-!
# A scan written to a NeXus file (cases for C82)
-/

namespace Tavi

open Spec

namespace Demo

/-- Four points, as many as there are collimators. -/
def fourLines : List Str :=
  headerLines ++ ["# preset_type = normal\n", "# preset_channel = mcu\n", "# preset_value = 50.000000\n", "# col_headers =\n",
    "#   Pt.  e  detector\n", "   1  -3.5  22\n", "   2  -4.5  36\n", "   3  -5.5  37\n", "   4  -6.5  38\n"].map String.toList

/-- The disk with the scan. -/
def fourDisk : FS := fun p =>
  if p = ["exp".toList] ∨ p = ["exp".toList, "Datafiles".toList] then some .folder
  else if p = ["exp".toList, "Datafiles".toList, "HB1A_exp0266_scan0034.dat".toList] then some (.file fourLines)
  else none

theorem four_no_ub (p : List Str) : fourDisk ("exp".toList :: "UBConf".toList :: p) = none := by
  unfold fourDisk
  have h1 : ∀ q : List Str, ("exp".toList :: "UBConf".toList :: p : List Str) ≠ "exp".toList :: "Datafiles".toList :: q := by
    intro q h
    have := (List.cons.inj (List.cons.inj h).2).1
    exact absurd this (by decide)
  rw [if_neg, if_neg (h1 _)]
  rintro (h | h)
  · exact absurd (List.cons.inj h).2 (by simp)
  · exact h1 [] h

/-- The columns of the scan with four points. -/
def fourCols : List (Str × List (Option ℚ)) :=
  [("Pt.".toList, [some 1, some 2, some 3, some 4]), ("e".toList, [some (-7 / 2), some (-9 / 2), some (-11 / 2), some (-13 / 2)]),
    ("detector".toList, [some 22, some 36, some 37, some 38])]

theorem four_loaded : ∃ (f : SpiceFile) (s : ScanObj), f.metadata = normalMeta ∧ columns f = fourCols ∧
    Loaded plainDate (fun _ => none) fourDisk loadDir "HB1A_exp0266_scan0034.dat".toList f "IPTS890_HB1A_exp266".toList (scanName 34) s := by
  obtain ⟨f, hf, hc, hm, d, hd⟩ := loads (disk := fourDisk) (name := "HB1A_exp0266_scan0034.dat".toList) (lines := fourLines)
    (cols := fourCols) (md := normalMeta)
    (by rw [fourDisk, if_neg (by decide +kernel), if_pos (by decide +kernel)]) (by decide +kernel) four_no_ub
    (by decide +kernel) (by decide +kernel)
  obtain ⟨s, hs⟩ := bare_scan hf (by rw [hm]; decide) hd (by rw [hc]; decide +kernel) (by decide) (scanName 34)
  exact ⟨f, _, hm, hc, loaded_of hf hd hs _⟩

theorem four_plain {f : SpiceFile} (hc : columns f = fourCols) : ∀ c ∈ (columns f).map Prod.fst, Plain c := by
  rw [hc]; decide +kernel

theorem four_abscissa (f : SpiceFile) : PlotColumn f ((lookupKey "e".toList renamed).getD "e".toList) :=
  ⟨by decide, by decide, fun _ _ => ⟨"e".toList, false, .renamed (by decide)⟩⟩

theorem four_ordinate (f : SpiceFile) : PlotColumn f "detector".toList :=
  ⟨by decide, by decide, fun _ _ => ⟨"detector".toList, true, .detector⟩⟩

/-- The scan read back has the same energies and reports the same. -/
example : ∃ (s s' : ScanObj) (f' : NxFile) (i : ScanInfo), scanFromNexus f' none = .ok s' ∧
    lookupKey "en".toList s'.data = lookupKey "en".toList s.data ∧ scanInfo s = .ok i ∧ scanInfo s' = .ok i := by
  obtain ⟨f, s, hm, hc, h⟩ := four_loaded
  obtain ⟨d, f', s', _, _, h3, _, h5, _, h7, _⟩ := C82_round_trip plainDate _ fourDisk loadDir _ f _ _ s h (by decide)
    (four_plain hc) "e".toList "detector".toList (header_of hm (by decide)) (header_of hm (by decide)) (by decide)
    (four_abscissa f) (four_ordinate f)
  obtain ⟨i, h1, _⟩ := C77_normal plainDate _ fourDisk loadDir _ f _ 34 s h "e".toList "detector".toList
    (header_of hm (by decide)) (header_of hm (by decide)) (header_of hm (by decide)) _ (by
      rw [header_of hm (k := "preset_value".toList) (v := (dec false "50".toList "000000".toList).text) (by decide)]
      exact .number (dec_valid (by decide)) rfl rfl)
  exact ⟨s, s', f', i, h3, h5 _ (by decide) (by decide), h1, h7.trans h1⟩

/-- Asked for by its number it reports nothing. -/
example : ∃ (s s' : ScanObj) (f' : NxFile) (i : ScanInfo), scanFromNexus f' (some 34) = .ok s' ∧
    scanInfo s = .ok i ∧ scanInfo s' = .error .keyError := by
  obtain ⟨f, s, hm, hc, h⟩ := four_loaded
  obtain ⟨d, f', s', _, _, h3, _, _, _, h7⟩ := C82_by_number plainDate _ fourDisk loadDir _ f _ 34 s h
    (four_plain hc) "e".toList "detector".toList (header_of hm (by decide)) (header_of hm (by decide)) (by decide)
    (four_abscissa f) (four_ordinate f)
  obtain ⟨i, h1, _⟩ := C77_normal plainDate _ fourDisk loadDir _ f _ 34 s h "e".toList "detector".toList
    (header_of hm (by decide)) (header_of hm (by decide)) (header_of hm (by decide)) _ (by
      rw [header_of hm (k := "preset_value".toList) (v := (dec false "50".toList "000000".toList).text) (by decide)]
      exact .number (dec_valid (by decide)) rfl rfl)
  exact ⟨s, s', f', i, h3, h1, h7 ⟨i, h1⟩⟩

/-- The collimation has become a column. -/
example : ∃ (s s' : ScanObj) (f' : NxFile), scanFromNexus f' none = .ok s' ∧ lookupKey "divergence_x".toList s.data = none ∧
    lookupKey "divergence_x".toList s'.data = some (some (.leaf (.fin (collNumerals.map fun n => (n.value : ℝ))))) := by
  obtain ⟨f, s, hm, hc, h⟩ := four_loaded
  obtain ⟨d, f', s', _, _, h3, _, h5, h6⟩ := C82_extra_column plainDate _ fourDisk loadDir _ f _ _ s h (by decide)
    (four_plain hc) "e".toList "detector".toList (header_of hm (by decide)) (header_of hm (by decide)) (by decide)
    (four_abscissa f) (four_ordinate f)
  obtain ⟨i, h1, h2, _, h4, _, h7⟩ := C77_instrument plainDate _ fourDisk loadDir _ f _ _ s h "+-+".toList (header_of hm (by decide))
    collNumerals (collNumerals.map Numeral.text) (by decide) coll_valid (trims (by decide +kernel)) (header_of hm (by decide))
  refine ⟨s, s', f', h3, h5, h6 _ ?_ [some 1, some 2, some 3, some 4] (by rw [hc]; decide +kernel) (by simp [collNumerals])⟩
  rw [instrumentInfo] at h1
  obtain ⟨_, _, h1⟩ := py_bind_eq_ok.1 h1
  obtain ⟨_, _, h1⟩ := py_bind_eq_ok.1 h1
  obtain ⟨_, _, h1⟩ := py_bind_eq_ok.1 h1
  obtain ⟨_, _, h1⟩ := py_bind_eq_ok.1 h1
  obtain ⟨_, _, h1⟩ := py_bind_eq_ok.1 h1
  obtain ⟨_, _, h1⟩ := py_bind_eq_ok.1 h1
  obtain ⟨_, _, h1⟩ := py_bind_eq_ok.1 h1
  obtain ⟨_, _, h1⟩ := py_bind_eq_ok.1 h1
  obtain ⟨c, hcol, h1⟩ := py_bind_eq_ok.1 h1
  obtain rfl := Except.ok.inj h1
  rw [hcol]
  exact congrArg Except.ok h7

end Demo

end Tavi
