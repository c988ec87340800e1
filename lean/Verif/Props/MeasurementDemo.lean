import Verif.Props.Measurement

/-!
# What the scans of the loading examples report (cases for C76 and C77)
-/

namespace Tavi

open Spec

namespace Demo

/-- A decimal number. -/
def dec (neg : Bool) (ip fp : Str) : Numeral := ⟨if neg then some true else none, ip, some fp, none, false⟩

theorem dec_valid {neg : Bool} {ip fp : Str} (h : (ip.all isDigit && fp.all isDigit && !ip.isEmpty) = true) : (dec neg ip fp).Valid := by
  simp only [Bool.and_eq_true, Bool.not_eq_true'] at h
  refine ⟨h.1.1, fun f hf => ?_, .inl (fun he => ?_), fun s d he => ?_⟩
  · obtain rfl := Option.some.inj hf
    exact h.1.2
  · have : ip = [] := he
    rw [this] at h
    exact absurd h.2 (by simp)
  · exact absurd (show (none : Option (Option Bool × Str)) = some (s, d) from he) (by simp)

theorem decs_valid {l : List (Bool × Str × Str)}
    (h : (l.all fun t => t.2.1.all isDigit && t.2.2.all isDigit && !t.2.1.isEmpty) = true) :
    ∀ n ∈ l.map fun t => dec t.1 t.2.1 t.2.2, n.Valid := by
  intro n hn
  obtain ⟨t, ht, rfl⟩ := List.mem_map.1 hn
  exact dec_valid (List.all_eq_true.1 h t ht)

/-- Numerals as they are. -/
theorem trims {ns : List Numeral} (h : (ns.all fun n => decide (strip n.text = n.text)) = true) :
    List.Forall₂ (fun s (n : Numeral) => Trim s n.text) (ns.map Numeral.text) ns := by
  rw [List.forall₂_map_left_iff]
  refine List.forall₂_same.2 fun n hn => ?_
  rw [trim_iff]
  simpa using List.all_eq_true.1 h n hn

/-- The UB matrix of the header. -/
def ubNumerals : List Numeral :=
  [(false, "0", "345665"), (false, "0", "015659"), (true, "0", "001051"), (true, "0", "015693"), (false, "0", "345190"),
   (true, "0", "018109"), (false, "0", "000229"), (false, "0", "018138"), (false, "0", "345545")].map
    fun t : Bool × String × String => dec t.1 t.2.1.toList t.2.2.toList

/-- The lattice constants of the header. -/
def cellNumerals : List Numeral :=
  [dec false "2".toList "890000".toList, dec false "2".toList "890000".toList, dec false "2".toList "890000".toList,
   dec false "90".toList "000000".toList, dec false "90".toList "000000".toList, dec false "90".toList "000000".toList]

/-- The normal of the scattering plane. -/
def normalNumerals : List Numeral :=
  [dec true "0".toList "003037".toList, dec true "0".toList "052334".toList, dec false "0".toList "998625".toList]

/-- The collimation of the header. -/
def collNumerals : List Numeral :=
  ["48".toList, "48".toList, "40".toList, "68".toList].map fun s => ⟨none, s, none, none, false⟩

theorem normal_valid : ∀ n ∈ normalNumerals, n.Valid := by
  intro n hn
  simp only [normalNumerals, List.mem_cons, List.not_mem_nil, or_false] at hn
  rcases hn with rfl | rfl | rfl <;> exact dec_valid (by decide)

theorem cell_valid : ∀ n ∈ cellNumerals, n.Valid := by
  intro n hn
  simp only [cellNumerals, List.mem_cons, List.not_mem_nil, or_false] at hn
  rcases hn with rfl | rfl | rfl | rfl | rfl | rfl <;> exact dec_valid (by decide)

theorem ub_valid : ∀ n ∈ ubNumerals, n.Valid := by
  intro n hn
  simp only [ubNumerals, List.mem_cons, List.map_cons, List.map_nil, List.not_mem_nil, or_false] at hn
  rcases hn with rfl | rfl | rfl | rfl | rfl | rfl | rfl | rfl | rfl <;> exact dec_valid (by decide)

theorem coll_valid : ∀ n ∈ collNumerals, n.Valid ∧ n.sign = none ∧ n.exp = none := by
  intro n hn
  simp only [collNumerals, List.mem_cons, List.map_cons, List.map_nil, List.not_mem_nil, or_false] at hn
  rcases hn with rfl | rfl | rfl | rfl <;>
    exact ⟨⟨by unfold Digits; decide, fun f hf => absurd (show none = some f from hf) (by simp), .inl (by decide),
      fun s d hd => absurd (show none = some (s, d) from hd) (by simp)⟩, rfl, rfl⟩

/-- A scan of a file that could be loaded. -/
theorem loaded_of {iso : Str → Py Str} {xml : List Str → Option Str} {fs : FS} {dir : List Str} {file : Str} {f : SpiceFile}
    {d : Dict} {sn : Str} {s : ScanObj} (hf : readSpiceDatafile fs (dir ++ [file]) = .ok f) (hd : fileToNx iso xml fs dir file = .ok d)
    (hs : newScan ["divergence_x".toList] sn d = .ok s) (ds : Str) :
    Loaded iso xml fs dir file f ds sn { s with entry := setDatasetName s.entry ds } := by
  refine ⟨hf, d, hd, ?_⟩
  obtain ⟨logs, p, h1, hp, rfl, hmd⟩ := fileToNx_inv hf hd
  rw [hp.newScan_named, hs]; rfl

/-- A header entry of a file. -/
theorem header_of {f : SpiceFile} {md : List (Str × MetaVal)} (hm : f.metadata = md) {k v : Str} (h : textOf md k = some v) :
    header f k = some v := by
  rw [header, hm]; exact h

/-- The loaded energy scan. -/
theorem normal_loaded : ∃ (f : SpiceFile) (s : ScanObj), f.metadata = normalMeta ∧
    Loaded plainDate (fun _ => none) loadDisk loadDir "HB1A_exp0266_scan0027.dat".toList f "IPTS890_HB1A_exp266".toList (scanName 27) s := by
  obtain ⟨f, hf, hc, hm, d, hd⟩ := normal_loads
  obtain ⟨s, hs⟩ := demo_scan hf (.inl hm) hd (by rw [hc]; decide +kernel) (by decide) (scanName 27)
  exact ⟨f, _, hm, loaded_of hf hd hs _⟩

/-- The energy scan counts up to fifty monitor units; the energy transfer goes by its NeXus name. -/
example : ∃ (s : ScanObj) (i : ScanInfo), scanInfo s = .ok i ∧ i.scanNum = 27 ∧
    i.preset = .normal (some (.leaf (.str "mcu".toList))) (some (.leaf (.num (((dec false "50".toList "000000".toList).value : ℚ) : ℝ)))) ∧
    i.defX = .leaf (.str "en".toList) ∧ i.start = some (.leaf (.str "9/28/2008 3:09:49 PM".toList)) := by
  obtain ⟨f, s, hm, h⟩ := normal_loaded
  obtain ⟨i, h1, h2, h3, h4, h5⟩ := C77_normal plainDate _ loadDisk loadDir _ f _ 27 s h "e".toList "detector".toList
    (header_of hm (by decide)) (header_of hm (by decide)) (header_of hm (by decide)) _ (by
      rw [header_of hm (k := "preset_value".toList) (v := (dec false "50".toList "000000".toList).text) (by decide)]
      exact .number (dec_valid (by decide)) rfl rfl)
  refine ⟨s, i, h1, h3, ?_, ?_, ?_⟩
  · rw [h5, header_of hm (k := "preset_channel".toList) (v := "mcu".toList) (by decide)]; rfl
  · rw [h2.abscissa "e".toList (header_of hm (by decide))]; rfl
  · obtain ⟨r, hr, hs⟩ := h2.start "9/28/2008".toList "3:09:49 PM".toList (header_of hm (by decide)) (header_of hm (by decide))
    rw [hs, ← Except.ok.inj hr]
    exact congrArg (fun t => some (Val.leaf (.str t))) (by decide)

theorem ub_det : (rowMajor ubNumerals).det ≠ 0 := by
  have hv : ubNumerals.map Numeral.value = [345665 / 1000000, 15659 / 1000000, -1051 / 1000000, -15693 / 1000000, 345190 / 1000000,
      -18109 / 1000000, 229 / 1000000, 18138 / 1000000, 345545 / 1000000] := by decide +kernel
  have hr : ubNumerals.map (fun n => (n.value : ℝ)) = (ubNumerals.map Numeral.value).map fun q : ℚ => (q : ℝ) := by
    rw [List.map_map]; rfl
  have hM : rowMajor ubNumerals = !![345665 / 1000000, 15659 / 1000000, -1051 / 1000000; -15693 / 1000000, 345190 / 1000000,
      -18109 / 1000000; 229 / 1000000, 18138 / 1000000, 345545 / 1000000] := by
    ext i j
    rw [rowMajor, hr, hv]
    fin_cases i <;> fin_cases j <;> norm_num
  rw [hM, Matrix.det_fin_three]
  simp only [Matrix.of_apply, Matrix.cons_val', Matrix.cons_val_zero, Matrix.cons_val_one, Matrix.cons_val_two,
    Matrix.head_cons, Matrix.tail_cons]
  norm_num

/-- The crystal of the energy scan. -/
example : ∃ (s : ScanObj) (i : SampleUBInfo), sampleUbInfo s = .ok i ∧ i.name = some (.leaf (.str "Tb5Ge4 sc".toList)) ∧
    i.ub = rowMajor ubNumerals ∧ i.lattice = some (.leaf (.fin (cellNumerals.map fun n => (n.value : ℝ)))) ∧ i.uv.isSome := by
  obtain ⟨f, s, hm, h⟩ := normal_loaded
  obtain ⟨i, h1, h2, _, h4, _, _, _, h7, h8, _⟩ := C77_sample plainDate _ loadDisk loadDir _ f _ _ s h
    (some (.leaf (.fin (cellNumerals.map fun n => (n.value : ℝ)))))
    (some (.leaf (.num ((dec false "30".toList "000000".toList).value : ℝ))))
    (some (.leaf (.fin (normalNumerals.map fun n => (n.value : ℝ))))) (by
      rw [header_of hm (k := "latticeconstants".toList) (v := joinStr ",".toList (cellNumerals.map Numeral.text)) (by decide)]
      exact .vector (by decide) cell_valid (trims (by decide +kernel))) (by
      rw [header_of hm (k := "samplemosaic".toList) (v := (dec false "30".toList "000000".toList).text) (by decide)]
      exact .number (dec_valid (by decide)) rfl rfl) (by
      rw [header_of hm (k := "plane_normal".toList) (v := joinStr ",".toList (normalNumerals.map Numeral.text)) (by decide)]
      exact .vector (by decide) normal_valid (trims (by decide +kernel))) ubNumerals (ubNumerals.map Numeral.text) (by decide)
    ub_valid (trims (by decide +kernel)) (header_of hm (by decide)) ub_det
  refine ⟨s, i, h1, ?_, h7, h4, ?_⟩
  · rw [h2, header_of hm (k := "samplename".toList) (v := "Tb5Ge4 sc".toList) (by decide)]; rfl
  · obtain ⟨u, v, e, _⟩ := h8 (header_of hm (by decide))
    rw [e]; rfl

/-- The spectrometer of the energy scan. -/
example : ∃ (s : ScanObj) (i : InstrumentInfo), instrumentInfo s = .ok i ∧ i.mono = some (.leaf (.str "PG002".toList)) ∧
    i.sense = "+-+".toList ∧ i.collimation = some (.leaf (.fin (collNumerals.map fun n => (n.value : ℝ)))) ∧
    i.name ≠ "HB1A".toList := by
  obtain ⟨f, s, hm, h⟩ := normal_loaded
  obtain ⟨i, h1, h2, _, h4, _, h6⟩ := C77_instrument plainDate _ loadDisk loadDir _ f _ _ s h "+-+".toList (header_of hm (by decide))
    collNumerals (collNumerals.map Numeral.text) (by decide) coll_valid (trims (by decide +kernel)) (header_of hm (by decide))
  refine ⟨s, i, h1, ?_, ?_, h6, ?_⟩
  · rw [h2, header_of hm (k := "monochromator".toList) (v := "PG002".toList) (by decide)]; rfl
  · rw [h4]; decide
  · refine C77_name_lost plainDate _ loadDisk loadDir _ f _ _ s h i h1 "HB1A".toList ?_ (by decide)
    have : lookupKey "instrument".toList f.metadata = none := by rw [hm]; decide
    rw [instrumentName, this]; decide

/-- The polarised scan: two channels. -/
example : ∃ (s : ScanObj) (i : ScanInfo), scanInfo s = .ok i ∧
    i.preset = .countfile [(some (.leaf (.str "mcu_1".toList)), some (.leaf (.num ((5 : ℚ) : ℝ))), some (.leaf (.str "Px NSF".toList))),
      (some (.leaf (.str "time_2".toList)), some (.leaf (.num ((3 : ℚ) : ℝ))), some (.leaf (.str "Px SF".toList)))] := by
  obtain ⟨f, hf, hc, hm, d, hd⟩ := polar_loads
  obtain ⟨s, hs⟩ := demo_scan hf (.inr hm) hd (by rw [hc]; decide +kernel) (by decide) (scanName 28)
  obtain ⟨i, h1, _, _, _, h5, _⟩ := C77_countfile_partial plainDate _ loadDisk loadDir _ f [] 28 _ (loaded_of hf hd hs [])
    "e".toList "detector".toList (header_of hm (by decide)) (header_of hm (by decide)) (header_of hm (by decide))
    ["mcu_1".toList, "time_2".toList] [5, 3] ["Px NSF".toList, "Px SF".toList] (by rw [hm]; rfl) (by rw [hm]; rfl) (by rw [hm]; rfl)
    (by decide) 2 (by
      rw [hc]
      exact ⟨fun i h1 h2 => by interval_cases i <;> decide +kernel, by decide +kernel⟩)
  exact ⟨_, i, h1, h5⟩

/-- Three points and the three components of the plane normal: the vector is taken for a column. -/
example : ∃ (d : Dict) (s : ScanObj), fileToNx plainDate (fun _ => none) loadDisk loadDir "HB1A_exp0266_scan0029.dat".toList = .ok d ∧
    newScan ["divergence_x".toList] "scan0029".toList d = .ok s ∧
    lookupKey "plane_normal".toList s.data = some (some (.leaf (.fin (normalNumerals.map fun n => (n.value : ℝ))))) := by
  obtain ⟨f, hf, hc, hm, d, hd⟩ := three_loads
  obtain ⟨s, hs⟩ := demo_scan hf (.inl hm) hd (by rw [hc]; decide +kernel) (by decide) "scan0029".toList
  refine ⟨d, s, hd, hs, C76_vector_listed plainDate (fun _ => none) loadDisk loadDir _ f hf d hd _ (by decide) _ ?_
    [some 1, some 2, some 3] (by rw [hc]; decide +kernel) rfl _ (by simp) _ s hs⟩
  obtain ⟨logs, p, h1, hp, rfl, hmd⟩ := fileToNx_inv hf hd
  obtain ⟨o, ho, hg⟩ := hp.samp_member (k := "plane_normal".toList) (by decide)
    (v := dsFloatText (textOf p.md "plane_normal".toList) []) (by
      repeat (first | exact List.mem_cons_self | apply List.mem_cons_of_mem))
  obtain ⟨o', ho', hst⟩ := stored_holds (t := textOf p.md "plane_normal".toList)
    (v := some (.leaf (.fin (normalNumerals.map fun n => (n.value : ℝ))))) (by
      rw [header_text hf hmd (by decide) (by decide) (by decide),
        header_of hm (k := "plane_normal".toList) (v := joinStr ",".toList (normalNumerals.map Numeral.text)) (by decide)]
      exact .vector (by decide) normal_valid (trims (by decide +kernel))) []
  obtain rfl := Except.ok.inj (ho.symm.trans ho')
  rw [nxGet, show splitChar '/' (specialKey "plane_normal".toList false) = ["plane_normal".toList] by decide]
  exact hp.lone_stored (i := 9) (by decide) (by decide +kernel) hg hst

/-! ## Less than complete headers -/

/-- A scan without UB matrix and without preset. -/
def bareLines : List Str :=
  headerLines.eraseIdx 14 ++ ["# col_headers =\n", "#   Pt.  e  detector\n", "   1  -3.5  22\n"].map String.toList

/-- A polarised scan with thirteen channels. -/
def manyLines : List Str :=
  headerLines ++ [("# preset_type = countfile\n").toList,
    "# countfile = ".toList ++ joinStr ", ".toList (List.replicate 13 "count preset mcu 5".toList) ++ "\n".toList,
    "# col_headers =\n".toList,
    ("#   Pt.  e  detector_1  detector_2  detector_3  detector_4  detector_5  detector_6  detector_7  detector_8  detector_9" ++
      "  detector_10  detector_11  detector_12  detector_13\n").toList,
    "   1  -3.5 1 2 3 4 5 6 7 8 9 10 11 12 13\n".toList]

/-- The disk with both. -/
def bareDisk : FS := fun p =>
  if p = ["exp".toList] ∨ p = ["exp".toList, "Datafiles".toList] then some .folder
  else if p = ["exp".toList, "Datafiles".toList, "HB1A_exp0266_scan0032.dat".toList] then some (.file bareLines)
  else if p = ["exp".toList, "Datafiles".toList, "HB1A_exp0266_scan0033.dat".toList] then some (.file manyLines)
  else none

theorem bare_no_ub (p : List Str) : bareDisk ("exp".toList :: "UBConf".toList :: p) = none := by
  unfold bareDisk
  have h1 : ∀ q : List Str, ("exp".toList :: "UBConf".toList :: p : List Str) ≠ "exp".toList :: "Datafiles".toList :: q := by
    intro q h
    have := (List.cons.inj (List.cons.inj h).2).1
    exact absurd this (by decide)
  rw [if_neg, if_neg (h1 _), if_neg (h1 _)]
  rintro (h | h)
  · exact absurd (List.cons.inj h).2 (by simp)
  · exact h1 [] h

theorem bare_scan {disk : FS} {name : Str} {f : SpiceFile} {d : Dict} (hf : readSpiceDatafile disk (loadDir ++ [name]) = .ok f)
    (hm : lookupKey "instrument".toList f.metadata = none)
    (hd : fileToNx plainDate (fun _ => none) disk loadDir name = .ok d) (hpt : "Pt.".toList ∈ (columns f).map Prod.fst)
    (hn : (splitChar '_' name).headD [] = "HB1A".toList) (sn : Str) : ∃ s, newScan ["divergence_x".toList] sn d = .ok s := by
  obtain ⟨s, hs, _⟩ := C76_ok plainDate (fun _ => none) disk loadDir name f hf d hd hpt (by
    intro t ht
    rw [instrumentName, hm, hn] at ht
    obtain rfl := Option.some.inj ht
    rw [← isSubstr_iff]; decide) ["divergence_x".toList] sn
  exact ⟨s, hs⟩

/-- The bare scan can be loaded, but neither the scan nor the sample reports anything. -/
example : ∃ s : ScanObj, (∃ f, Loaded plainDate (fun _ => none) bareDisk loadDir "HB1A_exp0266_scan0032.dat".toList f [] (scanName 32) s) ∧
    scanInfo s = .error .unboundLocal ∧ sampleUbInfo s = .error .attributeError := by
  obtain ⟨f, hf, hc, hm, d, hd⟩ := loads (disk := bareDisk) (name := "HB1A_exp0266_scan0032.dat".toList) (lines := bareLines)
    (cols := [("Pt.".toList, [some 1]), ("e".toList, [some (-7 / 2)]), ("detector".toList, [some 22])])
    (md := headerMeta.eraseIdx 14)
    (by rw [bareDisk, if_neg (by decide +kernel), if_pos (by decide +kernel)]) (by decide +kernel) bare_no_ub
    (by decide +kernel) (by decide +kernel)
  obtain ⟨s, hs⟩ := bare_scan hf (by rw [hm]; decide) hd (by rw [hc]; decide +kernel) (by decide) (scanName 32)
  have h := loaded_of hf hd hs []
  refine ⟨_, ⟨f, h⟩, C77_preset_fails plainDate _ bareDisk loadDir _ f [] 32 _ h "e".toList "detector".toList
    (header_of hm (by decide)) (header_of hm (by decide)) ?_ ?_, C77_no_ub_fails plainDate _ bareDisk loadDir _ f [] _ _ h
      (some (.leaf (.num ((dec false "30".toList "000000".toList).value : ℝ)))) ?_ ?_⟩
  · rw [header, hm]; decide
  · unfold Polarized; rw [header, hm]; decide
  · rw [header_of hm (k := "samplemosaic".toList) (v := (dec false "30".toList "000000".toList).text) (by decide)]
    exact .number (dec_valid (by decide)) rfl rfl
  · left; rw [header, hm]; decide

/-- Of thirteen channels the last is lost. -/
example : ∃ (s : ScanObj) (i : ScanInfo) (l : List (Option Val × Option Val × Option Val)), scanInfo s = .ok i ∧
    i.preset = .countfile l ∧ l.length = 12 := by
  obtain ⟨f, hf, hc, hm, d, hd⟩ := loads (disk := bareDisk) (name := "HB1A_exp0266_scan0033.dat".toList) (lines := manyLines)
    (cols := ["Pt.", "e", "detector_1", "detector_2", "detector_3", "detector_4", "detector_5", "detector_6", "detector_7",
      "detector_8", "detector_9", "detector_10", "detector_11", "detector_12", "detector_13"].map String.toList |>.zip
      [[some 1], [some (-7 / 2)], [some 1], [some 2], [some 3], [some 4], [some 5], [some 6], [some 7], [some 8], [some 9],
        [some 10], [some 11], [some 12], [some 13]])
    (md := headerMeta ++ [("preset_type".toList, .str "countfile".toList),
      ("countfile".toList, .str (joinStr ", ".toList (List.replicate 13 "count preset mcu 5".toList))),
      ("norm_vals".toList, .nums (List.replicate 13 5)),
      ("norm_channels".toList, .strs (["mcu_1", "mcu_2", "mcu_3", "mcu_4", "mcu_5", "mcu_6", "mcu_7", "mcu_8", "mcu_9",
        "mcu_10", "mcu_11", "mcu_12", "mcu_13"].map String.toList)),
      ("labels".toList, .strs (List.replicate 13 " ".toList))])
    (by rw [bareDisk, if_neg (by decide +kernel), if_neg (by decide +kernel), if_pos (by decide +kernel)]) (by decide +kernel)
    bare_no_ub (by decide +kernel) (by decide +kernel)
  obtain ⟨s, hs⟩ := bare_scan hf (by rw [hm]; decide) hd (by rw [hc]; decide +kernel) (by decide) (scanName 33)
  obtain ⟨i, l, h⟩ := C77_channels_lost plainDate _ bareDisk loadDir _ f [] 33 _ (loaded_of hf hd hs [])
    "e".toList "detector".toList (header_of hm (by decide)) (header_of hm (by decide)) (header_of hm (by decide))
    _ _ _ (by rw [hm]; rfl) (by rw [hm]; rfl) (by rw [hm]; rfl) (by decide +kernel) 13 (by
      rw [hc]
      exact ⟨fun i h1 h2 => by interval_cases i <;> decide +kernel, by decide +kernel⟩) (by omega)
  exact ⟨_, i, l, h⟩

end Demo

end Tavi
