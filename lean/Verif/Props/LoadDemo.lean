import Verif.Props.Loads

/-!
# Two scans that can be loaded (cases for C75)
-/

namespace Tavi

open Spec

namespace Demo

deriving instance DecidableEq for SpiceFile

/-- The header common to both scans. -/
def headerLines : List Str :=
  ["# scan = 27\n", "# date = 9/28/2008\n", "# time = 3:09:49 PM\n", "# proposal = IPTS-890\n", "# users = A. B, C. D\n",
   "# scan_title = T2110, focused\n", "# monochromator = PG002\n", "# analyzer = Pg002\n", "# sense = +-+\n",
   "# collimation = 48-48-40-68\n", "# samplename = Tb5Ge4 sc\n", "# sampletype = crystal\n", "# samplemosaic = 30.000000\n",
   "# latticeconstants = 2.890000,2.890000,2.890000,90.000000,90.000000,90.000000\n",
   "# ubmatrix = 0.345665,0.015659,-0.001051,-0.015693,0.345190,-0.018109,0.000229,0.018138,0.345545\n",
   "# plane_normal = -0.003037,-0.052334,0.998625\n", "# ubconf = UB28Sep2008.ini\n", "# def_x = e\n",
   "# def_y = detector\n"].map String.toList

/-- An energy scan with a column the loader does not know. -/
def normalLines : List Str :=
  headerLines ++ ["# preset_type = normal\n", "# preset_channel = mcu\n", "# preset_value = 50.000000\n", "# col_headers =\n",
    "#   Pt.  h   e   time  detector  monitor  mcu  s1  tilt_x\n", "   1  0.85  -3.0007  49.284  22.000  210000.000  50.000  -80.7628  1.5\n",
    "   2  0.85  -3.2501  49.201  36.000  210000.000  50.000  -80.2815  2.5\n"].map String.toList

/-- A polarised scan with two detectors. -/
def polarLines : List Str :=
  headerLines ++ ["# preset_type = countfile\n", "# countfile = parq, floff, count preset mcu 5, flon, count preset time 3\n",
    "# col_headers =\n", "#   Pt.  e  time  detector_1  mcu_1  detector_2  time_2  detector_4\n",
    "   1  -3.5  8  22  5  7  3  1\n", "   2  -4.5  9  36  5  6  3  2\n"].map String.toList

/-- Three points, a plain and a numbered detector. -/
def threeLines : List Str :=
  headerLines ++ ["# preset_type = normal\n", "# preset_channel = mcu\n", "# preset_value = 50.000000\n", "# col_headers =\n",
    "#   Pt.  e  detector  detector_1\n", "   1  -3.5  22  7\n", "   2  -4.5  36  8\n", "   3  -5.5  37  9\n"].map String.toList

/-- A scan without point numbers. -/
def noPointLines : List Str :=
  headerLines ++ ["# preset_type = normal\n", "# preset_channel = mcu\n", "# preset_value = 50.000000\n", "# col_headers =\n",
    "#   e  detector\n", "   -3.5  22\n", "   -4.5  36\n"].map String.toList

/-- The disk with the scans and no UB file. -/
def loadDisk : FS := fun p =>
  if p = ["exp".toList] ∨ p = ["exp".toList, "Datafiles".toList] then some .folder
  else if p = ["exp".toList, "Datafiles".toList, "HB1A_exp0266_scan0027.dat".toList] then some (.file normalLines)
  else if p = ["exp".toList, "Datafiles".toList, "HB1A_exp0266_scan0028.dat".toList] then some (.file polarLines)
  else if p = ["exp".toList, "Datafiles".toList, "HB1A_exp0266_scan0029.dat".toList] then some (.file threeLines)
  else if p = ["exp".toList, "Datafiles".toList, "dataset_exp0266_scan0030.dat".toList] then some (.file threeLines)
  else if p = ["exp".toList, "Datafiles".toList, "HB1A_exp0266_scan0031.dat".toList] then some (.file noPointLines)
  else none

/-- The folder of the scans. -/
def loadDir : List Str := ["exp".toList, "Datafiles".toList]

/-- Dates are kept as they are. -/
def plainDate : Str → Py Str := fun s => .ok s

/-- Could the column be one of counts? -/
def countB (k : Str) : Bool :=
  decide (k = "Pt.".toList) || "detector".toList.isPrefixOf k || "monitor".toList.isPrefixOf k

/-- Are the counts of the file finite? -/
def finiteB (f : SpiceFile) : Bool := (columns f).all fun kv => !countB kv.1 || kv.2.all Option.isSome

theorem countB_of {k : Str} (h : CountName k) : countB k = true := by
  have hs : ∀ (s : Str) i, s.isPrefixOf (suffixed s i) = true := fun s i => by
    rw [suffixed, List.append_assoc]; exact List.isPrefixOf_iff_prefix.2 (List.prefix_append ..)
  rcases h with h | ⟨i, rfl | rfl⟩
  · simp only [List.mem_cons, List.not_mem_nil, or_false] at h
    rcases h with rfl | rfl | rfl <;> decide
  · simp only [countB, hs, Bool.or_true, Bool.true_or]
  · simp only [countB, hs, Bool.or_true]

theorem finite_logBase {i : Str} {f : SpiceFile} (h : finiteB f = true) : Finite (logBase i f) := by
  intro k l hm hk
  rw [logBase_eq] at hm
  rcases mem_assocUpdate hm with hm | hm
  · rw [List.mem_singleton, Prod.mk.injEq] at hm
    exact absurd hm.2 (by simp)
  · obtain ⟨kv, hkv, he⟩ := List.mem_map.1 hm
    obtain ⟨h1, h2⟩ := Prod.mk.inj he
    obtain rfl : kv.2 = l := by simpa using h2
    obtain rfl : kv.1 = k := h1
    have := List.all_eq_true.1 h kv hkv
    rw [countB_of hk, Bool.not_true, Bool.false_or] at this
    intro hn
    exact absurd (List.all_eq_true.1 this _ hn) (by simp)

/-- The text of a header entry. -/
theorem metaText_of {md : List (Str × MetaVal)} {k s : Str} (h : textOf md k = some s) : metaText md k = .ok s := by
  unfold textOf at h
  unfold metaText
  split at h
  · rename_i t ht
    rw [ht, ← Option.some.inj h]; rfl
  · exact absurd h (by simp)

theorem ok_of_toOption {α : Type} {x : Py α} (h : x.toOption.isSome = true) : ∃ a, x = .ok a := by
  cases x with
  | error e => exact absurd h (by simp [Except.toOption])
  | ok a => exact ⟨a, rfl⟩

/-- Is the number in the header readable? -/
def readableB (md : List (Str × MetaVal)) (k : Str) : Bool :=
  match textOf md k with
  | none => true
  | some [] => true
  | some (c :: s) => (recastStr (c :: s) true).toOption.isSome

theorem readable {md : List (Str × MetaVal)} {k : Str} (h : readableB md k = true) (s : Str) (hs : textOf md k = some s)
    (hne : s ≠ []) : ∃ r, recastStr s true = .ok r := by
  cases s with
  | nil => exact absurd rfl hne
  | cons c s =>
    unfold readableB at h
    rw [hs] at h
    exact ok_of_toOption h

/-- Checks of a header; `n` is the number of detectors. -/
def goodB (md : List (Str × MetaVal)) (n : ℕ) : Bool :=
  (textOf md "users".toList).isSome && (textOf md "sense".toList).any (fun s => decide (3 ≤ s.length)) &&
  (textOf md "collimation".toList).any (fun s => ((splitChar '-' s).mapM pyFloat).toOption.isSome) &&
  ["latticeconstants".toList, "samplemosaic".toList, "ubmatrix".toList, "plane_normal".toList, "preset_value".toList].all
    (readableB md) &&
  (!decide (textOf md "preset_type".toList = some "countfile".toList) ||
    ((textOf md "countfile".toList).isSome && (List.range n).all fun i =>
      (nameAt md "norm_channels".toList i).toOption.isSome && (numAt md "norm_vals".toList i).toOption.isSome &&
      (nameAt md "labels".toList i).toOption.isSome))

theorem complete_of_good {logs : List (Str × LogVal)} {md : List (Str × MetaVal)} (h : goodB md (nDet logs) = true)
    (hub : lookupKey "ub_conf".toList logs = none) : Complete plainDate logs md := by
  simp only [goodB, Bool.and_eq_true] at h
  obtain ⟨⟨⟨⟨h1, h2⟩, h3⟩, h4⟩, h5⟩ := h
  rw [List.all_eq_true] at h4
  refine ⟨?_, ?_, ?_, ?_, ?_, ?_, ⟨_, rfl⟩, fun s _ _ => ⟨s, rfl⟩, fun v hv => ?_⟩
  · obtain ⟨s, hs⟩ := Option.isSome_iff_exists.1 h1
    exact ⟨s, metaText_of hs⟩
  · obtain ⟨s, hs, hl⟩ := Option.any_eq_true _ _ |>.1 h2
    exact ⟨s, metaText_of hs, by simpa using hl⟩
  · obtain ⟨s, hs, hl⟩ := Option.any_eq_true _ _ |>.1 h3
    obtain ⟨l, hl⟩ := ok_of_toOption hl
    exact ⟨s, l, metaText_of hs, hl⟩
  · intro k hk s hs hne
    exact readable (h4 k ((show ∀ k ∈ ["latticeconstants".toList, "samplemosaic".toList, "ubmatrix".toList,
      "plane_normal".toList], k ∈ ["latticeconstants".toList, "samplemosaic".toList, "ubmatrix".toList,
      "plane_normal".toList, "preset_value".toList] by decide) k hk)) s hs hne
  · intro s _ hs hne
    exact readable (h4 _ (by decide)) s hs hne
  · intro hp
    rw [Bool.or_eq_true] at h5
    rcases h5 with h5 | h5
    · rw [Bool.not_eq_true', decide_eq_false_iff_not] at h5
      exact absurd hp h5
    · rw [Bool.and_eq_true, List.all_eq_true] at h5
      refine ⟨Option.isSome_iff_exists.1 h5.1, fun i hi => ?_⟩
      have := h5.2 i (List.mem_range.2 hi)
      simp only [Bool.and_eq_true] at this
      exact ⟨ok_of_toOption this.1.1, ok_of_toOption this.1.2, ok_of_toOption this.2⟩
  · rw [hub] at hv; exact absurd hv (by simp)

/-- A file of the folder, read and checked. -/
theorem loads {disk : FS} {name : Str} {lines : List Str} (hd : disk (loadDir ++ [name]) = some (.file lines))
    (hs : suffixOf (nameOf (loadDir ++ [name])) = ".dat".toList)
    (hub : ∀ p, disk ("exp".toList :: "UBConf".toList :: p) = none)
    {cols : List (Str × List (Option ℚ))} {md : List (Str × MetaVal)}
    (hr : (readDatafile lines).toOption.any (fun f => decide (columns f = cols) &&
      decide (f.metadata = md) && finiteB f && (textOf f.metadata "ubconf".toList).isSome &&
      goodB (logAttrs ((splitChar '_' name).headD []) f) (nDet (logBase ((splitChar '_' name).headD []) f)) &&
      (lookupKey "ub_conf".toList (logBase ((splitChar '_' name).headD []) f)).isNone) = true)
    (hm : lookupKey "metadata".toList cols = none) :
    ∃ f, readSpiceDatafile disk (loadDir ++ [name]) = .ok f ∧ columns f = cols ∧
      f.metadata = md ∧
      ∃ d, fileToNx plainDate (fun _ => none) disk loadDir name = .ok d := by
  obtain ⟨f, hf, hr⟩ := Option.any_eq_true _ _ |>.1 hr
  simp only [Bool.and_eq_true, decide_eq_true_eq] at hr
  obtain ⟨⟨⟨⟨⟨h1, h2⟩, h3⟩, h4⟩, h5⟩, h6⟩ := hr
  have hf' : readDatafile lines = .ok f := by
    cases hx : readDatafile lines with
    | error e => rw [hx] at hf; exact absurd hf (by simp [Except.toOption])
    | ok g => rw [hx] at hf; exact congrArg Except.ok (Option.some.inj hf)
  have hread : readSpiceDatafile disk (loadDir ++ [name]) = .ok f := (readSpiceDatafile_of hd hs).trans hf'
  refine ⟨f, hread, h1, h2, ?_⟩
  obtain ⟨ub, hubt⟩ := Option.isSome_iff_exists.1 h4
  have hlogs : createSpicelogs (fun _ => none) disk loadDir name = .ok (logBase ((splitChar '_' name).headD []) f) := by
    rw [createSpicelogs, hread, py_bind_ok, metaText_of hubt, py_bind_ok, addUb,
      if_neg (by rw [isFile]; rw [show loadDir.dropLast ++ ["UBConf".toList, ubFileName ub] =
        "exp".toList :: "UBConf".toList :: [ubFileName ub] from rfl, hub]; simp),
      if_neg (by rw [isFile]; rw [show loadDir.dropLast ++ ["UBConf".toList, "temp".toList, ubFileName ub] =
        "exp".toList :: "UBConf".toList :: ["temp".toList, ubFileName ub] from rfl, hub]; simp)]
  rw [fileToNx, hlogs, py_bind_ok]
  refine scanToNx_ok ?_ (finite_logBase h3) (complete_of_good h5 (by simpa using h6))
  rw [logBase_lookup (nodup_columns hread), h1, hm, if_pos rfl]; rfl

theorem no_ub (p : List Str) : loadDisk ("exp".toList :: "UBConf".toList :: p) = none := by
  unfold loadDisk
  have h1 : ∀ q : List Str, ("exp".toList :: "UBConf".toList :: p : List Str) ≠ "exp".toList :: "Datafiles".toList :: q := by
    intro q h
    have := (List.cons.inj (List.cons.inj h).2).1
    exact absurd this (by decide)
  rw [if_neg, if_neg (h1 _), if_neg (h1 _), if_neg (h1 _), if_neg (h1 _), if_neg (h1 _)]
  rintro (h | h)
  · exact absurd (List.cons.inj h).2 (by simp)
  · exact h1 [] h

/-- The columns of the energy scan. -/
def normalCols : List (Str × List (Option ℚ)) :=
  [("Pt.".toList, [some 1, some 2]), ("h".toList, [some (17 / 20), some (17 / 20)]),
   ("e".toList, [some (-30007 / 10000), some (-32501 / 10000)]), ("time".toList, [some (49284 / 1000), some (49201 / 1000)]),
   ("detector".toList, [some 22, some 36]), ("monitor".toList, [some 210000, some 210000]),
   ("mcu".toList, [some 50, some 50]), ("s1".toList, [some (-807628 / 10000), some (-802815 / 10000)]),
   ("tilt_x".toList, [some (3 / 2), some (5 / 2)])]

/-- The columns of the polarised scan. -/
def polarCols : List (Str × List (Option ℚ)) :=
  [("Pt.".toList, [some 1, some 2]), ("e".toList, [some (-7 / 2), some (-9 / 2)]), ("time".toList, [some 8, some 9]),
   ("detector_1".toList, [some 22, some 36]), ("mcu_1".toList, [some 5, some 5]), ("detector_2".toList, [some 7, some 6]),
   ("time_2".toList, [some 3, some 3]), ("detector_4".toList, [some 1, some 2])]

/-- The header of both scans as read. -/
def headerMeta : List (Str × MetaVal) :=
  [("scan".toList, .str "27".toList),
   ("date".toList, .str "9/28/2008".toList),
   ("time".toList, .str "3:09:49 PM".toList),
   ("proposal".toList, .str "IPTS-890".toList),
   ("users".toList, .str "A. B, C. D".toList),
   ("scan_title".toList, .str "T2110, focused".toList),
   ("monochromator".toList, .str "PG002".toList),
   ("analyzer".toList, .str "Pg002".toList),
   ("sense".toList, .str "+-+".toList),
   ("collimation".toList, .str "48-48-40-68".toList),
   ("samplename".toList, .str "Tb5Ge4 sc".toList),
   ("sampletype".toList, .str "crystal".toList),
   ("samplemosaic".toList, .str "30.000000".toList),
   ("latticeconstants".toList, .str "2.890000,2.890000,2.890000,90.000000,90.000000,90.000000".toList),
   ("ubmatrix".toList, .str "0.345665,0.015659,-0.001051,-0.015693,0.345190,-0.018109,0.000229,0.018138,0.345545".toList),
   ("plane_normal".toList, .str "-0.003037,-0.052334,0.998625".toList),
   ("ubconf".toList, .str "UB28Sep2008.ini".toList),
   ("def_x".toList, .str "e".toList),
   ("def_y".toList, .str "detector".toList)]

/-- The header of the energy scan. -/
def normalMeta : List (Str × MetaVal) :=
  headerMeta ++ [("preset_type".toList, .str "normal".toList),
   ("preset_channel".toList, .str "mcu".toList),
   ("preset_value".toList, .str "50.000000".toList)]

/-- The header of the polarised scan. -/
def polarMeta : List (Str × MetaVal) :=
  headerMeta ++ [("preset_type".toList, .str "countfile".toList),
   ("countfile".toList, .str "parq, floff, count preset mcu 5, flon, count preset time 3".toList),
   ("norm_vals".toList, .nums [5, 3]), ("norm_channels".toList, .strs ["mcu_1".toList, "time_2".toList]),
   ("labels".toList, .strs ["Px NSF".toList, "Px SF".toList])]

/-- The energy scan can be loaded. -/
theorem normal_loads : ∃ f, readSpiceDatafile loadDisk (loadDir ++ ["HB1A_exp0266_scan0027.dat".toList]) = .ok f ∧
    columns f = normalCols ∧ f.metadata = normalMeta ∧
    ∃ d, fileToNx plainDate (fun _ => none) loadDisk loadDir "HB1A_exp0266_scan0027.dat".toList = .ok d :=
  loads (lines := normalLines)
    (by rw [loadDisk, if_neg (by decide +kernel), if_pos (by decide +kernel)]) (by decide +kernel) no_ub
    (by decide +kernel) (by decide +kernel)

/-- The polarised scan can be loaded. -/
theorem polar_loads : ∃ f, readSpiceDatafile loadDisk (loadDir ++ ["HB1A_exp0266_scan0028.dat".toList]) = .ok f ∧
    columns f = polarCols ∧ f.metadata = polarMeta ∧
    ∃ d, fileToNx plainDate (fun _ => none) loadDisk loadDir "HB1A_exp0266_scan0028.dat".toList = .ok d :=
  loads (lines := polarLines)
    (by rw [loadDisk, if_neg (by decide +kernel), if_neg (by decide +kernel), if_pos (by decide +kernel)]) (by decide +kernel)
    no_ub (by decide +kernel) (by decide +kernel)

/-- The columns of the scan with three points. -/
def threeCols : List (Str × List (Option ℚ)) :=
  [("Pt.".toList, [some 1, some 2, some 3]), ("e".toList, [some (-7 / 2), some (-9 / 2), some (-11 / 2)]),
   ("detector".toList, [some 22, some 36, some 37]), ("detector_1".toList, [some 7, some 8, some 9])]

/-- The columns of the scan without point numbers. -/
def noPointCols : List (Str × List (Option ℚ)) :=
  [("e".toList, [some (-7 / 2), some (-9 / 2)]), ("detector".toList, [some 22, some 36])]

/-- The scan with three points can be loaded. -/
theorem three_loads : ∃ f, readSpiceDatafile loadDisk (loadDir ++ ["HB1A_exp0266_scan0029.dat".toList]) = .ok f ∧
    columns f = threeCols ∧ f.metadata = normalMeta ∧
    ∃ d, fileToNx plainDate (fun _ => none) loadDisk loadDir "HB1A_exp0266_scan0029.dat".toList = .ok d :=
  loads (lines := threeLines)
    (by rw [loadDisk, if_neg (by decide +kernel), if_neg (by decide +kernel), if_neg (by decide +kernel),
      if_pos (by decide +kernel)]) (by decide +kernel) no_ub (by decide +kernel) (by decide +kernel)

/-- So can the file with the unlucky name. -/
theorem dataset_loads : ∃ f, readSpiceDatafile loadDisk (loadDir ++ ["dataset_exp0266_scan0030.dat".toList]) = .ok f ∧
    columns f = threeCols ∧ f.metadata = normalMeta ∧
    ∃ d, fileToNx plainDate (fun _ => none) loadDisk loadDir "dataset_exp0266_scan0030.dat".toList = .ok d :=
  loads (lines := threeLines)
    (by rw [loadDisk, if_neg (by decide +kernel), if_neg (by decide +kernel), if_neg (by decide +kernel),
      if_neg (by decide +kernel), if_pos (by decide +kernel)]) (by decide +kernel) no_ub (by decide +kernel)
    (by decide +kernel)

/-- And the scan without point numbers. -/
theorem noPoint_loads : ∃ f, readSpiceDatafile loadDisk (loadDir ++ ["HB1A_exp0266_scan0031.dat".toList]) = .ok f ∧
    columns f = noPointCols ∧ f.metadata = normalMeta ∧
    ∃ d, fileToNx plainDate (fun _ => none) loadDisk loadDir "HB1A_exp0266_scan0031.dat".toList = .ok d :=
  loads (lines := noPointLines)
    (by rw [loadDisk, if_neg (by decide +kernel), if_neg (by decide +kernel), if_neg (by decide +kernel),
      if_neg (by decide +kernel), if_neg (by decide +kernel), if_pos (by decide +kernel)]) (by decide +kernel) no_ub
    (by decide +kernel) (by decide +kernel)

/-- The energy reads under its NeXus name. -/
example : ∃ d, fileToNx plainDate (fun _ => none) loadDisk loadDir "HB1A_exp0266_scan0027.dat".toList = .ok d ∧
    (nxGet d "en".toList false).1 = .ok (some (.leaf (.fin [((-30007 / 10000 : ℚ) : ℝ), ((-32501 / 10000 : ℚ) : ℝ)]))) ∧
    (nxGet d "tilt_x".toList false).1 = .ok none := by
  obtain ⟨f, hf, hc, hp, d, hd⟩ := normal_loads
  have hn : Detectors ((columns f).map Prod.fst) 0 := by
    rw [hc]; exact ⟨fun i h1 h2 => by omega, by decide +kernel⟩
  have hnp : ¬ Polarized f := by
    unfold Polarized header; rw [hp]; decide
  refine ⟨d, hd, ?_, ?_⟩
  · exact C75_columns_partial plainDate (fun _ => none) loadDisk loadDir _ f hf d hd 0 hn "e".toList "en".toList false
      (.renamed (by decide)) [some (-30007 / 10000), some (-32501 / 10000)] (by rw [hc]; decide +kernel) []
  · refine C75_unknown_lost plainDate (fun _ => none) loadDisk loadDir _ f hf d hd 0 hn "tilt_x".toList ?_ (by decide) ?_
      (by decide) []
    · have hN : NotNumbered "tilt_x".toList := by decide
      generalize hk : "tilt_x".toList = k at hN ⊢
      intro nm int h
      cases h with
      | same h => subst hk; exact absurd h (by decide)
      | renamed h =>
        subst hk
        exact (show ∀ cn ∈ renamed, cn.1 ≠ "tilt_x".toList by decide) _ h rfl
      | detector => exact absurd hk (by decide)
      | point => exact absurd hk (by decide)
      | time _ => exact absurd hk (by decide)
      | mcu _ => exact absurd hk (by decide)
      | monitor _ => exact absurd hk (by decide)
      | detectors _ _ => exact hN.ne (q := "detector".toList) (by decide) _ (suffixed_eq _ _).symm
      | times _ _ _ => exact hN.ne (q := "time".toList) (by decide) _ (suffixed_eq _ _).symm
      | mcus _ _ _ => exact hN.ne (q := "mcu".toList) (by decide) _ (suffixed_eq _ _).symm
      | monitors _ _ _ => exact hN.ne (q := "monitor".toList) (by decide) _ (suffixed_eq _ _).symm
    · intro q hq i
      rw [← suffixed_eq]
      exact (show NotNumbered "tilt_x".toList by decide).ne
        ((show ∀ q ∈ ["mode".toList, "preset".toList, "label".toList], q ∈ numNames by decide) q hq) i

/-- In the polarised scan the second detector is there; the total time and, after the gap, the fourth detector are lost. -/
example : ∃ d, fileToNx plainDate (fun _ => none) loadDisk loadDir "HB1A_exp0266_scan0028.dat".toList = .ok d ∧
    (nxGet d "detector_2".toList false).1 = .ok (some (.leaf (.fin [((7 : ℤ) : ℝ), ((6 : ℤ) : ℝ)]))) ∧
    (nxGet d "time_2".toList false).1 = .ok (some (.leaf (.fin [((3 : ℚ) : ℝ), ((3 : ℚ) : ℝ)]))) ∧
    (nxGet d "mcu_2".toList false).1 = .ok none ∧
    (nxGet d "time".toList false).1 = .ok none := by
  obtain ⟨f, hf, hc, hm, d, hd⟩ := polar_loads
  have hp : Polarized f := by
    unfold Polarized header; rw [hm]; decide
  have hn : Detectors ((columns f).map Prod.fst) 2 := by
    rw [hc]
    exact ⟨fun i h1 h2 => by interval_cases i <;> decide +kernel, by decide +kernel⟩
  rw [show "detector_2".toList = withNumber "detector".toList 2 by decide +kernel,
    show "time_2".toList = withNumber "time".toList 2 by decide +kernel,
    show "mcu_2".toList = withNumber "mcu".toList 2 by decide +kernel]
  refine ⟨d, hd, ?_, ?_, ?_, ?_⟩
  · have := C75_columns_partial plainDate (fun _ => none) loadDisk loadDir _ f hf d hd 2 hn _ _ true
      (.detectors (i := 2) (by decide) (by decide)) [some 7, some 6] (by rw [hc]; decide +kernel) []
    have e : shown true [some 7, some 6] = [some ((7 : ℤ) : ℝ), some ((6 : ℤ) : ℝ)] := by
      have h7 : toZero 7 = 7 := by decide +kernel
      have h6 : toZero 6 = 6 := by decide +kernel
      simp only [shown, List.map_cons, List.map_nil, Option.map_some, if_true, h7, h6]
    rw [e] at this
    exact this
  · exact C75_columns_partial plainDate (fun _ => none) loadDisk loadDir _ f hf d hd 2 hn _ _ false
      (.times (i := 2) hp (by decide) (by decide)) [some 3, some 3] (by rw [hc]; decide +kernel) []
  · exact C75_absent plainDate (fun _ => none) loadDisk loadDir _ f hf d hd 2 hn _ _ false
      (.mcus (i := 2) hp (by decide) (by decide)) (by rw [hc]; decide +kernel) []
  · exact C75_totals_lost plainDate (fun _ => none) loadDisk loadDir _ f hf d hd hp "time".toList (by decide) []

end Demo

end Tavi
