import Verif.Model.Spice
import Verif.Model.Tavi
import Verif.Model.UB
import Verif.Model.App

/-!
# Model of `src/tavi/data/nexus_builder.py` (lines 61-133, 157-616), of `from_spice` and `get_dataset_names` in
`nexus_entry.py`, and of the data and information of a scan in `scan.py` (lines 82-196)

An entry is the nested dict of `Model/Nexus`. Not modelled:
* the optional json files (both paths are `None`; with them: `Model/BuilderJson.lean`);
* `strptime` and the time zone: a parameter `iso` that turns the text of a date into the stored text;
* the exact value of a number that is not finite: `none` stands for `nan` and the infinities (in a column of integers `int(nan)`
  raises `ValueError`, as in the model, `int(inf)` an `OverflowError`);
* a header without `def_x` or `def_y`: the code stores `None`, the model no attribute;
* `print`.
-/

namespace Tavi

/-! ## Datasets and groups -/

/-- A dict whose values are texts. -/
def strDict : List (Str × Str) → Dict
  | [] => .nil
  | (k, v) :: l => .cons k (.leaf (.str v)) (strDict l)

/-- nexus_builder.py line 96: the content of a non-empty `NXdataset`. -/
def nxDs (v : Leaf) (attrs : List (Str × Str)) : Dict :=
  .cons kDataset (.leaf v) (.cons kAttrs (.dict (strDict attrs)) .nil)

/-- nexus_builder.py line 121: an `NXentry` without members. -/
def nxEntry (attrs : List (Str × Str)) : Dict := .cons kAttrs (.dict (strDict attrs)) .nil

/-- nexus_builder.py lines 123-127, `add_dataset(key, ds)`; `none` is the empty `NXdataset`. Lines 113-118 do the same for
the members given to `NXentry(...)`. -/
def addDataset (d : Dict) (key : Str) : Option Dict → Dict
  | none => d
  | some ds => d.set key (.dict ds)

/-- A member of a group: its name and the `NXdataset` made for it (which may raise). -/
abbrev Field := Str × Py (Option Dict)

/-- Members added one after the other. -/
def addMembers : List Field → Dict → Py Dict
  | [], d => .ok d
  | f :: fs, d => f.2 >>= fun o => addMembers fs (addDataset d f.1 o)

/-- `spicelogs.get(c)` for a data column. -/
def colOf (logs : List (Str × LogVal)) (c : Str) : Option (List (Option ℚ)) :=
  match lookupKey c logs with
  | some (.col l) => some l
  | _ => none

/-- `metadata.get(k)` for an entry that is text. -/
def textOf (md : List (Str × MetaVal)) (k : Str) : Option Str :=
  match lookupKey k md with
  | some (.str s) => some s
  | _ => none

/-- Numbers read from the file, as stored. -/
noncomputable def reals (l : List ℚ) : Leaf := .fin (l.map fun q : ℚ => (q : ℝ))

/-- A column of the file, as stored: numbers that are not finite included. -/
noncomputable def floats (l : List (Option ℚ)) : Leaf := .arr (l.map (Option.map fun q : ℚ => (q : ℝ)))

/-- nexus_builder.py lines 79-80 with 48-55, type `NX_FLOAT`, for an optional column. -/
noncomputable def dsFloatCol (c : Option (List (Option ℚ))) (attrs : List (Str × Str)) : Py (Option Dict) :=
  match c with
  | none => .ok none
  | some l => .ok (some (nxDs (floats l) (("type".toList, "NX_FLOAT".toList) :: attrs)))

/-- nexus_builder.py lines 79-80 with 48-55, type `NX_INT`, for an optional column: `int(nan)` raises `ValueError`. -/
noncomputable def dsIntCol (c : Option (List (Option ℚ))) (attrs : List (Str × Str)) : Py (Option Dict) :=
  match c with
  | none => .ok none
  | some l => (l.mapM fun x => need x .valueError).map fun qs =>
      some (nxDs (reals (qs.map fun q => (truncInt q : ℚ))) (("type".toList, "NX_INT".toList) :: attrs))

/-- nexus_builder.py lines 65-69 and 76-77, type `NX_CHAR`: `None` and the empty text give nothing. -/
def dsText (s : Option Str) (attrs : List (Str × Str)) : Option Dict :=
  match s with
  | none => none
  | some [] => none
  | some (c :: cs) => some (nxDs (.str (c :: cs)) (("type".toList, "NX_CHAR".toList) :: attrs))

/-- The stored form of a converted header value. -/
noncomputable def Recast.leaf : Recast → Leaf
  | .num x => .num (x : ℝ)
  | .arr l => reals l

/-- nexus_builder.py lines 65-69 and 79-80, type `NX_FLOAT`, for a header text. -/
noncomputable def dsFloatText (s : Option Str) (attrs : List (Str × Str)) : Py (Option Dict) :=
  match s with
  | none => .ok none
  | some [] => .ok none
  | some (c :: cs) => (recastStr (c :: cs) true).map fun r =>
      some (nxDs r.leaf (("type".toList, "NX_FLOAT".toList) :: attrs))

/-- nexus_builder.py lines 65-69 and 81-92, type `NX_DATE_TIME`. -/
def dsDate (iso : Str → Py Str) (s : Option Str) (attrs : List (Str × Str)) : Py (Option Dict) :=
  match s with
  | none => .ok none
  | some [] => .ok none
  | some (c :: cs) => (iso (c :: cs)).map fun t =>
      some (nxDs (.str t) (("type".toList, "NX_DATE_TIME".toList) :: attrs))

/-- The attribute `EX_required="true"`. -/
abbrev required : Str × Str := ("EX_required".toList, "true".toList)

/-- The attribute `units`. -/
abbrev units (u : Str) : Str × Str := ("units".toList, u)

/-- A float column stored under its own name. -/
noncomputable abbrev ownCol (logs : List (Str × LogVal)) (attrs : List (Str × Str)) (c : Str) : Field :=
  (c, dsFloatCol (colOf logs c) attrs)

/-! ## The groups -/

/-- nexus_builder.py lines 190-191. -/
def buildUser (md : List (Str × MetaVal)) : Py Dict :=
  metaText md "users".toList >>= fun u =>
  .ok (addDataset (nxEntry [("NX_class".toList, "NXuser".toList)]) "name".toList
    (some (nxDs (.strs (splitChar ',' u)) [("type".toList, "NX_CHAR".toList)])))

/-- nexus_builder.py lines 195-200. -/
def buildSource : Py Dict :=
  addMembers
    [("name".toList, .ok (dsText (some "HFIR".toList) [required])),
     ("probe".toList, .ok (dsText (some "neutron".toList) [required]))]
    (nxEntry [("NX_class".toList, "NXsource".toList), required])

/-- `metadata["sense"][i]`. -/
def senseAt (md : List (Str × MetaVal)) (i : ℕ) : Py (Option Dict) :=
  metaText md "sense".toList >>= fun s => (need s[i]? .indexError).map fun c => dsText (some [c]) []

/-- nexus_builder.py lines 215-227: the members of the monochromator. -/
noncomputable def monoFields (logs : List (Str × LogVal)) (md : List (Str × MetaVal)) : List Field :=
  [ownCol logs [required, units "meV".toList] "ei".toList,
   ("type".toList, .ok (dsText (textOf md "monochromator".toList) [])),
   ("sense".toList, senseAt md 0),
   ownCol logs [units "degrees".toList] "m1".toList,
   ownCol logs [units "degrees".toList] "m2".toList,
   ownCol logs [] "mfocus".toList,
   ownCol logs [] "marc".toList,
   ownCol logs [] "mtrans".toList,
   ownCol logs [] "focal_length".toList]

/-- nexus_builder.py lines 215-227. -/
noncomputable def buildMono (logs : List (Str × LogVal)) (md : List (Str × MetaVal)) : Py Dict :=
  addMembers (monoFields logs md) (nxEntry [("NX_class".toList, "NXcrystal".toList), required])

/-- nexus_builder.py lines 258-260: `qm1, xm1, …, qm8, xm8`. -/
def focusNames : List Str :=
  (List.range 8).flatMap fun i => ["qm".toList ++ decStr (i + 1), "xm".toList ++ decStr (i + 1)]

/-- nexus_builder.py lines 248-260: the members of the analyser. -/
noncomputable def anaFields (logs : List (Str × LogVal)) (md : List (Str × MetaVal)) : List Field :=
  [ownCol logs [required, units "meV".toList] "ef".toList,
   ("type".toList, .ok (dsText (textOf md "analyzer".toList) [])),
   ("sense".toList, senseAt md 2),
   ownCol logs [units "degrees".toList] "a1".toList,
   ownCol logs [units "degrees".toList] "a2".toList,
   ownCol logs [] "afocus".toList]
  ++ focusNames.map (ownCol logs [])

/-- nexus_builder.py lines 248-260. -/
noncomputable def buildAna (logs : List (Str × LogVal)) (md : List (Str × MetaVal)) : Py Dict :=
  addMembers (anaFields logs md) (nxEntry [("NX_class".toList, "NXcrystal".toList), required])

/-- `f"{p}_{i}"`. -/
def suffixed (p : Str) (i : ℕ) : Str := p ++ "_".toList ++ decStr i

/-- nexus_builder.py lines 298-303 and 415-416, `while f"detector_{idx}" in spicelogs.keys()`: how many steps the loop
makes from `idx`. The fuel is the number of keys; no loop is longer. -/
def detLoop (logs : List (Str × LogVal)) : ℕ → ℕ → ℕ
  | 0, _ => 0
  | fuel + 1, idx =>
    if (lookupKey (suffixed "detector".toList idx) logs).isSome then detLoop logs fuel (idx + 1) + 1 else 0

/-- The number of detectors in polarised mode. -/
def nDet (logs : List (Str × LogVal)) : ℕ := detLoop logs logs.length 1

/-- The numbers `1, …, n`. -/
def oneTo (n : ℕ) : List ℕ := (List.range n).map (· + 1)

/-- nexus_builder.py lines 283-284 and 297-303. -/
noncomputable def detFields (logs : List (Str × LogVal)) : List Field :=
  ("data".toList, dsIntCol (colOf logs "detector".toList) [required, units "counts".toList]) ::
  (oneTo (nDet logs)).map fun i =>
    (suffixed "detector".toList i, dsIntCol (colOf logs (suffixed "detector".toList i)) [units "counts".toList])

/-- nexus_builder.py lines 281-303. -/
noncomputable def buildDet (logs : List (Str × LogVal)) : Py Dict :=
  addMembers (detFields logs) (nxEntry [("NX_class".toList, "NXdetector".toList), required])

/-- nexus_builder.py lines 307-312; `NX_ANGLE` is not converted (line 93-94). -/
noncomputable def buildColl (md : List (Str × MetaVal)) : Py Dict :=
  metaText md "collimation".toList >>= fun s =>
  (splitChar '-' s).mapM pyFloat >>= fun l =>
  addMembers
    [("type".toList, .ok (dsText (some "Soller".toList) [])),
     ("divergence_x".toList, .ok (some (nxDs (reals l)
        [("type".toList, "NX_ANGLE".toList), units "minutes of arc".toList])))]
    (nxEntry [("NX_class".toList, "NXcollimator".toList)])

/-- nexus_builder.py lines 341-344. -/
def slitNames : List Str :=
  (["a", "b"].flatMap fun i => ["t", "b", "l", "r"].map fun l => "b".toList ++ i.toList ++ l.toList)
  ++ (["a", "b"].flatMap fun i =>
      ["lf", "rt", "tp", "bt"].map fun l => "slit".toList ++ i.toList ++ "_".toList ++ l.toList)
  ++ (["lf", "rt", "tp", "bt"].map fun l => "slit_pre_".toList ++ l.toList)

/-- nexus_builder.py lines 340-347. -/
noncomputable def buildSlits (logs : List (Str × LogVal)) : Py Dict :=
  addMembers (slitNames.map (ownCol logs [units "cm".toList])) (nxEntry [("NX_class".toList, "NXslit".toList)])

/-- nexus_builder.py lines 351-353. -/
def flipperNames : List Str := ["fguide".toList, "hguide".toList, "vguide".toList]

/-- nexus_builder.py lines 350-353. -/
noncomputable def buildFlipper (logs : List (Str × LogVal)) : Py Dict :=
  addMembers (flipperNames.map (ownCol logs [])) (nxEntry [("NX_class".toList, "NXflipper".toList)])

/-- nexus_builder.py lines 362-372. -/
def goniNames : List Str :=
  ["s1".toList, "s2".toList, "sgu".toList, "sgl".toList, "stu".toList, "stl".toList, "omega".toList,
   "two_theta".toList, "2theta".toList, "chi".toList, "phi".toList]

/-- nexus_builder.py lines 357-372. -/
noncomputable def buildGoni (logs : List (Str × LogVal)) (md : List (Str × MetaVal)) : Py Dict :=
  addMembers (("sense".toList, senseAt md 1) :: goniNames.map (ownCol logs [units "degrees".toList]))
    (nxEntry [("NX_class".toList, "NXtransformations".toList)])

/-- The three columns of a monitor, nexus_builder.py lines 390-392 and 433-435. -/
noncomputable def monitorCols (logs : List (Str × LogVal)) : List Field :=
  [ownCol logs [units "seconds".toList] "time".toList,
   ("monitor".toList, dsIntCol (colOf logs "monitor".toList) [units "counts".toList]),
   ownCol logs [units "mcu".toList] "mcu".toList]

/-- nexus_builder.py lines 386-397: the members in the mode `normal`. -/
noncomputable def monitorNormal (logs : List (Str × LogVal)) (md : List (Str × MetaVal)) : List Field :=
  [("preset_type".toList, .ok (dsText (some "normal".toList) [])),
   ("mode".toList, .ok (dsText (textOf md "preset_channel".toList) [required])),
   ("preset".toList, dsFloatText (textOf md "preset_value".toList) [required])] ++ monitorCols logs

/-- `metadata.get(k)[i]` for the lists of names: `TypeError` when there is no such entry. -/
def nameAt (md : List (Str × MetaVal)) (k : Str) (i : ℕ) : Py Str :=
  match lookupKey k md with
  | some (.strs l) => need l[i]? .indexError
  | _ => .error .typeError

/-- `metadata.get(k)[i]` for the list of preset values. -/
def numAt (md : List (Str × MetaVal)) (k : Str) (i : ℕ) : Py ℚ :=
  match lookupKey k md with
  | some (.nums l) => need l[i]? .indexError
  | _ => .error .typeError

/-- nexus_builder.py lines 417-428: the members of one channel. -/
noncomputable def channelFields (logs : List (Str × LogVal)) (md : List (Str × MetaVal)) (i : ℕ) : List Field :=
  [(suffixed "mode".toList i, (nameAt md "norm_channels".toList (i - 1)).map fun s => dsText (some s) []),
   (suffixed "preset".toList i, (numAt md "norm_vals".toList (i - 1)).map fun q : ℚ =>
      some (nxDs (.num (q : ℝ)) [("type".toList, "NX_FLOAT".toList)])),
   (suffixed "time".toList i, dsFloatCol (colOf logs (suffixed "time".toList i)) [units "seconds".toList]),
   (suffixed "monitor".toList i, dsIntCol (colOf logs (suffixed "monitor".toList i)) [units "counts".toList]),
   (suffixed "mcu".toList i, dsFloatCol (colOf logs (suffixed "mcu".toList i)) [units "mcu".toList]),
   (suffixed "label".toList i, (nameAt md "labels".toList (i - 1)).map fun s => dsText (some s) [])]

/-- nexus_builder.py lines 400-429: the members in the mode `countfile`; `None.split` is an `AttributeError`. -/
noncomputable def monitorCountfile (logs : List (Str × LogVal)) (md : List (Str × MetaVal)) : List Field :=
  [("preset_type".toList, .ok (dsText (some "countfile".toList) [])),
   ("countfile".toList, (need (textOf md "countfile".toList) .attributeError).map fun cf =>
      some (nxDs (.strs (splitChar ',' cf)) [("type".toList, "NX_CHAR".toList)]))]
  ++ (oneTo (nDet logs)).flatMap (channelFields logs md)

/-- nexus_builder.py lines 383-438: the members of the monitor. -/
noncomputable def monitorFields (logs : List (Str × LogVal)) (md : List (Str × MetaVal)) : List Field :=
  if textOf md "preset_type".toList = some "normal".toList then monitorNormal logs md
  else if textOf md "preset_type".toList = some "countfile".toList then monitorCountfile logs md
  else monitorCols logs

/-- nexus_builder.py lines 383-438. -/
noncomputable def buildMonitor (logs : List (Str × LogVal)) (md : List (Str × MetaVal)) : Py Dict :=
  addMembers (monitorFields logs md) (nxEntry [("NX_class".toList, "NXmonitor".toList), required])

/-- nexus_builder.py lines 490-494. -/
def temperatureNames : List Str :=
  ["temp".toList, "temp_a".toList, "temp_2".toList, "coldtip".toList, "tsample".toList, "sample".toList, "vti".toList,
   "dr_tsample".toList, "dr_temp".toList, "lt".toList, "ht".toList, "sorb_temp".toList, "sorb".toList,
   "sample_ht".toList]

/-- nexus_builder.py line 498. -/
def fieldNames : List Str := ["persistent_field".toList, "mag_i".toList]

/-- nexus_builder.py lines 464-500: the members of the sample. -/
noncomputable def sampleFields (logs : List (Str × LogVal)) (md : List (Str × MetaVal)) : List Field :=
  [("name".toList, .ok (dsText (textOf md "samplename".toList) [required])),
   ("type".toList, .ok (dsText (textOf md "sampletype".toList) [required])),
   ("unit_cell".toList, dsFloatText (textOf md "latticeconstants".toList) [required]),
   ("qh".toList, dsFloatCol (colOf logs "h".toList) [required, units "r.l.u.".toList]),
   ("qk".toList, dsFloatCol (colOf logs "k".toList) [required, units "r.l.u.".toList]),
   ("ql".toList, dsFloatCol (colOf logs "l".toList) [required, units "r.l.u.".toList]),
   ("en".toList, dsFloatCol (colOf logs "e".toList) [required, units "meV".toList]),
   ownCol logs [units "Angstrom^-1".toList] "q".toList,
   ("mosaic".toList, dsFloatText (textOf md "samplemosaic".toList) [units "degrees".toList]),
   ("Pt.".toList, dsIntCol (colOf logs "Pt.".toList) []),
   ("orientation_matrix".toList, dsFloatText (textOf md "ubmatrix".toList) [required, units "NX_DIMENSIONLESS".toList]),
   ("plane_normal".toList, dsFloatText (textOf md "plane_normal".toList) [])]
  ++ temperatureNames.map (ownCol logs [units "Kelvin".toList])
  ++ fieldNames.map (ownCol logs [units "Tesla".toList])

/-- nexus_builder.py lines 464-500. -/
noncomputable def buildSample (logs : List (Str × LogVal)) (md : List (Str × MetaVal)) : Py Dict :=
  addMembers (sampleFields logs md) (nxEntry [("NX_class".toList, "NXsample".toList), required])

/-- nexus_builder.py lines 521, 524-525: the NeXus name of the default abscissa. -/
def nexusName (s : Str) : Str :=
  if s = "h".toList then "qh".toList
  else if s = "k".toList then "qk".toList
  else if s = "l".toList then "ql".toList
  else if s = "e".toList then "en".toList
  else s

/-- An attribute that is left out when it is `None`. -/
def optAttr (k : Str) : Option Str → List (Str × Str)
  | none => []
  | some v => [(k, v)]

/-- nexus_builder.py lines 521-527: only `def_x` is translated. -/
def buildData (md : List (Str × MetaVal)) : Dict :=
  nxEntry ([("NX_class".toList, "NXdata".toList), required]
    ++ optAttr "signal".toList (textOf md "def_y".toList)
    ++ optAttr "axes".toList ((textOf md "def_x".toList).map nexusName))

/-- nexus_builder.py lines 448-460. -/
def buildInstrument (src mono coll ana det slits flip goni : Dict) (md : List (Str × MetaVal)) : Dict :=
  addDataset
    (.cons kAttrs (.dict (strDict [("NX_class".toList, "NXinstrument".toList), required]))
    (.cons "source".toList (.dict src)
    (.cons "monochromator".toList (.dict mono)
    (.cons "collimator".toList (.dict coll)
    (.cons "analyser".toList (.dict ana)
    (.cons "detector".toList (.dict det)
    (.cons "slits".toList (.dict slits)
    (.cons "flipper".toList (.dict flip)
    (.cons "goniometer".toList (.dict goni) .nil)))))))))
    "name".toList (dsText (textOf md "instrument".toList) [])

/-! ## The logs -/

/-- An attribute of the logs; `None` is never kept. -/
noncomputable def metaLeaf : MetaVal → Option Leaf
  | .str s => some (.str s)
  | .nums l => some (reals l)
  | .strs l => some (.strs l)
  | .none => none

/-- The attributes of the logs. -/
noncomputable def metaDict : List (Str × MetaVal) → Dict
  | [] => .nil
  | (k, v) :: l => match metaLeaf v with
    | some x => .cons k (.leaf x) (metaDict l)
    | none => metaDict l

/-- nexus_builder.py lines 151-152: the columns, without attributes. -/
noncomputable def logDict : List (Str × LogVal) → Py Dict
  | [] => .ok .nil
  | (k, .col l) :: rest =>
    logDict rest >>= fun d => .ok (.cons k (.dict (nxDs (floats l) [])) d)
  | _ :: rest => logDict rest

/-- The group `SPICElogs`, nexus_builder.py lines 136-154 and 536. -/
noncomputable def buildLogs (logs : List (Str × LogVal)) : Py Dict :=
  formattedSpicelogs logs >>= fun g =>
  logDict g.datasets >>= fun d => .ok (.cons kAttrs (.dict (metaDict g.attrs)) d)

/-! ## The entry -/

/-- `"{}".format(metadata.get(k))`. -/
def textOrNone (md : List (Str × MetaVal)) (k : Str) : Str := (textOf md k).getD "None".toList

/-- nexus_builder.py lines 535-548, the groups being given. -/
def assemble (lg data : Dict) (title start stop : Option Dict) (inst mon samp user : Dict) : Dict :=
  ((((addDataset (addDataset (addDataset
    (.cons kAttrs (.dict (strDict [("NX_class".toList, "NXentry".toList), required]))
    (.cons kSpice (.dict lg)
    (.cons "data".toList (.dict data)
    (.cons "definition".toList (.dict (nxDs (.str "NXtas".toList) [("type".toList, "NX_CHAR".toList), required])) .nil))))
    "title".toList title)
    "start_time".toList start)
    "end_time".toList stop).set "instrument".toList (.dict inst)).set "monitor".toList (.dict mon)).set
    "sample".toList (.dict samp)).set "user".toList (.dict user)

/-- nexus_builder.py lines 185-549, `spice_scan_to_nxdict` after the logs have been created. A data column called
`metadata` hides the header; indexing it by a text raises `IndexError`. -/
noncomputable def scanToNx (iso : Str → Py Str) (logs : List (Str × LogVal)) : Py Dict :=
  (match lookupKey "metadata".toList logs with
    | some (.meta_ md) => Except.ok md
    | _ => .error .indexError) >>= fun md =>
  buildUser md >>= fun user =>
  buildSource >>= fun src =>
  buildMono logs md >>= fun mono =>
  buildAna logs md >>= fun ana =>
  buildDet logs >>= fun det =>
  buildColl md >>= fun coll =>
  buildSlits logs >>= fun slits =>
  buildFlipper logs >>= fun flip =>
  buildGoni logs md >>= fun goni =>
  buildMonitor logs md >>= fun mon =>
  buildSample logs md >>= fun samp =>
  buildLogs logs >>= fun lg =>
  dsDate iso (some (textOrNone md "date".toList ++ " ".toList ++ textOrNone md "time".toList)) [required] >>= fun start =>
  dsDate iso (textOf md "end_time".toList) [] >>= fun stop =>
  .ok (assemble lg (buildData md) (dsText (textOf md "scan_title".toList) [required]) start stop
    (buildInstrument src mono coll ana det slits flip goni md) mon samp user)

/-! ## Folders -/

/-- nexus_builder.py lines 573-580: the names that are read. -/
def wantedFiles (scanNum : Option ℕ) (names : List Str) : List Str :=
  names.filter fun s => (match scanNum with
    | none => ".dat".toList
    | some n => scanName n ++ ".dat".toList).isSuffixOf s

/-- nexus_builder.py lines 586-595: the name of the data set, from the first file. -/
def datasetName (md : List (Str × MetaVal)) (file : Str) : Py Str :=
  match splitChar '_' file with
  | [a, b, _] => .ok ("IPTS".toList ++ (textOf md "proposal".toList).getD "UNKNOWN".toList ++ "_".toList ++ a ++ "_".toList ++ b)
  | _ => .error .valueError

/-- nexus_builder.py lines 599-606: the name of the entry of a file. -/
def entryName (file : Str) : Py Str :=
  (need (splitChar '_' file)[2]? .valueError).map fun p => (splitChar '.' p).headD []

/-- nexus_builder.py line 613. `nxentry["attrs"].update({"dataset_name": ...})`. -/
def setDatasetName (d : Dict) (name : Str) : Dict :=
  match d.get? kAttrs with
  | some (.dict a) => d.set kAttrs (.dict (a.set "dataset_name".toList (.leaf (.str name))))
  | _ => d

/-- nexus_builder.py lines 157-549 for a file: logs and entry. -/
noncomputable def fileToNx (iso : Str → Py Str) (xml : List Str → Option Str) (fs : FS) (dir : List Str) (name : Str) :
    Py Dict :=
  createSpicelogs xml fs dir name >>= scanToNx iso

/-- nexus_builder.py lines 597-614: the loop over the files. -/
noncomputable def filesToNx (iso : Str → Py Str) (xml : List Str → Option Str) (fs : FS) (dir : List Str) (ds : Str) :
    List Str → List (Str × Dict) → Py (List (Str × Dict))
  | [], acc => .ok acc
  | f :: rest, acc =>
    entryName f >>= fun n =>
    fileToNx iso xml fs dir f >>= fun d =>
    filesToNx iso xml fs dir ds rest (assocSet acc n (setDatasetName d ds))

/-- nexus_builder.py lines 552-616, `spice_data_to_nxdict`, together with the conversion of each entry to a `NexusEntry`
(nexus_entry.py lines 161-170), which copies the items. `listing` is `os.listdir`. All paths start with the same folder,
so sorting the paths sorts the names. -/
noncomputable def spiceDataToNx (iso : Str → Py Str) (xml : List Str → Option Str) (fs : FS) (folder : List Str)
    (listing : List Str) (scanNum : Option ℕ) : Py (List (Str × Dict)) :=
  need (sortStr (wantedFiles scanNum listing)).head? .indexError >>= fun first =>
  readSpiceDatafile fs (folder ++ ["Datafiles".toList] ++ [first]) >>= fun f =>
  datasetName f.metadata first >>= fun ds =>
  filesToNx iso xml fs (folder ++ ["Datafiles".toList]) ds (sortStr (wantedFiles scanNum listing)) []

/-- `os.path.isdir`. -/
def isFolder (fs : FS) (path : List Str) : Bool :=
  match fs path with
  | some .folder => true
  | _ => false

/-- nexus_entry.py lines 173-211, `NexusEntry.from_spice`. -/
noncomputable def fromSpice (iso : Str → Py Str) (xml : List Str → Option Str) (fs : FS) (folder : List Str)
    (listing : List Str) (scanNum : Option ℕ) : Py (List (Str × Dict)) :=
  if (fs folder).isNone then .error .fileNotFound
  else if isFolder fs folder = false then .error .notADirectory
  else if isFolder fs (folder ++ ["Datafiles".toList]) = false then .error .fileNotFound
  else spiceDataToNx iso xml fs folder listing scanNum

/-! ## The names of the datasets -/

/-- nexus_entry.py lines 331-334, `"dataset" in val`: a key of a dict, a part of a text, an element of a list; `TypeError`
for a number. -/
def mentionsDataset : Val → Py Bool
  | .dict d => .ok (d.has kDataset)
  | .leaf (.str s) => .ok (isSubstr kDataset s)
  | .leaf (.strs l) => .ok (decide (kDataset ∈ l))
  | .leaf (.num _) => .error .typeError
  | .leaf (.arr _) => .ok false

/-- nexus_entry.py lines 333-336: is `val["dataset"]` an array with `n` elements? `lists` are the names of the datasets
held as Python lists, not arrays. -/
def sizedArray (lists : List Str) (n : ℕ) (key : Str) : Val → Bool
  | .leaf (.strs l) => decide (key ∉ lists ∧ l.length = n)
  | .leaf (.arr l) => decide (key ∉ lists ∧ l.length = n)
  | _ => false

/-- nexus_entry.py lines 330-336: one item. -/
def nameItem (lists : List Str) (n : ℕ) (key : Str) (val : Val) : Py Bool :=
  mentionsDataset val >>= fun b =>
  if b then val.index kDataset >>= fun ds => .ok (sizedArray lists n key ds) else .ok false

/-- nexus_entry.py lines 329-336, `_get_name(val_dict)`. -/
def namesIn (lists : List Str) (n : ℕ) : Dict → Py (List Str)
  | .nil => .ok []
  | .cons k v rest =>
    nameItem lists n k v >>= fun b =>
    namesIn lists n rest >>= fun r => .ok (if b then k :: r else r)

/-- nexus_entry.py lines 343-351: one component of the instrument; a polarised detector is searched twice. -/
def namesComponent (lists : List Str) (n : ℕ) (k : Str) (v : Val) : Py (List Str) :=
  if k = kAttrs then .ok []
  else match v with
    | .leaf _ => .error .attributeError
    | .dict d =>
      if k = "detector".toList then
        if d.has "data".toList then .ok ["detector".toList]
        else namesIn lists n d >>= fun a => namesIn lists n d >>= fun b => .ok (a ++ b)
      else namesIn lists n d

/-- nexus_entry.py lines 343-351. -/
def namesInstrument (lists : List Str) (n : ℕ) : Dict → Py (List Str)
  | .nil => .ok []
  | .cons k v rest =>
    namesComponent lists n k v >>= fun a =>
    namesInstrument lists n rest >>= fun b => .ok (a ++ b)

/-- `len(x)`. -/
def lenOf : Option Val → Py ℕ
  | some (.leaf (.str s)) => .ok s.length
  | some (.leaf (.strs l)) => .ok l.length
  | some (.leaf (.arr l)) => .ok l.length
  | some (.dict d) => .ok d.keys.length
  | _ => .error .typeError

/-- `self[k]` that must be a dict. -/
def groupOf (d : Dict) (k : Str) : Py Dict :=
  need (d.get? k) .keyError >>= fun v => match v with
    | .dict e => .ok e
    | .leaf _ => .error .attributeError

/-- nexus_entry.py lines 353-355: a link to the monitor data is removed from the entry. -/
def dropMonitorData (d : Dict) (mon : Dict) : Py (Dict × Dict) :=
  (nxGet d "monitor/data".toList false).1 >>= fun o =>
  if o.isSome then .ok (mon.erase "data".toList, d.set "monitor".toList (.dict (mon.erase "data".toList)))
  else .ok (mon, d)

/-- nexus_entry.py lines 326-361, `get_dataset_names`: the names, and the entry as it is afterwards. -/
def datasetNames (lists : List Str) (d : Dict) : Py (List Str × Dict) :=
  (nxGet d "Pt.".toList false).1 >>= fun pts =>
  lenOf pts >>= fun n =>
  groupOf (dropLogs d) "instrument".toList >>= fun inst =>
  namesInstrument lists n inst >>= fun a =>
  groupOf (dropLogs d) "monitor".toList >>= fun mon =>
  dropMonitorData (dropLogs d) mon >>= fun md =>
  namesIn lists n md.1 >>= fun b =>
  groupOf md.2 "sample".toList >>= fun samp =>
  namesIn lists n samp >>= fun c =>
  .ok (a ++ b ++ c, md.2)

/-! ## Scans -/

/-- A `Scan`: name, entry and data. -/
structure ScanObj where
  name : Str
  entry : Dict
  data : List (Str × Option Val)

/-- scan.py lines 190-196: the loop of `get_data_columns`. -/
def columnsLoop (d : Dict) : List Str → List (Str × Option Val) → Py (List (Str × Option Val))
  | [], acc => .ok acc
  | n :: rest, acc => (nxGet d n false).1 >>= fun v => columnsLoop d rest (assocSet acc n v)

/-- scan.py lines 82-85 and 190-196, `Scan(name, nexus_dict)`. -/
def newScan (lists : List Str) (name : Str) (d : Dict) : Py ScanObj :=
  datasetNames lists d >>= fun nd =>
  (columnsLoop nd.2 nd.1 []).map fun data => ⟨name, dropLogs nd.2, data⟩

/-- scan.py lines 91-105, `Scan.from_spice`: there must be exactly one entry. -/
noncomputable def scanFromSpice (iso : Str → Py Str) (xml : List Str → Option Str) (fs : FS) (folder : List Str)
    (listing : List Str) (scanNum : ℕ) : Py ScanObj :=
  fromSpice iso xml fs folder listing (some scanNum) >>= fun es => match es with
    | [e] => newScan ["divergence_x".toList] e.1 e.2
    | _ => .error .valueError

/-- What is counted up to, in `ScanInfo`. -/
inductive PresetInfo where
  | normal (channel value : Option Val)
  | countfile (l : List (Option Val × Option Val × Option Val))

/-- `self._nexus_dict.get(key)`. -/
def ScanObj.get (s : ScanObj) (key : Str) : Py (Option Val) := (nxGet s.entry key false).1

/-- scan.py lines 124-129: the channels, at most twelve. -/
def channelLoop (s : ScanObj) : List ℕ → Py (List (Option Val × Option Val × Option Val))
  | [] => .ok []
  | i :: rest =>
    s.get (suffixed "monitor/mode".toList i) >>= fun m =>
    if m.isNone then .ok []
    else s.get (suffixed "monitor/preset".toList i) >>= fun p =>
      s.get (suffixed "monitor/label".toList i) >>= fun l =>
      channelLoop s rest >>= fun r => .ok ((m, p, l) :: r)

/-- Does the look-up give this text? -/
def isText (o : Option Val) (t : Str) : Bool :=
  match o with
  | some (.leaf (.str s)) => decide (s = t)
  | _ => false

/-- scan.py lines 115-129; another preset type leaves the names unbound. -/
def presetOf (s : ScanObj) : Py PresetInfo :=
  s.get "preset_type".toList >>= fun t =>
  if isText t "normal".toList then
    s.get "monitor/mode".toList >>= fun c => s.get "monitor/preset".toList >>= fun v => .ok (.normal c v)
  else if isText t "countfile".toList then (channelLoop s (oneTo 12)).map .countfile
  else .error .unboundLocal

/-- The reported information, scan.py lines 18-32. -/
structure ScanInfo where
  expId : Option Val
  scanNum : ℤ
  title : Option Val
  defY : Val
  defX : Val
  start : Option Val
  stop : Option Val
  presetType : Option Val
  preset : PresetInfo

/-- `get("data", ATTRS=True)[k]`. -/
def dataAttr (s : ScanObj) (k : Str) : Py Val :=
  (nxGet s.entry "data".toList true).1 >>= fun o => need o .typeError >>= fun v => v.index k

/-- `self._nexus_dict["attrs"].get("dataset_name")`. -/
def scanExpId (s : ScanObj) : Py (Option Val) :=
  need (s.entry.get? kAttrs) .keyError >>= fun a => match a with
    | .dict d => .ok (d.get? "dataset_name".toList)
    | .leaf _ => .error .attributeError

/-- scan.py lines 112-145, `scan_info`; the names are bound before the fields are looked up, but used only afterwards. -/
def scanInfo (s : ScanObj) : Py ScanInfo :=
  s.get "preset_type".toList >>= fun t =>
  (match presetOf s with
    | .error .unboundLocal => Except.ok none
    | .error e => .error e
    | .ok p => .ok (some p)) >>= fun p =>
  scanExpId s >>= fun e =>
  reportedNumber s.name >>= fun n =>
  s.get "title".toList >>= fun ti =>
  dataAttr s "signal".toList >>= fun y =>
  dataAttr s "axes".toList >>= fun x =>
  s.get "start_time".toList >>= fun st =>
  s.get "end_time".toList >>= fun en =>
  need p .unboundLocal >>= fun p =>
  .ok ⟨e, n, ti, y, x, st, en, t, p⟩

/-- The reported sample, scan.py lines 35-51; `ubconf` is always `None`, both mosaics are the same. -/
structure SampleUBInfo where
  name : Option Val
  lattice : Option Val
  mosaicH : Option Val
  mosaicV : Option Val
  ub : M3
  type : Option Val
  uv : Option (V3 × V3)
  normal : Option Val

/-- `x.reshape(3, 3)`: `AttributeError` for `None`, numbers and texts. A matrix with an undefined number is a `nonFinite`
outcome. -/
def reshape33 : Option Val → Py M3
  | some (.leaf (.arr [some a, some b, some c, some d, some e, some f, some g, some h, some i])) =>
    .ok !![a, b, c; d, e, f; g, h, i]
  | some (.leaf (.arr l)) => if l.length = 9 then .error .nonFinite else .error .valueError
  | _ => .error .attributeError

/-- scan.py lines 147-174, `sample_ub_info`. -/
noncomputable def sampleUbInfo (s : ScanObj) : Py SampleUBInfo :=
  s.get "sample/type".toList >>= fun t =>
  s.get "sample/mosaic".toList >>= fun mo =>
  s.get "sample/orientation_matrix".toList >>= fun o =>
  reshape33 o >>= fun ub =>
  s.get "sample/unit_cell".toList >>= fun uc =>
  (if isText t "crystal".toList then (ubMatrixToUv (spiceToMantid * ub)).map some else .ok none) >>= fun uv =>
  s.get "sample/name".toList >>= fun n =>
  s.get "sample/plane_normal".toList >>= fun pn =>
  .ok ⟨n, uc, mo, mo, ub, t, uv, pn⟩

/-- The reported instrument, scan.py lines 55-63; `instrument_name` keeps its default `""`. -/
structure InstrumentInfo where
  name : Str
  mono : Option Val
  ana : Option Val
  sense : Str
  collimation : Option Val

/-- A text operand of `+`; `TypeError` otherwise. -/
def addend : Option Val → Py Str
  | some (.leaf (.str s)) => .ok s
  | _ => .error .typeError

/-- scan.py lines 179-191, `instrument_info`. -/
def instrumentInfo (s : ScanObj) : Py InstrumentInfo :=
  s.get "monochromator/type".toList >>= fun m =>
  s.get "analyser/type".toList >>= fun a =>
  s.get "monochromator/sense".toList >>= fun s0 =>
  s.get "goniometer/sense".toList >>= fun s1 =>
  s.get "analyser/sense".toList >>= fun s2 =>
  addend s0 >>= fun t0 => addend s1 >>= fun t1 => addend s2 >>= fun t2 =>
  s.get "divergence_x".toList >>= fun c =>
  .ok ⟨[], m, a, t0 ++ t1 ++ t2, c⟩

end Tavi
