import Verif.Model.Builder

/-!
# Model of the configuration files in `nexus_builder.py` (lines 168-183, 202-211, 229-244, 262-277, 286-295, 314-336, 374-379,
440-445, 502-518)

`spice_scan_to_nxdict` may be given two JSON files, one for the instrument and one for the sample. Simplifications:
* decoding of the JSON text is not modelled: a file is the decoded dict, a section of the instrument file again a dict;
* of nested values only lists of numbers and lists of texts; where anything else (a dict, a mixed list) would be stored the model
  stops with `nonFinite`. A matrix is the list of its nine numbers, as in the shipped files; the code stores it with shape `(3, 3)`;
* a number carries the text `str` gives for it; `True` and `False` kept as they are become the numbers 1 and 0.
-/

namespace Tavi

/-- A value in a configuration file. -/
inductive JVal where
  | null
  | bool (b : Bool)
  | num (x : ℝ) (text : Str)
  | str (s : Str)
  | nums (l : List ℝ)
  | strs (l : List Str)
  | other

/-- A section of the instrument file: `null`, a dict, or something without `items`. -/
inductive JSec where
  | null
  | dict (l : List (Str × JVal))
  | other

/-- The configuration files as decoded; `none` is a path that is `None`. -/
structure NxConfig where
  inst : Option (List (Str × JSec))
  samp : Option (List (Str × JVal))

/-- The keyword arguments given to `NXdataset` for a parameter. -/
inductive JKind where
  | char
  | float (attrs : List (Str × Str))
  | angle (attrs : List (Str × Str))
  | raw
  | skip
  | matrix

/-! ## Datasets -/

/-- nexus_builder.py line 77: `np.array(ds) if isinstance(ds, list) else str(ds)`. -/
def charLeaf : JVal → Py Leaf
  | .bool true => .ok (.str "True".toList)
  | .bool false => .ok (.str "False".toList)
  | .num _ t => .ok (.str t)
  | .str s => .ok (.str s)
  | .nums l => .ok (.fin l)
  | .strs l => .ok (.strs l)
  | _ => .error .nonFinite

/-- nexus_builder.py lines 31-58, `_recast_type(ds, "NX_FLOAT")`; a dict is refused (line 57). -/
noncomputable def floatLeaf : JVal → Py Leaf
  | .bool b => .ok (.num (if b then 1 else 0))
  | .num x _ => .ok (.num x)
  | .str s => (recastStr s true).map Recast.leaf
  | .nums l => .ok (.fin l)
  | .strs l => (l.mapM pyFloat).map reals
  | _ => .error .typeError

/-- nexus_builder.py lines 93-94: the value as it is. -/
noncomputable def rawLeaf : JVal → Py Leaf
  | .bool b => .ok (.num (if b then 1 else 0))
  | .num x _ => .ok (.num x)
  | .str s => .ok (.str s)
  | .nums l => .ok (.fin l)
  | .strs l => .ok (.strs l)
  | _ => .error .nonFinite

/-- nexus_builder.py line 515: `np.reshape(np.array(value), (3, 3))` as `NX_FLOAT`. -/
noncomputable def matrixLeaf : JVal → Py Leaf
  | .nums l => if l.length = 9 then .ok (.fin l) else .error .valueError
  | .strs l => if l.length = 9 then (l.mapM pyFloat).map reals else .error .valueError
  | _ => .error .valueError

/-- nexus_builder.py lines 65-69: is nothing made of the value? -/
def JVal.empty : JVal → Bool
  | .null => true
  | .str s => s.isEmpty
  | _ => false

/-- nexus_builder.py lines 64-96, `NXdataset(ds=value, ...)` for a value from a configuration file. -/
noncomputable def jsonDs (k : JKind) (v : JVal) : Py (Option Dict) :=
  match k with
  | .matrix => (matrixLeaf v).map fun x => some (nxDs x [("type".toList, "NX_FLOAT".toList)])
  | .skip => .ok none
  | .char => if v.empty then .ok none else (charLeaf v).map fun x => some (nxDs x [("type".toList, "NX_CHAR".toList)])
  | .float a => if v.empty then .ok none else
      (floatLeaf v).map fun x => some (nxDs x (("type".toList, "NX_FLOAT".toList) :: a))
  | .angle a => if v.empty then .ok none else
      (rawLeaf v).map fun x => some (nxDs x (("type".toList, "NX_ANGLE".toList) :: a))
  | .raw => if v.empty then .ok none else (rawLeaf v).map fun x => some (nxDs x [])

/-! ## Which parameter is stored how -/

/-- nexus_builder.py lines 205-211 (source) and 289-295 (detector). -/
def boxKind (p : Str) : JKind :=
  if p = "shape".toList then .char
  else if p ∈ ["width".toList, "height".toList] then .float [units "cm".toList]
  else .raw

/-- nexus_builder.py lines 232-244 (monochromator) and 265-277 (analyzer); the mosaic is the only difference. -/
def crystalKind (mosaic : JKind) (p : Str) : JKind :=
  if p = "shape".toList then .char
  else if p ∈ ["width".toList, "height".toList, "depth".toList] then .float [units "cm".toList]
  else if p ∈ ["mosaic_h".toList, "mosaic_v".toList] then mosaic
  else if p ∈ ["curved_h".toList, "optimally_curved_h".toList, "curved_v".toList, "optimally_curved_v".toList] then .char
  else if p ∈ ["curvh".toList, "curvv".toList] then .float [units "cm^-1".toList]
  else .raw

/-- nexus_builder.py line 238. -/
def monoMosaic : JKind := .float [units "mins of arc".toList]

/-- nexus_builder.py line 271. -/
def anaMosaic : JKind := .angle [units "minutes of arc".toList]

/-- nexus_builder.py lines 377-379 (`type` of the goniometer) and 443-445 (`shape` of the monitor): nothing else is taken. -/
def onlyKind (q p : Str) : JKind := if p = q then .char else .skip

/-- nexus_builder.py lines 504-518. -/
def sampleKind (p : Str) : JKind :=
  if p ∈ ["a".toList, "b".toList, "c".toList, "alpha".toList, "beta".toList, "gamma".toList] then .skip
  else if p = "shape".toList then .char
  else if p ∈ ["width".toList, "height".toList, "depth".toList, "plane_normal".toList, "in_plane_ref".toList] then
    .float [units "cm".toList]
  else if p ∈ ["mosaic_h".toList, "mosaic_v".toList] then .angle [units "minutes of arc".toList]
  else if p = "ub_matrix".toList then .matrix
  else .raw

/-- nexus_builder.py line 515: the matrix is stored under another name. -/
def sampleKey (p : Str) : Str := if p = "ub_matrix".toList then "orientation_matrix".toList else p

/-! ## Members of the groups -/

/-- `instrument_config_params.get(name)`, when there is an instrument file. -/
def NxConfig.sec (c : NxConfig) (name : Str) : JSec :=
  match c.inst with
  | none => .null
  | some l => (lookupKey name l).getD .null

/-- The members made of a section: `section.items()` raises `AttributeError` when the section is no dict. -/
noncomputable def secFields (kind : Str → JKind) : JSec → List Field
  | .null => []
  | .dict l => l.map fun kv => (kv.1, jsonDs (kind kv.1) kv.2)
  | .other => [([], .error .attributeError)]

/-- A value that is a number. -/
def JVal.num? : JVal → Option ℝ
  | .num x _ => some x
  | _ => none

/-- The list in a dataset of the collimators. -/
def listLeaf (l : List JVal) : Py Leaf :=
  match l.mapM JVal.num? with
  | some xs => .ok (.fin xs)
  | none => .error .nonFinite

/-- nexus_builder.py lines 316-325 (and 327-336): a direction of the collimators, left out when one of the four is missing. -/
noncomputable def divField (key pre : Str) (l : List (Str × JVal)) : List Field :=
  match ["_pre_mono".toList, "_pre_sample".toList, "_post_sample".toList, "_post_ana".toList].mapM fun s => lookupKey (pre ++ s) l with
  | none => []
  | some vs => [(key, (listLeaf vs).map fun x =>
      some (nxDs x [("type".toList, "NX_ANGLE".toList), units "minutes of arc".toList]))]

/-- nexus_builder.py lines 314-336; indexing anything but a dict by a text raises `TypeError`. -/
noncomputable def collJson : JSec → List Field
  | .null => []
  | .dict l => divField "divergence_x".toList "h".toList l ++ divField "divergence_y".toList "v".toList l
  | .other => [([], .error .typeError)]

/-- nexus_builder.py lines 502-518. -/
noncomputable def sampleJson : Option (List (Str × JVal)) → List Field
  | none => []
  | some l => l.map fun kv => (sampleKey kv.1, jsonDs (sampleKind kv.1) kv.2)

/-! ## The entry -/

/-- nexus_builder.py lines 195-211. -/
noncomputable def buildSourceWith (c : NxConfig) : Py Dict :=
  buildSource >>= addMembers (secFields boxKind (c.sec "source".toList))

/-- nexus_builder.py lines 215-244. -/
noncomputable def buildMonoWith (c : NxConfig) (logs : List (Str × LogVal)) (md : List (Str × MetaVal)) : Py Dict :=
  buildMono logs md >>= addMembers (secFields (crystalKind monoMosaic) (c.sec "monochromator".toList))

/-- nexus_builder.py lines 248-277. -/
noncomputable def buildAnaWith (c : NxConfig) (logs : List (Str × LogVal)) (md : List (Str × MetaVal)) : Py Dict :=
  buildAna logs md >>= addMembers (secFields (crystalKind anaMosaic) (c.sec "analyzer".toList))

/-- nexus_builder.py lines 281-303: the configuration comes between `data` and the detectors of the polarised mode. -/
noncomputable def buildDetWith (c : NxConfig) (logs : List (Str × LogVal)) : Py Dict :=
  addMembers ((detFields logs).take 1) (nxEntry [("NX_class".toList, "NXdetector".toList), required]) >>= fun d =>
  addMembers (secFields boxKind (c.sec "detector".toList)) d >>= addMembers ((detFields logs).drop 1)

/-- nexus_builder.py lines 307-336. -/
noncomputable def buildCollWith (c : NxConfig) (md : List (Str × MetaVal)) : Py Dict :=
  buildColl md >>= addMembers (collJson (c.sec "collimators".toList))

/-- nexus_builder.py lines 357-379. -/
noncomputable def buildGoniWith (c : NxConfig) (logs : List (Str × LogVal)) (md : List (Str × MetaVal)) : Py Dict :=
  buildGoni logs md >>= addMembers (secFields (onlyKind "type".toList) (c.sec "goniometer".toList))

/-- nexus_builder.py lines 383-445. -/
noncomputable def buildMonitorWith (c : NxConfig) (logs : List (Str × LogVal)) (md : List (Str × MetaVal)) : Py Dict :=
  buildMonitor logs md >>= addMembers (secFields (onlyKind "shape".toList) (c.sec "monitor".toList))

/-- nexus_builder.py lines 464-518. -/
noncomputable def buildSampleWith (c : NxConfig) (logs : List (Str × LogVal)) (md : List (Str × MetaVal)) : Py Dict :=
  buildSample logs md >>= addMembers (sampleJson c.samp)

/-- nexus_builder.py lines 185-549, `spice_scan_to_nxdict` after the files have been read; as `scanToNx`, with the configuration. -/
noncomputable def scanToNxWith (iso : Str → Py Str) (c : NxConfig) (logs : List (Str × LogVal)) : Py Dict :=
  (match lookupKey "metadata".toList logs with
    | some (.meta_ md) => Except.ok md
    | _ => .error .indexError) >>= fun md =>
  buildUser md >>= fun user =>
  buildSourceWith c >>= fun src =>
  buildMonoWith c logs md >>= fun mono =>
  buildAnaWith c logs md >>= fun ana =>
  buildDetWith c logs >>= fun det =>
  buildCollWith c md >>= fun coll =>
  buildSlits logs >>= fun slits =>
  buildFlipper logs >>= fun flip =>
  buildGoniWith c logs md >>= fun goni =>
  buildMonitorWith c logs md >>= fun mon =>
  buildSampleWith c logs md >>= fun samp =>
  buildLogs logs >>= fun lg =>
  dsDate iso (some (textOrNone md "date".toList ++ " ".toList ++ textOrNone md "time".toList)) [required] >>= fun start =>
  dsDate iso (textOf md "end_time".toList) [] >>= fun stop =>
  .ok (assemble lg (buildData md) (dsText (textOf md "scan_title".toList) [required]) start stop
    (buildInstrument src mono coll ana det slits flip goni md) mon samp user)

/-! ## Files -/

/-- A path to a configuration file that may be `None`; `some none` is a path at which there is no file. -/
abbrev JPath (α : Type) := Option (Option α)

/-- nexus_builder.py lines 169-175 and 177-183. -/
def loadJson {α : Type} : JPath α → Py (Option α)
  | none => .ok none
  | some none => .error .valueError
  | some (some a) => .ok (some a)

/-- nexus_builder.py lines 157-549, `spice_scan_to_nxdict`. -/
noncomputable def fileToNxWith (iso : Str → Py Str) (xml : List Str → Option Str) (ji : JPath (List (Str × JSec)))
    (js : JPath (List (Str × JVal))) (fs : FS) (dir : List Str) (name : Str) : Py Dict :=
  loadJson ji >>= fun i =>
  loadJson js >>= fun s =>
  createSpicelogs xml fs dir name >>= scanToNxWith iso ⟨i, s⟩

/-- nexus_builder.py lines 597-614: the loop over the files. -/
noncomputable def filesToNxWith (iso : Str → Py Str) (xml : List Str → Option Str) (ji : JPath (List (Str × JSec)))
    (js : JPath (List (Str × JVal))) (fs : FS) (dir : List Str) (ds : Str) :
    List Str → List (Str × Dict) → Py (List (Str × Dict))
  | [], acc => .ok acc
  | f :: rest, acc =>
    entryName f >>= fun n =>
    fileToNxWith iso xml ji js fs dir f >>= fun d =>
    filesToNxWith iso xml ji js fs dir ds rest (assocSet acc n (setDatasetName d ds))

/-- nexus_builder.py lines 552-616, `spice_data_to_nxdict`, with nexus_entry.py lines 161-170. -/
noncomputable def spiceDataToNxWith (iso : Str → Py Str) (xml : List Str → Option Str) (ji : JPath (List (Str × JSec)))
    (js : JPath (List (Str × JVal))) (fs : FS) (folder : List Str) (listing : List Str) (scanNum : Option ℕ) :
    Py (List (Str × Dict)) :=
  need (sortStr (wantedFiles scanNum listing)).head? .indexError >>= fun first =>
  readSpiceDatafile fs (folder ++ ["Datafiles".toList] ++ [first]) >>= fun f =>
  datasetName f.metadata first >>= fun ds =>
  filesToNxWith iso xml ji js fs (folder ++ ["Datafiles".toList]) ds (sortStr (wantedFiles scanNum listing)) []

/-- nexus_entry.py lines 173-211, `NexusEntry.from_spice(folder, scan_num, instrument_json, sample_json)`. -/
noncomputable def fromSpiceWith (iso : Str → Py Str) (xml : List Str → Option Str) (ji : JPath (List (Str × JSec)))
    (js : JPath (List (Str × JVal))) (fs : FS) (folder : List Str) (listing : List Str) (scanNum : Option ℕ) :
    Py (List (Str × Dict)) :=
  if (fs folder).isNone then .error .fileNotFound
  else if isFolder fs folder = false then .error .notADirectory
  else if isFolder fs (folder ++ ["Datafiles".toList]) = false then .error .fileNotFound
  else spiceDataToNxWith iso xml ji js fs folder listing scanNum

/-- scan.py lines 91-105, `Scan.from_spice(folder, scan_num, instrument_json, sample_json)`; `lists` are the names of the datasets
that are kept as lists, which `get_dataset_names` does not take for columns. -/
noncomputable def scanFromSpiceWith (iso : Str → Py Str) (xml : List Str → Option Str) (ji : JPath (List (Str × JSec)))
    (js : JPath (List (Str × JVal))) (lists : List Str) (fs : FS) (folder listing : List Str) (scanNum : ℕ) : Py ScanObj :=
  fromSpiceWith iso xml ji js fs folder listing (some scanNum) >>= fun es => match es with
    | [e] => newScan lists e.1 e.2
    | _ => .error .valueError

end Tavi
