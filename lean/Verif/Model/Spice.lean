import Verif.Model.Str

/-!
# Model of `src/tavi/data/spice_reader.py` and of the log part of `src/tavi/data/nexus_builder.py`

Files are lists of lines, as `readlines()` gives them.  The file system is a function from absolute paths (lists of
components) to what is there.  Numbers in files are exact decimals (`ℚ`); `nan` is `none`.

Not modelled: the XML parser (a parameter, `xml`), `print`, encoding errors, relative paths and symbolic links, and
UB file names that still contain `/` after the last `\` (then `os.path.join` would step into a subfolder).
The first definition of `_create_spicelogs` (spice_reader.py lines 249-315) is shadowed by the second and never runs.
-/

namespace Tavi

/-! ## Count files -/

/-- spice_reader.py lines 22-28: the polarisation direction after a command. -/
def countDir (line p : Str) : Str :=
  if isSubstr "parq".toList line then "Px".toList
  else if isSubstr "perpqh".toList line then "Py".toList
  else if isSubstr "perpq".toList line then "Pz".toList
  else p

/-- spice_reader.py lines 30-34: the flipper state after a command. -/
def countFlip (line sf : Str) : Str :=
  if isSubstr "drive hguide off vguide off".toList line || isSubstr "floff".toList line
      || isSubstr "drive hguide 0 vguide 0".toList line then "NSF".toList
  else if isSubstr "drive hguide on vguide on".toList line || isSubstr "flon".toList line
      || isSubstr "drive".toList line then "SF".toList
  else sf

/-- What `parse_countfile` appends for one channel. -/
structure Channel where
  val : ℚ
  name : Str
  label : Str

/-- spice_reader.py lines 36-39: channel and value of a `count preset` command. `(*_, a, b) = line.split()` needs two
words. -/
def countPreset (line : Str) : Py (Str × ℚ) :=
  match (splitWs line).reverse with
  | v :: c :: _ => (pyFloat v).map fun x => (c, x)
  | _ => .error .valueError

/-- spice_reader.py lines 20-42: the loop, with `label_p`, `label_sf`, `num_of_channel`. -/
def countLoop : List Str → Str → Str → ℕ → Py (List Channel)
  | [], _, _, _ => .ok []
  | piece :: rest, p, sf, n =>
    if isSubstr "count preset".toList (strip piece) then
      countPreset (strip piece) >>= fun cv =>
      countLoop rest (countDir (strip piece) p) (countFlip (strip piece) sf) (n + 1) >>= fun chs =>
      .ok ({ val := cv.2, name := cv.1 ++ "_".toList ++ decStr n,
             label := countDir (strip piece) p ++ " ".toList ++ countFlip (strip piece) sf } :: chs)
    else countLoop rest (countDir (strip piece) p) (countFlip (strip piece) sf) n

/-- spice_reader.py lines 11-44, `parse_countfile`: the three returned lists, zipped. -/
def parseCountfile (countfile : Str) : Py (List Channel) := countLoop (splitChar ',' countfile) [] [] 1

/-! ## Metadata -/

/-- Values of the metadata dict. -/
inductive MetaVal where
  | str (s : Str)
  | nums (l : List ℚ)
  | strs (l : List Str)
  | none
  deriving DecidableEq

/-- State of the loop of `metadata_to_dict`. -/
structure MetaState where
  md : List (Str × Str)
  unrec : List Str

/-- spice_reader.py line 53. -/
def lineBody (line : Str) : Str := strip (lstripChar '#' line)

/-- spice_reader.py lines 56-60: a completion line with fewer than three words is only reported. -/
def setEndTime (body : Str) (md : List (Str × Str)) : List (Str × Str) :=
  match splitWs body with
  | t :: m :: d :: _ => assocSet md "end_time".toList (d ++ " ".toList ++ t ++ " ".toList ++ m)
  | _ => md

/-- spice_reader.py lines 63-68: a `key = value` line. -/
def addPair (body : Str) (md : List (Str × Str)) : List (Str × Str) :=
  match (splitChar '=' body).map strip with
  | [] => md
  | key :: vals => match lookupKey key md with
    | some old => assocSet md key (old ++ ", ".toList ++ joinStr "=".toList vals)
    | none => assocSet md key (joinStr "=".toList vals)

/-- spice_reader.py lines 52-71: one line. -/
def metaStep (st : MetaState) (line : Str) : MetaState :=
  if isSubstr "completed".toList (lineBody line) || isSubstr "stopped".toList (lineBody line) then
    { st with md := setEndTime (lineBody line) st.md }
  else if decide ('=' ∈ lineBody line) then { st with md := addPair (lineBody line) st.md }
  else { st with unrec := st.unrec ++ [lineBody line] }

/-- spice_reader.py lines 73-78: decode the count file in polarised mode. -/
def addCounts (md : List (Str × Str)) : Py (List (Str × MetaVal)) :=
  if lookupKey "preset_type".toList md = some "countfile".toList then
    need (lookupKey "countfile".toList md) .keyError >>= fun cf =>
    parseCountfile cf >>= fun chs =>
    .ok (assocUpdate (md.map fun kv => (kv.1, MetaVal.str kv.2))
      [("norm_vals".toList, .nums (chs.map Channel.val)), ("norm_channels".toList, .strs (chs.map Channel.name)),
       ("labels".toList, .strs (chs.map Channel.label))])
  else .ok (md.map fun kv => (kv.1, MetaVal.str kv.2))

/-- spice_reader.py lines 47-80, `metadata_to_dict`: metadata and unrecognised lines (`None` when there are none). -/
def metadataToDict (lines : List Str) : Py (List (Str × MetaVal) × Option (List Str)) :=
  addCounts (lines.foldl metaStep ⟨[], []⟩).md >>= fun md =>
  .ok (md, if (lines.foldl metaStep ⟨[], []⟩).unrec = [] then none else some (lines.foldl metaStep ⟨[], []⟩).unrec)

/-! ## Data files -/

/-- `s.startswith(p)`. -/
def startsWith (p s : Str) : Bool := p.isPrefixOf s

/-- spice_reader.py line 120: the comment lines, stripped. -/
def headersOf (content : List Str) : List Str := (content.map strip).filter (startsWith "#".toList)

/-- `l.index(x)`. -/
def listIndex (l : List Str) (x : Str) : Py ℕ := need (l.findIdx? (· == x)) .valueError

/-- The marker line before the column names. -/
abbrev colHeaders : Str := "# col_headers =".toList

/-- The first line of the summary. -/
abbrev sumOfCounts : Str := "# Sum of Counts =".toList

/-- spice_reader.py lines 135-143: error messages and summary; without a summary both are lost. -/
def splitSummary (rest : List Str) : Option (List Str) × List Str :=
  match rest.findIdx? (startsWith sumOfCounts) with
  | some i => (some (rest.take i), rest.drop i)
  | none => (none, [])

/-- One line of `np.genfromtxt(file, comments="#")`: what is before the first `#`, split at white space; words that are no
numbers become `nan`. -/
def tableRow (line : Str) : List (Option ℚ) :=
  (splitWs (line.takeWhile (· != '#'))).map fun w => (pyFloat w).toOption

/-- The rows of `np.genfromtxt`; `ValueError` when the numbers of columns differ. -/
def tableRows (content : List Str) : Py (List (List (Option ℚ))) :=
  let rows := (content.map tableRow).filter fun r => decide (r ≠ [])
  match rows with
  | [] => .ok []
  | r :: rs => if rs.all fun r' => r'.length == r.length then .ok (r :: rs) else .error .valueError

/-- The rows `read_spice_datafile` goes on with: a single number makes genfromtxt return an array without dimensions, which cannot be
gone through (line 155, `TypeError`). -/
def spiceRows (content : List Str) : Py (List (List (Option ℚ))) :=
  tableRows content >>= fun rows => match rows with
    | [[_]] => .error .typeError
    | _ => .ok rows

/-- spice_reader.py lines 152-155: `{k: np.atleast_1d(v) for k, v in zip(col_names, data_array.T)}`. genfromtxt squeezes:
a single row gives a vector of its entries, a single column a vector of the rows. -/
def dataDict (names : List Str) (rows : List (List (Option ℚ))) : Option (List (Str × List (Option ℚ))) :=
  match rows with
  | [] => none
  | [r] => some (assocUpdate [] (names.zip (r.map fun x => [x])))
  | r :: rs =>
    if r.length = 1 then some (assocUpdate [] (names.zip ((r :: rs).map fun row => row)))
    else some (assocUpdate [] (names.zip ((List.range r.length).map fun j => (r :: rs).map fun row => (row[j]?).join)))

/-- The four values `read_spice_datafile` returns. -/
structure SpiceFile where
  metadata : List (Str × MetaVal)
  data : Option (List (Str × List (Option ℚ)))
  unrecognized : Option (List Str)
  errorMsg : Option (List Str)

/-- spice_reader.py lines 116-157, the part of `read_spice_datafile` after the checks of the path. -/
def readDatafile (content : List Str) : Py SpiceFile :=
  listIndex (headersOf content) colHeaders >>= fun i =>
  need (headersOf content)[i + 1]? .indexError >>= fun nameLine =>
  metadataToDict ((headersOf content).take i ++ (splitSummary ((headersOf content).drop (i + 2))).2) >>= fun mu =>
  spiceRows content >>= fun rows =>
  .ok { metadata := mu.1, data := dataDict (splitWs (lstripChar '#' nameLine)) rows, unrecognized := mu.2,
        errorMsg := (splitSummary ((headersOf content).drop (i + 2))).1 }

/-! ## UB configuration files -/

/-- Values of a UB configuration. -/
inductive UbVal where
  | int (n : ℤ)
  | num (x : ℚ)
  | vec (l : List ℚ)
  | str (s : Str)

/-- `s.split("=", maxsplit=1)` when there is an `=`. -/
def splitFirstEq (s : Str) : Str × Str := (s.takeWhile (· != '='), (s.dropWhile (· != '=')).drop 1)

/-- spice_reader.py lines 181-189: the value of an ordinary key; `none` when it is empty. -/
def iniVal (val : Str) : Py (Option UbVal) :=
  if decide (',' ∈ val) then
    ((splitChar ',' ((val.dropWhile (· == '"')).reverse.dropWhile (· == '"')).reverse).mapM pyFloat).map fun l => some (.vec l)
  else if val = ['"', '"'] then .ok none
  else match pyFloat val with
    | .ok x => .ok (some (.num x))
    | .error _ => .ok (some (.str val))

/-- spice_reader.py lines 163-189: one line, given the line before. -/
def iniLine (prev line : Str) (conf : List (Str × UbVal)) : Py (List (Str × UbVal)) :=
  if strip line = [] ∨ (startsWith ['['] (strip line) ∧ (strip line).getLast? = some ']') ∨ '=' ∉ strip line then .ok conf
  else if strip (splitFirstEq (strip line)).1 = "Mode".toList then
    if strip prev = "[UBMode]".toList then
      (pyInt (strip (splitFirstEq (strip line)).2)).map fun n => assocSet conf "UBMode".toList (.int n)
    else if strip prev = "[AngleMode]".toList then
      (pyInt (strip (splitFirstEq (strip line)).2)).map fun n => assocSet conf "AngleMode".toList (.int n)
    else .ok conf
  else (iniVal (strip (splitFirstEq (strip line)).2)).map fun o =>
    match o with
    | none => conf
    | some v => assocSet conf (strip (splitFirstEq (strip line)).1) v

/-- spice_reader.py lines 162-189: the loop. -/
def iniLoop : Str → List Str → List (Str × UbVal) → Py (List (Str × UbVal))
  | _, [], conf => .ok conf
  | prev, line :: rest, conf => iniLine prev line conf >>= iniLoop line rest

/-- spice_reader.py lines 160-190, `parse_ini`. The line before the first is `contents[-1]`. -/
def parseIni (contents : List Str) : Py (List (Str × UbVal)) := iniLoop (contents.getLastD []) contents []

/-- spice_reader.py lines 193-211, `parse_xml`. `xml` stands for the XML parser and the look-up of the attribute `matrix`
of the element `matrix`: `none` for a parse error or a missing element, `""` for a missing attribute. -/
def parseXml (xml : List Str → Option Str) (contents : List Str) : Py (List (Str × UbVal)) :=
  need (xml contents) .valueError >>= fun s =>
  (splitWs s).mapM pyFloat >>= fun vals =>
  if vals.length = 9 then .ok [("UBMatrix".toList, .vec vals)] else .error .valueError

/-- What is at a path. -/
inductive Node where
  | file (lines : List Str)
  | folder

/-- A file system: absolute paths, component by component. -/
abbrev FS := List Str → Option Node

/-- `Path(name).suffix`. -/
def suffixOf (name : Str) : Str :=
  if decide ('.' ∈ name.drop 1) then '.' :: (name.reverse.takeWhile (· != '.')).reverse else []

/-- The last component of a path. -/
def nameOf (path : List Str) : Str := path.getLastD []

/-- `path.exists()`, `path.is_file()`, then `readlines()`. -/
def openText (fs : FS) (path : List Str) : Py (List Str) :=
  match fs path with
  | none => .error .fileNotFound
  | some .folder => .error .valueError
  | some (.file lines) => .ok lines

/-- spice_reader.py lines 214-246, `read_spice_ubconf`. -/
def readUbconf (xml : List Str → Option Str) (fs : FS) (path : List Str) : Py (List (Str × UbVal)) :=
  openText fs path >>= fun content =>
  if suffixOf (nameOf path) = ".ini".toList ∨ suffixOf (nameOf path) = ".dat".toList then
    need content.head? .indexError >>= fun first =>
    if isSubstr "[UBMode]".toList first then parseIni content
    else if isSubstr "xml".toList first then parseXml xml content
    else .error .unboundLocal
  else .error .valueError

/-! ## SPICE logs -/

/-- Values of the dict returned by `_create_spicelogs`. -/
inductive LogVal where
  | meta_ (d : List (Str × MetaVal))
  | col (l : List (Option ℚ))
  | ub (path : List Str) (conf : List (Str × UbVal))

/-- spice_reader.py lines 83-114: the checks of the path, then the file. -/
def readSpiceDatafile (fs : FS) (path : List Str) : Py SpiceFile :=
  openText fs path >>= fun content =>
  if suffixOf (nameOf path) = ".dat".toList then readDatafile content else .error .valueError

/-- spice_reader.py lines 357-364: the name of the UB file without its folder. -/
def ubFileName (s : Str) : Str :=
  if decide ('\\' ∈ s) then (splitChar '\\' s).getLastD []
  else if decide ('/' ∈ s) then (splitChar '/' s).getLastD []
  else s

/-- spice_reader.py lines 325-332: the metadata part. `Error Messages` is set when the list is empty or `None`. -/
def logAttrs (instrument : Str) (f : SpiceFile) : List (Str × MetaVal) :=
  let a1 := assocUpdate [("instrument".toList, MetaVal.str instrument)] f.metadata
  let a2 := match f.errorMsg with
    | none => assocSet a1 "Error Messages".toList .none
    | some [] => assocSet a1 "Error Messages".toList (.strs [])
    | some (_ :: _) => a1
  match f.unrecognized with
  | none => a2
  | some l => assocSet a2 "Others".toList (.strs l)

/-- spice_reader.py lines 350-352. -/
def logBase (instrument : Str) (f : SpiceFile) : List (Str × LogVal) :=
  match f.data with
  | none => [("metadata".toList, .meta_ (logAttrs instrument f))]
  | some d => assocUpdate [("metadata".toList, .meta_ (logAttrs instrument f))] (d.map fun kv => (kv.1, LogVal.col kv.2))

/-- `os.path.isfile`. -/
def isFile (fs : FS) (path : List Str) : Bool :=
  match fs path with
  | some (.file _) => true
  | _ => false

/-- spice_reader.py lines 369-385: the file is looked for in two places, but always read from the first. -/
def addUb (xml : List Str → Option Str) (fs : FS) (path temp : List Str) (logs : List (Str × LogVal)) :
    Py (List (Str × LogVal)) :=
  if isFile fs path then
    (readUbconf xml fs path).map fun conf => assocSet logs "ub_conf".toList (.ub path conf)
  else if isFile fs temp then
    (readUbconf xml fs path).map fun conf => assocSet logs "ub_conf".toList (.ub temp conf)
  else .ok logs

/-- The value of a text entry of the metadata; `KeyError` when it is missing. (All entries but three are text.) -/
def metaText (md : List (Str × MetaVal)) (k : Str) : Py Str :=
  need (lookupKey k md) .keyError >>= fun v => match v with
    | .str s => .ok s
    | _ => .error .typeError

/-- spice_reader.py lines 318-387, `_create_spicelogs`. The scan file is `dir/name`; the UB folder is next to `dir`. -/
def createSpicelogs (xml : List Str → Option Str) (fs : FS) (dir : List Str) (name : Str) : Py (List (Str × LogVal)) :=
  readSpiceDatafile fs (dir ++ [name]) >>= fun f =>
  metaText f.metadata "ubconf".toList >>= fun ub =>
  addUb xml fs (dir.dropLast ++ ["UBConf".toList, ubFileName ub])
    (dir.dropLast ++ ["UBConf".toList, "temp".toList, ubFileName ub])
    (logBase ((splitChar '_' name).headD []) f)

/-! ## The log group of the NeXus entry -/

/-- `if not attr`: empty text, empty lists and `None` are dropped. -/
def MetaVal.truthy : MetaVal → Bool
  | .str s => decide (s ≠ [])
  | .nums l => decide (l ≠ [])
  | .strs l => decide (l ≠ [])
  | .none => false

/-- The group `SPICElogs`: its attributes and its datasets. -/
structure LogGroup where
  attrs : List (Str × MetaVal)
  datasets : List (Str × LogVal)

/-- nexus_builder.py lines 129-133, `add_attribute`, over the whole metadata (lines 147-149). -/
def addAttributes (attrs md : List (Str × MetaVal)) : List (Str × MetaVal) :=
  md.foldl (fun acc kv => if kv.2.truthy then assocSet acc kv.1 kv.2 else acc) attrs

/-- `d.pop(k)`. -/
def assocErase {β : Type} (d : List (Str × β)) (k : Str) : List (Str × β) := d.filter fun kv => decide (kv.1 ≠ k)

/-- nexus_builder.py lines 136-154, `_formatted_spicelogs`. The UB configuration is formatted into a group that is not put
anywhere (lines 143-145). A column called `ub_conf` has no `file_path` (`AttributeError`: arrays have no `pop`). -/
def formattedSpicelogs (logs : List (Str × LogVal)) : Py LogGroup :=
  (match lookupKey "ub_conf".toList logs with
    | none => Except.ok logs
    | some (.ub _ _) => .ok (assocErase logs "ub_conf".toList)
    | some _ => .error .attributeError) >>= fun logs =>
  need (lookupKey "metadata".toList logs) .keyError >>= fun m =>
  match m with
  | .meta_ md => .ok
      { attrs := addAttributes [("NX_class".toList, .str "NXcollection".toList), ("EX_required".toList, .str "false".toList)] md,
        datasets := assocErase logs "metadata".toList }
  | _ => .error .attributeError

/-! ## Converting header values -/

/-- `ds.replace(".", "").isnumeric()`. Simplification: of the characters Python calls numeric only the decimal digits. -/
def isNumericText (s : Str) : Bool :=
  decide (s.filter (· != '.') ≠ []) && (s.filter (· != '.')).all isDigit

/-- Results of `_recast_type`. -/
inductive Recast where
  | num (x : ℚ)
  | arr (l : List ℚ)
  deriving DecidableEq

/-- `int(s)` with white space around. -/
def pyIntText (s : Str) : Py ℤ := pyInt (strip s)

/-- nexus_builder.py lines 31-42 and 58, `_recast_type` of a string; `isFloat` is `dtype == "NX_FLOAT"`. -/
def recastStr (ds : Str) (isFloat : Bool) : Py Recast :=
  if decide (',' ∈ ds) then
    if isFloat then ((splitChar ',' ds).mapM pyFloat).map .arr
    else ((splitChar ',' ds).mapM pyIntText).map fun l => .arr (l.map fun n : ℤ => (n : ℚ))
  else if isNumericText ds then
    if isFloat then (pyFloat ds).map .num
    else (pyIntText ds).map fun n : ℤ => .num (n : ℚ)
  else .error .unboundLocal

/-- `int(x)` of a number: towards zero. -/
def truncInt (x : ℚ) : ℤ := if 0 ≤ x then ⌊x⌋ else ⌈x⌉

/-- nexus_builder.py lines 43-47, `_recast_type` of a number. -/
def recastNum (x : ℚ) (isFloat : Bool) : Recast := if isFloat then .num x else .num (truncInt x)

end Tavi
