import Verif.Model.Spice
import Verif.Model.App

/-!
# Model of the loader for ORNL data

`src/tavi/tavi_model/FileSystem/spice_reader.py` (the second SPICE reader) and
`src/tavi/tavi_model/FileSystem/Facilities/load_ornl.py`. Paths are lists of components without links; `os.listdir` of the data
folder is given as a list of names. Which names Python accepts as fields of a dataclass (identifiers that are no keywords) is the
parameter `ident`; the XML parser is the parameter `xml`. `isdigit` is modelled for the ten ASCII digits. Opening a folder as a file
raises `valueError` (Python: `IsADirectoryError`).
-/

namespace Tavi

namespace Ornl

/-! ## Reading a data file, spice_reader.py:9-70 -/

/-- What `read_spice_datafile` returns. -/
structure File where
  rows : List (List (Option ℚ))
  colNames : List Str
  metadata : List (Str × Str)
  others : List Str
  errors : List Str

/-- spice_reader.py:24: the lines that contain a `#`, stripped. -/
def headers (content : List Str) : List Str := (content.filter fun l => decide ('#' ∈ l)).map strip

/-- `line.split("=")[0].strip()` and `"=".join(parts[1:])[1:]`, spice_reader.py:54-56. -/
def keyVal (line : Str) : Str × Str :=
  (strip ((splitChar '=' line).headD []), (joinStr "=".toList ((splitChar '=' line).drop 1)).drop 1)

/-- One entry, spice_reader.py:43-58. -/
def metaEntry (entry : Str) (st : List (Str × Str) × List Str) : Py (List (Str × Str) × List Str) :=
  let line := stripSet "# ".toList entry
  if isSubstr "completed".toList line ∨ isSubstr "stopped".toList line then
    need (splitChar ' ' line)[3]? .indexError >>= fun p3 =>
    need (splitChar ' ' line)[0]? .indexError >>= fun p0 =>
    need (splitChar ' ' line)[1]? .indexError >>= fun p1 =>
    .ok (assocSet st.1 "end_time".toList (p3 ++ " ".toList ++ p0 ++ " ".toList ++ p1), st.2)
  else if '=' ∈ line then .ok (assocSet st.1 (keyVal line).1 (keyVal line).2, st.2)
  else .ok (st.1, st.2 ++ [line])

/-- The loop, spice_reader.py:43-58. -/
def metaLoop : List Str → List (Str × Str) × List Str → Py (List (Str × Str) × List Str)
  | [], st => .ok st
  | e :: rest, st => metaEntry e st >>= metaLoop rest

/-- `_, val = metadata_entry.split("=")`, spice_reader.py:65. -/
def countVal (entry : Str) : Py Str :=
  match splitChar '=' entry with
  | [_, v] => .ok (strip v)
  | _ => .error .valueError

/-- spice_reader.py:61-67. -/
def addCountfile (metadataList : List Str) (md : List (Str × Str)) : Py (List (Str × Str)) :=
  if lookupKey "preset_type".toList md = some "countfile".toList then
    ((metadataList.filter (startsWith "# countfile".toList)).mapM countVal).map fun vs =>
      assocSet md "countfile".toList (joinStr ", ".toList vs)
  else .ok md

/-- The lines of the metadata and the error messages, spice_reader.py:30-38, given the place `c` of the marker. -/
def groups (hs : List Str) (c : ℕ) : List Str × List Str :=
  match hs.findIdx? (startsWith sumOfCounts) with
  | none => (hs.take c, hs.drop (c + 2))
  | some s => (hs.take c ++ hs.drop s, (hs.drop (c + 2)).take ((hs.drop (c + 2)).length - (hs.length - s)))

/-- `read_spice_datafile`, spice_reader.py:9-70. -/
def readDatafile (content : List Str) : Py File :=
  listIndex (headers content) colHeaders >>= fun c =>
  need (headers content)[c + 1]? .indexError >>= fun colLine =>
  metaLoop (groups (headers content) c).1 ([], []) >>= fun st =>
  addCountfile (groups (headers content) c).1 st.1 >>= fun md =>
  tableRows content >>= fun rows =>
  .ok { rows := rows, colNames := splitWs (stripSet "#".toList colLine), metadata := md, others := st.2,
        errors := (groups (headers content) c).2 }

/-! ## Reading a UB file, spice_reader.py:73-110 -/

/-- One line, spice_reader.py:86-103, given the line before. -/
def ubLine (prev line : Str) (conf : List (Str × UbVal)) : Py (List (Str × UbVal)) :=
  if strip line = [] then .ok conf
  else if startsWith ['['] (strip line) then .ok conf
  else match splitChar '=' (strip line) with
    | [key, val] =>
      if key = "Mode".toList then
        if strip prev = "[UBMode]".toList then (pyIntText val).map fun n => assocSet conf "UBMode".toList (.int n)
        else if strip prev = "[AngleMode]".toList then (pyIntText val).map fun n => assocSet conf "AngleMode".toList (.int n)
        else .ok conf
      else if ',' ∈ val then
        ((splitChar ',' (stripSet "\"".toList val)).mapM pyFloat).map fun l => assocSet conf key (.vec l)
      else if val = ['"', '"'] then .ok conf
      else (pyFloat val).map fun x => assocSet conf key (.num x)
    | _ => .error .valueError

/-- The loop, spice_reader.py:85-103. -/
def ubLoop : Str → List Str → List (Str × UbVal) → Py (List (Str × UbVal))
  | _, [], conf => .ok conf
  | prev, line :: rest, conf => ubLine prev line conf >>= ubLoop line rest

/-- `read_spice_ubconf`, spice_reader.py:73-110. `xml` gives the attribute `matrix` of the last element `matrix`: an exception of
the parser, nothing when there is no such element, or the text. The line before the first is `all_content[-1]`. -/
def readUb (xml : List Str → Py (Option Str)) (fs : FS) (path : List Str) : Py (List (Str × UbVal)) :=
  openText fs path >>= fun content =>
  need content.head? .indexError >>= fun first =>
  if first = "[UBMode]\n".toList then ubLoop (content.getLastD []) content []
  else
    xml content >>= fun m =>
    need m .unboundLocal >>= fun m =>
    ((List.range 9).mapM fun i => need (splitChar ' ' m)[i]? .indexError >>= pyFloat).map fun l =>
      [("UBMatrix".toList, .vec l)]

/-! ## The columns as attributes, load_ornl.py:124-156 -/

/-- What `np.genfromtxt` makes of the rows: dimensions of length one are dropped. -/
inductive Arr where
  | d0 (x : Option ℚ)
  | d1 (l : List (Option ℚ))
  | d2 (rows : List (List (Option ℚ)))

/-- See `Arr`; no rows give an empty vector. -/
def squeeze : List (List (Option ℚ)) → Arr
  | [] => .d1 []
  | [[x]] => .d0 x
  | [r] => .d1 r
  | r :: rs => if r.length = 1 then .d1 ((r :: rs).map fun row => row.headD none) else .d2 (r :: rs)

/-- The value of an attribute of `RawData`. -/
inductive ColVal where
  | vec (l : List (Option ℚ))
  | mat (rows : List (List (Option ℚ)))
  | names (l : List Str)
  deriving DecidableEq

/-- `numeric_data[:, j]`. -/
def column : Arr → ℕ → Py (List (Option ℚ))
  | .d2 rows, j => rows.mapM fun r => need r[j]? .indexError
  | _, _ => .error .indexError

/-- `np.array([numeric_data[j]])`. -/
def wrapped : Arr → ℕ → Py ColVal
  | .d0 _, _ => .error .indexError
  | .d1 l, j => (need l[j]? .indexError).map fun x => .vec [x]
  | .d2 rows, j => (need rows[j]? .indexError).map fun r => .mat [r]

/-- load_ornl.py:141, 146 and 149-153: the values of a column, with the way out for one-dimensional data. -/
def columnVal (a : Arr) (j : ℕ) : Py ColVal :=
  match column a j with
  | .ok l => .ok (.vec l)
  | .error _ => wrapped a j

/-- `name.replace("-", "_").replace(" ", "_").replace(".", "")`, load_ornl.py:137, 163 -/
def sanitise (name : Str) : Str :=
  (name.map fun c => if c = '-' ∨ c = ' ' then '_' else c).filter fun c => decide (c ≠ '.')

/-- load_ornl.py:135-136, 161-162: a leading digit gets an underscore; the empty name has no first character. -/
def guardDigit (name : Str) : Py Str :=
  match name with
  | [] => .error .indexError
  | c :: _ => if isDigit c then .ok ('_' :: name) else .ok name

/-- load_ornl.py:140-146, 165-171: set an attribute, making a new class for a new one. -/
def setField {β : Type} (ident : Str → Bool) (store : List (Str × β)) (key : Str) (v : β) : Py (List (Str × β)) :=
  if key ∈ store.map Prod.fst ∨ ident key = true then .ok (assocSet store key v) else .error .typeError

/-- One column, load_ornl.py:133-153. -/
def colStep (ident : Str → Bool) (names : List Str) (a : Arr) (store : List (Str × ColVal)) (name : Str) :
    Py (List (Str × ColVal)) :=
  guardDigit name >>= fun n =>
  if sanitise n ∈ store.map Prod.fst ∨ ident (sanitise n) = true then
    listIndex names n >>= fun j =>
    columnVal a j >>= fun v => setField ident store (sanitise n) v
  else .error .typeError

/-- The loop over the columns. -/
def colLoop (ident : Str → Bool) (names : List Str) (a : Arr) : List Str → List (Str × ColVal) → Py (List (Str × ColVal))
  | [], store => .ok store
  | n :: rest, store => colStep ident names a store n >>= colLoop ident names a rest

/-- load_ornl.py:133-156: the class `RawData`. -/
def rawData (ident : Str → Bool) (f : File) : Py (List (Str × ColVal)) :=
  (colLoop ident f.colNames (squeeze f.rows) f.colNames []).map fun store =>
    assocSet store "column_names".toList (.names f.colNames)

/-! ## Metadata and UB configuration, load_ornl.py:158-212 -/

/-- One entry of the metadata, load_ornl.py:160-171. -/
def metaStep (ident : Str → Bool) (store : List (Str × Str)) (kv : Str × Str) : Py (List (Str × Str)) :=
  guardDigit kv.1 >>= fun k => setField ident store (sanitise k) kv.2

/-- Set all entries of a UB configuration, load_ornl.py:185-193. -/
def confLoop (ident : Str → Bool) : List (Str × UbVal) → List (Str × UbVal) → Py (List (Str × UbVal))
  | [], store => .ok store
  | kv :: rest, store => setField ident store kv.1 kv.2 >>= confLoop ident rest

/-- `name in os.listdir(dir)`. -/
def inFolder (fs : FS) (dir : List Str) (name : Str) : Py Bool :=
  match fs dir with
  | none => .error .fileNotFound
  | some (.file _) => .error .notADirectory
  | some .folder => .ok (fs (dir ++ [name])).isSome

/-- load_ornl.py:178-181: the folder of the UB files. `prev_dir` is the folder above the data folder. -/
def findUbDir (fs : FS) (folder : List Str) (ubDir : Option (List Str)) : Py (Option (List Str)) :=
  match ubDir with
  | some d => .ok (some d)
  | none =>
    (inFolder fs folder.dropLast "UBConf".toList).map fun b => if b then some (folder.dropLast ++ ["UBConf".toList]) else none

/-- load_ornl.py:174-207: the entry `ubconf`. Without any folder `os.path.join(None, …)` raises. Gives the attributes of the UB
configuration. -/
def ubStep (ident : Str → Bool) (xml : List Str → Py (Option Str)) (fs : FS) (ubDir : Option (List Str)) (name : Str)
    (conf : List (Str × UbVal)) : Py (List (Str × UbVal)) :=
  match ubDir with
  | none => .error .typeError
  | some d =>
    inFolder fs d name >>= fun here =>
    if here then readUb xml fs (d ++ [name]) >>= fun u => confLoop ident u conf
    else
      inFolder fs (d ++ ["tmp".toList]) name >>= fun there =>
      if there then readUb xml fs (d ++ [name]) >>= fun u => confLoop ident u conf
      else .ok conf

/-- What the loop over the metadata carries along. -/
structure MetaSt where
  md : List (Str × Str)
  conf : List (Str × UbVal)
  ubDir : Option (List Str)

/-- One turn of the loop, load_ornl.py:159-207. -/
def metaTurn (ident : Str → Bool) (xml : List Str → Py (Option Str)) (fs : FS) (folder : List Str) (st : MetaSt)
    (kv : Str × Str) : Py MetaSt :=
  metaStep ident st.md kv >>= fun md =>
  guardDigit kv.1 >>= fun k =>
  if sanitise k = "ubconf".toList ∧ kv.2 ≠ [] then
    findUbDir fs folder st.ubDir >>= fun d =>
    (ubStep ident xml fs d kv.2 st.conf).map fun conf => ⟨md, conf, d⟩
  else .ok ⟨md, st.conf, st.ubDir⟩

/-- The loop, load_ornl.py:159-207. -/
def metaTurns (ident : Str → Bool) (xml : List Str → Py (Option Str)) (fs : FS) (folder : List Str) :
    List (Str × Str) → MetaSt → Py MetaSt
  | [], st => .ok st
  | kv :: rest, st => metaTurn ident xml fs folder st kv >>= metaTurns ident xml fs folder rest

/-- A scan, load_ornl.py:209-219. -/
structure Scan where
  data : List (Str × ColVal)
  metadata : List (Str × Str)
  others : List Str
  errors : List Str
  ubconf : List (Str × UbVal)

/-- One file, load_ornl.py:124-220; the folder of the UB files is kept for the next file. -/
def loadFile (ident : Str → Bool) (xml : List Str → Py (Option Str)) (fs : FS) (folder : List Str) (ubDir : Option (List Str))
    (name : Str) : Py (Scan × Option (List Str)) :=
  openText fs (folder ++ [name]) >>= fun content =>
  readDatafile content >>= fun f =>
  rawData ident f >>= fun data =>
  (metaTurns ident xml fs folder f.metadata ⟨[], [], ubDir⟩).map fun st =>
    (⟨data, st.md, f.others, f.errors, st.conf⟩, st.ubDir)

/-- The loop over the files, load_ornl.py:123-220. -/
def loadLoop (ident : Str → Bool) (xml : List Str → Py (Option Str)) (fs : FS) (folder : List Str) :
    List Str → Option (List Str) → List (Str × Scan) → Py (List (Str × Scan))
  | [], _, acc => .ok acc
  | n :: rest, ubDir, acc =>
    loadFile ident xml fs folder ubDir n >>= fun r => loadLoop ident xml fs folder rest r.2 (assocSet acc n r.1)

/-- `_load_files`, load_ornl.py:121-221; an empty list of files means all files of the folder (`listing`). -/
def load (ident : Str → Bool) (xml : List Str → Py (Option Str)) (fs : FS) (folder listing : List Str) (files : Option (List Str))
    (ubDir : Option (List Str)) : Py (List (Str × Scan)) :=
  match files with
  | some (f :: fs') => loadLoop ident xml fs folder (f :: fs') ubDir []
  | _ => loadLoop ident xml fs folder listing ubDir []

end Ornl

end Tavi
