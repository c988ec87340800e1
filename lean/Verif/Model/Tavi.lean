import Verif.Model.Nexus

/-!
# Model of `src/tavi/data/tavi.py`, scan numbers of `scan.py` and group names of `scan_group.py`

A session holds the loaded entries by experiment id and scan name. `processed_data`, `fits` and `plots` are never filled by
the code and are left out. The content of files and folders is an argument: a folder of NeXus files is the list of the
entries of each file in the order of the sorted file names.
-/

namespace Tavi

/-- tavi.py lines 27-36: the data of a `TAVI` object, experiment id ↦ (scan name ↦ entry). -/
abbrev TaviData := List (Str × List (Str × Dict))

/-- tavi.py line 43: `nxentry["attrs"]["dataset_name"]`. An id that is not a string is not modelled (`TypeError`). -/
def expId (d : Dict) : Py Str :=
  need (d.get? kAttrs) .keyError >>= fun a => a.index "dataset_name".toList >>= fun v => match v with
    | .leaf (.str s) => .ok s
    | _ => .error .typeError

/-- tavi.py lines 44-47: first entry of the experiment, or a further one. -/
def fileEntry (acc : TaviData) (exp name : Str) (d : Dict) : TaviData :=
  match lookupKey exp acc with
  | some (x :: xs) => assocSet acc exp (assocSet (x :: xs) name d)
  | _ => assocSet acc exp [(name, d)]

/-- tavi.py lines 38-48, `TAVI.load_data(scan_dict)`. -/
def loadData (scans : List (Str × Dict)) : Py TaviData :=
  scans.foldlM (fun acc nd => expId nd.2 >>= fun e => .ok (fileEntry acc e nd.1 nd.2)) []

/-- tavi.py lines 64 and 73: `self.data.update(TAVI.load_data(scan_dict))`. -/
def loadScans (data : TaviData) (scans : List (Str × Dict)) : Py TaviData :=
  loadData scans >>= fun new => .ok (assocUpdate data new)

/-- tavi.py lines 60-64: the entries of all files of a folder are first put into one dict by scan name. -/
def loadNexusFolder (data : TaviData) (files : List (List (Str × Dict))) : Py TaviData :=
  loadScans data (files.foldl assocUpdate [])

/-- What may be passed as a scan number. -/
inductive ScanRef where
  | tup (exp : Str) (n : ℕ)
  | num (n : ℕ)
  | other

/-- tavi.py lines 142-160, `get_scan`: the name and the entry of the scan. -/
def getScan (data : TaviData) (r : ScanRef) : Py (Str × Dict) :=
  match r with
  | .tup e n => need (lookupKey e data) .keyError >>= fun scans =>
      need (lookupKey (scanName n) scans) .keyError >>= fun d => .ok (scanName n, d)
  | .num n => match data with
    | [] => .error .stopIteration
    | (_, scans) :: _ => need (lookupKey (scanName n) scans) .keyError >>= fun d => .ok (scanName n, d)
  | .other => .error .valueError

/-- `s[-4:]`. -/
def last4 (s : Str) : Str := s.drop (s.length - 4)

/-- scan.py line 133: `int(self.name[-4:])`. -/
def reportedNumber (name : Str) : Py ℤ := pyInt (last4 name)

/-! ## Saving and opening -/

/-- tavi.py lines 128-130: write the entries of one experiment. -/
noncomputable def saveScans : List (Str × Dict) → H5 → Py H5
  | [], g => .ok g
  | (name, d) :: l, g => toNexus d name g >>= fun g' => saveScans l g'

/-- `grp.create_group(name)`: `ValueError` when the name exists. -/
def H5.newGroup (g : H5) (name : Str) (n : H5) : Py H5 :=
  if (g.children.get? name).isSome then .error .valueError else g.put name n

/-- tavi.py lines 126-130: a group per experiment. -/
noncomputable def saveExps : TaviData → H5 → Py H5
  | [], g => .ok g
  | (exp, scans) :: l, g => saveScans scans H5.empty >>= fun e => g.newGroup exp e >>= fun g' => saveExps l g'

/-- tavi.py lines 110-138, `save(file_path)`. Without a file name `self.file_path` is set, but the entries are written to
`file_path`, which is `None`: `h5py.File(None, "a")` raises `TypeError`. Not modelled: a file that cannot be created
(`OSError`, printed), soft links. -/
noncomputable def save (filePath : Option Str) (data : TaviData) : Py H5 :=
  if filePath = none ∧ ∃ es ∈ data, es.2 ≠ [] then .error .typeError
  else saveExps data H5.empty >>= fun g =>
    .ok (.node none [] (.cons "data".toList g (.cons "processed_data".toList H5.empty (.cons "fits".toList H5.empty
      (.cons "plots".toList H5.empty .nil)))))

/-- The entries of a group: `NexusEntry.from_nexus(file, prefix=...)`, nexus_entry.py lines 228-237 with 161-170. -/
def readEntries : H5s → List (Str × Dict)
  | .nil => []
  | .cons k n rest => (k, readNode n) :: readEntries rest

/-- tavi.py lines 101-107: one dict of entries per experiment. -/
def readExps : H5s → TaviData
  | .nil => []
  | .cons k n rest => (k, readEntries n.children) :: readExps rest

/-- tavi.py lines 93-107, `open_file` of an existing file. -/
def openFile (root : H5) : Py TaviData :=
  need (root.children.get? "data".toList) .keyError >>= fun g => .ok (readExps g.children)

/-! ## Names of scan groups -/

/-- scan_group.py lines 23-28: the name of a new group and the value of the class counter afterwards. -/
def groupName (counter : ℕ) (name : Str) : Str × ℕ :=
  (if name = [] then "CombinedScans".toList ++ decStr counter else name, counter + 1)

/-- The names of groups created one after the other. -/
def groupNames : ℕ → List Str → List Str
  | _, [] => []
  | c, name :: l => (groupName c name).1 :: groupNames (groupName c name).2 l

end Tavi
