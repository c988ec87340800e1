import Verif.Model.Links
import Verif.Model.BuilderJson

/-!
# Model of `convert_spice_to_nexus.py`

Simplifications:
* `..` in a path is taken for a name (no path leads back up);
* making the folder fails if the path or a part of it is a file; both errors (`FileExistsError`, `NotADirectoryError`) are `notADirectory`;
* NeXus files and text files are kept apart: a `.h5` file is never a text file;
* what a failed write leaves behind is not modelled.
-/

namespace Tavi

/-- A disk: text files and folders, and NeXus files. -/
structure Disk where
  text : FS
  nexus : List Str → Option NxFile

/-- The names in a path: empty ones and `.` do not count. -/
def pathParts (s : Str) : List Str := (splitChar '/' s).filter fun p => decide (p ≠ [] ∧ p ≠ ".".toList)

/-- Where a path leads: from the root, or from the working directory. -/
def resolve (cwd : List Str) (s : Str) : List Str := if s.head? = some '/' then pathParts s else cwd ++ pathParts s

/-- Is it a file or does the path lead through one? -/
def blocked (fs : FS) (p : List Str) : Bool := p.inits.any fun q => match fs q with
  | some (.file _) => true
  | _ => false

/-- `Path(p).mkdir(parents=True, exist_ok=True)`, convert_spice_to_nexus.py line 33. -/
def makeFolder (disk : Disk) (p : List Str) : Py Disk :=
  if blocked disk.text p then .error .notADirectory
  else .ok { disk with text := fun q => if q <+: p then some .folder else disk.text q }

/-- `scan0001["attrs"]["dataset_name"]`, line 26. -/
def datasetNameOf (d : Dict) : Py Str :=
  need (d.get? kAttrs) .keyError >>= fun a => a.index "dataset_name".toList >>= fun v =>
  match v with
  | .leaf (.str s) => .ok s
  | _ => .error .typeError

/-- Lines 28-30: the folder that is written to. -/
def nexusFolder (spice : Str) (nexus : Option Str) (ds : Str) : Str :=
  match nexus with
  | some s => s
  | none => joinStr "/".toList ((splitChar '/' spice).dropLast ++ [ds ++ "/".toList])

/-- Line 36 for one scan: `to_nexus` adds to the file if there is one. -/
noncomputable def saveEntry (disk : Disk) (p : List Str) (name : Str) (d : Dict) : Py Disk :=
  (toNexusFile d name ((disk.nexus p).getD .new)).map fun f =>
    { disk with nexus := fun q => if q = p then some f else disk.nexus q }

/-- Lines 35-36. -/
noncomputable def saveAll (cwd : List Str) (folder : Str) : List (Str × Dict) → Disk → Py Disk
  | [], disk => .ok disk
  | (n, d) :: rest, disk =>
    saveEntry disk (resolve cwd (folder ++ n ++ ".h5".toList)) n d >>= fun disk' => saveAll cwd folder rest disk'

/-- convert_spice_to_nexus.py lines 7-36 without configuration files. `listing` is what `os.listdir` gives for the data files. -/
noncomputable def convertSpice (iso : Str → Py Str) (xml : List Str → Option Str) (cwd : List Str) (disk : Disk)
    (listing : List Str) (spice : Str) (nexus : Option Str) : Py Disk :=
  fromSpice iso xml disk.text (resolve cwd spice) listing none >>= fun es =>
  need es.head? .stopIteration >>= fun first =>
  datasetNameOf first.2 >>= fun ds =>
  makeFolder disk (resolve cwd (nexusFolder spice nexus ds)) >>= fun disk' =>
  saveAll cwd (nexusFolder spice nexus ds) es disk'

/-- convert_spice_to_nexus.py lines 7-36 with the paths of the configuration files, handed on to `from_spice` in lines 19-24. -/
noncomputable def convertSpiceWith (iso : Str → Py Str) (xml : List Str → Option Str) (ji : JPath (List (Str × JSec)))
    (js : JPath (List (Str × JVal))) (cwd : List Str) (disk : Disk) (listing : List Str) (spice : Str) (nexus : Option Str) : Py Disk :=
  fromSpiceWith iso xml ji js disk.text (resolve cwd spice) listing none >>= fun es =>
  need es.head? .stopIteration >>= fun first =>
  datasetNameOf first.2 >>= fun ds =>
  makeFolder disk (resolve cwd (nexusFolder spice nexus ds)) >>= fun disk' =>
  saveAll cwd (nexusFolder spice nexus ds) es disk'

end Tavi
