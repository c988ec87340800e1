import Verif.Model.Convert
import Verif.Model.TaviFile

/-!
# Model of `TAVI.load_nexus_data_from_disk` and `TAVI.load_spice_data_from_disk` (`src/tavi/data/tavi.py`)

`listing` is what `os.listdir` gives for the folder; that of a folder that does not exist is not used. Simplification: opening a name
that is not a NeXus file raises an `OSError`, here always `fileNotFound`. If anything raises, `self.data` is as before.
-/

namespace Tavi

/-- tavi.py lines 53-54. -/
def withSlash (path : Str) : Py Str :=
  need path.getLast? .indexError >>= fun c => .ok (if c = '/' then path else path ++ "/".toList)

/-- `os.listdir(path)`, tavi.py line 56. -/
def listDir (disk : Disk) (p : List Str) (listing : List Str) : Py (List Str) :=
  match disk.text p with
  | some .folder => .ok listing
  | some (.file _) => .error .notADirectory
  | none => .error .fileNotFound

/-- tavi.py lines 57-58: the names that start with `scan`, sorted. -/
def scanFiles (listing : List Str) : List Str := sortStr (listing.filter (startsWith "scan".toList))

/-- tavi.py line 62, `NexusEntry.from_nexus(path)`: the entries of a file. -/
def openNexus (cwd : List Str) (disk : Disk) (path : Str) : Py (List (Str × Dict)) :=
  need (disk.nexus (resolve cwd path)) .fileNotFound >>= fun f => .ok (readEntries f.resolved.children)

/-- tavi.py lines 50-64, `load_nexus_data_from_disk`. -/
def loadNexusDisk (cwd : List Str) (disk : Disk) (listing : List Str) (path : Str) (data : TaviData) : Py TaviData :=
  withSlash path >>= fun folder =>
  listDir disk (resolve cwd folder) listing >>= fun names =>
  (scanFiles names).mapM (fun file => openNexus cwd disk (folder ++ file)) >>= fun files =>
  loadNexusFolder data files

/-- tavi.py lines 66-73, `load_spice_data_from_disk`. -/
noncomputable def loadSpiceDisk (iso : Str → Py Str) (xml : List Str → Option Str) (cwd : List Str) (disk : Disk) (listing : List Str)
    (path : Str) (data : TaviData) : Py TaviData :=
  fromSpice iso xml disk.text (resolve cwd path) listing none >>= fun es => loadScans data es

end Tavi
