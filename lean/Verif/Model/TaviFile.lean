import Verif.Model.Tavi
import Verif.Model.Links

/-!
# Model of `TAVI.save` and `TAVI.open_file` (`src/tavi/data/tavi.py` lines 85-140) with the soft links

`Model/Tavi` has the same two functions for the tree alone. Here the file has one group of entries per experiment, each with
the links that `to_nexus` makes for the default plots. The empty groups `processed_data`, `fits` and `plots` are left out, and
so are the attributes of the file itself. Experiment ids and scan names have no `/`.
-/

namespace Tavi

/-- The group `data` of a file: the groups of the experiments in the order in which they were made. -/
abbrev TaviFile := List (Str × NxFile)

/-- tavi.py line 129 and nexus_entry.py line 260: the start of the paths of all entries of an experiment. -/
def expPath (exp : Str) : Str := "/data/".toList ++ exp

/-- tavi.py lines 128-130: write the entries of one experiment. -/
noncomputable def saveEntries (exp : Str) : List (Str × Dict) → NxFile → Py NxFile
  | [], f => .ok f
  | (name, d) :: l, f => toNexusIn (expPath exp) d name f >>= fun f' => saveEntries exp l f'

/-- tavi.py lines 126-130: a new group per experiment (`ValueError` if there is one of that name). -/
noncomputable def saveGroups : TaviData → TaviFile → Py TaviFile
  | [], t => .ok t
  | (exp, scans) :: l, t =>
    if (lookupKey exp t).isSome then .error .valueError
    else saveEntries exp scans .new >>= fun f => saveGroups l (t ++ [(exp, f)])

/-- tavi.py lines 110-140, `save(file_path)`. Without a name the entries are written to `None` (`TypeError`). -/
noncomputable def saveFile (filePath : Option Str) (data : TaviData) : Py TaviFile :=
  if filePath = none ∧ ∃ es ∈ data, es.2 ≠ [] then .error .typeError else saveGroups data []

/-- tavi.py lines 85-91 and 101-107, `get_exp_id` and `open_file` of an existing file. -/
def openTavi (t : TaviFile) : TaviData := t.map fun e => (e.1, readEntries e.2.resolved.children)

end Tavi
