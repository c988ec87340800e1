import Verif.Model.Tavi
import Verif.Model.ScanPlot

/-!
# Model of `TAVI.get_scan`, `TAVI.group_scans` (`src/tavi/data/tavi.py`) and `ScanGroup.get_data` (`src/tavi/data/scan_group.py`)

A `Scan` keeps a reference to the entry of the session, and making it changes this entry (logs are popped, a link to the monitor data
is popped). So requests have a result and leave a session behind, also when they raise. Scan numbers are natural numbers. `lists` tells
for each experiment which datasets are Python lists and not arrays: `divergence_x` after loading a SPICE folder, none after opening a
file (an experiment is always loaded as a whole).
-/

namespace Tavi

/-- nexus_entry.py lines 340-355: `get_dataset_names` up to the link to the monitor data. -/
def monitorDropped (lists : List Str) (d : Dict) : Py (Dict × Dict) :=
  (nxGet d "Pt.".toList false).1 >>= fun pts =>
  lenOf pts >>= fun n =>
  groupOf (dropLogs d) "instrument".toList >>= fun inst =>
  namesInstrument lists n inst >>= fun _ =>
  groupOf (dropLogs d) "monitor".toList >>= fun mon =>
  dropMonitorData (dropLogs d) mon

/-- The entry after `Scan(name, nexus_dict)`, scan.py lines 82-85, whether it raises or not. -/
def afterScan (lists : List Str) (d : Dict) : Dict :=
  match monitorDropped lists d with
  | .ok md => md.2
  | .error _ => dropLogs d

/-- The entry of a session after it was changed in place. -/
def putEntry (data : TaviData) (e n : Str) (d : Dict) : TaviData :=
  match lookupKey e data with
  | some scans => assocSet data e (assocSet scans n d)
  | none => data

/-- tavi.py lines 160 and 189: `Scan(scan_name, self.data[exp_id][scan_name])`. -/
def scanAt (lists : Str → List Str) (data : TaviData) (p : Str × Str) : Py ScanObj × TaviData :=
  match (lookupKey p.1 data).bind (lookupKey p.2) with
  | none => (.error .keyError, data)
  | some d => (newScan (lists p.1) p.2 d, putEntry data p.1 p.2 (afterScan (lists p.1) d))

/-- `next(iter(self.data))`, tavi.py lines 156 and 176. -/
def firstExp : TaviData → Py Str
  | [] => .error .stopIteration
  | (e, _) :: _ => .ok e

/-- tavi.py lines 152-159: the experiment and the name of a scan. -/
def getPath (data : TaviData) : ScanRef → Py (Str × Str)
  | .tup e n => .ok (e, scanName n)
  | .num n => (firstExp data).map fun e => (e, scanName n)
  | .other => .error .valueError

/-- tavi.py lines 142-160, `get_scan`: the scan and the session afterwards. -/
def getScanObj (lists : Str → List Str) (data : TaviData) (r : ScanRef) : Py ScanObj × TaviData :=
  match getPath data r with
  | .error e => (.error e, data)
  | .ok p => scanAt lists data p

/-- tavi.py lines 178-185. -/
def refPath (first : Str) : ScanRef → Py (Str × Str)
  | .num n => .ok (first, scanName n)
  | .tup e n => .ok (e, scanName n)
  | .other => .error .valueError

/-- tavi.py lines 187-189: the scans one after the other, up to the first that cannot be made. -/
def scansAt (lists : Str → List Str) : TaviData → List (Str × Str) → Py (List ScanObj) × TaviData
  | data, [] => (.ok [], data)
  | data, p :: ps => match scanAt lists data p with
    | (.error e, data') => (.error e, data')
    | (.ok s, data') => ((scansAt lists data' ps).1.map (s :: ·), (scansAt lists data' ps).2)

/-- tavi.py lines 162-190, `group_scans`: the scans of the group and the session afterwards. For names of groups see `groupName`. -/
def groupScans (lists : Str → List Str) (data : TaviData) (refs : List ScanRef) : Py (List ScanObj) × TaviData :=
  match firstExp data >>= fun first => refs.mapM (refPath first) with
  | .error e => (.error e, data)
  | .ok ps => scansAt lists data ps

/-- scan_group.py lines 380-391, `ScanGroup.get_data`. -/
noncomputable def groupData (fmt : Val → Str) (scans : List ScanObj) (xAxis yAxis : Option Str) (normTo : Option (ℝ × Str))
    (grid tol : Option RebinArg) : Py (List LabelledData) :=
  scans.mapM fun s => s.getData fmt xAxis yAxis normTo grid tol

/-- What may be asked of a session. -/
inductive ScanRequest where
  | get (r : ScanRef)
  | group (l : List ScanRef)

/-- The answer of a session: one scan, or the scans of a group. -/
def ScanRequest.answer (lists : Str → List Str) (data : TaviData) : ScanRequest → Py (List ScanObj) × TaviData
  | .get r => ((getScanObj lists data r).1.map fun s => [s], (getScanObj lists data r).2)
  | .group l => groupScans lists data l

/-- The session after a history of requests, whether they raised or not. -/
def afterRequests (lists : Str → List Str) (data : TaviData) (l : List ScanRequest) : TaviData :=
  l.foldl (fun s q => (q.answer lists s).2) data

end Tavi
