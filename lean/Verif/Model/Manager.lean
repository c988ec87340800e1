import Verif.Model.App

/-!
# Model of `TaviProject`, `tavi_data.py`, `load_manager.py`, `combine_data.py`

Projects are objects. What the ORNL loader returns for a folder is given (`Model/Ornl.lean` computes it). The default value of the
argument `show_selected_data` of `TaviData` is one dictionary, shared by all projects (tavi_data.py line 71).
-/

namespace Tavi

namespace Manager

/-- load_manager.py line 35, `supported_facilities`. -/
def supported : List Str :=
  ["ORNL".toList, "ANSTO".toList, "ILL".toList, "PSI".toList, "NIST".toList, "HZB".toList, "FRMII".toList]

/-- load_ornl.py lines 56-57, `score`, gives 100, load_ansto.py, load_psi.py, load_nist.py, load_hzb.py, load_frmii.py lines 50-51 give 0; ILL is
scored with the ANSTO loader (load_manager.py lines 70-73). -/
def score (facility : Str) : ℕ := if facility = "ORNL".toList then 100 else 0

/-- `max(d, key=d.get)`: the first key with the largest value. -/
def maxKey (f : Str → ℕ) : List Str → Option Str
  | [] => none
  | a :: l => match maxKey f l with
    | none => some a
    | some b => if f a < f b then some b else some a

/-- load_manager.py lines 50-90, `rank_facility`. -/
def rank : Py Str := need (maxKey score supported) .valueError

/-- load_manager.py lines 92-101, `load`; `none` is the value `None` returned for facilities without a case. -/
def load {α : Type} (facility : Option Str) (ornl : Py α) : Py (Option α) :=
  (if (facility.getD []) = [] then rank else .ok (facility.getD [])) >>= fun f =>
  if f = "ORNL".toList then ornl.map some else .ok none

/-- tavi_data.py line 75, `rawdataptr`: the default (a `dataclasses.Field`), `None`, or scans. -/
inductive Raw (α : Type) where
  | unset
  | none
  | scans (s : α)

/-- A project: its raw data, the attribute `scan_list` if someone sets it, and the data selected for processing
(tavi_data.py lines 66-80). -/
structure Proj (α : Type) where
  raw : Raw α
  scanList : Option (List (Str × FScan))
  process : Option (List Str)

/-- All projects and the dictionary of the selections shown. -/
structure World (α : Type) where
  projects : ℕ → Proj α
  shown : List (Str × Option (List Str))

/-- `TaviProject()` for every project, before anything else happens. -/
def World.new (α : Type) : World α := ⟨fun _ => ⟨.unset, none, some []⟩, []⟩

/-- The attribute `tavi_data.show_selected_data` of a project: the one dictionary. -/
def World.shownIn {α : Type} (w : World α) (_ : ℕ) : List (Str × Option (List Str)) := w.shown

/-- What a program does: load scans, set `tavi_data.scan_list`, select scans. -/
inductive Op (α : Type) where
  | load (p : ℕ) (facility : Option Str) (ornl : Py α)
  | setScans (p : ℕ) (scans : List (Str × FScan))
  | select (p : ℕ) (name : Str) (conds : List FCond) (logic : FilterLogic) (category : Str) (tol : ℚ)

/-- Change one project. -/
def World.at {α : Type} (w : World α) (p : ℕ) (f : Proj α → Proj α) : World α :=
  { w with projects := fun q => if q = p then f (w.projects q) else w.projects q }

/-- tavi_project.py lines 81-83, `load_scans`: nothing is changed if loading raises. -/
def World.load {α : Type} (w : World α) (p : ℕ) (facility : Option Str) (ornl : Py α) : Py (World α) :=
  (Manager.load facility ornl).map fun r => w.at p fun q => { q with raw := match r with
    | Option.none => .none
    | some s => .scans s }

/-- tavi_project.py lines 94-109, `select_scans`. -/
def World.select {α : Type} (w : World α) (p : ℕ) (name : Str) (conds : List FCond) (logic : FilterLogic) (category : Str) (tol : ℚ) :
    Py (World α) :=
  need (w.projects p).scanList .attributeError >>= fun scans =>
  (Filter.init scans conds logic tol).filterData.map fun r =>
    if category = "model".toList then w.at p fun q => { q with process := r.2 }
    else { w with shown := assocSet w.shown name r.2 }

/-- One operation. -/
def World.step {α : Type} (w : World α) : Op α → Py (World α)
  | .load p facility ornl => w.load p facility ornl
  | .setScans p scans => .ok (w.at p fun q => { q with scanList := some scans })
  | .select p name conds logic category tol => w.select p name conds logic category tol

/-- Several operations; an exception leaves the world as it was. -/
def World.run {α : Type} (w : World α) (ops : List (Op α)) : World α :=
  ops.foldl (fun w op => match w.step op with
    | .ok w' => w'
    | .error _ => w) w

/-! ## Combining -/

/-- The value bound to the name `range` inside `combine_1d`. -/
inductive RangeVal where
  | none
  | pair (a b : ℝ)

/-- Calling it: neither `None` nor a pair can be called. -/
def RangeVal.call {β : Type} : RangeVal → Py β
  | .none => .error .typeError
  | .pair _ _ => .error .typeError

/-- combine_data.py lines 14-35, `combine_1d`: the columns of the scans (`none` if there is no such column), the step, the range;
`binned` is `scipy.stats.binned_statistic` (values, edges), which gets ten bins whatever the step. -/
noncomputable def combine1d (binned : List ℝ → List ℝ → Py (List ℝ × List ℝ)) (scans : List (Option (List ℝ) × Option (List ℝ))) (step : ℝ)
    (range : RangeVal) : Py (List ℝ × List ℝ) :=
  (scans.mapM fun s => need s.1 .attributeError >>= fun x => need s.2 .attributeError >>= fun y => .ok (x, y)) >>= fun cols =>
  (match range with
    | .none => .ok ()
    | .pair _ _ => if step = 0 then .error .zeroDivision else .ok ()) >>= fun _ =>
  binned (cols.flatMap Prod.fst) (cols.flatMap Prod.snd) >>= fun r =>
  (RangeVal.call range : Py (List ℕ)) >>= fun is =>
  (is.mapM fun i => need r.2[i - 1]? .indexError >>= fun a => need r.2[i]? .indexError >>= fun b => .ok ((a + b) / 2)) >>= fun centres =>
  .ok (r.1, centres)

end Manager

end Tavi
