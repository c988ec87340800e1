import Verif.Model.Str
import Mathlib.Data.List.Sort
import Mathlib.Data.List.Dedup
import Mathlib.Data.Char

/-!
# The application layer: filter, event broker, project loading, next file, configuration

Models of tavi_model/filter.py, EventBroker/event_broker.py, tavi_model/dummy_model.py, tavi_model/random_model.py and
configuration.py. Numbers are exact rationals. Threads: `as_completed` yields every future once, in any order; the order is
an argument of the model. Logging and printing are left out, except that `logger.log` with a text as level raises.
-/

namespace Tavi

/-- `sorted(l)` of strings (lexicographic by code point). -/
def sortStr (l : List Str) : List Str := l.insertionSort (fun a b => a ≤ b)

/-! ## Filter -/

/-- filter.py lines 8-18, `Operations`. -/
inductive FilterOp where
  | contains | notContain | is | isNot | equal | notEqual | less | lessEqual | greater | greaterEqual
  deriving DecidableEq

/-- filter.py lines 21-23, `Logic`; `other` is anything else, also `None`. -/
inductive FilterLogic where
  | and | or | other

/-- Attributes of the metadata and the UB configuration: texts, collections of texts, numbers. -/
inductive AttrVal where
  | str (s : Str)
  | strs (l : List Str)
  | num (x : ℚ)
  deriving DecidableEq

/-- The part of a scan the filter looks at. -/
structure FScan where
  metadata : List (Str × AttrVal)
  ubconf : List (Str × AttrVal)
  data : List (Str × List ℚ)

/-- A condition: keyword, operation, value. -/
structure FCond where
  keyword : Str
  op : FilterOp
  value : Str

/-- `value in attr`. -/
def attrContains (value : Str) : AttrVal → Py Bool
  | .str s => .ok (isSubstr value s)
  | .strs l => .ok (decide (value ∈ l))
  | .num _ => .error .typeError

/-- filter.py lines 80-85: where the keyword is found; otherwise `logger.log` with a text as level raises `TypeError`. -/
def metaAttr (scan : FScan) (keyword : Str) : Py AttrVal :=
  match lookupKey keyword scan.metadata with
  | some v => .ok v
  | none => match lookupKey keyword scan.ubconf with
    | some v => .ok v
    | none => .error .typeError

/-- filter.py lines 87-99: the condition on one scan, metadata. -/
def metaMeets (op : FilterOp) (value : Str) (v : AttrVal) : Py Bool :=
  match op with
  | .contains => attrContains value v
  | .notContain => (attrContains value v).map not
  | .is => .ok (decide (AttrVal.str value = v))
  | .isNot => .ok (decide (AttrVal.str value ≠ v))
  | _ => .ok false

/-- `max(l)`; an empty sequence raises `ValueError`. -/
def pyMax : List ℚ → Py ℚ
  | [] => .error .valueError
  | a :: l => .ok (l.foldl max a)

/-- `min(l)`. -/
def pyMin : List ℚ → Py ℚ
  | [] => .error .valueError
  | a :: l => .ok (l.foldl min a)

/-- filter.py lines 107-128: the condition on one scan, data. -/
def dataMeets (tol : ℚ) (op : FilterOp) (value : ℚ) (col : List ℚ) : Py Bool :=
  match op with
  | .equal => pyMax col >>= fun hi =>
    if value + tol ≥ hi then (pyMin col).map fun lo => decide (value - tol ≤ lo) else .ok false
  | .notEqual => pyMin col >>= fun lo =>
    if value + tol < lo then .ok true else (pyMax col).map fun hi => decide (value - tol > hi)
  | .greater => (pyMin col).map fun lo => decide (lo > value)
  | .greaterEqual => (pyMin col).map fun lo => decide (lo ≥ value)
  | .less => (pyMax col).map fun hi => decide (hi < value)
  | .lessEqual => (pyMin col).map fun lo => decide (lo ≤ value)
  | _ => .ok false

/-- `action in [CONTAINS, NOTCONTAIN, IS, ISNOT]`, filter.py line 60. -/
def FilterOp.isMeta : FilterOp → Bool
  | .contains | .notContain | .is | .isNot => true
  | _ => false

/-- One turn of the loop: whether the scan is added. -/
def scanMeets (tol : ℚ) (c : FCond) (value : ℚ) (scan : FScan) : Py Bool :=
  if c.op.isMeta then metaAttr scan c.keyword >>= metaMeets c.op c.value
  else need (lookupKey c.keyword scan.data) .typeError >>= dataMeets tol c.op value

/-- The loops over the scans, filter.py lines 79-100 and 103-128. -/
def filterLoop (meets : FScan → Py Bool) : List (Str × FScan) → Py (List Str)
  | [] => .ok []
  | (name, scan) :: rest =>
    meets scan >>= fun b => (filterLoop meets rest).map fun out => if b then name :: out else out

/-- filter.py lines 73-129, `_condition_factory`; the set is the list of its elements. -/
def conditionFactory (scans : List (Str × FScan)) (tol : ℚ) (c : FCond) : Py (List Str) :=
  (if c.op.isMeta then .ok 0 else pyFloat c.value) >>= fun v => filterLoop (scanMeets tol c v) scans

/-- `Filter` objects, filter.py lines 41-51. -/
structure Filter where
  scans : List (Str × FScan)
  conditions : List FCond
  logic : FilterLogic
  tol : ℚ
  output : List (List Str)

/-- filter.py lines 41-51, `__init__`; conditions `None` behave like the empty list. -/
def Filter.init (scans : List (Str × FScan)) (conditions : List FCond) (logic : FilterLogic) (tol : ℚ) : Filter :=
  ⟨scans, conditions, logic, tol, []⟩

/-- Lines 66-67: `sorted(set().union(*output))`. -/
def unionOf (output : List (List Str)) : List Str := sortStr output.flatten.dedup

/-- Lines 68-69: `sorted(set.intersection(*map(set, output)))`; without any set `TypeError`. -/
def intersectionOf : List (List Str) → Py (List Str)
  | [] => .error .typeError
  | o :: os => .ok (sortStr (o.filter fun n => os.all fun o' => decide (n ∈ o')).dedup)

/-- filter.py lines 53-71, `filter_data`: the object afterwards and the answer. When a condition raises, the sets found so far
stay in `output`; the model does not follow the object any further then. -/
def Filter.filterData (f : Filter) : Py (Filter × Option (List Str)) :=
  if f.conditions = [] then .ok (f, none)
  else f.conditions.mapM (conditionFactory f.scans f.tol) >>= fun out =>
    match f.logic with
    | .or => .ok ({ f with output := f.output ++ out }, some (unionOf (f.output ++ out)))
    | .and => (intersectionOf (f.output ++ out)).map fun l => ({ f with output := f.output ++ out }, some l)
    | .other => .ok ({ f with output := f.output ++ out }, none)

/-! ## Event broker -/

/-- An event: its class and what it carries. -/
structure Ev where
  type : ℕ
  payload : Str
  deriving DecidableEq

/-- event_broker.py line 15: `defaultdict(list)` from event classes to callables (named by numbers). -/
abbrev Registry := ℕ → List ℕ

/-- event_broker.py lines 17-18, `register`. -/
def Registry.add (r : Registry) (type : ℕ) (c : ℕ) : Registry := fun t => if t = type then r t ++ [c] else r t

/-- What a callable may do with the broker while it runs. -/
inductive Act where
  | register (type : ℕ) (c : ℕ)
  | publish (ev : Ev)

/-- A call made by the broker: how deeply nested, what, with what. -/
structure EvCall where
  depth : ℕ
  callable : ℕ
  event : Ev

/-- What is being executed: the body of a callable, or the loop of `publish` from index `i` on. -/
inductive Task where
  | body (acts : List Act)
  | loop (ev : Ev) (i : ℕ)

/-- event_broker.py lines 17-24, executions. `beh c ev` is what the callable `c` does when called with `ev`. The loop of
`publish` runs over the list that is in the registry, by index, and sees what is appended meanwhile, as Python's list iterator
does. `Exec beh d r t r' log`: with registry `r`, at nesting depth `d`, executing `t` ends with registry `r'` after the calls
`log`. Executions that raise or never end have no `Exec`. -/
inductive Exec (beh : ℕ → Ev → List Act) : ℕ → Registry → Task → Registry → List EvCall → Prop
  | nil (d r) : Exec beh d r (.body []) r []
  | reg (d r type c acts r' log) : Exec beh d (r.add type c) (.body acts) r' log →
      Exec beh d r (.body (.register type c :: acts)) r' log
  | pub (d r ev acts r1 r2 log1 log2) : Exec beh d r (.loop ev 0) r1 log1 → Exec beh d r1 (.body acts) r2 log2 →
      Exec beh d r (.body (.publish ev :: acts)) r2 (log1 ++ log2)
  | done (d r ev i) : (r ev.type)[i]? = none → Exec beh d r (.loop ev i) r []
  | step (d r ev i c r1 r2 log1 log2) : (r ev.type)[i]? = some c → Exec beh (d + 1) r (.body (beh c ev)) r1 log1 →
      Exec beh d r1 (.loop ev (i + 1)) r2 log2 → Exec beh d r (.loop ev i) r2 (⟨d, c, ev⟩ :: log1 ++ log2)

/-- The class `EventBroker` and the objects made from it; an object has a registry once it is initialised. -/
structure BrokerWorld where
  instance_ : Option ℕ
  objects : List (Option Registry)

/-- event_broker.py lines 8-15: `EventBroker()`, the world and the handle returned. -/
def BrokerWorld.construct (w : BrokerWorld) : BrokerWorld × ℕ :=
  let (h, objs) := match w.instance_ with
    | some h => (h, w.objects)
    | none => (w.objects.length, w.objects ++ [none])
  (⟨some h, objs.modify h fun o => some (o.getD fun _ => [])⟩, h)

/-- What the rest of the program does with brokers: make handles, and use a handle made before. -/
inductive BrokerOp where
  | construct
  | register (handle : ℕ) (type : ℕ) (c : ℕ)
  | publish (handle : ℕ) (ev : Ev)

/-- One operation; `handles` are the handles made so far, `register i` uses the `i`-th of them. The calls made are `log`. -/
inductive BrokerStep (beh : ℕ → Ev → List Act) :
    BrokerWorld × List ℕ → BrokerOp → BrokerWorld × List ℕ → List EvCall → Prop
  | construct (w hs) : BrokerStep beh (w, hs) .construct (w.construct.1, hs ++ [w.construct.2]) []
  | register (w hs i h reg type c) : hs[i]? = some h → w.objects[h]? = some (some reg) →
      BrokerStep beh (w, hs) (.register i type c) (⟨w.instance_, w.objects.set h (some (reg.add type c))⟩, hs) []
  | publish (w hs i h reg ev reg' log) : hs[i]? = some h → w.objects[h]? = some (some reg) →
      Exec beh 0 reg (.loop ev 0) reg' log →
      BrokerStep beh (w, hs) (.publish i ev) (⟨w.instance_, w.objects.set h (some reg')⟩, hs) log

/-! ## Loading a folder in parallel -/

/-- dummy_model.py lines 11-29, `TaviProject`. -/
structure Project where
  fileList : List Str
  tempList : List Str
  totalFiles : ℕ
  loadedFiles : ℕ
  selected : Option Str

/-- A new project. -/
def Project.new : Project := ⟨[], [], 0, 0, none⟩

/-- dummy_model.py lines 56-61: a batch is moved to the lists. -/
def Project.flush (p : Project) (batch : List Str) : Project :=
  { p with fileList := p.fileList ++ batch, tempList := p.tempList ++ batch, loadedFiles := p.loadedFiles + batch.length }

/-- dummy_model.py lines 54-66: the loop over the finished futures, with the unfinished batch. -/
def Project.collect (p : Project) (batch : List Str) : List Str → Project
  | [] => if batch = [] then p else p.flush batch
  | r :: rest =>
    if 10 ≤ (batch ++ [r]).length then (p.flush (batch ++ [r])).collect [] rest else p.collect (batch ++ [r]) rest

/-- dummy_model.py lines 47-69, `load`. `entries` is the listing of the folder, `finished` the order in which the workers
finish. The project afterwards and the names in the event `scan_uuid`. -/
def Project.load (p : Project) (entries finished : List Str) : Project × List Str :=
  let q := Project.collect { p with tempList := [], totalFiles := entries.length } [] finished
  let r := { q with tempList := sortStr q.tempList }
  (r, r.tempList)

/-- `l.index(x)`. -/
def indexOf (l : List Str) (x : Str) : Py ℕ := if x ∈ l then .ok (l.idxOf x) else .error .valueError

/-! ## The next file -/

/-- `s.strip(chars)`. -/
def stripSet (chars s : Str) : Str :=
  ((s.dropWhile fun c => decide (c ∈ chars)).reverse.dropWhile fun c => decide (c ∈ chars)).reverse

/-- random_model.py lines 28-33: one part of the name. -/
def nextPart (name : Str) : Py Str :=
  if "scan".toList.isPrefixOf name then
    (pyInt (stripSet ".dat".toList (stripSet "scan".toList name))).map fun n =>
      "scan".toList ++ (if 0 ≤ n + 1 then decStr (n + 1).toNat else '-' :: decStr (-(n + 1)).toNat) ++ ".dat".toList
  else .ok name

/-- random_model.py lines 25-34: the suggested name. -/
def nextName (current : Str) : Py Str := ((splitChar '_' current).mapM nextPart).map (joinStr "_".toList)

/-- random_model.py lines 19-37, `get_next_file`: `prev` is the attribute `next_file` set by an earlier call. The name in the
event `random_data`. -/
def getNextFile (p : Project) (prev : Option Str) (current : Str) : Py Str :=
  (if current ≠ [] then nextName current else need prev .attributeError) >>= fun next =>
  (indexOf p.fileList current).map fun _ => next

/-! ## Configuration -/

/-- A section: fields (lower case, as `ConfigParser` makes them) with their values, `none` for a field without value. -/
abbrev Section := List (Str × Option Str)

/-- A `ConfigParser`: the defaults and the sections. Simplification: values contain no `%`, so that interpolation does
nothing. -/
structure Config where
  defaults : Section
  sections : List (Str × Section)

/-- `config[section][field]`, also `field in config[section]`: own fields first, then the defaults. -/
def Config.get (c : Config) (sec : Section) (field : Str) : Option (Option Str) :=
  match lookupKey field sec with
  | some v => some v
  | none => lookupKey field c.defaults

/-- `config.items(section)`: the defaults, updated by the fields of the section. -/
def Config.items (c : Config) (sec : Section) : Section := assocUpdate c.defaults sec

/-- configuration.py lines 65-69: the fields of one section of the template. -/
def addFields (c : Config) (sec : Section) : Section → Section
  | [] => sec
  | (field, v) :: rest => if (c.get sec field).isSome then addFields c sec rest else addFields c (assocSet sec field v) rest

/-- configuration.py lines 59-69: one section of the template. -/
def addSection (c : Config) (name : Str) (items : Section) : Config :=
  { c with sections := assocSet c.sections name (addFields c ((lookupKey name c.sections).getD []) items) }

/-- configuration.py lines 54-72, `validate`; the file written is the configuration returned. -/
def Config.validate (c template : Config) : Config :=
  template.sections.foldl (fun c s => addSection c s.1 (template.items s.2)) c

/-- What `get_data` returns. -/
inductive ConfVal where
  | bool (b : Bool)
  | none
  | str (s : Str)
  | section_ (s : Section)
  deriving DecidableEq

/-- configuration.py lines 87-97: the value of a field. A field without value would be `None` (the parser used by `get_data`
refuses such files; this is left out). -/
def confVal (v : Option Str) : ConfVal :=
  match v with
  | some s => if s = "True".toList then .bool true else if s = "False".toList then .bool false
    else if s = "None".toList then .none else .str s
  | Option.none => .none

/-- configuration.py lines 79-102, `get_data`; `c` is `none` when the file does not exist. -/
def getData (c : Option Config) (sec name : Str) : ConfVal :=
  match c with
  | Option.none => .none
  | some c => match lookupKey sec c.sections with
    | Option.none => .none
    | some s => if name = [] then .section_ (c.items s) else match c.get s name with
      | Option.none => .none
      | some v => confVal v

end Tavi
