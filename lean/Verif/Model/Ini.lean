import Verif.Model.App

/-!
# Model of `src/tavi/configuration.py` on the text of the file

`Configuration.__init__`, `get_data` and `help_function` together with the parts of `configparser.ConfigParser` of the
standard library they use (`read`, `write`, `get` with its interpolation; CPython 3.11, `Lib/configparser.py`). The dictionary
level (`Config`, `Config.validate`) is in `Model/App.lean`. Simplifications: the text of a file is the decoded text with line
ends `\n`; `str.lower` acts on ASCII letters; values of the template contain no `%`.
-/

namespace Tavi

/-- The exceptions of `configparser` and the two other ones that can occur. None of them is a `ValueError` or a `KeyError`. -/
inductive IniErr where
  | missingHeader | duplicateSection | duplicateOption | parsing | interpolation | attribute | type_
  deriving DecidableEq

/-- What the constructor of `ConfigParser` is told: `comment_prefixes` and `allow_no_value`. -/
structure IniMode where
  comment : List Char
  noValue : Bool

/-- configuration.py:41 and 57: `ConfigParser(allow_no_value=True, comment_prefixes="/")`. -/
def startMode : IniMode := ⟨['/'], true⟩

/-- configuration.py:84: `ConfigParser()`. -/
def dataMode : IniMode := ⟨['#', ';'], false⟩

/-- `DEFAULTSECT`. -/
def defaultSect : Str := "DEFAULT".toList

/-- A section while it is read: the lines of each value. -/
abbrev RawSec := List (Str × Option (List Str))

/-- The variables of `RawConfigParser._read`: the sections and defaults so far, `sectname` (the section of `cursect`),
`optname`, `indent_level`, and whether `e` is set. -/
structure IniState where
  sections : List (Str × RawSec) := []
  defaults : RawSec := []
  cur : Option Str := none
  opt : Option Str := none
  indent : ℕ := 0
  bad : Bool := false

namespace IniState

/-- The dictionary of a section; `[DEFAULT]` is the dictionary of defaults. -/
def sec (st : IniState) (n : Str) : RawSec :=
  if n = defaultSect then st.defaults else (lookupKey n st.sections).getD []

/-- Change the dictionary of a section. -/
def setSec (st : IniState) (n : Str) (r : RawSec) : IniState :=
  if n = defaultSect then { st with defaults := r } else { st with sections := assocSet st.sections n r }

/-- `cursect is not None and optname`: the section and the option lines are added to, with its lines so far (`none` for an
option without value). -/
def target (st : IniState) : Option (Str × Str × Option (List Str)) :=
  match st.cur, st.opt with
  | some s, some o => if o = [] then none else some (s, o, (lookupKey o (st.sec s)).join)
  | _, _ => none

/-- `cursect[optname].append(value)`. -/
def append (st : IniState) (s o : Str) (ls : List Str) (value : Str) : IniState :=
  st.setSec s (assocSet (st.sec s) o (some (ls ++ [value])))

end IniState

/-- `s.lower()` on ASCII letters (`optionxform`). -/
def lowerStr (s : Str) : Str := s.map Char.toLower

/-- `s.rstrip()`. -/
def rstrip (s : Str) : Str := (s.reverse.dropWhile isSpace).reverse

/-- Position of the first character that is not white space (`NONSPACECRE.search(line).start()`). -/
def indentOf (line : Str) : ℕ := (line.takeWhile isSpace).length

/-- `SECTCRE.match(value)`: `[`, then as much as possible but at least one character, then `]`. -/
def iniHeader (v : Str) : Option Str :=
  match v with
  | '[' :: t => match t.reverse.dropWhile (· ≠ ']') with
    | ']' :: h => if h = [] then none else some h.reverse
    | _ => none
  | _ => none

/-- The delimiters `=` and `:`. -/
def isDelim (c : Char) : Bool := c == '=' || c == ':'

/-- `OPTCRE.match(value)` or `OPTCRE_NV.match(value)`: the text before the first delimiter and, if there is one, the text after
it. -/
def iniOption (v : Str) : Str × Option Str :=
  (lowerStr (rstrip (v.takeWhile fun c => !isDelim c)),
    match v.dropWhile fun c => !isDelim c with
    | [] => none
    | _ :: t => some (strip t))

/-- `_read`: the lines of an option (a bad line is remembered, an option given twice is refused at once). -/
def iniEntry (m : IniMode) (st : IniState) (s : Str) (kv : Str × Option Str) : Except IniErr IniState :=
  if kv.2 = none ∧ m.noValue = false then .ok { st with bad := true }
  else if (lookupKey kv.1 (st.sec s)).isSome then .error .duplicateOption
  else .ok { (st.setSec s (st.sec s ++ [(kv.1, kv.2.map fun v => [v])])) with
    opt := some kv.1, bad := st.bad || decide (kv.1 = []) }

/-- `_read`: a line that is no continuation: a section header or an option. -/
def iniNew (m : IniMode) (st : IniState) (v : Str) : Except IniErr IniState :=
  match iniHeader v with
  | some h =>
    if h = defaultSect then .ok { st with cur := some h, opt := none }
    else if (lookupKey h st.sections).isSome then .error .duplicateSection
    else .ok { st with sections := st.sections ++ [(h, [])], cur := some h, opt := none }
  | none => match st.cur with
    | none => .error .missingHeader
    | some s => iniEntry m st s (iniOption v)

/-- `_read`: one line. Blank lines belong to the value before them; comment lines are skipped; a line indented more than the
option before it continues its value (`None.append` is an `AttributeError`). -/
def iniStep (m : IniMode) (st : IniState) (line : Str) : Except IniErr IniState :=
  match strip line with
  | [] => match st.target with
    | some (s, o, some ls) => .ok (st.append s o ls [])
    | _ => .ok st
  | c :: v =>
    if c ∈ m.comment then .ok st
    else if st.indent < indentOf line then
      match st.target with
      | some (s, o, some ls) => .ok (st.append s o ls (c :: v))
      | some (_, _, none) => .error .attribute
      | none => iniNew m { st with indent := indentOf line } (c :: v)
    else iniNew m { st with indent := indentOf line } (c :: v)

/-- The lines a text file yields. -/
def textLines (s : Str) : List Str :=
  let ps := splitChar '\n' s
  if ps.getLast? = some [] then ps.dropLast else ps

/-- `_join_multiline_values`: one value. -/
def joinVal (ls : List Str) : Str := rstrip (joinStr "\n".toList ls)

/-- `_join_multiline_values`: one section. -/
def joinSec (r : RawSec) : Section := r.map fun e => (e.1, e.2.map joinVal)

/-- `ConfigParser(...).read` of one file with the given text. -/
def iniRead (m : IniMode) (text : Str) : Except IniErr Config :=
  (textLines text).foldlM (iniStep m) {} >>= fun st =>
  if st.bad then .error .parsing else .ok ⟨joinSec st.defaults, st.sections.map fun s => (s.1, joinSec s.2)⟩

/-- `value.replace("\n", "\n\t")`. -/
def indentNl (v : Str) : Str := v.flatMap fun c => if c = '\n' then ['\n', '\t'] else [c]

/-- `_write_section`: one option (of the parser with `allow_no_value=True`). -/
def iniWriteEntry (e : Str × Option Str) : Str :=
  e.1 ++ (match e.2 with
    | some v => " = ".toList ++ indentNl v
    | none => []) ++ ['\n']

/-- `_write_section`. -/
def iniWriteSection (name : Str) (sec : Section) : Str :=
  ('[' :: name ++ [']', '\n']) ++ sec.flatMap iniWriteEntry ++ ['\n']

/-- `ConfigParser.write`. -/
def iniWrite (c : Config) : Str :=
  (if c.defaults = [] then [] else iniWriteSection defaultSect c.defaults) ++ c.sections.flatMap fun s => iniWriteSection s.1 s.2

/-- Where the scan of `_interpolate_some` is: in plain text, behind a `%`, in a name (with its characters so far), behind the
bracket that closes a name. -/
inductive IniScan where
  | plain | percent | name (acc : Str) | close (acc : Str)

/-- `BasicInterpolation._interpolate_some`: the loop; `deeper` is the call for a value that itself has a `%`. -/
def iniScan (map : Str → Option (Option Str)) (deeper : Str → Except IniErr Str) : IniScan → Str → Except IniErr Str
  | .plain, [] => .ok []
  | .plain, c :: t => if c = '%' then iniScan map deeper .percent t else (iniScan map deeper .plain t).map (c :: ·)
  | .percent, [] => .error .interpolation
  | .percent, c :: t =>
    if c = '%' then (iniScan map deeper .plain t).map ('%' :: ·)
    else if c = '(' then iniScan map deeper (.name []) t
    else .error .interpolation
  | .name _, [] => .error .interpolation
  | .name acc, c :: t =>
    if c = ')' then if acc = [] then .error .interpolation else iniScan map deeper (.close acc) t
    else iniScan map deeper (.name (acc ++ [c])) t
  | .close _, [] => .error .interpolation
  | .close acc, c :: t =>
    if c = 's' then
      match map (lowerStr acc) with
      | none => .error .interpolation
      | some none => .error .type_
      | some (some v) =>
        (if '%' ∈ v then deeper v else .ok v) >>= fun x => (iniScan map deeper .plain t).map (x ++ ·)
    else .error .interpolation

/-- `_interpolate_some` with `n` levels left (`MAX_INTERPOLATION_DEPTH` is 10). -/
def interpolate (map : Str → Option (Option Str)) : ℕ → Str → Except IniErr Str
  | 0, _ => .error .interpolation
  | n + 1, v => iniScan map (interpolate map n) .plain v

/-- `config[section]` as a dictionary of its own fields; `none` is a `KeyError`. -/
def Config.own (c : Config) (sec : Str) : Option Section :=
  if sec = defaultSect then some [] else lookupKey sec c.sections

/-- configuration.py:79-102, `get_data` on the text of the file (`none`: there is no file). An empty `name` is no name. -/
def getDataText (file : Option Str) (sec name : Str) : Except IniErr ConfVal :=
  match file with
  | none => .ok .none
  | some text => iniRead dataMode text >>= fun c =>
    match c.own sec with
    | none => .ok .none
    | some s =>
      if name = [] then .ok (.section_ (c.items s))
      else match c.get s (lowerStr name) with
        | none => .ok .none
        | some none => .ok .none
        | some (some v) => (interpolate (c.get s) 10 v).map fun x => confVal (some x)

/-- configuration.py:20-52, `Configuration.__init__`: the text of the template (`none`: missing), the text of the settings file
(`none`: missing) ↦ the text of the settings file afterwards and `is_valid()` or the exception that leaves the constructor.
`except ValueError` catches none of the errors here. -/
def startConfig (template file : Option Str) : Option Str × Except IniErr Bool :=
  match template with
  | none => (file, .ok false)
  | some t =>
    let text := file.getD t
    match iniRead startMode text with
    | .error e => (some text, .error e)
    | .ok c => match iniRead startMode t with
      | .error e => (some text, .error e)
      | .ok tc => (some (iniWrite (c.validate tc)), .ok true)

/-- help_model.py:8-12, `help_function`: the page opened, if one is asked for. -/
def helpPage (file : Option Str) (context : Bool) : Except IniErr (Option ConfVal) :=
  (getDataText file "global.other".toList "help_url".toList).map fun v => if context then some v else none

/-- configuration_template.ini. -/
def shippedTemplate : Str :=
  ("[global.other]\nhelp_url = https://github.com/neutrons/python_project_template/blob/main/README.md\n").toList

end Tavi
