import Verif.Model.Str

/-!
# Model of `src/tavi/data/nexus_entry.py`

A `NexusEntry` is a nested Python dict whose keys `"attrs"` and `"dataset"` are special.  The dict is modelled as it
is, including the special keys, so that the look-up and writing code can be followed branch by branch.

An HDF5 file is modelled as a tree of nodes.  The h5py contract that is assumed (trusted, not proved):
* a scalar string stored in a dataset or attribute is read back as the same string;
* numeric scalars and one-dimensional numeric arrays are read back unchanged (`value[...]`, `tolist()` for shape `()`);
* `str(ds.asstr()[...])` of an array of strings is numpy's printout of that array;
* `require_group` returns the existing group, makes a new one when there is nothing, and raises `TypeError` when a
  dataset has that name; deleting a key removes everything below it; attributes can be overwritten.

Not modelled: non-ASCII strings, arrays of more than one dimension, nan and infinities in arrays, 64-bit overflow, keys
containing `/`, and `None` as a value.
-/

namespace Tavi

/-- Values that are not dicts. -/
inductive Leaf where
  /-- Python `str` -/
  | str (s : Str)
  /-- list or array of `str` -/
  | strs (l : List Str)
  /-- Python number -/
  | num (x : ℝ)
  /-- one-dimensional numeric list or array; `none` is `nan` (or infinite) -/
  | arr (l : List (Option ℝ))

/-- A list or array of finite numbers. -/
abbrev Leaf.fin (l : List ℝ) : Leaf := .arr (l.map some)

mutual
/-- A value in a nested dict. -/
inductive Val where
  | leaf (a : Leaf)
  | dict (d : Dict)
/-- A Python dict: its items in insertion order. -/
inductive Dict where
  | nil
  | cons (k : Str) (v : Val) (rest : Dict)
end

/-- The special key holding attributes. -/
abbrev kAttrs : Str := "attrs".toList

/-- The special key holding the data. -/
abbrev kDataset : Str := "dataset".toList

/-- `d[k]` when the key is there. -/
def Dict.get? : Dict → Str → Option Val
  | .nil, _ => none
  | .cons k v rest, q => if k = q then some v else rest.get? q

/-- `k in d`. -/
def Dict.has (d : Dict) (k : Str) : Bool := (d.get? k).isSome

/-- `d.pop(k)`, `del d[k]`: remove the key (all items with that key; there is at most one in a Python dict). -/
def Dict.erase : Dict → Str → Dict
  | .nil, _ => .nil
  | .cons k v rest, q => if k = q then rest.erase q else .cons k v (rest.erase q)

/-- `d[k] = v`, `d.update({k: v})`: replace in place or append. -/
def Dict.set : Dict → Str → Val → Dict
  | .nil, q, w => .cons q w .nil
  | .cons k v rest, q, w => if k = q then .cons k w rest else .cons k v (rest.set q w)

/-- `d.keys()`. -/
def Dict.keys : Dict → List Str
  | .nil => []
  | .cons k _ rest => k :: rest.keys

/-! ## Looking up -/

/-- `obj[key]` for a value: `KeyError` when the key is missing. Indexing anything but a dict by a string raises
(`TypeError`; for numpy arrays `IndexError`, which is not told apart here). -/
def Val.index : Val → Str → Py Val
  | .leaf _, _ => .error .typeError
  | .dict d, k => need (d.get? k) .keyError

/-- nexus_entry.py lines 46-53: `for key_item in key.split("/"): obj = obj[key_item]`. -/
def follow : Val → List Str → Py Val
  | v, [] => .ok v
  | v, k :: ks => v.index k >>= fun w => follow w ks

theorem Dict.sizeOf_get? {d : Dict} {k : Str} {v : Val} (h : d.get? k = some v) : sizeOf v < sizeOf d := by
  induction d using Dict.rec (motive_1 := fun _ => True) with
  | leaf => trivial
  | dict => trivial
  | nil => simp [Dict.get?] at h
  | cons k' v' rest _ ih =>
    rw [Dict.get?] at h
    by_cases hk : k' = k
    · rw [if_pos hk] at h
      obtain rfl := Option.some.inj h
      simp only [Dict.cons.sizeOf_spec]
      omega
    · rw [if_neg hk] at h
      have := ih h
      simp only [Dict.cons.sizeOf_spec]
      omega

theorem sizeOf_follow {v w : Val} {ks : List Str} (h : follow v ks = .ok w) : sizeOf w ≤ sizeOf v := by
  induction ks generalizing v with
  | nil => obtain rfl := Except.ok.inj h; exact le_refl _
  | cons k ks ih =>
    rw [follow] at h
    cases v with
    | leaf a => exact absurd h (by simp [Val.index, bind, Except.bind])
    | dict d =>
      cases hg : d.get? k with
      | none => simp [Val.index, hg, need, bind, Except.bind] at h
      | some u =>
        have h' : follow u ks = .ok w := by simpa [Val.index, hg, need, bind, Except.bind] using h
        have h1 := ih h'
        have h2 := Dict.sizeOf_get? hg
        simp only [Val.dict.sizeOf_spec]
        omega

theorem sizeOf_follow_cons {d : Dict} {e : Dict} {k : Str} {ks : List Str}
    (h : follow (.dict d) (k :: ks) = .ok (.dict e)) : sizeOf e < sizeOf d := by
  rw [follow] at h
  cases hg : d.get? k with
  | none => simp [Val.index, hg, need, bind, Except.bind] at h
  | some u =>
    have h' : follow u ks = .ok (.dict e) := by simpa [Val.index, hg, need, bind, Except.bind] using h
    have h1 := sizeOf_follow h'
    have h2 := Dict.sizeOf_get? hg
    simp only [Val.dict.sizeOf_spec] at h1
    omega

/-- The key read at the end of a path: line 54. -/
def wanted (attrs : Bool) : Str := if attrs then kAttrs else kDataset

mutual
/-- nexus_entry.py lines 41-74, `_getitem_recursively(obj, key, ATTRS)`; `parts` is `key.split("/")`. When the first
part is a key of `obj` the path is followed and `obj` is *rebound* to what it leads to (line 51); a missing later part
returns `None` at once. The loop of lines 65-72 then runs over the rebound `obj`. -/
def getItem (d : Dict) (parts : List Str) (attrs : Bool) : Py (Option Val) :=
  match parts with
  | [] => scanItems d [] attrs
  | k :: ks =>
    if d.has k then
      match _h : follow (.dict d) (k :: ks) with
      | .error .keyError => .ok none
      | .error e => .error e
      | .ok (.leaf _) => .error .typeError
      | .ok (.dict e) =>
        match e.get? (wanted attrs) with
        | some v => .ok (some v)
        | none => scanItems e (k :: ks) attrs
    else scanItems d (k :: ks) attrs
termination_by (sizeOf d, 1)
decreasing_by
  · apply Prod.Lex.right; omega
  · apply Prod.Lex.left; exact sizeOf_follow_cons _h
  · apply Prod.Lex.right; omega

/-- nexus_entry.py lines 65-72: the loop over the items of `obj`, skipping the special keys, stopping at the first value
found. -/
def scanItems (d : Dict) (parts : List Str) (attrs : Bool) : Py (Option Val) :=
  match d with
  | .nil => .ok none
  | .cons k v rest =>
    if k = kAttrs ∨ k = kDataset then scanItems rest parts attrs
    else match v with
      | .leaf _ => scanItems rest parts attrs
      | .dict e =>
        match getItem e parts attrs with
        | .error err => .error err
        | .ok (some x) => .ok (some x)
        | .ok none => scanItems rest parts attrs
termination_by (sizeOf d, 0)
decreasing_by
  all_goals apply Prod.Lex.left
  all_goals simp only [Dict.cons.sizeOf_spec, Val.dict.sizeOf_spec]
  all_goals omega
end

/-- The two log groups, nexus_entry.py line 292. -/
abbrev kSpice : Str := "SPICElogs".toList
/-- The other one. -/
abbrev kDas : Str := "DASlogs".toList

/-- nexus_entry.py lines 291-294: the logs are popped from the entry itself. -/
def dropLogs (d : Dict) : Dict := (d.erase kSpice).erase kDas

/-- nexus_entry.py lines 296-302: keys that need another path when the data is asked for. -/
def specialKey (key : Str) (attrs : Bool) : Str :=
  if attrs then key
  else if key = "detector".toList then "detector/data".toList
  else if key = "monitor".toList then "monitor/monitor".toList
  else if key = "sample".toList then "sample/sample".toList
  else key

/-- nexus_entry.py lines 277-306, `NexusEntry.get(key, ATTRS)` with `default=None`. Returns the value and the entry as it
is afterwards. -/
def nxGet (d : Dict) (key : Str) (attrs : Bool) : Py (Option Val) × Dict :=
  (getItem (dropLogs d) (splitChar '/' (specialKey key attrs)) attrs, dropLogs d)

/-- nexus_entry.py lines 308-315 and 317-324, lines 310-313: the last log group present (`continue` does not leave the
loop); none bound when there is no log group. -/
def findLogs (d : Dict) : Py Val :=
  match d.get? kDas with
  | some v => .ok v
  | none => match d.get? kSpice with
    | some v => .ok v
    | none => .error .unboundLocal

/-- nexus_entry.py lines 308-315, `get_data_from_daslogs(key)` with `default=None`. -/
def dataFromLogs (d : Dict) (key : Str) : Py (Option Val) :=
  findLogs d >>= fun logs => match logs with
    | .leaf _ => .error .attributeError
    | .dict l => match l.get? key with
      | none => .ok none
      | some v => (v.index kDataset).map some

/-- nexus_entry.py lines 317-324, `get_metadata_from_daslogs(key)` with `default=None`. -/
def metaFromLogs (d : Dict) (key : Str) : Py (Option Val) :=
  findLogs d >>= fun logs => logs.index kAttrs >>= fun a => match a with
    | .leaf _ => .error .attributeError
    | .dict l => .ok (l.get? key)

/-! ## Files -/

mutual
/-- A node of an HDF5 file: a dataset when it carries a value, otherwise a group. -/
inductive H5 where
  | node (value : Option Leaf) (attrs : List (Str × Leaf)) (children : H5s)
/-- The members of a group in order. -/
inductive H5s where
  | nil
  | cons (k : Str) (n : H5) (rest : H5s)
end

/-- `grp.get(k)`. -/
def H5s.get? : H5s → Str → Option H5
  | .nil, _ => none
  | .cons k v rest, q => if k = q then some v else rest.get? q

/-- `del grp[k]`. -/
def H5s.erase : H5s → Str → H5s
  | .nil, _ => .nil
  | .cons k v rest, q => if k = q then rest.erase q else .cons k v (rest.erase q)

/-- Put a member: in place when the name exists, otherwise at the end. -/
def H5s.set : H5s → Str → H5 → H5s
  | .nil, q, w => .cons q w .nil
  | .cons k v rest, q, w => if k = q then .cons k w rest else .cons k v (rest.set q w)

/-- An empty group. -/
def H5.empty : H5 := .node none [] .nil

/-- `obj.attrs[k] = v`. -/
def setAttr : List (Str × Leaf) → Str → Leaf → List (Str × Leaf)
  | [], k, v => [(k, v)]
  | (k', v') :: l, k, v => if k' = k then (k', v) :: l else (k', v') :: setAttr l k v

/-- nexus_entry.py lines 111-115: write the attributes one by one. A dict as an attribute value cannot be stored
(`TypeError`). -/
def writeAttrs : Dict → H5 → Py H5
  | .nil, t => .ok t
  | .cons k (.leaf v) rest, .node val a ch => writeAttrs rest (.node val (setAttr a k v) ch)
  | .cons _ (.dict _) _, _ => .error .typeError

/-- numpy `astype("int")` of a float: truncation towards zero. -/
noncomputable def truncR (x : ℝ) : ℝ := if 0 ≤ x then (⌊x⌋ : ℝ) else (⌈x⌉ : ℝ)

/-- `np.array(dv).astype("float")`. -/
noncomputable def asFloat : Leaf → Py Leaf
  | .str s => (pyFloat s).map fun q => .num (q : ℝ)
  | .strs l => (l.mapM pyFloat).map fun qs => .fin (qs.map fun q : ℚ => (q : ℝ))
  | .num x => .ok (.num x)
  | .arr l => .ok (.arr l)

/-- `np.array(dv).astype("int")`. An undefined number becomes an arbitrary integer; the model stops with `nonFinite`. -/
noncomputable def asInt : Leaf → Py Leaf
  | .str s => (pyInt s).map fun n => .num (n : ℝ)
  | .strs l => (l.mapM pyInt).map fun ns => .fin (ns.map fun n : ℤ => (n : ℝ))
  | .num x => .ok (.num (truncR x))
  | .arr l => (l.mapM fun x => need x .nonFinite).map fun xs => .fin (xs.map truncR)

/-- What h5py can store without a conversion: an array of `str` has no HDF5 type (`TypeError`). -/
def storable : Leaf → Py Leaf
  | .strs _ => .error .typeError
  | v => .ok v

/-- nexus_entry.py lines 92-101, case `NX_CHAR`: arrays and strings are encoded; `.encode` of a number in an array is an
`AttributeError`, a plain number a `ValueError`. An empty array has no element to encode and stays an empty array. -/
def asChar : Leaf → Py Leaf
  | .strs [] => .ok (.arr [])
  | .strs l => .ok (.strs l)
  | .str s => .ok (.str s)
  | .arr [] => .ok (.arr [])
  | .arr _ => .error .attributeError
  | .num _ => .error .valueError

/-- nexus_entry.py lines 90-108, the `match attr_type`. -/
noncomputable def formatAs (ty : Option Val) (v : Leaf) : Py Leaf :=
  match ty with
  | some (.leaf (.str t)) =>
    if t = "NX_CHAR".toList then asChar v
    else if t = "NX_FLOAT".toList then asFloat v
    else if t = "NX_INT".toList then asInt v
    else storable v
  | _ => storable v

/-- nexus_entry.py lines 83-109, `format_dataset(value)`. -/
noncomputable def formatDataset (d : Dict) : Py Leaf :=
  match d.get? kDataset with
  | some (.leaf v) => match d.get? kAttrs with
    | none => storable v
    | some (.leaf _) => .error .attributeError
    | some (.dict .nil) => storable v
    | some (.dict a) => formatAs (a.get? "type".toList) v
  | some (.dict _) => .error .typeError
  | none => .error .keyError

/-- Is the node a dataset? -/
def H5.isDataset : H5 → Bool
  | .node v _ _ => v.isSome

/-- `grp[k] = node` for a group; a dataset has no members (`AttributeError`). -/
def H5.put : H5 → Str → H5 → Py H5
  | .node none a ch, k, n => .ok (.node none a (ch.set k n))
  | .node (some _) _ _, _, _ => .error .attributeError

/-- Lines 119-124: delete the member if it exists, then create it anew. -/
def H5.recreate : H5 → Str → H5 → Py H5
  | .node none a ch, k, n => .ok (.node none a ((ch.erase k).set k n))
  | .node (some _) _ _, _, _ => .error .attributeError

/-- `grp.require_group(k + "/")`. -/
def H5.require : H5 → Str → Py H5
  | .node none _ ch, k => match ch.get? k with
    | none => .ok H5.empty
    | some n => if n.isDataset then .error .typeError else .ok n
  | .node (some _) _ _, _ => .error .attributeError

mutual
/-- nexus_entry.py lines 76-129, `_write_recursively(items, nexus_entry)`: the loop of line 110. Returns the node as it is
afterwards. -/
noncomputable def writeDict : Dict → H5 → Py H5
  | .nil, t => .ok t
  | .cons k v rest, t => writeItem k v t >>= fun t' => writeDict rest t'

/-- nexus_entry.py lines 111-129, the loop body: attributes, datasets (deleted and created anew), groups. A value that is
not a dict is skipped silently. -/
noncomputable def writeItem (k : Str) (v : Val) (t : H5) : Py H5 :=
  match v with
  | .leaf _ => if k = kAttrs then .error .attributeError else .ok t
  | .dict d =>
    if k = kAttrs then writeAttrs d t
    else if d.has kDataset then
      formatDataset d >>= fun dv => writeDict d (.node (some dv) [] .nil) >>= fun ds => t.recreate k ds
    else
      t.require k >>= fun g => writeDict d g >>= fun g' => t.put k g'
end

/-- `str(array)` of an array of strings. Simplification: quoting by `'`, no line breaks and no escapes. -/
def npPrint (l : List Str) : Str :=
  '[' :: (List.intercalate [' '] (l.map fun s => '\'' :: (s ++ ['\''])) ++ [']'])

/-- nexus_entry.py lines 147-152: `str(value.asstr()[...])`, or the array / number. -/
def readLeaf : Leaf → Leaf
  | .strs l => .str (npPrint l)
  | v => v

/-- Attributes as a dict: lines 138-140, 144-146. -/
def attrsDict : List (Str × Leaf) → Dict
  | [] => .nil
  | (k, v) :: l => .cons k (.leaf v) (attrsDict l)

mutual
/-- nexus_entry.py lines 137-158: the dict made for one member of a group. -/
def readNode : H5 → Dict
  | .node none a ch => .cons kAttrs (.dict (attrsDict a)) (readMembers ch)
  | .node (some v) [] _ => .cons kDataset (.leaf (readLeaf v)) .nil
  | .node (some v) a _ => .cons kAttrs (.dict (attrsDict a)) (.cons kDataset (.leaf (readLeaf v)) .nil)

/-- nexus_entry.py lines 131-159, `_read_recursively(nexus_entry)`: the members of the group, without the attributes of
the group itself. -/
def readMembers : H5s → Dict
  | .nil => .nil
  | .cons k n rest => .cons k (.dict (readNode n)) (readMembers rest)
end

/-- The members of a node. -/
def H5.children : H5 → H5s
  | .node _ _ ch => ch

/-- nexus_entry.py lines 239-248 without the soft links of lines 249-269: `to_nexus(path, name)` as far as the group
`name` is concerned. (`name` without `/`; `TAVI.save` uses nested names, which are modelled by writing into the group.) -/
noncomputable def toNexus (d : Dict) (name : Str) (root : H5) : Py H5 :=
  root.require name >>= fun g => writeDict d g >>= fun g' => root.put name g'

/-- `f"scan{n:04}"`, nexus_entry.py line 234, tavi.py lines 154, 157, 180, 183. -/
def scanName (n : ℕ) : Str := "scan".toList ++ pad4 n

/-- nexus_entry.py lines 214-237, `from_nexus(path, scan_num)`: all entries, or the one with the given number. In the second
case `_read_recursively` is applied to the group of the entry, so its attributes are not read. -/
def fromNexus (root : H5) (scanNum : Option ℕ) : Py Dict :=
  match scanNum with
  | none => .ok (readMembers root.children)
  | some n => match root.children.get? (scanName n) with
    | none => .error .keyError
    | some g => .ok (.cons (scanName n) (.dict (readMembers g.children)) .nil)

end Tavi
