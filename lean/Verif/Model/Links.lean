import Verif.Model.Builder

/-!
# Model of the soft links made by `NexusEntry.to_nexus` (`nexus_entry.py` lines 11-29 and 239-269) and of `Scan.from_nexus`
(`scan.py` lines 107-110)

An HDF5 file is the tree of `Model/Nexus` together with its soft links. All links are made by `to_nexus` in the group
`data` of an entry and point into the same entry, so a link is given by the name of the entry, its own name and the path
of its target inside the entry. Simplifications:
* the file is seen from the group that holds the entries: names of entries have no `/`, and the path `pre` of that group is
  empty for `to_nexus(path, name)` with such a name and `/data/exp_id` for `TAVI.save` (see `Model/TaviFile`);
* links come after the other members of `data`;
* an attribute `signal` or `axes` that is not text equals no name;
* the attributes of the file itself (lines 271-275) are not modelled.
-/

namespace Tavi

abbrev kData : Str := "data".toList

mutual
/-- nexus_entry.py lines 25-27: only groups are searched. -/
def findIn (val : Str) : H5 → Option (List Str)
  | .node none _ ch => findVal val ch
  | .node (some _) _ _ => none

/-- nexus_entry.py lines 11-29, `_find_val_path(val, grp)`: the path of the first member called `val`, going down into
each group before looking at the next member; the logs and everything called `data` are passed over. -/
def findVal (val : Str) : H5s → Option (List Str)
  | .nil => none
  | .cons k n rest =>
    if k = kSpice ∨ k = kData then findVal val rest
    else if val = k then
      some (if val = "detector".toList then [k, kData] else if val = "monitor".toList then [k, "monitor".toList] else [k])
    else match findIn val n with
      | some p => some (k :: p)
      | none => findVal val rest
end

/-- `grp.get(path)`. -/
def H5.at : H5 → List Str → Option H5
  | t, [] => some t
  | .node (some _) _ _, _ :: _ => none
  | .node none _ ch, k :: ks => (ch.get? k).bind fun n => n.at ks

/-- `obj.attrs[k] = v`. -/
def H5.setAttr : H5 → Str → Leaf → H5
  | .node v a ch, k, w => .node v (Tavi.setAttr a k w) ch

/-- Change the node at a path, if there is one. -/
def H5.modify (f : H5 → H5) : H5 → List Str → H5
  | t, [] => f t
  | .node v a ch, k :: ks => match ch.get? k with
    | some n => .node v a (ch.set k (n.modify f ks))
    | none => .node v a ch

/-- `del grp[k]`. -/
def H5.eraseChild : H5 → Str → H5
  | .node v a ch, k => .node v a (ch.erase k)

/-- A member of a group. -/
def H5.setChild : H5 → Str → H5 → H5
  | .node v a ch, k, n => .node v a (ch.set k n)

/-- A soft link `/entry/data/name` to `/entry/target`. -/
structure Link where
  entry : Str
  name : Str
  target : List Str

/-- An HDF5 file: the tree without the links, and the links. -/
structure NxFile where
  tree : H5
  links : List Link

/-- A file that does not exist yet. -/
def NxFile.new : NxFile := ⟨H5.empty, []⟩

/-- The text of a path: `"/" + name + path`. -/
def pathText (ks : List Str) : Str := ks.flatMap fun k => '/' :: k

/-- The node a link leads to. -/
def NxFile.target (f : NxFile) (l : Link) : Option H5 := f.tree.at (l.entry :: l.target)

/-- The link of that name in the group `data` of the entry. -/
def NxFile.link? (f : NxFile) (e k : Str) : Option Link := f.links.find? fun l => decide (l.entry = e ∧ l.name = k)

/-- `del scan_grp["data"][k]` for a link. -/
def NxFile.unlink (f : NxFile) (e k : Str) : NxFile :=
  ⟨f.tree, f.links.filter fun l => decide (¬ (l.entry = e ∧ l.name = k))⟩

/-- nexus_entry.py lines 117-129 for the members of the group `data` that are links: a dataset replaces the link of the
same name, a group of that name cannot be written (`TypeError`). -/
def overwriteLinks (e : Str) : Dict → NxFile → Py NxFile
  | .nil, f => .ok f
  | .cons k v rest, f =>
    if k = kAttrs ∨ (f.link? e k).isNone then overwriteLinks e rest f
    else match v with
      | .leaf _ => overwriteLinks e rest f
      | .dict d => if d.has kDataset then overwriteLinks e rest (f.unlink e k) else .error .typeError

/-- nexus_entry.py lines 248 and 76-129: write the items of the entry into the file. -/
noncomputable def writeEntry (d : Dict) (name : Str) (f : NxFile) : Py NxFile :=
  toNexus d name f.tree >>= fun t =>
  (match d.get? kData with
    | some (.dict e) => overwriteLinks name e f
    | _ => .ok f) >>= fun f' => .ok ⟨t, f'.links⟩

/-- The members of the entry. -/
def NxFile.entry (f : NxFile) (name : Str) : Option H5 := f.tree.children.get? name

/-- nexus_entry.py lines 258-259 and 265-266: a dataset of that name makes way for the link, anything else stays, and then
the link cannot be made (`ValueError`). -/
def makeRoom (name val : Str) (data : H5) (f : NxFile) : Py NxFile :=
  match data.children.get? val with
  | some n =>
    if n.isDataset then .ok ⟨f.tree.modify (fun t => t.eraseChild val) [name, kData], f.links⟩ else .error .valueError
  | none => match f.link? name val with
    | none => .ok f
    | some l => match f.target l with
      | some t => if t.isDataset then .ok (f.unlink name val) else .error .valueError
      | none => .error .valueError

/-- nexus_entry.py lines 256-262 (and 263-269): the link `val` to what the search has found. -/
def linkAxis (pre name val : Str) (p : List Str) (f : NxFile) : Py NxFile :=
  match f.entry name with
  | none => .ok f
  | some g =>
    if (g.at p).isNone then .ok f
    else match g.children.get? kData with
      | none => .ok f
      | some data =>
        if data.isDataset then .error .attributeError
        else makeRoom name val data f >>= fun f' =>
          .ok ⟨f'.tree.modify (fun t => t.setAttr "target".toList (.str (pre ++ pathText (name :: p)))) (name :: p),
            f'.links ++ [⟨name, val, p⟩]⟩

/-- The attributes of a node. -/
def H5.attrs : H5 → List (Str × Leaf)
  | .node _ a _ => a

/-- An attribute that is to be a name. -/
def asName : Leaf → Option Str
  | .str s => some s
  | _ => none

/-- nexus_entry.py lines 253-254: search for the name. -/
def findAxis (val : Leaf) (g : H5) : Option (Str × List Str) :=
  (asName val).bind fun s => (findIn s g).map fun p => (s, p)

/-- nexus_entry.py lines 256-269 for one axis. -/
def linkFound (pre name : Str) (o : Option (Str × List Str)) (f : NxFile) : Py NxFile :=
  match o with
  | some (s, p) => linkAxis pre name s p f
  | none => .ok f

/-- nexus_entry.py lines 249-269. -/
def makeLinks (pre name : Str) (f : NxFile) : Py NxFile :=
  match f.entry name with
  | none => .ok f
  | some g => match g.children.get? kData with
    | none => .ok f
    | some data =>
      need (lookupKey "signal".toList data.attrs) .keyError >>= fun y =>
      need (lookupKey "axes".toList data.attrs) .keyError >>= fun x =>
      linkFound pre name (findAxis y g) f >>= fun f' => linkFound pre name (findAxis x g) f'

/-- nexus_entry.py lines 239-269, `to_nexus(path, name)` for an entry in the group with the path `pre`. -/
noncomputable def toNexusIn (pre : Str) (d : Dict) (name : Str) (f : NxFile) : Py NxFile :=
  writeEntry d name f >>= fun f' => makeLinks pre name f'

/-- nexus_entry.py lines 239-269, `to_nexus(path, name)`. -/
noncomputable def toNexusFile (d : Dict) (name : Str) (f : NxFile) : Py NxFile := toNexusIn [] d name f

/-- A member of the group `data` of an entry. -/
def addLink (e k : Str) (n : H5) (t : H5) : H5 :=
  t.modify (fun data => data.setChild k n) [e, kData]

/-- The file as it is read: every link stands for the node it leads to; a link that leads nowhere is passed over
(nexus_entry.py lines 136-143: neither a group nor a dataset). -/
def NxFile.resolved (f : NxFile) : H5 :=
  f.links.foldl (fun t l => match f.target l with | some n => addLink l.entry l.name n t | none => t) f.tree

/-- nexus_entry.py lines 214-237, `from_nexus(path, scan_num)`, links included. -/
def fromNexusFile (f : NxFile) (scanNum : Option ℕ) : Py Dict := fromNexus f.resolved scanNum

/-- scan.py lines 107-110, `Scan.from_nexus`: there must be exactly one entry. Everything read from a file is an array, never
a list. -/
def scanFromNexus (f : NxFile) (scanNum : Option ℕ) : Py ScanObj :=
  fromNexusFile f scanNum >>= fun es => match es with
    | .cons k (.dict d) .nil => newScan [] k d
    | .cons _ (.leaf _) .nil => .error .attributeError
    | _ => .error .valueError

end Tavi
