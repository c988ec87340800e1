import Verif.Props.Entry

/-!
# Writing entries to files and reading them back (C43)

`Spec.view` says what is found at a path of a tree: the data, if it is a dataset, and the attributes.  Two trees are the
same when their views agree at every path; this does not depend on the order of the members, and a missing `attrs` dict
counts as an empty one.
-/

namespace Tavi

namespace Spec

/-- The data of a node (none for a group). -/
def dataOf (d : Dict) : Option Leaf :=
  match d.get? "dataset".toList with
  | some (.leaf v) => some v
  | _ => none

/-- A value of a dict of attributes. -/
def attrIn (m : Dict) (x : Str) : Option Leaf :=
  match m.get? x with
  | some (.leaf v) => some v
  | _ => none

/-- The attributes of a node. -/
def attrOf (d : Dict) (x : Str) : Option Leaf :=
  match d.get? "attrs".toList with
  | some (.dict m) => attrIn m x
  | _ => none

/-- What is at a path of a tree. -/
def view : Dict → List Str → Option (Option Leaf × (Str → Option Leaf))
  | d, [] => some (dataOf d, attrOf d)
  | d, k :: p =>
    if k = "attrs".toList ∨ k = "dataset".toList then none
    else match d.get? k with
      | some (.dict e) => view e p
      | _ => none

/-- A dict of attributes: every key once, no nested dicts. -/
inductive AttrDict : Dict → Prop
  | nil : AttrDict .nil
  | cons {k v rest} : rest.get? k = none → AttrDict rest → AttrDict (.cons k (.leaf v) rest)

/-- The declared type of a dataset. -/
def typeOf (m : Dict) : Option Str :=
  match m.get? "type".toList with
  | some (.leaf (.str t)) => some t
  | _ => none

/-- Data that agrees with its declared type. Arrays of strings are not included, see `C43_strings_differ`. -/
def Fits (ty : Option Str) : Leaf → Prop
  | .str _ => ty ≠ some "NX_FLOAT".toList ∧ ty ≠ some "NX_INT".toList
  | .strs _ => False
  | .num x => ty ≠ some "NX_CHAR".toList ∧ (ty = some "NX_INT".toList → ∃ n : ℤ, x = n)
  | .arr l => ty ≠ some "NX_CHAR".toList ∧ (ty = some "NX_INT".toList → ∀ x ∈ l, ∃ n : ℤ, x = some (n : ℝ))

/-- A dataset with or without attributes, in either order. -/
inductive Data : Dict → Prop
  | bare {v} : Fits none v → Data (.cons "dataset".toList (.leaf v) .nil)
  | dataFirst {v a} : AttrDict a → Fits (typeOf a) v →
      Data (.cons "dataset".toList (.leaf v) (.cons "attrs".toList (.dict a) .nil))
  | attrsFirst {v a} : AttrDict a → Fits (typeOf a) v →
      Data (.cons "attrs".toList (.dict a) (.cons "dataset".toList (.leaf v) .nil))

/-- A well-formed tree of groups and datasets. -/
inductive Entry : Dict → Prop
  | nil : Entry .nil
  | attrs {a rest} : AttrDict a → rest.get? "attrs".toList = none → Entry rest →
      Entry (.cons "attrs".toList (.dict a) rest)
  | data {k e rest} : Plain k → Data e → rest.get? k = none → Entry rest → Entry (.cons k (.dict e) rest)
  | group {k e rest} : Plain k → Entry e → rest.get? k = none → Entry rest → Entry (.cons k (.dict e) rest)

end Spec

open Spec

/-- What is at a path of a file, as it is read. -/
def H5.view : H5 → List Str → Option (Option Leaf × (Str → Option Leaf))
  | .node v a _, [] => some (v.map readLeaf, fun x => lookupKey x a)
  | .node (some _) _ _, _ :: _ => none
  | .node none _ ch, k :: p =>
    if k = "attrs".toList ∨ k = "dataset".toList then none
    else match ch.get? k with
      | some n => n.view p
      | none => none

theorem attrIn_attrsDict (a : List (Str × Leaf)) (x : Str) : attrIn (attrsDict a) x = lookupKey x a := by
  induction a with
  | nil => rfl
  | cons kv a ih =>
    obtain ⟨k, v⟩ := kv
    rw [attrsDict, lookupKey, attrIn, Dict.get?]
    by_cases h : k = x
    · rw [if_pos h, if_pos h]
    · rw [if_neg h, if_neg h, ← ih]; rfl

theorem get?_readMembers (ch : H5s) (k : Str) :
    (readMembers ch).get? k = (ch.get? k).map fun n => .dict (readNode n) := by
  induction ch using H5s.rec (motive_1 := fun _ => True) with
  | node => trivial
  | nil => rfl
  | cons k' n rest _ ih =>
    rw [readMembers, Dict.get?, H5s.get?]
    by_cases h : k' = k
    · rw [if_pos h, if_pos h]; rfl
    · rw [if_neg h, if_neg h, ih]

theorem kAttrs_ne_kDataset : kAttrs ≠ kDataset := by decide

/-- Reading a node gives a tree with the same content. -/
theorem view_readNode (t : H5) (p : List Str) : view (readNode t) p = t.view p := by
  induction p generalizing t with
  | nil =>
    rw [view]
    cases t with
    | node v a ch =>
      cases v with
      | none =>
        have h1 : dataOf (readNode (.node none a ch)) = none := by
          rw [dataOf, readNode, Dict.get?, if_neg kAttrs_ne_kDataset, get?_readMembers]
          cases ch.get? "dataset".toList <;> rfl
        have h2 : attrOf (readNode (.node none a ch)) = fun x => lookupKey x a := by
          funext x
          rw [attrOf, readNode, Dict.get?, if_pos rfl]
          exact attrIn_attrsDict a x
        rw [h1, h2]; rfl
      | some v =>
        cases a with
        | nil => rfl
        | cons kv a =>
          have h1 : dataOf (readNode (.node (some v) (kv :: a) ch)) = some (readLeaf v) := rfl
          have h2 : attrOf (readNode (.node (some v) (kv :: a) ch)) = fun x => lookupKey x (kv :: a) := by
            funext x
            rw [attrOf, readNode, Dict.get?, if_pos rfl]
            · exact attrIn_attrsDict (kv :: a) x
            · simp
          rw [h1, h2]; rfl
  | cons k p ih =>
    rw [view]
    by_cases hk : k = "attrs".toList ∨ k = "dataset".toList
    · rw [if_pos hk]
      cases t with
      | node v a ch => cases v <;> simp only [H5.view, if_pos hk]
    · rw [if_neg hk]
      push Not at hk
      cases t with
      | node v a ch =>
        cases v with
        | none =>
          rw [readNode, Dict.get?, if_neg (fun h => hk.1 h.symm), get?_readMembers, H5.view,
            if_neg (by push Not; exact hk)]
          cases ch.get? k with
          | none => rfl
          | some n => exact ih n
        | some v =>
          have : (readNode (.node (some v) a ch)).get? k = none := by
            cases a with
            | nil => rw [readNode, Dict.get?, if_neg (fun h => hk.2 h.symm)]; rfl
            | cons kv a =>
              rw [readNode, Dict.get?, if_neg (fun h => hk.1 h.symm), Dict.get?, if_neg (fun h => hk.2 h.symm)]
              · rfl
              · simp
          rw [this]; rfl

/-! ## Elementary facts about members and attributes -/

theorem H5s.get?_set (ch : H5s) (q k : Str) (n : H5) :
    (ch.set q n).get? k = if k = q then some n else ch.get? k := by
  induction ch using H5s.rec (motive_1 := fun _ => True) with
  | node => trivial
  | nil =>
    show (if q = k then some n else none) = if k = q then some n else none
    simp only [eq_comm]
  | cons k' n' rest _ ih =>
    rw [H5s.set]
    by_cases h' : k' = q
    · rw [if_pos h', H5s.get?, H5s.get?, h']
      by_cases h : k = q
      · rw [if_pos h, if_pos h.symm]
      · rw [if_neg h, if_neg (fun h' => h h'.symm), if_neg (fun h' => h h'.symm)]
    · rw [if_neg h', H5s.get?, H5s.get?, ih]
      by_cases h : k' = k
      · rw [if_pos h, if_pos h, if_neg (by rintro rfl; exact h' h)]
      · rw [if_neg h, if_neg h]

theorem H5s.get?_erase (ch : H5s) (q k : Str) : (ch.erase q).get? k = if k = q then none else ch.get? k := by
  induction ch using H5s.rec (motive_1 := fun _ => True) with
  | node => trivial
  | nil => simp [H5s.erase, H5s.get?]
  | cons k' v rest _ ih =>
    rw [H5s.erase]
    by_cases hk : k' = q
    · rw [if_pos hk, ih, H5s.get?]
      by_cases h : k = q
      · rw [if_pos h, if_pos h]
      · rw [if_neg h, if_neg h, if_neg (by rintro rfl; exact h hk)]
    · rw [if_neg hk, H5s.get?, H5s.get?, ih]
      by_cases h : k' = k
      · rw [if_pos h, if_pos h, if_neg (by rintro rfl; exact hk h)]
      · rw [if_neg h, if_neg h]

theorem lookupKey_setAttr (a : List (Str × Leaf)) (k x : Str) (v : Leaf) :
    lookupKey x (setAttr a k v) = if x = k then some v else lookupKey x a := by
  induction a with
  | nil =>
    show (if k = x then some v else none) = if x = k then some v else none
    simp only [eq_comm]
  | cons kv a ih =>
    obtain ⟨k', v'⟩ := kv
    rw [setAttr]
    by_cases h' : k' = k
    · rw [if_pos h', lookupKey, lookupKey, h']
      by_cases h : x = k
      · rw [if_pos h, if_pos h.symm]
      · rw [if_neg h, if_neg (fun h' => h h'.symm), if_neg (fun h' => h h'.symm)]
    · rw [if_neg h', lookupKey, lookupKey, ih]
      by_cases h : k' = x
      · rw [if_pos h, if_pos h, if_neg (by rintro rfl; exact h' h)]
      · rw [if_neg h, if_neg h]

/-- Writing attributes: the new ones win, the others stay. -/
theorem writeAttrs_ok {m : Dict} (hm : AttrDict m) (v : Option Leaf) (a : List (Str × Leaf)) (ch : H5s) :
    ∃ a', writeAttrs m (.node v a ch) = .ok (.node v a' ch) ∧
      ∀ x, lookupKey x a' = (attrIn m x).or (lookupKey x a) := by
  induction hm generalizing a with
  | nil => exact ⟨a, rfl, fun x => rfl⟩
  | @cons k u rest hk _ ih =>
    obtain ⟨a', h1, h2⟩ := ih (setAttr a k u)
    refine ⟨a', h1, fun x => ?_⟩
    rw [h2, lookupKey_setAttr, attrIn, attrIn, Dict.get?]
    by_cases h : k = x
    · subst h
      rw [if_pos rfl, if_pos rfl, hk]
      rfl
    · rw [if_neg h, if_neg (fun h' => h h'.symm)]

theorem truncR_int (n : ℤ) : truncR n = n := by
  unfold truncR
  split <;> simp

theorem asInt_int : ∀ {l : List (Option ℝ)}, (∀ x ∈ l, ∃ n : ℤ, x = some (n : ℝ)) → asInt (.arr l) = .ok (.arr l) := by
  intro l h
  obtain ⟨ns, rfl⟩ : ∃ ns : List ℤ, l = (ns.map fun n : ℤ => (n : ℝ)).map some := by
    induction l with
    | nil => exact ⟨[], rfl⟩
    | cons x l ih =>
      obtain ⟨n, rfl⟩ := h x List.mem_cons_self
      obtain ⟨ns, rfl⟩ := ih fun y hy => h y (List.mem_cons_of_mem _ hy)
      exact ⟨n :: ns, rfl⟩
  have e : ∀ xs : List ℝ, (xs.map some).mapM (fun x => need x PyErr.nonFinite) = .ok xs := by
    intro xs
    induction xs with
    | nil => rfl
    | cons q qs ih => rw [List.map_cons, List.mapM_cons, ih]; rfl
  rw [asInt, e]
  show Except.ok (Leaf.fin ((ns.map fun n : ℤ => (n : ℝ)).map truncR)) = _
  rw [List.map_map]
  refine congrArg (fun l => Except.ok (Leaf.fin l)) (List.map_congr_left fun n _ => ?_)
  exact truncR_int n

theorem formatAs_fits {m : Dict} {v : Leaf} (h : Fits (typeOf m) v) :
    formatAs (m.get? "type".toList) v = .ok v ∧ readLeaf v = v := by
  have hty : ∀ t, m.get? "type".toList = some (.leaf (.str t)) → typeOf m = some t := by
    intro t ht; rw [typeOf, ht]
  have hst : (∀ l, v ≠ .strs l) → storable v = .ok v := by
    intro hv
    cases v with
    | strs l => exact absurd rfl (hv l)
    | _ => rfl
  have hns : ∀ l, v ≠ .strs l := by rintro l rfl; exact h
  have hr : readLeaf v = v := by
    cases v with
    | strs l => exact absurd rfl (hns l)
    | _ => rfl
  refine ⟨?_, hr⟩
  unfold formatAs
  split
  · rename_i t ht
    rw [hty t ht] at h
    split
    · rename_i h1
      subst h1
      cases v with
      | str s => rfl
      | strs l => exact absurd rfl (hns l)
      | num x => exact absurd rfl h.1
      | arr l => exact absurd rfl h.1
    split
    · rename_i h2
      subst h2
      cases v with
      | str s => exact absurd rfl h.1
      | strs l => exact absurd rfl (hns l)
      | num x => rfl
      | arr l => rfl
    split
    · rename_i h3
      subst h3
      cases v with
      | str s => exact absurd rfl h.2
      | strs l => exact absurd rfl (hns l)
      | num x =>
        obtain ⟨n, rfl⟩ := h.2 rfl
        rw [asInt, truncR_int]
      | arr l =>
        exact asInt_int (h.2 rfl)
    · exact hst hns
  · exact hst hns

theorem storable_fits {ty : Option Str} {v : Leaf} (h : Fits ty v) : storable v = .ok v ∧ readLeaf v = v := by
  cases v with
  | strs l => exact absurd h id
  | _ => exact ⟨rfl, rfl⟩

/-- Writing a dataset stores its data and attributes. -/
theorem writeData_ok {d : Dict} (hd : Data d) :
    ∃ dv n, formatDataset d = .ok dv ∧ writeDict d (.node (some dv) [] .nil) = .ok n ∧ n.isDataset = true ∧
      ∀ p, n.view p = view d p := by
  have nodeview : ∀ (n : H5) (v : Leaf) (a : List (Str × Leaf)) (ch : H5s), n = .node (some v) a ch →
      (∀ k, Plain k → d.get? k = none) → dataOf d = some (readLeaf v) → (attrOf d = fun x => lookupKey x a) →
      ∀ p, n.view p = view d p := by
    rintro n v a ch rfl h1 h2 h3 p
    cases p with
    | nil => rw [view, h2, h3]; rfl
    | cons k p =>
      rw [view]
      by_cases hk : k = "attrs".toList ∨ k = "dataset".toList
      · rw [if_pos hk]; rfl
      · rw [if_neg hk, h1 k (not_or.1 hk)]; rfl
  have fmt : ∀ {a : Dict} {v : Leaf}, Fits (typeOf a) v → d.get? kDataset = some (.leaf v) →
      d.get? kAttrs = some (.dict a) → formatDataset d = .ok v := by
    intro a v hf h1 h2
    rw [formatDataset, h1, h2]
    cases a with
    | nil => exact (storable_fits hf).1
    | cons k u rest => exact (formatAs_fits hf).1
  cases hd with
  | @bare v hf =>
    refine ⟨v, .node (some v) [] .nil, (storable_fits hf).1, rfl, rfl, nodeview _ v [] .nil rfl ?_ ?_ ?_⟩
    · intro k hk
      rw [Dict.get?, if_neg (fun h => hk.2 h.symm)]; rfl
    · rw [(storable_fits hf).2]; rfl
    · rfl
  | @dataFirst v a ha hf =>
    obtain ⟨a', h1, h2⟩ := writeAttrs_ok ha (some v) [] .nil
    refine ⟨v, .node (some v) a' .nil, fmt hf rfl rfl, ?_, rfl, nodeview _ v a' .nil rfl ?_ ?_ ?_⟩
    · rw [writeDict, writeItem, if_neg (show kDataset ≠ kAttrs by decide)]
      show (writeDict _ _) = _
      rw [writeDict, writeItem, if_pos rfl, h1]; rfl
    · intro k hk
      rw [Dict.get?, if_neg (fun h => hk.2 h.symm), Dict.get?, if_neg (fun h => hk.1 h.symm)]; rfl
    · rw [(formatAs_fits hf).2]; rfl
    · funext x
      rw [h2 x]
      show attrIn a x = _
      cases attrIn a x <;> rfl
  | @attrsFirst v a ha hf =>
    obtain ⟨a', h1, h2⟩ := writeAttrs_ok ha (some v) [] .nil
    refine ⟨v, .node (some v) a' .nil, fmt hf rfl rfl, ?_, rfl, nodeview _ v a' .nil rfl ?_ ?_ ?_⟩
    · rw [writeDict, writeItem, if_pos rfl, h1]
      show (writeDict _ _) = _
      rw [writeDict, writeItem, if_neg (show kDataset ≠ kAttrs by decide)]; rfl
    · intro k hk
      rw [Dict.get?, if_neg (fun h => hk.1 h.symm), Dict.get?, if_neg (fun h => hk.2 h.symm)]; rfl
    · rw [(formatAs_fits hf).2]; rfl
    · funext x
      rw [h2 x]
      show attrIn a x = _
      cases attrIn a x <;> rfl

theorem Spec.Data.has {d : Dict} (h : Data d) : d.has kDataset = true := by
  cases h <;> rfl

theorem Spec.Entry.not_has {d : Dict} (h : Entry d) : d.get? "dataset".toList = none := by
  induction h with
  | nil => rfl
  | attrs _ _ _ ih => rw [Dict.get?, if_neg (by decide), ih]
  | data hk _ _ _ ih => rw [Dict.get?, if_neg hk.2, ih]
  | group hk _ _ _ _ ih => rw [Dict.get?, if_neg hk.2, ih]

theorem Spec.Entry.sub {d : Dict} (h : Entry d) {k : Str} (hk : Plain k) {e : Dict} (he : d.get? k = some (.dict e)) :
    Data e ∨ Entry e := by
  induction h with
  | nil => simp [Dict.get?] at he
  | attrs _ _ _ ih => rw [Dict.get?, if_neg (fun h => hk.1 h.symm)] at he; exact ih he
  | @data k' _ _ _ hd _ _ ih =>
    rw [Dict.get?] at he
    by_cases h : k' = k
    · rw [if_pos h] at he
      injection Option.some.inj he with he
      subst he
      exact .inl hd
    · rw [if_neg h] at he; exact ih he
  | @group k' _ _ _ hd _ _ _ ih =>
    rw [Dict.get?] at he
    by_cases h : k' = k
    · rw [if_pos h] at he
      injection Option.some.inj he with he
      subst he
      exact .inr hd
    · rw [if_neg h] at he; exact ih he

/-! ## Writing a tree over an existing group -/

/-- The attributes seen at the root of a view. -/
def rootAttr (old : List Str → Option (Option Leaf × (Str → Option Leaf))) (x : Str) : Option Leaf :=
  (old []).bind fun c => c.2 x

/-- The content after writing the tree `d` over the content `old`: datasets are replaced, attributes of groups are
overlaid, everything else stays. -/
def overlay : Dict → (List Str → Option (Option Leaf × (Str → Option Leaf))) → List Str →
    Option (Option Leaf × (Str → Option Leaf))
  | d, old, [] => some (none, fun x => (attrOf d x).or (rootAttr old x))
  | d, old, k :: p =>
    if k = "attrs".toList ∨ k = "dataset".toList then none
    else match d.get? k with
      | some (.dict e) => if e.has kDataset then view e p else overlay e (fun q => old (k :: q)) p
      | _ => old (k :: p)

theorem overlay_congr {d : Dict} {o1 o2 : List Str → Option (Option Leaf × (Str → Option Leaf))}
    (h0 : ∀ x, rootAttr o1 x = rootAttr o2 x) (h1 : ∀ k p, Plain k → o1 (k :: p) = o2 (k :: p)) (p : List Str) :
    overlay d o1 p = overlay d o2 p := by
  induction p generalizing d o1 o2 with
  | nil => rw [overlay, overlay]; simp only [h0]
  | cons k p ih =>
    rw [overlay, overlay]
    by_cases hk : k = "attrs".toList ∨ k = "dataset".toList
    · rw [if_pos hk, if_pos hk]
    · rw [if_neg hk, if_neg hk]
      have hk' : Plain k := not_or.1 hk
      cases d.get? k with
      | none => exact h1 k p hk'
      | some v =>
        cases v with
        | leaf a => exact h1 k p hk'
        | dict e =>
          dsimp only
          split
          · rfl
          · exact ih (fun x => by rw [rootAttr, rootAttr, h1 k [] hk']) (fun k' p' _ => h1 k (k' :: p') hk')

/-- No dataset where the tree has a group. -/
def NoConflict (d : Dict) (old : List Str → Option (Option Leaf × (Str → Option Leaf))) : Prop :=
  ∀ p f, view d p = some (none, f) → ∀ v g, old p ≠ some (some v, g)

theorem H5.view_child {a : List (Str × Leaf)} {ch : H5s} {k : Str} (hk : Plain k) (p : List Str) :
    (H5.node none a ch).view (k :: p) = (ch.get? k).bind fun n => n.view p := by
  rw [H5.view, if_neg (not_or.2 hk)]
  cases ch.get? k <;> rfl

theorem H5.view_special {a : List (Str × Leaf)} {ch : H5s} {k : Str} (hk : ¬ Plain k) (p : List Str) :
    (H5.node none a ch).view (k :: p) = none := by
  rw [H5.view, if_pos (by by_contra h; exact hk (not_or.1 h))]

theorem view_child {d : Dict} {k : Str} (hk : Plain k) {e : Dict} (he : d.get? k = some (.dict e)) (p : List Str) :
    view d (k :: p) = view e p := by
  rw [view, if_neg (not_or.2 hk), he]

/-- After one member has been written, writing the rest completes the overlay. -/
theorem writeDict_member {k : Str} {e rest : Dict} (hk : Plain k) (hr : rest.get? k = none)
    (ih : ∀ (a : List (Str × Leaf)) (ch : H5s), NoConflict rest (H5.node none a ch).view →
      ∃ a' ch', writeDict rest (.node none a ch) = .ok (.node none a' ch') ∧
        ∀ p, (H5.node none a' ch').view p = overlay rest (H5.node none a ch).view p)
    {a : List (Str × Leaf)} {ch ch1 : H5s} {n : H5}
    (hc : NoConflict (.cons k (.dict e) rest) (H5.node none a ch).view)
    (hw : writeItem k (.dict e) (.node none a ch) = .ok (.node none a ch1))
    (h1 : ∀ k', ch1.get? k' = if k' = k then some n else ch.get? k')
    (hn : ∀ q, n.view q = if e.has kDataset then view e q
      else overlay e (fun q' => (H5.node none a ch).view (k :: q')) q) :
    ∃ a' ch', writeDict (.cons k (.dict e) rest) (.node none a ch) = .ok (.node none a' ch') ∧
      ∀ p, (H5.node none a' ch').view p = overlay (.cons k (.dict e) rest) (H5.node none a ch).view p := by
  have same : ∀ k', Plain k' → k' ≠ k → ∀ p, (H5.node none a ch1).view (k' :: p) = (H5.node none a ch).view (k' :: p) := by
    intro k' hk' hne p
    rw [H5.view_child hk', H5.view_child hk', h1, if_neg hne]
  obtain ⟨a', ch', h3, h4⟩ := ih a ch1 (by
    intro p f hp v g hv
    cases p with
    | nil => rw [H5.view] at hv; simp at hv
    | cons k' p =>
      by_cases hk' : Plain k'
      · have hne : k' ≠ k := by
          rintro rfl
          rw [view, if_neg (not_or.2 hk'), hr] at hp
          simp at hp
        refine hc (k' :: p) f ?_ v g (by rw [← same k' hk' hne]; exact hv)
        rw [view, if_neg (not_or.2 hk')] at hp ⊢
        rw [Dict.get?, if_neg (fun h => hne h.symm)]
        exact hp
      · rw [H5.view_special hk'] at hv; simp at hv)
  refine ⟨a', ch', ?_, fun p => ?_⟩
  · rw [writeDict, hw]; exact h3
  · rw [h4]
    cases p with
    | nil =>
      have e1 : attrOf (.cons k (.dict e) rest) = attrOf rest := by
        funext x
        rw [attrOf, attrOf, Dict.get?, if_neg hk.1]
      rw [overlay, overlay, e1]; rfl
    | cons k' p =>
      rw [overlay, overlay]
      by_cases hk' : Plain k'
      · rw [if_neg (not_or.2 hk'), if_neg (not_or.2 hk'), Dict.get?]
        by_cases hkk : k = k'
        · subst hkk
          rw [if_pos rfl, hr]
          dsimp only
          rw [H5.view_child hk, h1, if_pos rfl]
          exact hn p
        · rw [if_neg hkk]
          have hne : k' ≠ k := fun h => hkk h.symm
          cases rest.get? k' with
          | none => exact same k' hk' hne p
          | some v =>
            cases v with
            | leaf u => exact same k' hk' hne p
            | dict e' =>
              dsimp only
              split
              · rfl
              · refine overlay_congr (fun x => ?_) (fun k'' p' _ => same k' hk' hne _) p
                rw [rootAttr, rootAttr, same k' hk' hne]
      · rw [if_pos (by by_contra h; exact hk' (not_or.1 h)), if_pos (by by_contra h; exact hk' (not_or.1 h))]

/-- **What writing does**: writing a well-formed tree into a group succeeds unless a dataset is in the way of a group, and
overlays the content. -/
theorem writeDict_overlay {d : Dict} (hd : Entry d) (a : List (Str × Leaf)) (ch : H5s)
    (hc : NoConflict d (H5.node none a ch).view) :
    ∃ a' ch', writeDict d (.node none a ch) = .ok (.node none a' ch') ∧
      ∀ p, (H5.node none a' ch').view p = overlay d (H5.node none a ch).view p := by
  induction hd generalizing a ch with
  | nil =>
    refine ⟨a, ch, rfl, fun p => ?_⟩
    cases p with
    | nil => rw [overlay]; rfl
    | cons k p =>
      rw [overlay]
      by_cases hk : Plain k
      · rw [if_neg (not_or.2 hk)]; rfl
      · rw [H5.view_special hk, if_pos (by by_contra h; exact hk (not_or.1 h))]
  | @attrs m rest hm hr _ ih =>
    obtain ⟨a1, h1, h2⟩ := writeAttrs_ok hm none a ch
    have hroot : ∀ x, rootAttr (H5.node none a1 ch).view x = (attrIn m x).or (lookupKey x a) := h2
    obtain ⟨a', ch', h3, h4⟩ := ih a1 ch (by
      intro p f hp v g hv
      cases p with
      | nil => rw [H5.view] at hv; simp at hv
      | cons k p =>
        by_cases hk : Plain k
        · refine hc (k :: p) f ?_ v g (by rw [H5.view_child hk] at hv ⊢; exact hv)
          rw [view, if_neg (not_or.2 hk)] at hp ⊢
          rw [Dict.get?, if_neg (fun h => hk.1 h.symm)]
          exact hp
        · rw [H5.view_special hk] at hv; simp at hv)
    refine ⟨a', ch', ?_, fun p => ?_⟩
    · rw [writeDict, writeItem, if_pos rfl, h1]; exact h3
    · rw [h4]
      cases p with
      | nil =>
        rw [overlay, overlay]
        congr 2
        funext x
        have e1 : attrOf rest x = none := by rw [attrOf, hr]
        have e2 : attrOf (.cons "attrs".toList (.dict m) rest) x = attrIn m x := by
          rw [attrOf, Dict.get?, if_pos rfl]
        rw [e1, e2, hroot]; rfl
      | cons k p =>
        rw [overlay, overlay]
        by_cases hk : Plain k
        · rw [if_neg (not_or.2 hk), if_neg (not_or.2 hk), Dict.get?, if_neg (fun h => hk.1 h.symm)]
          cases rest.get? k with
          | none => rw [H5.view_child hk, H5.view_child hk]
          | some v =>
            cases v with
            | leaf u => dsimp only; rw [H5.view_child hk, H5.view_child hk]
            | dict e =>
              dsimp only
              split
              · rfl
              · refine overlay_congr (fun x => ?_) (fun k' p' _ => ?_) p
                · rw [rootAttr, rootAttr, H5.view_child hk, H5.view_child hk]
                · rw [H5.view_child hk, H5.view_child hk]
        · rw [if_pos (by by_contra h; exact hk (not_or.1 h)), if_pos (by by_contra h; exact hk (not_or.1 h))]
  | @data k e rest hk he hr _ ih =>
    obtain ⟨dv, n, h1, h2, _, h4⟩ := writeData_ok he
    refine writeDict_member hk hr ih hc (n := n) (ch1 := (ch.erase k).set k n) ?_ (fun k' => ?_) (fun q => ?_)
    · rw [writeItem, if_neg hk.1, if_pos he.has, h1]
      show (writeDict e _ >>= fun ds => H5.recreate _ k ds) = _
      rw [h2]; rfl
    · rw [H5s.get?_set, H5s.get?_erase]
      by_cases h : k' = k
      · rw [if_pos h, if_pos h]
      · rw [if_neg h, if_neg h, if_neg h]
    · rw [if_pos he.has, h4]
  | @group k e rest hk he hr _ ihe ih =>
    have hno : e.has kDataset = false := by rw [Dict.has, he.not_has]; rfl
    -- the group to write into
    obtain ⟨ag, cg, hreq, hg0, hg1⟩ : ∃ ag cg, (H5.node none a ch).require k = .ok (.node none ag cg) ∧
        (∀ x, lookupKey x ag = rootAttr (fun q' => (H5.node none a ch).view (k :: q')) x) ∧
        (∀ k' p, (H5.node none ag cg).view (k' :: p) = (H5.node none a ch).view (k :: k' :: p)) := by
      rw [H5.require]
      simp only [rootAttr, H5.view_child hk]
      cases hg : ch.get? k with
      | none =>
        refine ⟨[], .nil, rfl, fun x => rfl, fun k' p => ?_⟩
        rw [H5.view]; split <;> rfl
      | some n =>
        cases n with
        | node v ag cg =>
          cases v with
          | some v =>
            exfalso
            refine hc [k] (attrOf e) ?_ (readLeaf v) (fun x => lookupKey x ag) ?_
            · rw [view, if_neg (not_or.2 hk), Dict.get?, if_pos rfl]
              dsimp only
              rw [view, dataOf, he.not_has]
            · rw [H5.view_child hk, hg]; rfl
          | none => exact ⟨ag, cg, rfl, fun x => rfl, fun k' p => rfl⟩
    obtain ⟨a2, c2, h2, h3⟩ := ihe ag cg (by
      intro p f hp v g hv
      cases p with
      | nil => rw [H5.view] at hv; simp at hv
      | cons k' p =>
        rw [hg1] at hv
        refine hc (k :: k' :: p) f ?_ v g hv
        rw [view, if_neg (not_or.2 hk), Dict.get?, if_pos rfl]
        exact hp)
    refine writeDict_member hk hr ih hc (n := .node none a2 c2) (ch1 := ch.set k (.node none a2 c2)) ?_ (fun k' => ?_)
      (fun q => ?_)
    · rw [writeItem, if_neg hk.1, if_neg (by rw [hno]; simp), hreq]
      show (writeDict e _ >>= fun ds => H5.put _ k ds) = _
      rw [h2]; rfl
    · rw [H5s.get?_set]
    · rw [if_neg (by rw [hno]; simp), h3]
      exact overlay_congr (o1 := (H5.node none ag cg).view) (fun x => hg0 x) (fun k' p _ => hg1 k' p) q

/-! ## Consequences -/

theorem overlay_empty {d : Dict} (hd : Entry d) (old : List Str → Option (Option Leaf × (Str → Option Leaf)))
    (h0 : ∀ x, rootAttr old x = none) (h1 : ∀ k p, Plain k → old (k :: p) = none) (p : List Str) :
    overlay d old p = view d p := by
  induction p generalizing d old with
  | nil =>
    rw [overlay, view, dataOf, hd.not_has]
    congr 2
    funext x
    rw [h0]
    cases attrOf d x <;> rfl
  | cons k p ih =>
    rw [overlay, view]
    by_cases hk : Plain k
    · rw [if_neg (not_or.2 hk), if_neg (not_or.2 hk)]
      cases hg : d.get? k with
      | none => exact h1 k p hk
      | some v =>
        cases v with
        | leaf a => exact h1 k p hk
        | dict e =>
          dsimp only
          split
          · rfl
          · rename_i hno
            refine ih ?_ _ (fun x => by rw [rootAttr, h1 k [] hk]; rfl) (fun k' p' _ => h1 k (k' :: p') hk)
            exact (hd.sub hk hg).resolve_left fun h => hno h.has
    · rw [if_pos (by by_contra h; exact hk (not_or.1 h)), if_pos (by by_contra h; exact hk (not_or.1 h))]

/-- Writing a tree over content that already equals it changes nothing. -/
theorem overlay_same {d : Dict} (hd : Entry d) (old : List Str → Option (Option Leaf × (Str → Option Leaf)))
    (h : ∀ p, old p = view d p) (p : List Str) : overlay d old p = view d p := by
  induction p generalizing d old with
  | nil =>
    rw [overlay, view, dataOf, hd.not_has]
    congr 2
    funext x
    rw [rootAttr, h [], view]
    show (attrOf d x).or (attrOf d x) = attrOf d x
    cases attrOf d x <;> rfl
  | cons k p ih =>
    rw [overlay, view]
    by_cases hk : Plain k
    · rw [if_neg (not_or.2 hk), if_neg (not_or.2 hk)]
      cases hg : d.get? k with
      | none => dsimp only; rw [h, view, if_neg (not_or.2 hk), hg]
      | some v =>
        cases v with
        | leaf a => dsimp only; rw [h, view, if_neg (not_or.2 hk), hg]
        | dict e =>
          dsimp only
          split
          · rfl
          · rename_i hno
            exact ih ((hd.sub hk hg).resolve_left fun h => hno h.has) _ (fun q => by rw [h, view_child hk hg])
    · rw [if_pos (by by_contra h; exact hk (not_or.1 h)), if_pos (by by_contra h; exact hk (not_or.1 h))]

/-- The entry `d` is in the file under `name`, as reading the whole file shows. -/
def Spec.Stores (root : H5) (name : Str) (d : Dict) : Prop :=
  ∃ r, fromNexus root none = .ok r ∧ ∀ p, view r (name :: p) = view d p

theorem stores_iff {a : List (Str × Leaf)} {ch : H5s} {name : Str} (hn : Plain name) (d : Dict) :
    Spec.Stores (.node none a ch) name d ↔ ∃ n, ch.get? name = some n ∧ ∀ p, n.view p = view d p := by
  constructor
  · rintro ⟨r, hr, h⟩
    obtain rfl := Except.ok.inj hr
    have key : ∀ p, ((ch.get? name).bind fun n => n.view p) = view d p := by
      intro p
      rw [← h p, view, if_neg (not_or.2 hn)]
      show _ = match (readMembers ch).get? name with | some (.dict e) => view e p | _ => none
      rw [get?_readMembers]
      cases ch.get? name with
      | none => rfl
      | some n => exact (view_readNode n p).symm
    cases hg : ch.get? name with
    | none => have := key []; rw [hg, view] at this; exact absurd this (by simp)
    | some n => exact ⟨n, rfl, fun p => by have := key p; rwa [hg] at this⟩
  · rintro ⟨n, hn', h⟩
    refine ⟨readMembers ch, rfl, fun p => ?_⟩
    rw [view, if_neg (not_or.2 hn), get?_readMembers, hn']
    exact (view_readNode n p).trans (h p)

/-- **C43**: writing a well-formed entry under a new name succeeds, and reading the file gives the entry back: the same
groups, datasets and attributes at every path. -/
theorem C43_round_trip (d : Dict) (hd : Entry d) (name : Str) (hn : Plain name) (a : List (Str × Leaf)) (ch : H5s)
    (hnew : ch.get? name = none) :
    ∃ root', toNexus d name (.node none a ch) = .ok root' ∧ Spec.Stores root' name d := by
  obtain ⟨a', ch', h1, h2⟩ := writeDict_overlay hd [] .nil (by
    intro p f _ v g hv
    cases p with
    | nil => rw [H5.view] at hv; simp at hv
    | cons k p => rw [H5.view] at hv; split at hv <;> simp_all [H5s.get?])
  refine ⟨.node none a (ch.set name (.node none a' ch')), ?_, ?_⟩
  · have : (H5.node none a ch).require name = .ok H5.empty := by rw [H5.require, hnew]
    rw [toNexus, this]
    show (writeDict d (.node none [] .nil) >>= fun g' => H5.put _ name g') = _
    rw [h1]; rfl
  · rw [stores_iff hn]
    refine ⟨.node none a' ch', by rw [H5s.get?_set, if_pos rfl], fun p => ?_⟩
    rw [h2]
    refine overlay_empty hd _ (fun x => rfl) (fun k p hk => ?_) p
    rw [H5.view_child hk]; rfl

/-- Being stored at all means that the file can be written to again. -/
theorem toNexus_shape {d : Dict} {name : Str} {a : List (Str × Leaf)} {ch : H5s} {root' : H5}
    (h : toNexus d name (.node none a ch) = .ok root') : ∃ n, root' = .node none a (ch.set name n) := by
  rw [toNexus] at h
  cases hr : (H5.node none a ch).require name with
  | error e => rw [hr] at h; exact absurd h (by simp [bind, Except.bind])
  | ok g =>
    rw [hr] at h
    have h' : (writeDict d g >>= fun g' => H5.put (.node none a ch) name g') = .ok root' := h
    cases hw : writeDict d g with
    | error e => rw [hw] at h'; exact absurd h' (by simp [bind, Except.bind])
    | ok g' =>
      rw [hw] at h'
      exact ⟨g', (Except.ok.inj h').symm⟩

/-- **C43**: writing anything under one name leaves what is read under every other name exactly as it was. -/
theorem C43_others_untouched (d : Dict) (name : Str) (a : List (Str × Leaf)) (ch : H5s) (root' : H5)
    (h : toNexus d name (.node none a ch) = .ok root') (r r' : Dict)
    (hr : fromNexus (.node none a ch) none = .ok r) (hr' : fromNexus root' none = .ok r')
    (k : Str) (hk : k ≠ name) : r'.get? k = r.get? k := by
  obtain ⟨n, rfl⟩ := toNexus_shape h
  obtain rfl := Except.ok.inj hr
  obtain rfl := Except.ok.inj hr'
  show (readMembers _).get? k = (readMembers _).get? k
  rw [get?_readMembers, get?_readMembers]
  show Option.map _ ((ch.set name n).get? k) = _
  rw [H5s.get?_set, if_neg hk]
  rfl

/-- **C43**: writing an entry over itself succeeds and changes nothing. -/
theorem C43_rewrite (d : Dict) (hd : Entry d) (name : Str) (hn : Plain name) (a : List (Str × Leaf)) (ch : H5s)
    (hs : Spec.Stores (.node none a ch) name d) :
    ∃ root', toNexus d name (.node none a ch) = .ok root' ∧ Spec.Stores root' name d := by
  obtain ⟨n, hg, hv⟩ := (stores_iff hn d).1 hs
  cases n with
  | node v an cn =>
    have hv0 := hv []
    rw [H5.view, view, dataOf, hd.not_has] at hv0
    cases v with
    | some v => simp at hv0
    | none =>
      obtain ⟨a', ch', h1, h2⟩ := writeDict_overlay hd an cn (by
        intro p f hp v g hv'
        rw [hv p, hp] at hv'
        simp at hv')
      refine ⟨.node none a (ch.set name (.node none a' ch')), ?_, ?_⟩
      · have : (H5.node none a ch).require name = .ok (.node none an cn) := by rw [H5.require, hg]; rfl
        rw [toNexus, this]
        show (writeDict d _ >>= fun g' => H5.put _ name g') = _
        rw [h1]; rfl
      · rw [stores_iff hn]
        exact ⟨.node none a' ch', by rw [H5s.get?_set, if_pos rfl], fun p => by
          rw [h2]; exact overlay_same hd _ hv p⟩

/-- A history of writes. -/
noncomputable def writeAll : List (Str × Dict) → H5 → Py H5
  | [], root => .ok root
  | (name, d) :: l, root => toNexus d name root >>= fun r => writeAll l r

/-- **C43**: after any history of writes to a new file in which every name always carries the same entry, every name that
was written reads back as its entry. -/
theorem C43_history (f : Str → Dict) (names : List Str) (hn : ∀ n ∈ names, Plain n) (hd : ∀ n ∈ names, Entry (f n)) :
    ∃ root, writeAll (names.map fun n => (n, f n)) H5.empty = .ok root ∧
      ∀ n ∈ names, Spec.Stores root n (f n) := by
  suffices H : ∀ (done : List Str) (a : List (Str × Leaf)) (ch : H5s), (∀ n ∈ done, Plain n) →
      (∀ n ∈ done, Spec.Stores (.node none a ch) n (f n)) → (∀ n, n ∉ done → ch.get? n = none) →
      ∃ root, writeAll (names.map fun n => (n, f n)) (.node none a ch) = .ok root ∧
        ∀ n, n ∈ done ∨ n ∈ names → Spec.Stores root n (f n) by
    obtain ⟨root, h1, h2⟩ := H [] [] .nil (by simp) (by simp) (fun n _ => rfl)
    exact ⟨root, h1, fun n h => h2 n (.inr h)⟩
  induction names with
  | nil => exact fun done a ch _ hs _ => ⟨_, rfl, fun n h => hs n (by simpa using h)⟩
  | cons m names ih =>
    intro done a ch hdone hs hnot
    have hm := hn m (by simp)
    have hdm := hd m (by simp)
    have ⟨root1, hw, hst⟩ : ∃ root', toNexus (f m) m (.node none a ch) = .ok root' ∧ Spec.Stores root' m (f m) := by
      by_cases hmd : m ∈ done
      · exact C43_rewrite (f m) hdm m hm a ch (hs m hmd)
      · exact C43_round_trip (f m) hdm m hm a ch (hnot m hmd)
    obtain ⟨g, rfl⟩ := toNexus_shape hw
    obtain ⟨root, h1, h2⟩ := ih (fun n h => hn n (by simp [h])) (fun n h => hd n (by simp [h])) (m :: done) a
      (ch.set m g)
      (by
        intro n h
        rcases List.mem_cons.1 h with rfl | h
        · exact hm
        · exact hdone n h)
      (by
        intro n h
        by_cases hnm : n = m
        · subst hnm; exact hst
        · have hn' := (List.mem_cons.1 h).resolve_left hnm
          have := (stores_iff (hdone n hn') (f n)).1 (hs n hn')
          rw [stores_iff (hdone n hn'), H5s.get?_set, if_neg hnm]
          exact this)
      (by
        intro n h
        rw [H5s.get?_set, if_neg (by rintro rfl; exact h (by simp)), hnot n (by intro h'; exact h (by simp [h']))])
    refine ⟨root, ?_, fun n h => h2 n ?_⟩
    · rw [List.map_cons, writeAll, hw]; exact h1
    · rcases h with h | h
      · exact .inl (by simp [h])
      · rcases List.mem_cons.1 h with rfl | h
        · exact .inl (by simp)
        · exact .inr h

/-- **C43** (partial): reading one entry by its scan number gives everything below the entry. Missing: the attributes of
the entry itself, see `C43_by_number_attrs`. -/
theorem C43_by_number_partial (d : Dict) (n : ℕ) (hn : Plain (scanName n)) (a : List (Str × Leaf)) (ch : H5s)
    (hd : Entry d) (hs : Spec.Stores (.node none a ch) (scanName n) d) :
    ∃ r, fromNexus (.node none a ch) (some n) = .ok r ∧
      ∀ k p, view r (scanName n :: k :: p) = view d (k :: p) := by
  obtain ⟨g, hg, hv⟩ := (stores_iff hn d).1 hs
  cases g with
  | node v ag cg =>
    have hv0 := hv []
    rw [H5.view, view, dataOf, hd.not_has] at hv0
    cases v with
    | some v => simp at hv0
    | none =>
      refine ⟨.cons (scanName n) (.dict (readMembers cg)) .nil, ?_, fun k p => ?_⟩
      · show (match ch.get? (scanName n) with | none => _ | some g => _) = _
        rw [hg]; rfl
      · rw [← hv, ← view_readNode, view_child (d := .cons (scanName n) (.dict (readMembers cg)) .nil) hn
          (by rw [Dict.get?, if_pos rfl]), view, view]
        by_cases hk : Plain k
        · rw [if_neg (not_or.2 hk), if_neg (not_or.2 hk), readNode, Dict.get?, if_neg (fun h => hk.1 h.symm)]
        · rw [if_pos (by by_contra h; exact hk (not_or.1 h)), if_pos (by by_contra h; exact hk (not_or.1 h))]

/-- **C43**, the code disagrees: reading one entry by its scan number loses the attributes of the entry (its experiment id
among them). -/
theorem C43_by_number_attrs (n : ℕ) (hn : Plain (scanName n)) (a : List (Str × Leaf)) (ch : H5s) (g : H5)
    (hg : ch.get? (scanName n) = some g) (hno : g.children.get? "attrs".toList = none) :
    ∃ r v, fromNexus (.node none a ch) (some n) = .ok r ∧ view r [scanName n] = some (v, fun _ => none) := by
  refine ⟨.cons (scanName n) (.dict (readMembers g.children)) .nil, dataOf (readMembers g.children), ?_, ?_⟩
  · show (match ch.get? (scanName n) with | none => _ | some g => _) = _
    rw [hg]
  · rw [view_child hn (e := readMembers g.children) (by rw [Dict.get?, if_pos rfl]), view]
    congr 2
    funext x
    rw [attrOf, get?_readMembers, hno]
    rfl

/-- **C43**, the code disagrees: a dataset that is a list of strings is read back as one string, whatever the strings. -/
theorem C43_strings_differ (k s : Str) (l : List Str) (hk : Plain k) (name : Str) (hn : Plain name) :
    ∃ root, toNexus (.cons k (.dict (.cons "dataset".toList (.leaf (.strs (s :: l))) (.cons "attrs".toList
        (.dict (.cons "type".toList (.leaf (.str "NX_CHAR".toList)) .nil)) .nil))) .nil) name H5.empty = .ok root ∧
      ∃ r t, fromNexus root none = .ok r ∧ (view r [name, k]).map Prod.fst = some (some (.str t)) := by
  have hw : writeDict (.cons k (.dict (.cons "dataset".toList (.leaf (.strs (s :: l))) (.cons "attrs".toList
        (.dict (.cons "type".toList (.leaf (.str "NX_CHAR".toList)) .nil)) .nil))) .nil) H5.empty =
      .ok (.node none [] (.cons k (.node (some (.strs (s :: l))) [("type".toList, .str "NX_CHAR".toList)] .nil) .nil)) := by
    rw [writeDict, writeItem, if_neg hk.1, if_pos (show Dict.has _ _ = true from rfl)]
    rfl
  refine ⟨.node none [] (.cons name (.node none [] (.cons k (.node (some (.strs (s :: l)))
    [("type".toList, .str "NX_CHAR".toList)] .nil) .nil)) .nil), ?_, ?_⟩
  · rw [toNexus]
    show (writeDict _ H5.empty >>= fun g' => H5.put _ name g') = _
    rw [hw]; rfl
  · refine ⟨_, npPrint (s :: l), rfl, ?_⟩
    show (view (readMembers _) [name, k]).map Prod.fst = _
    rw [view_child hn (by rw [get?_readMembers]; show Option.map _ (H5s.get? (.cons name _ _) name) = _; rw [H5s.get?, if_pos rfl]; rfl),
      view_readNode, H5.view_child hk, H5s.get?, if_pos rfl]
    rfl

/-! ## A concrete entry -/

namespace Demo

/-- An entry with attributes, a group and datasets of several types. -/
def saved : Dict :=
  .cons "attrs".toList (.dict (.cons "dataset_name".toList (.leaf (.str "IPTS1_CG4C_exp0424".toList)) .nil)) <|
  .cons "title".toList (.dict (.cons "dataset".toList (.leaf (.str "scan_title_34".toList))
    (.cons "attrs".toList (.dict (.cons "type".toList (.leaf (.str "NX_CHAR".toList)) .nil)) .nil))) <|
  .cons "detector".toList (.dict <|
    .cons "data".toList (.dict (.cons "dataset".toList (.leaf (.fin [1, 2]))
      (.cons "attrs".toList (.dict (.cons "type".toList (.leaf (.str "NX_INT".toList)) .nil)) .nil))) .nil) .nil

theorem plain_of (k : Str) (h : (decide (k ≠ "attrs".toList) && decide (k ≠ "dataset".toList)) = true) : Plain k := by
  simpa [Plain] using h

theorem saved_entry : Entry saved := by
  refine .attrs (.cons rfl .nil) rfl (.data (plain_of _ (by decide)) (.dataFirst (.cons rfl .nil) ?_) rfl
    (.group (plain_of _ (by decide)) (.data (plain_of _ (by decide)) (.dataFirst (.cons rfl .nil) ?_) rfl .nil) rfl .nil))
  · exact ⟨by decide, by decide⟩
  · refine ⟨by decide, fun _ x hx => ?_⟩
    simp only [List.map_cons, List.map_nil, List.mem_cons, List.not_mem_nil, or_false] at hx
    rcases hx with rfl | rfl
    · exact ⟨1, by norm_num⟩
    · exact ⟨2, by norm_num⟩

/-- Three writes under two names. -/
example : ∃ root, writeAll (["scan0034".toList, "scan0035".toList, "scan0034".toList].map fun n => (n, saved)) H5.empty
      = .ok root ∧ ∀ n ∈ ["scan0034".toList, "scan0035".toList, "scan0034".toList], Spec.Stores root n saved :=
  C43_history (fun _ => saved) _ (by
    intro n hn
    simp only [List.mem_cons, List.not_mem_nil, or_false] at hn
    rcases hn with rfl | rfl | rfl <;> exact plain_of _ (by decide)) (fun _ _ => saved_entry)

end Demo

end Tavi
