import Verif.Props.OrnlFile

/-! # C63, C72: columns, metadata and UB configuration of the scans loaded from ORNL files -/

namespace Tavi

/-- The attribute for a name: dots vanish, hyphens and spaces become underscores. -/
def Spec.plainName (name : Str) : Str :=
  name.flatMap fun c => if c = '.' then [] else if c = '-' ∨ c = ' ' then ['_'] else [c]

/-- The name begins with a digit. -/
def Spec.DigitFirst (name : Str) : Prop := ∃ c, name.head? = some c ∧ isDigit c = true

instance (name : Str) : Decidable (Spec.DigitFirst name) :=
  match name with
  | [] => .isFalse fun ⟨_, h, _⟩ => by cases h
  | c :: t => decidable_of_iff (isDigit c = true) ⟨fun h => ⟨c, rfl, h⟩, fun ⟨_, h, h'⟩ => Option.some.inj h ▸ h'⟩

/-- The attribute for a key of the metadata: as above, with an underscore before a leading digit. -/
def Spec.fieldOf (name : Str) : Str := (if Spec.DigitFirst name then ['_'] else []) ++ Spec.plainName name

namespace Ornl

theorem sanitise_eq (name : Str) : sanitise name = Spec.plainName name := by
  induction name with
  | nil => rfl
  | cons c t ih =>
    rw [sanitise] at ih ⊢
    rw [Spec.plainName, List.flatMap_cons, ← Spec.plainName, ← ih, List.map_cons]
    by_cases h1 : c = '.'
    · subst h1
      rw [if_pos rfl, List.filter_cons_of_neg (by decide)]; rfl
    · rw [if_neg h1]
      by_cases h2 : c = '-' ∨ c = ' '
      · rw [if_pos h2, if_pos h2, List.filter_cons_of_pos (by decide)]; rfl
      · rw [if_neg h2, if_neg h2, List.filter_cons_of_pos (by simpa using h1)]; rfl

theorem guardDigit_ok {name : Str} (h : name ≠ []) :
    guardDigit name = .ok ((if Spec.DigitFirst name then ['_'] else []) ++ name) := by
  cases name with
  | nil => exact absurd rfl h
  | cons c t =>
    rw [guardDigit]
    by_cases hd : isDigit c = true
    · rw [if_pos hd, if_pos ⟨c, rfl, hd⟩]; rfl
    · rw [if_neg hd, if_neg]
      · rfl
      · rintro ⟨d, h1, h2⟩
        obtain rfl := Option.some.inj h1
        exact hd h2

theorem sanitise_guard (name : Str) : sanitise ((if Spec.DigitFirst name then ['_'] else []) ++ name) = Spec.fieldOf name := by
  rw [sanitise_eq, Spec.fieldOf, Spec.plainName, List.flatMap_append, ← Spec.plainName]
  by_cases h : Spec.DigitFirst name
  · rw [if_pos h]; rfl
  · rw [if_neg h]; rfl

/-! ## C63: columns -/

/-- The numbers of a table in column `j`, in row order. -/
def _root_.Tavi.Spec.inColumn (rows : List (List (Option ℚ))) (j : ℕ) : List (Option ℚ) := rows.map fun r => (r[j]?).join

theorem columnVal_ok {rows : List (List (Option ℚ))} {m j : ℕ} (hr : rows ≠ []) (hm : ∀ r ∈ rows, r.length = m) (h2 : 2 ≤ m)
    (hj : j < m) : columnVal (squeeze rows) j = .ok (.vec (Spec.inColumn rows j)) := by
  rcases rows with _ | ⟨r, _ | ⟨r', rs⟩⟩
  · exact absurd rfl hr
  · have hl := hm r List.mem_cons_self
    have hs : squeeze [r] = .d1 r := by
      rcases r with _ | ⟨x, _ | ⟨y, r⟩⟩
      · rfl
      · simp at hl; omega
      · rfl
    rw [hs, columnVal]
    show (need r[j]? .indexError).map _ = _
    have hj' : j < r.length := by omega
    rw [List.getElem?_eq_getElem hj']
    simp [Spec.inColumn, need, Except.map, List.getElem?_eq_getElem hj']
  · have hs : squeeze (r :: r' :: rs) = .d2 (r :: r' :: rs) := by
      have hl := hm r List.mem_cons_self
      rw [squeeze, if_neg (by omega)]
      · simp
      · simp
    rw [hs, columnVal]
    have hc : column (.d2 (r :: r' :: rs)) j = .ok (Spec.inColumn (r :: r' :: rs) j) := by
      rw [column, Spec.inColumn]
      exact mapM_ok fun a ha => by
        have hj' : j < a.length := by rw [hm a ha]; exact hj
        rw [List.getElem?_eq_getElem hj']; rfl
    rw [hc]

/-- The names can be attributes: none empty, none beginning with a digit, all acceptable to Python once made plain. -/
def _root_.Tavi.Spec.GoodNames (ident : Str → Bool) (names : List Str) : Prop :=
  ∀ n ∈ names, n ≠ [] ∧ ¬ Spec.DigitFirst n ∧ ident (Spec.plainName n) = true

theorem listIndex_idxOf {names : List Str} {n : Str} (h : n ∈ names) : listIndex names n = .ok (names.idxOf n) := by
  obtain ⟨pre, post, rfl, hp⟩ := List.eq_append_cons_of_mem h
  rw [listIndex_first hp, List.idxOf_append_of_notMem hp, List.idxOf_cons_self]
  rfl

theorem colLoop_ok {ident : Str → Bool} {names : List Str} {rows : List (List (Option ℚ))} {m : ℕ} (hr : rows ≠ [])
    (hm : ∀ r ∈ rows, r.length = m) (h2 : 2 ≤ m) (hn : names.length ≤ m) (hg : Spec.GoodNames ident names)
    (todo : List Str) (ht : ∀ n ∈ todo, n ∈ names) (store : List (Str × ColVal)) :
    colLoop ident names (squeeze rows) todo store = .ok
      (todo.foldl (fun s n => assocSet s (Spec.plainName n) (.vec (Spec.inColumn rows (names.idxOf n)))) store) := by
  induction todo generalizing store with
  | nil => rfl
  | cons n todo ih =>
    have hmem := ht n List.mem_cons_self
    obtain ⟨h1, h3, h4⟩ := hg n hmem
    have hstep : colStep ident names (squeeze rows) store n =
        .ok (assocSet store (Spec.plainName n) (.vec (Spec.inColumn rows (names.idxOf n)))) := by
      rw [colStep, guardDigit_ok h1, py_bind_ok, if_neg h3, List.nil_append, sanitise_eq, if_pos (.inr h4),
        listIndex_idxOf hmem, py_bind_ok, columnVal_ok hr hm h2 (lt_of_lt_of_le (List.idxOf_lt_length_of_mem hmem) hn), py_bind_ok,
        setField, if_pos (.inr h4)]
    rw [colLoop, hstep, py_bind_ok]
    exact ih (fun x hx => ht x (List.mem_cons_of_mem _ hx)) _

theorem foldl_set_lookup {α β : Type} (key : α → Str) (val : α → β) (l : List α) (store : List (Str × β)) (a : Str) :
    lookupKey a (l.foldl (fun s n => assocSet s (key n) (val n)) store) =
      ((l.filter fun n => decide (key n = a)).getLast?.map val).or (lookupKey a store) := by
  induction l generalizing store with
  | nil => rfl
  | cons n l ih =>
    rw [List.foldl_cons, ih, lookupKey_assocSet]
    by_cases hk : key n = a
    · rw [if_pos hk.symm, List.filter_cons_of_pos (by simpa using hk), List.getLast?_cons]
      cases (l.filter fun n => decide (key n = a)).getLast? <;> rfl
    · rw [if_neg (Ne.symm hk), List.filter_cons_of_neg (by simpa using hk)]

theorem rawData_ok {ident : Str → Bool} {f : File} {m : ℕ} (hr : f.rows ≠ []) (hm : ∀ r ∈ f.rows, r.length = m) (h2 : 2 ≤ m)
    (hn : f.colNames.length ≤ m) (hg : Spec.GoodNames ident f.colNames) :
    ∃ d, rawData ident f = .ok d ∧ lookupKey "column_names".toList d = some (.names f.colNames) ∧
      ∀ a, a ≠ "column_names".toList → lookupKey a d =
        (f.colNames.filter fun n => decide (Spec.plainName n = a)).getLast?.map fun n =>
          .vec (Spec.inColumn f.rows (f.colNames.idxOf n)) := by
  rw [rawData, colLoop_ok hr hm h2 hn hg f.colNames (fun _ h => h)]
  refine ⟨_, rfl, by rw [lookupKey_assocSet, if_pos rfl], fun a ha => ?_⟩
  rw [lookupKey_assocSet, if_neg ha, foldl_set_lookup Spec.plainName]
  exact Option.or_none

/-- **C63** (partial): every column is available under its attribute with its own numbers, in row order, and the list of names as
it stands in the file. Missing: names beginning with a digit (`C63_digit_fails`), names with the same attribute
(`C63_collision_lost`), files without points (`C63_no_points_fails`) and with one column (`C63_column_cut`). -/
theorem _root_.Tavi.C63_columns_partial (ident : Str → Bool) (f : File) (m : ℕ) (hr : f.rows ≠ [])
    (hm : ∀ r ∈ f.rows, r.length = m) (h2 : 2 ≤ m) (hn : f.colNames.length ≤ m) (hg : Spec.GoodNames ident f.colNames)
    (hnd : (f.colNames.map Spec.plainName).Nodup) (hc : "column_names".toList ∉ f.colNames.map Spec.plainName) :
    ∃ d, rawData ident f = .ok d ∧ lookupKey "column_names".toList d = some (.names f.colNames) ∧
      ∀ (j : ℕ) (n : Str), f.colNames[j]? = some n → lookupKey (Spec.plainName n) d = some (.vec (Spec.inColumn f.rows j)) := by
  obtain ⟨d, h1, h3, h4⟩ := rawData_ok hr hm h2 hn hg
  refine ⟨d, h1, h3, fun j n hj => ?_⟩
  have hmem : n ∈ f.colNames := List.mem_of_getElem? hj
  have hidx : f.colNames.idxOf n = j := by
    obtain ⟨hlt, rfl⟩ := List.getElem?_eq_some_iff.1 hj
    exact List.Nodup.idxOf_getElem (List.Nodup.of_map _ hnd) j hlt
  have hfil : (f.colNames.filter fun n' => decide (Spec.plainName n' = Spec.plainName n)) = [n] := by
    have hsub : ∀ n' ∈ f.colNames.filter (fun n' => decide (Spec.plainName n' = Spec.plainName n)), n' = n := by
      intro n' h'
      obtain ⟨h5, h6⟩ := List.mem_filter.1 h'
      exact List.inj_on_of_nodup_map hnd h5 hmem (by simpa using h6)
    have hnd' : (f.colNames.filter fun n' => decide (Spec.plainName n' = Spec.plainName n)).Nodup :=
      (List.Nodup.of_map _ hnd).filter _
    have hin : n ∈ f.colNames.filter (fun n' => decide (Spec.plainName n' = Spec.plainName n)) :=
      List.mem_filter.2 ⟨hmem, by simp⟩
    generalize f.colNames.filter (fun n' => decide (Spec.plainName n' = Spec.plainName n)) = l at hsub hnd' hin
    rcases l with _ | ⟨a, _ | ⟨b, l⟩⟩
    · cases hin
    · rw [hsub a List.mem_cons_self]
    · exfalso
      have ha := hsub a (by simp)
      have hb := hsub b (by simp)
      rw [ha, hb] at hnd'
      simp at hnd'
  rw [h4 _ (fun h => hc (h ▸ List.mem_map_of_mem hmem)), hfil, List.getLast?_singleton, Option.map_some, hidx]

/-- **C63**, the code disagrees: of two columns with the same attribute the numbers of the first are lost. -/
theorem _root_.Tavi.C63_collision_lost (ident : Str → Bool) (f : File) (m : ℕ) (hr : f.rows ≠ [])
    (hm : ∀ r ∈ f.rows, r.length = m) (h2 : 2 ≤ m) (hn : f.colNames.length ≤ m) (hg : Spec.GoodNames ident f.colNames)
    (pre mid post : List Str) (n n' : Str) (hnames : f.colNames = pre ++ n :: mid ++ n' :: post)
    (hnd : f.colNames.Nodup) (hnn : Spec.plainName n = Spec.plainName n') (hne : Spec.plainName n ≠ "column_names".toList)
    (hpost : ∀ x ∈ post, Spec.plainName x ≠ Spec.plainName n) :
    ∃ d, rawData ident f = .ok d ∧
      lookupKey (Spec.plainName n) d = some (.vec (Spec.inColumn f.rows (pre.length + 1 + mid.length))) := by
  obtain ⟨d, h1, _, h4⟩ := rawData_ok hr hm h2 hn hg
  refine ⟨d, h1, ?_⟩
  rw [h4 _ hne]
  have hfil : (f.colNames.filter fun x => decide (Spec.plainName x = Spec.plainName n)).getLast? = some n' := by
    have hp : (post.filter fun x => decide (Spec.plainName x = Spec.plainName n)) = [] :=
      List.filter_eq_nil_iff.2 fun x hx => by simpa using hpost x hx
    rw [hnames, List.filter_append, List.filter_cons_of_pos (by simpa using hnn.symm), hp, List.getLast?_concat]
  have hidx : f.colNames.idxOf n' = pre.length + 1 + mid.length := by
    have hj : (pre ++ n :: mid ++ n' :: post)[pre.length + 1 + mid.length]? = some n' := by
      rw [List.getElem?_append_right (by simp; omega)]
      simp [show pre.length + 1 + mid.length - (pre.length + (mid.length + 1)) = 0 by omega]
    rw [← hnames] at hj
    obtain ⟨hlt, h5⟩ := List.getElem?_eq_some_iff.1 hj
    rw [← h5]
    exact List.Nodup.idxOf_getElem hnd _ hlt
  rw [hfil, Option.map_some, hidx]

theorem colLoop_fails {ident : Str → Bool} {names : List Str} {a : Arr} {n : Str} {todo : List Str} (hn : n ∈ todo)
    (h : ∀ store d, colStep ident names a store n ≠ .ok d) (store d : List (Str × ColVal)) :
    colLoop ident names a todo store ≠ .ok d := by
  induction todo generalizing store with
  | nil => cases hn
  | cons x todo ih =>
    intro hd
    rw [colLoop] at hd
    obtain ⟨s, h1, h2⟩ := py_bind_eq_ok.1 hd
    rcases List.mem_cons.1 hn with rfl | hn
    · exact h _ _ h1
    · exact ih hn _ h2

theorem rawData_fails {ident : Str → Bool} {f : File} {n : Str} (hn : n ∈ f.colNames)
    (h : ∀ store d, colStep ident f.colNames (squeeze f.rows) store n ≠ .ok d) (d : List (Str × ColVal)) :
    rawData ident f ≠ .ok d := by
  intro hd
  obtain ⟨s, h1, _⟩ := map_eq_ok.1 hd
  exact colLoop_fails hn h _ _ h1

/-- **C63**, the code disagrees: a name beginning with a digit is looked up with the underscore put before it, so unless that is
also the name of a column nothing is loaded. -/
theorem _root_.Tavi.C63_digit_fails (ident : Str → Bool) (f : File) (n : Str) (hn : n ∈ f.colNames) (hd : Spec.DigitFirst n)
    (hno : '_' :: n ∉ f.colNames) (d : List (Str × ColVal)) : rawData ident f ≠ .ok d := by
  refine rawData_fails hn (fun store d' h => ?_) d
  have hne : n ≠ [] := by rintro rfl; obtain ⟨c, h, _⟩ := hd; cases h
  rw [colStep, guardDigit_ok hne, py_bind_ok, if_pos hd] at h
  split at h
  · obtain ⟨j, h1, _⟩ := py_bind_eq_ok.1 h
    have : listIndex f.colNames ('_' :: n) = .error .valueError := by
      rw [listIndex, List.findIdx?_eq_none_iff.2]
      · rfl
      · intro x hx
        rw [beq_eq_false_iff_ne]
        rintro rfl
        exact hno hx
    rw [show (['_'] ++ n) = '_' :: n from rfl, this] at h1
    cases h1
  · cases h

/-- **C63**, the code disagrees: a file without points cannot be loaded. -/
theorem _root_.Tavi.C63_no_points_fails (ident : Str → Bool) (f : File) (hr : f.rows = []) (hn : f.colNames ≠ [])
    (d : List (Str × ColVal)) : rawData ident f ≠ .ok d := by
  obtain ⟨n, hn⟩ := List.exists_mem_of_ne_nil _ hn
  refine rawData_fails hn (fun store d' h => ?_) d
  rw [colStep] at h
  obtain ⟨n', _, h⟩ := py_bind_eq_ok.1 h
  split at h
  · obtain ⟨j, _, h⟩ := py_bind_eq_ok.1 h
    rw [hr] at h
    obtain ⟨v, h1, _⟩ := py_bind_eq_ok.1 h
    cases h1
  · cases h

/-- **C63**, the code disagrees: of a file with one column only the first point is kept, and with one point nothing is loaded. -/
theorem _root_.Tavi.C63_column_cut (ident : Str → Bool) (f : File) (n : Str) (hn : f.colNames = [n]) (hg : Spec.GoodNames ident [n])
    (hc : Spec.plainName n ≠ "column_names".toList) (x : Option ℚ) :
    (∀ y rest, f.rows = [x] :: [y] :: rest → ∃ d, rawData ident f = .ok d ∧ lookupKey (Spec.plainName n) d = some (.vec [x])) ∧
    (f.rows = [[x]] → rawData ident f = .error .indexError) := by
  obtain ⟨h1, h3, h4⟩ := hg n List.mem_cons_self
  have hi : listIndex [n] n = .ok 0 := by rw [listIndex_idxOf List.mem_cons_self, List.idxOf_cons_self]
  constructor
  · intro y rest hr
    refine ⟨assocSet (assocSet [] (Spec.plainName n) (.vec [x])) "column_names".toList (.names [n]), ?_, ?_⟩
    · have hs : squeeze ([x] :: [y] :: rest) = .d1 (([x] :: [y] :: rest).map fun row => row.headD none) := by
        rw [squeeze, if_pos (show [x].length = 1 from rfl)] <;> simp
      have hstep : colStep ident [n] (squeeze f.rows) [] n = .ok (assocSet [] (Spec.plainName n) (.vec [x])) := by
        rw [colStep, guardDigit_ok h1, py_bind_ok, if_neg h3, List.nil_append, sanitise_eq, if_pos (.inr h4), hi, py_bind_ok, hr, hs]
        show setField ident [] (Spec.plainName n) _ = _
        rw [setField, if_pos (.inr h4)]
        rfl
      rw [rawData, hn, colLoop, hstep]; rfl
    · rw [lookupKey_assocSet, if_neg hc, lookupKey_assocSet, if_pos rfl]
  · intro hr
    have hstep : colStep ident [n] (squeeze f.rows) [] n = .error .indexError := by
      rw [colStep, guardDigit_ok h1, py_bind_ok, if_neg h3, List.nil_append, sanitise_eq, if_pos (.inr h4), hi, py_bind_ok, hr]
      rfl
    rw [rawData, hn, colLoop, hstep]; rfl

/-! ## C72: metadata -/

/-- Every key can be an attribute. -/
def _root_.Tavi.Spec.GoodKeys (ident : Str → Bool) (md : List (Str × Str)) : Prop :=
  ∀ kv ∈ md, kv.1 ≠ [] ∧ ident (Spec.fieldOf kv.1) = true

/-- The last value given for an attribute. -/
def _root_.Tavi.Spec.lastValue (md : List (Str × Str)) (a : Str) : Option Str :=
  (md.filter fun kv => decide (Spec.fieldOf kv.1 = a)).getLast?.map Prod.snd

theorem setField_inv {β : Type} {ident : Str → Bool} {store d : List (Str × β)} {k : Str} {v : β}
    (h : setField ident store k v = .ok d) : d = assocSet store k v := by
  rw [setField] at h
  split at h
  · exact (Except.ok.inj h).symm
  · cases h

theorem metaStep_inv {ident : Str → Bool} {store d : List (Str × Str)} {kv : Str × Str} (h : metaStep ident store kv = .ok d) :
    kv.1 ≠ [] ∧ d = assocSet store (Spec.fieldOf kv.1) kv.2 := by
  rw [metaStep] at h
  obtain ⟨k, h1, h2⟩ := py_bind_eq_ok.1 h
  have hne : kv.1 ≠ [] := by intro h0; rw [h0] at h1; cases h1
  rw [guardDigit_ok hne] at h1
  obtain rfl := Except.ok.inj h1
  rw [sanitise_guard] at h2
  exact ⟨hne, setField_inv h2⟩

theorem metaTurn_eq {ident : Str → Bool} {xml : List Str → Py (Option Str)} {fs : FS} {folder : List Str} {st : MetaSt}
    {kv : Str × Str} (hne : kv.1 ≠ []) : metaTurn ident xml fs folder st kv =
      (metaStep ident st.md kv >>= fun md =>
        if Spec.fieldOf kv.1 = "ubconf".toList ∧ kv.2 ≠ [] then
          findUbDir fs folder st.ubDir >>= fun d => (ubStep ident xml fs d kv.2 st.conf).map fun conf => ⟨md, conf, d⟩
        else .ok ⟨md, st.conf, st.ubDir⟩) := by
  rw [metaTurn]
  congr 1
  funext md
  rw [guardDigit_ok hne, py_bind_ok, sanitise_guard]

/-- Whether an entry names a UB file. -/
def _root_.Tavi.Spec.NamesUb (kv : Str × Str) : Prop := Spec.fieldOf kv.1 = "ubconf".toList ∧ kv.2 ≠ []

theorem metaTurn_md {ident : Str → Bool} {xml : List Str → Py (Option Str)} {fs : FS} {folder : List Str} {st st' : MetaSt}
    {kv : Str × Str} (h : metaTurn ident xml fs folder st kv = .ok st') :
    kv.1 ≠ [] ∧ st'.md = assocSet st.md (Spec.fieldOf kv.1) kv.2 ∧
    (¬ Spec.NamesUb kv → st'.conf = st.conf ∧ st'.ubDir = st.ubDir) ∧
    (Spec.NamesUb kv → ∃ d, findUbDir fs folder st.ubDir = .ok d ∧ st'.ubDir = d ∧
      ubStep ident xml fs d kv.2 st.conf = .ok st'.conf) := by
  have hne : kv.1 ≠ [] := by
    intro h0
    rw [metaTurn, metaStep, h0] at h
    cases h
  rw [metaTurn_eq hne] at h
  obtain ⟨md, h1, h⟩ := py_bind_eq_ok.1 h
  obtain ⟨_, rfl⟩ := metaStep_inv h1
  by_cases hu : Spec.fieldOf kv.1 = "ubconf".toList ∧ kv.2 ≠ []
  · rw [if_pos hu] at h
    obtain ⟨d, h2, h⟩ := py_bind_eq_ok.1 h
    obtain ⟨conf, h3, rfl⟩ := map_eq_ok.1 h
    exact ⟨hne, rfl, fun hn => absurd hu hn, fun _ => ⟨d, h2, rfl, h3⟩⟩
  · rw [if_neg hu] at h
    obtain rfl := Except.ok.inj h
    exact ⟨hne, rfl, fun _ => ⟨rfl, rfl⟩, fun hn => absurd hn hu⟩

theorem metaTurns_md {ident : Str → Bool} {xml : List Str → Py (Option Str)} {fs : FS} {folder : List Str} {l : List (Str × Str)}
    {st st' : MetaSt} (h : metaTurns ident xml fs folder l st = .ok st') (a : Str) :
    lookupKey a st'.md = (Spec.lastValue l a).or (lookupKey a st.md) := by
  have : st'.md = l.foldl (fun s kv => assocSet s (Spec.fieldOf kv.1) kv.2) st.md := by
    induction l generalizing st with
    | nil => obtain rfl := Except.ok.inj h; rfl
    | cons kv l ih =>
      rw [metaTurns] at h
      obtain ⟨st1, h1, h2⟩ := py_bind_eq_ok.1 h
      rw [ih h2, (metaTurn_md h1).2.1]; rfl
  rw [this, foldl_set_lookup (fun kv : Str × Str => Spec.fieldOf kv.1)]
  rfl

theorem metaTurns_none {ident : Str → Bool} {xml : List Str → Py (Option Str)} {fs : FS} {folder : List Str} {l : List (Str × Str)}
    {st st' : MetaSt} (h : metaTurns ident xml fs folder l st = .ok st') (hn : ∀ kv ∈ l, ¬ Spec.NamesUb kv) :
    st'.conf = st.conf ∧ st'.ubDir = st.ubDir := by
  induction l generalizing st with
  | nil => obtain rfl := Except.ok.inj h; exact ⟨rfl, rfl⟩
  | cons kv l ih =>
    rw [metaTurns] at h
    obtain ⟨st1, h1, h2⟩ := py_bind_eq_ok.1 h
    obtain ⟨_, _, h3, _⟩ := metaTurn_md h1
    obtain ⟨h4, h5⟩ := h3 (hn kv List.mem_cons_self)
    obtain ⟨h6, h7⟩ := ih h2 fun x hx => hn x (List.mem_cons_of_mem _ hx)
    exact ⟨h6.trans h4, h7.trans h5⟩

theorem metaTurns_append {ident : Str → Bool} {xml : List Str → Py (Option Str)} {fs : FS} {folder : List Str}
    (l l' : List (Str × Str)) (st : MetaSt) :
    metaTurns ident xml fs folder (l ++ l') st = (metaTurns ident xml fs folder l st >>= metaTurns ident xml fs folder l') := by
  induction l generalizing st with
  | nil => rfl
  | cons kv l ih =>
    rw [List.cons_append, metaTurns, metaTurns, bind_assoc]
    congr 1
    funext st1
    exact ih st1

/-! ## C72: the folder of the UB files -/

/-- The folder to look in: the one given, else `UBConf` beside the data folder if there is one. -/
def _root_.Tavi.Spec.ubFolder (fs : FS) (folder : List Str) (given : Option (List Str)) : Option (List Str) :=
  match given with
  | some d => some d
  | none => if (fs (folder.dropLast ++ ["UBConf".toList])).isSome then some (folder.dropLast ++ ["UBConf".toList]) else none

/-- The folder remembered is the one given or the one that would be found. -/
def UbInv (fs : FS) (folder : List Str) (given cur : Option (List Str)) : Prop :=
  cur = given ∨ cur = Spec.ubFolder fs folder given

theorem findUbDir_inv {fs : FS} {folder : List Str} {given cur d : Option (List Str)} (hi : UbInv fs folder given cur)
    (h : findUbDir fs folder cur = .ok d) : d = Spec.ubFolder fs folder given := by
  have key : ∀ g, findUbDir fs folder g = .ok d → d = Spec.ubFolder fs folder g := by
    intro g hg
    cases g with
    | some x => exact (Except.ok.inj hg).symm
    | none =>
      obtain ⟨b, h1, rfl⟩ := map_eq_ok.1 hg
      rw [inFolder] at h1
      split at h1
      · cases h1
      · cases h1
      · obtain rfl := Except.ok.inj h1
        rfl
  rcases hi with rfl | rfl
  · exact key _ h
  · rw [key _ h]
    cases given with
    | some x => rfl
    | none =>
      cases hs : (fs (folder.dropLast ++ ["UBConf".toList])).isSome
      · simp only [Spec.ubFolder, hs, Bool.false_eq_true, if_false]
      · simp only [Spec.ubFolder, hs, if_true]

theorem metaTurns_inv {ident : Str → Bool} {xml : List Str → Py (Option Str)} {fs : FS} {folder : List Str} {l : List (Str × Str)}
    {st st' : MetaSt} {given : Option (List Str)} (hi : UbInv fs folder given st.ubDir)
    (h : metaTurns ident xml fs folder l st = .ok st') : UbInv fs folder given st'.ubDir := by
  induction l generalizing st with
  | nil => obtain rfl := Except.ok.inj h; exact hi
  | cons kv l ih =>
    rw [metaTurns] at h
    obtain ⟨st1, h1, h2⟩ := py_bind_eq_ok.1 h
    obtain ⟨_, _, h3, h4⟩ := metaTurn_md h1
    refine ih ?_ h2
    by_cases hu : Spec.NamesUb kv
    · obtain ⟨d, h5, h6, _⟩ := h4 hu
      rw [h6]; exact .inr (findUbDir_inv hi h5)
    · rw [(h3 hu).2]; exact hi

theorem loadFile_inv {ident : Str → Bool} {xml : List Str → Py (Option Str)} {fs : FS} {folder : List Str} {cur : Option (List Str)}
    {name : Str} {r : Scan × Option (List Str)} (h : loadFile ident xml fs folder cur name = .ok r) :
    ∃ content f st, fs (folder ++ [name]) = some (.file content) ∧ readDatafile content = .ok f ∧
      rawData ident f = .ok r.1.data ∧ metaTurns ident xml fs folder f.metadata ⟨[], [], cur⟩ = .ok st ∧
      r.1.metadata = st.md ∧ r.1.ubconf = st.conf ∧ r.2 = st.ubDir ∧ r.1.others = f.others ∧ r.1.errors = f.errors := by
  rw [loadFile] at h
  obtain ⟨content, h1, h⟩ := py_bind_eq_ok.1 h
  obtain ⟨f, h2, h⟩ := py_bind_eq_ok.1 h
  obtain ⟨data, h3, h⟩ := py_bind_eq_ok.1 h
  obtain ⟨st, h4, rfl⟩ := map_eq_ok.1 h
  refine ⟨content, f, st, ?_, h2, h3, h4, rfl, rfl, rfl, rfl, rfl⟩
  rw [openText] at h1
  split at h1
  · cases h1
  · cases h1
  · rename_i h5
    obtain rfl := Except.ok.inj h1
    exact h5

theorem loadLoop_inv {ident : Str → Bool} {xml : List Str → Py (Option Str)} {fs : FS} {folder : List Str}
    {given : Option (List Str)} {l : List Str} {cur : Option (List Str)} {acc out : List (Str × Scan)}
    (hi : UbInv fs folder given cur) (h : loadLoop ident xml fs folder l cur acc = .ok out) :
    (∀ n, n ∉ l → lookupKey n out = lookupKey n acc) ∧
    ∀ n ∈ l, ∃ cur' r, UbInv fs folder given cur' ∧ loadFile ident xml fs folder cur' n = .ok r ∧ lookupKey n out = some r.1 := by
  induction l generalizing cur acc with
  | nil => obtain rfl := Except.ok.inj h; simp
  | cons x l ih =>
    rw [loadLoop] at h
    obtain ⟨r, h1, h2⟩ := py_bind_eq_ok.1 h
    have hi' : UbInv fs folder given r.2 := by
      obtain ⟨_, _, st, _, _, _, h5, _, _, h6, _⟩ := loadFile_inv h1
      rw [h6]
      exact metaTurns_inv (st := ⟨[], [], cur⟩) hi h5
    obtain ⟨h3, h4⟩ := ih hi' h2
    refine ⟨fun n hn => ?_, fun n hn => ?_⟩
    · rw [List.mem_cons, not_or] at hn
      rw [h3 n hn.2, lookupKey_assocSet, if_neg hn.1]
    · by_cases hl : n ∈ l
      · exact h4 n hl
      · obtain rfl : n = x := (List.mem_cons.1 hn).resolve_right hl
        exact ⟨cur, r, hi, h1, by rw [h3 n hl, lookupKey_assocSet, if_pos rfl]⟩

theorem loadLoop_nodup {ident : Str → Bool} {xml : List Str → Py (Option Str)} {fs : FS} {folder : List Str}
    {l : List Str} {cur : Option (List Str)} {acc out : List (Str × Scan)} (hn : (acc.map Prod.fst).Nodup)
    (h : loadLoop ident xml fs folder l cur acc = .ok out) : (out.map Prod.fst).Nodup := by
  induction l generalizing cur acc with
  | nil => obtain rfl := Except.ok.inj h; exact hn
  | cons x l ih =>
    rw [loadLoop] at h
    obtain ⟨r, h1, h2⟩ := py_bind_eq_ok.1 h
    exact ih (nodup_assocSet hn _ _) h2

/-- The files to load: those listed, or all of the folder when none is. -/
def _root_.Tavi.Spec.wanted (listing : List Str) (files : Option (List Str)) : List Str :=
  if files.getD [] = [] then listing else files.getD []

theorem load_eq {ident : Str → Bool} {xml : List Str → Py (Option Str)} {fs : FS} {folder listing : List Str}
    {files : Option (List Str)} {given : Option (List Str)} :
    load ident xml fs folder listing files given = loadLoop ident xml fs folder (Spec.wanted listing files) given [] := by
  rcases files with _ | _ | ⟨x, l⟩
  · rfl
  · rfl
  · rw [load, Spec.wanted, if_neg (by simp)]; rfl

/-- **C72**: when loading succeeds there is exactly one scan for every file asked for, made from the content of that file alone:
its columns (see C63), for every attribute the last value of the metadata (see C71), its other lines and its error messages. -/
theorem _root_.Tavi.C72_scans (ident : Str → Bool) (xml : List Str → Py (Option Str)) (fs : FS) (folder listing : List Str)
    (files : Option (List Str)) (ubDir : Option (List Str)) (out : List (Str × Scan))
    (h : load ident xml fs folder listing files ubDir = .ok out) :
    (out.map Prod.fst).Nodup ∧ (∀ n, n ∈ out.map Prod.fst ↔ n ∈ Spec.wanted listing files) ∧
    ∀ n ∈ Spec.wanted listing files, ∃ content f s, fs (folder ++ [n]) = some (.file content) ∧ readDatafile content = .ok f ∧
      lookupKey n out = some s ∧ rawData ident f = .ok s.data ∧ (∀ a, lookupKey a s.metadata = Spec.lastValue f.metadata a) ∧
      s.others = f.others ∧ s.errors = f.errors := by
  rw [load_eq] at h
  obtain ⟨h1, h2⟩ := loadLoop_inv (given := ubDir) (.inl rfl) h
  refine ⟨loadLoop_nodup (acc := []) List.nodup_nil h, fun n => ?_, fun n hn => ?_⟩
  · by_cases hn : n ∈ Spec.wanted listing files
    · obtain ⟨_, r, _, _, h3⟩ := h2 n hn
      refine ⟨fun _ => hn, fun _ => ?_⟩
      by_contra hno
      rw [(lookupKey_eq_none _ _).2 hno] at h3
      cases h3
    · refine ⟨fun h3 => absurd ((lookupKey_eq_none _ _).1 (h1 n hn)) (not_not_intro h3), fun h3 => absurd h3 hn⟩
  · obtain ⟨cur, r, _, h3, h4⟩ := h2 n hn
    obtain ⟨content, f, st, g1, g2, g3, g4, g5, _, _, g8, g9⟩ := loadFile_inv h3
    refine ⟨content, f, r.1, g1, g2, h4, g3, fun a => ?_, g8, g9⟩
    rw [g5, metaTurns_md g4]
    exact Option.or_none

theorem confLoop_inv {ident : Str → Bool} {u store d : List (Str × UbVal)} (h : confLoop ident u store = .ok d) :
    d = u.foldl (fun s kv => assocSet s kv.1 kv.2) store := by
  induction u generalizing store with
  | nil => exact (Except.ok.inj h).symm
  | cons kv u ih =>
    rw [confLoop] at h
    obtain ⟨s, h1, h2⟩ := py_bind_eq_ok.1 h
    rw [ih h2, setField_inv h1]; rfl

theorem ub_used {ident : Str → Bool} {xml : List Str → Py (Option Str)} {fs : FS} {folder : List Str} {given cur : Option (List Str)}
    {pre post : List (Str × Str)} {kv : Str × Str} {st : MetaSt} (hi : UbInv fs folder given cur)
    (h : metaTurns ident xml fs folder (pre ++ kv :: post) ⟨[], [], cur⟩ = .ok st) (hu : Spec.NamesUb kv)
    (hpre : ∀ x ∈ pre, ¬ Spec.NamesUb x) (hpost : ∀ x ∈ post, ¬ Spec.NamesUb x) :
    ubStep ident xml fs (Spec.ubFolder fs folder given) kv.2 [] = .ok st.conf := by
  rw [metaTurns_append] at h
  obtain ⟨st1, h1, h2⟩ := py_bind_eq_ok.1 h
  obtain ⟨h3, h4⟩ := metaTurns_none h1 hpre
  rw [metaTurns] at h2
  obtain ⟨st2, h5, h6⟩ := py_bind_eq_ok.1 h2
  obtain ⟨d, h7, h8, h9⟩ := (metaTurn_md h5).2.2.2 hu
  rw [h4] at h7
  rw [findUbDir_inv hi h7, h3] at h9
  rw [(metaTurns_none h6 hpost).1]
  exact h9

/-- **C72** (partial): a scan has the UB configuration of the file it names, read from the folder given, or else from `UBConf`
beside the data folder; it has none when it names no file, or when the file is neither there nor in `tmp`. Missing: files in `tmp`
and folders that do not exist, see `C72_tmp_fails`, `C72_no_tmp_fails`, `C72_no_folder_fails`. -/
theorem _root_.Tavi.C72_ub_partial (ident : Str → Bool) (xml : List Str → Py (Option Str)) (fs : FS) (folder listing : List Str)
    (files : Option (List Str)) (ubDir : Option (List Str)) (out : List (Str × Scan))
    (h : load ident xml fs folder listing files ubDir = .ok out) (n : Str) (hn : n ∈ Spec.wanted listing files)
    (content : List Str) (f : File) (hc : fs (folder ++ [n]) = some (.file content)) (hf : readDatafile content = .ok f) :
    ∃ s, lookupKey n out = some s ∧
      ((∀ kv ∈ f.metadata, ¬ Spec.NamesUb kv) → s.ubconf = []) ∧
      ∀ pre kv post, f.metadata = pre ++ kv :: post → Spec.NamesUb kv → (∀ x ∈ pre, ¬ Spec.NamesUb x) →
        (∀ x ∈ post, ¬ Spec.NamesUb x) →
        ∃ d, Spec.ubFolder fs folder ubDir = some d ∧ fs d = some .folder ∧
          ((∃ u, readUb xml fs (d ++ [kv.2]) = .ok u ∧
              ∀ a, lookupKey a s.ubconf = (u.filter fun e => decide (e.1 = a)).getLast?.map Prod.snd) ∨
            (fs (d ++ [kv.2]) = none ∧ fs (d ++ ["tmp".toList]) = some .folder ∧ fs (d ++ ["tmp".toList, kv.2]) = none ∧
              s.ubconf = [])) := by
  rw [load_eq] at h
  obtain ⟨_, h2⟩ := loadLoop_inv (given := ubDir) (.inl rfl) h
  obtain ⟨cur, r, hi, h3, h4⟩ := h2 n hn
  obtain ⟨content', f', st, g1, g2, g3, g4, _, g6, _⟩ := loadFile_inv h3
  obtain rfl : content = content' := by rw [hc] at g1; cases g1; rfl
  obtain rfl : f = f' := by rw [hf] at g2; exact Except.ok.inj g2
  refine ⟨r.1, h4, fun hno => ?_, fun pre kv post hmd hu hpre hpost => ?_⟩
  · rw [g6, (metaTurns_none g4 hno).1]
  · rw [hmd] at g4
    have hs := ub_used hi g4 hu hpre hpost
    rw [← g6] at hs
    cases hd : Spec.ubFolder fs folder ubDir with
    | none => rw [hd] at hs; cases hs
    | some d =>
      rw [hd, ubStep] at hs
      obtain ⟨here, k1, hs⟩ := py_bind_eq_ok.1 hs
      have hfold : fs d = some .folder ∧ here = (fs (d ++ [kv.2])).isSome := by
        rw [inFolder] at k1
        split at k1
        · cases k1
        · cases k1
        · rename_i h5; exact ⟨h5, (Except.ok.inj k1).symm⟩
      have hread : ∀ u, readUb xml fs (d ++ [kv.2]) = .ok u → confLoop ident u [] = .ok r.1.ubconf →
          ∀ a, lookupKey a r.1.ubconf = (u.filter fun e => decide (e.1 = a)).getLast?.map Prod.snd := by
        intro u _ hcl a
        rw [confLoop_inv hcl, foldl_set_lookup (fun e : Str × UbVal => e.1)]
        exact Option.or_none
      refine ⟨d, rfl, hfold.1, ?_⟩
      by_cases hh : here = true
      · rw [if_pos hh] at hs
        obtain ⟨u, k2, k3⟩ := py_bind_eq_ok.1 hs
        exact .inl ⟨u, k2, hread u k2 k3⟩
      · rw [if_neg hh] at hs
        obtain ⟨there, k2, hs⟩ := py_bind_eq_ok.1 hs
        by_cases ht : there = true
        · rw [if_pos ht] at hs
          obtain ⟨u, k3, k4⟩ := py_bind_eq_ok.1 hs
          exact .inl ⟨u, k3, hread u k3 k4⟩
        · rw [if_neg ht] at hs
          have hnone : fs (d ++ [kv.2]) = none := by
            rw [hfold.2] at hh
            simpa using hh
          rw [inFolder] at k2
          split at k2
          · cases k2
          · cases k2
          · rename_i h5
            refine .inr ⟨hnone, h5, ?_, (Except.ok.inj hs).symm⟩
            rw [← Except.ok.inj k2] at ht
            simpa using ht

/-- The wanted file names a UB file once. -/
def _root_.Tavi.Spec.WantsUb (fs : FS) (folder : List Str) (n ub : Str) : Prop :=
  ∃ content f pre k post, fs (folder ++ [n]) = some (.file content) ∧ readDatafile content = .ok f ∧
    f.metadata = pre ++ (k, ub) :: post ∧ Spec.NamesUb (k, ub) ∧ (∀ x ∈ pre, ¬ Spec.NamesUb x) ∧ ∀ x ∈ post, ¬ Spec.NamesUb x

theorem wants_step {ident : Str → Bool} {xml : List Str → Py (Option Str)} {fs : FS} {folder listing : List Str}
    {files : Option (List Str)} {ubDir : Option (List Str)} {out : List (Str × Scan)} {n ub : Str}
    (hn : n ∈ Spec.wanted listing files) (hw : Spec.WantsUb fs folder n ub)
    (h : load ident xml fs folder listing files ubDir = .ok out) :
    ∃ c, ubStep ident xml fs (Spec.ubFolder fs folder ubDir) ub [] = .ok c := by
  obtain ⟨content, f, pre, k, post, hc, hf, hmd, hu, hpre, hpost⟩ := hw
  rw [load_eq] at h
  obtain ⟨_, h2⟩ := loadLoop_inv (given := ubDir) (.inl rfl) h
  obtain ⟨cur, r, hi, h3, h4⟩ := h2 n hn
  obtain ⟨content', f', st, g1, g2, g3, g4, _, g6, _⟩ := loadFile_inv h3
  obtain rfl : content = content' := by rw [hc] at g1; cases g1; rfl
  obtain rfl : f = f' := by rw [hf] at g2; exact Except.ok.inj g2
  rw [hmd] at g4
  exact ⟨_, ub_used hi g4 hu hpre hpost⟩

/-- **C72**, the code disagrees: a UB file that is in `tmp` only is read from the folder above, so nothing is loaded at all. -/
theorem _root_.Tavi.C72_tmp_fails (ident : Str → Bool) (xml : List Str → Py (Option Str)) (fs : FS) (folder listing : List Str)
    (files : Option (List Str)) (ubDir : Option (List Str)) (n ub : Str) (hn : n ∈ Spec.wanted listing files)
    (hw : Spec.WantsUb fs folder n ub) (d : List Str) (hd : Spec.ubFolder fs folder ubDir = some d)
    (h1 : fs (d ++ [ub]) = none) (h2 : (fs (d ++ ["tmp".toList, ub])).isSome) (out : List (Str × Scan)) :
    load ident xml fs folder listing files ubDir ≠ .ok out := by
  intro h
  obtain ⟨c, hc⟩ := wants_step hn hw h
  rw [hd, ubStep] at hc
  obtain ⟨here, k1, hc⟩ := py_bind_eq_ok.1 hc
  have hr : readUb xml fs (d ++ [ub]) = .error .fileNotFound := by rw [readUb, openText, h1]; rfl
  by_cases hh : here = true
  · rw [if_pos hh, hr] at hc
    cases hc
  · rw [if_neg hh] at hc
    obtain ⟨there, k2, hc⟩ := py_bind_eq_ok.1 hc
    have : there = true := by
      rw [inFolder] at k2
      split at k2
      · cases k2
      · cases k2
      · rw [← Except.ok.inj k2, List.append_assoc]; exact h2
    rw [if_pos this, hr] at hc
    cases hc

/-- **C72**, the code disagrees: when a UB file is missing and there is no folder `tmp`, nothing is loaded at all. -/
theorem _root_.Tavi.C72_no_tmp_fails (ident : Str → Bool) (xml : List Str → Py (Option Str)) (fs : FS) (folder listing : List Str)
    (files : Option (List Str)) (ubDir : Option (List Str)) (n ub : Str) (hn : n ∈ Spec.wanted listing files)
    (hw : Spec.WantsUb fs folder n ub) (d : List Str) (hd : Spec.ubFolder fs folder ubDir = some d)
    (h1 : fs (d ++ [ub]) = none) (h2 : fs (d ++ ["tmp".toList]) = none) (out : List (Str × Scan)) :
    load ident xml fs folder listing files ubDir ≠ .ok out := by
  intro h
  obtain ⟨c, hc⟩ := wants_step hn hw h
  rw [hd, ubStep] at hc
  obtain ⟨here, k1, hc⟩ := py_bind_eq_ok.1 hc
  have hr : readUb xml fs (d ++ [ub]) = .error .fileNotFound := by rw [readUb, openText, h1]; rfl
  by_cases hh : here = true
  · rw [if_pos hh, hr] at hc
    cases hc
  · rw [if_neg hh] at hc
    obtain ⟨there, k2, _⟩ := py_bind_eq_ok.1 hc
    rw [inFolder, h2] at k2
    cases k2

/-- **C72**, the code disagrees: when a file names a UB file and there is neither a folder given nor one beside the data, nothing is
loaded at all. -/
theorem _root_.Tavi.C72_no_folder_fails (ident : Str → Bool) (xml : List Str → Py (Option Str)) (fs : FS) (folder listing : List Str)
    (files : Option (List Str)) (n ub : Str) (hn : n ∈ Spec.wanted listing files)
    (hw : Spec.WantsUb fs folder n ub) (hd : fs (folder.dropLast ++ ["UBConf".toList]) = none) (out : List (Str × Scan)) :
    load ident xml fs folder listing files none ≠ .ok out := by
  intro h
  obtain ⟨c, hc⟩ := wants_step hn hw h
  rw [Spec.ubFolder, hd] at hc
  cases hc

/-- Everything one file needs is there: it can be read, its names can be attributes, and the UB files it names are where they should
be and readable. -/
def _root_.Tavi.Spec.Loadable (ident : Str → Bool) (xml : List Str → Py (Option Str)) (fs : FS) (folder : List Str)
    (ubDir : Option (List Str)) (n : Str) : Prop :=
  ∃ content f data, fs (folder ++ [n]) = some (.file content) ∧ readDatafile content = .ok f ∧ rawData ident f = .ok data ∧
    Spec.GoodKeys ident f.metadata ∧
    ∀ kv ∈ f.metadata, Spec.NamesUb kv → ∃ d u, Spec.ubFolder fs folder ubDir = some d ∧ fs d = some .folder ∧
      readUb xml fs (d ++ [kv.2]) = .ok u ∧ ∀ e ∈ u, ident e.1 = true

theorem confLoop_ok {ident : Str → Bool} {u : List (Str × UbVal)} (h : ∀ e ∈ u, ident e.1 = true) (store : List (Str × UbVal)) :
    ∃ d, confLoop ident u store = .ok d := by
  induction u generalizing store with
  | nil => exact ⟨_, rfl⟩
  | cons kv u ih =>
    rw [confLoop, setField, if_pos (.inr (h kv List.mem_cons_self)), py_bind_ok]
    exact ih (fun e he => h e (List.mem_cons_of_mem _ he)) _

theorem readUb_some {xml : List Str → Py (Option Str)} {fs : FS} {p : List Str} {u : List (Str × UbVal)}
    (h : readUb xml fs p = .ok u) : (fs p).isSome = true := by
  rw [readUb, openText] at h
  cases hp : fs p with
  | none => rw [hp] at h; cases h
  | some _ => rfl

theorem findUbDir_ok {fs : FS} {folder : List Str} {given cur : Option (List Str)} {d : List Str} (hi : UbInv fs folder given cur)
    (hp : fs folder.dropLast = some .folder) (hd : Spec.ubFolder fs folder given = some d) :
    findUbDir fs folder cur = .ok (some d) := by
  have : ∃ x, findUbDir fs folder cur = .ok x := by
    cases cur with
    | some x => exact ⟨_, rfl⟩
    | none =>
      rw [findUbDir, inFolder, hp]
      exact ⟨_, rfl⟩
  obtain ⟨x, hx⟩ := this
  rw [hx, findUbDir_inv hi hx, hd]

theorem metaTurns_ok {ident : Str → Bool} {xml : List Str → Py (Option Str)} {fs : FS} {folder : List Str}
    {given : Option (List Str)} (hp : fs folder.dropLast = some .folder) {l : List (Str × Str)} (hg : Spec.GoodKeys ident l)
    (hu : ∀ kv ∈ l, Spec.NamesUb kv → ∃ d u, Spec.ubFolder fs folder given = some d ∧ fs d = some .folder ∧
      readUb xml fs (d ++ [kv.2]) = .ok u ∧ ∀ e ∈ u, ident e.1 = true) (st : MetaSt) (hi : UbInv fs folder given st.ubDir) :
    ∃ st', metaTurns ident xml fs folder l st = .ok st' := by
  induction l generalizing st with
  | nil => exact ⟨_, rfl⟩
  | cons kv l ih =>
    obtain ⟨hne, hid⟩ := hg kv List.mem_cons_self
    have hstep : ∃ st1, metaTurn ident xml fs folder st kv = .ok st1 := by
      rw [metaTurn_eq hne, metaStep, guardDigit_ok hne, py_bind_ok, sanitise_guard, setField, if_pos (.inr hid), py_bind_ok]
      by_cases hn : Spec.fieldOf kv.1 = "ubconf".toList ∧ kv.2 ≠ []
      · rw [if_pos hn]
        obtain ⟨d, u, h1, h2, h3, h4⟩ := hu kv List.mem_cons_self hn
        rw [findUbDir_ok hi hp h1, py_bind_ok, ubStep]
        rw [inFolder, h2]
        simp only
        rw [py_bind_ok, if_pos (readUb_some h3), h3, py_bind_ok]
        obtain ⟨c, hc⟩ := confLoop_ok h4 st.conf
        rw [hc]
        exact ⟨_, rfl⟩
      · rw [if_neg hn]; exact ⟨_, rfl⟩
    obtain ⟨st1, h1⟩ := hstep
    rw [metaTurns, h1, py_bind_ok]
    refine ih (fun x hx => hg x (List.mem_cons_of_mem _ hx)) (fun x hx => hu x (List.mem_cons_of_mem _ hx)) st1 ?_
    refine metaTurns_inv (l := [kv]) hi (?_ : metaTurns ident xml fs folder [kv] st = .ok st1)
    rw [metaTurns, h1]; rfl

/-- **C72**: when everything needed is there, loading succeeds. -/
theorem _root_.Tavi.C72_total (ident : Str → Bool) (xml : List Str → Py (Option Str)) (fs : FS) (folder listing : List Str)
    (files : Option (List Str)) (ubDir : Option (List Str)) (hp : fs folder.dropLast = some .folder)
    (hl : ∀ n ∈ Spec.wanted listing files, Spec.Loadable ident xml fs folder ubDir n) :
    ∃ out, load ident xml fs folder listing files ubDir = .ok out := by
  rw [load_eq]
  have : ∀ (l : List Str) (cur : Option (List Str)) (acc : List (Str × Scan)), UbInv fs folder ubDir cur →
      (∀ n ∈ l, Spec.Loadable ident xml fs folder ubDir n) → ∃ out, loadLoop ident xml fs folder l cur acc = .ok out := by
    intro l
    induction l with
    | nil => exact fun _ _ _ _ => ⟨_, rfl⟩
    | cons n l ih =>
      intro cur acc hi h
      obtain ⟨content, f, data, h1, h2, h3, h4, h5⟩ := h n List.mem_cons_self
      obtain ⟨st, hst⟩ := metaTurns_ok hp h4 h5 ⟨[], [], cur⟩ hi
      have hload : loadFile ident xml fs folder cur n = .ok (⟨data, st.md, f.others, f.errors, st.conf⟩, st.ubDir) := by
        rw [loadFile, openText, h1]
        simp only
        rw [py_bind_ok, h2, py_bind_ok, h3, py_bind_ok, hst]; rfl
      rw [loadLoop, hload, py_bind_ok]
      exact ih _ _ (metaTurns_inv (st := ⟨[], [], cur⟩) hi hst) fun x hx => h x (List.mem_cons_of_mem _ hx)
  exact this _ _ _ (.inl rfl) hl

end Ornl

namespace Demo

open Ornl

/-- Every name without a space is accepted. -/
def plainIdent (s : Str) : Bool := s.all fun c => c != ' '

/-- A file with a UB file, the UB file beside it. -/
def ornlFs : FS := fun p =>
  if p = ["exp".toList] then some .folder
  else if p = ["exp".toList, "UBConf".toList] then some .folder
  else if p = ["exp".toList, "UBConf".toList, "ub.ini".toList] then
    some (.file ["[UBMode]\n".toList, "Mode=1\n".toList, "ScatteringPlaneVectors=\"1,0,0\"\n".toList, "Energy=14.7\n".toList])
  else if p = ["exp".toList, "Datafiles".toList, "a.dat".toList] then
    some (.file (["# ubconf = ub.ini\n".toList, "# s1-offset = 2\n".toList, "# col_headers =\n".toList, "# Pt. s1\n".toList, "1 2.5\n".toList]))
  else none

/-- The scan that comes out of the example, when loading succeeds. -/
def ornlResult : Option Ornl.Scan :=
  match load plainIdent (fun _ => .error .valueError) ornlFs ["exp".toList, "Datafiles".toList] ["a.dat".toList] none none with
  | .ok out => lookupKey "a.dat".toList out
  | .error _ => none

example : ornlResult.map (fun s => (lookupKey "Pt".toList s.data, lookupKey "s1".toList s.data)) =
    some (some (.vec [some 1]), some (.vec [some (5 / 2)])) := by decide +kernel

example : ornlResult.bind (fun s => lookupKey "s1_offset".toList s.metadata) = some "2".toList := by decide +kernel

example : ornlResult.map (fun s => match lookupKey "UBMode".toList s.ubconf with | some (.int 1) => true | _ => false) = some true := by
  decide +kernel

/-- A file with two points and two columns. -/
def ornlTable : File where
  rows := [[some 1, some 2], [some 3, some 4]]
  colNames := ["Pt.".toList, "s-1".toList]
  metadata := []
  others := []
  errors := []

example : ∃ d, rawData plainIdent ornlTable = .ok d ∧ lookupKey "s_1".toList d = some (.vec [some 2, some 4]) := by
  obtain ⟨d, h1, _, h3⟩ := C63_columns_partial plainIdent ornlTable 2 (by decide) (by decide) (by decide) (by decide)
    (by
      intro n hn
      rcases List.mem_cons.1 hn with rfl | hn
      · exact ⟨by decide, by decide, by decide⟩
      · obtain rfl := List.mem_singleton.1 hn
        exact ⟨by decide, by decide, by decide⟩) (by decide) (by decide)
  exact ⟨d, h1, h3 1 _ rfl⟩

example (ident : Str → Bool) (d : List (Str × ColVal)) :
    rawData ident { ornlTable with colNames := ["Pt.".toList, "2theta".toList] } ≠ .ok d :=
  C63_digit_fails ident _ "2theta".toList (by decide) (by decide) (by decide) d

end Demo

end Tavi
