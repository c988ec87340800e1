import Verif.Props.Header
import Mathlib.Data.Nat.Digits.Defs

/-!
# SPICE data files: header lines and error messages (C49), numbers in headers (C51), UB files (C52), data columns (C69)
-/

namespace Tavi

open Spec

/-! ## C49: where the comment lines go -/

/-- The comment lines of a file: the trimmed lines that begin with `#`. -/
def Spec.Comments (content hs : List Str) : Prop :=
  ∃ ts, List.Forall₂ Trim content ts ∧ hs = ts.filter fun t => decide (t.head? = some '#')

theorem comments_iff {content hs : List Str} : Spec.Comments content hs ↔ headersOf content = hs := by
  have hp : ∀ t : Str, startsWith "#".toList t = decide (t.head? = some '#') := by
    intro t
    show List.isPrefixOf ['#'] t = _
    cases t with
    | nil => rfl
    | cons c t =>
      show ('#' == c && List.isPrefixOf [] t) = decide (some c = some '#')
      by_cases h : c = '#'
      · rw [h]; simp
      · have h' : ('#' == c) = false := beq_eq_false_iff_ne.2 fun h' => h h'.symm
        rw [h', decide_eq_false (fun h' => h (Option.some.inj h'))]; rfl
  have hf : startsWith "#".toList = fun t : Str => decide (t.head? = some '#') := funext hp
  constructor
  · rintro ⟨ts, h1, rfl⟩
    rw [headersOf, forall₂_trim.1 h1, hf]
  · rintro rfl
    exact ⟨content.map strip, forall₂_trim.2 rfl, by rw [headersOf, hf]⟩

/-- A line that begins the summary. -/
def Spec.Summary (h : Str) : Prop := "# Sum of Counts =".toList <+: h

theorem summary_iff (h : Str) : startsWith sumOfCounts h = true ↔ Spec.Summary h := by
  rw [startsWith, List.isPrefixOf_iff_prefix]; rfl

theorem listIndex_first {pre post : List Str} {x : Str} (h : x ∉ pre) : listIndex (pre ++ x :: post) x = .ok pre.length := by
  have : (pre ++ x :: post).findIdx? (· == x) = some pre.length := by
    rw [List.findIdx?_eq_some_iff_getElem]
    refine ⟨by simp, by simp, fun j hj => ?_⟩
    rw [List.getElem_append_left hj]
    intro h'
    have h2 := eq_of_beq h'
    exact h (h2 ▸ List.getElem_mem hj)
  rw [listIndex, this]; rfl

theorem splitSummary_some {err : List Str} {s : Str} {rest : List Str} (he : ∀ h ∈ err, ¬ Spec.Summary h)
    (hs : Spec.Summary s) : splitSummary (err ++ s :: rest) = (some err, s :: rest) := by
  have : (err ++ s :: rest).findIdx? (startsWith sumOfCounts) = some err.length := by
    rw [List.findIdx?_eq_some_iff_getElem]
    refine ⟨by simp, ?_, fun j hj => ?_⟩
    · rw [List.getElem_append_right (le_refl _)]
      simpa using (summary_iff s).2 hs
    · rw [List.getElem_append_left hj, summary_iff]
      exact he _ (List.getElem_mem hj)
  rw [splitSummary, this]
  simp

theorem splitSummary_none {rest : List Str} (he : ∀ h ∈ rest, ¬ Spec.Summary h) : splitSummary rest = (none, []) := by
  have : rest.findIdx? (startsWith sumOfCounts) = none := by
    rw [List.findIdx?_eq_none_iff]
    intro h hh
    rw [← Bool.not_eq_true, summary_iff]
    exact he h hh
  rw [splitSummary, this]

theorem spiceRows_ok {content : List Str} {rows : List (List (Option ℚ))} :
    spiceRows content = .ok rows ↔ tableRows content = .ok rows ∧ ∀ x, rows ≠ [[x]] := by
  unfold spiceRows
  cases h : tableRows content with
  | error e => exact ⟨fun h => absurd h (by simp [bind, Except.bind]), fun h => absurd h.1 (by simp)⟩
  | ok r =>
    rw [py_bind_ok]
    split
    · rename_i x
      refine ⟨fun h => absurd h (by simp), fun h => ?_⟩
      exact absurd (Except.ok.inj h.1).symm (h.2 x)
    · rename_i hx
      constructor
      · intro h
        obtain rfl := Except.ok.inj h
        exact ⟨rfl, hx⟩
      · intro h; exact h.1

theorem readDatafile_eq {content pre post : List Str} {nameLine : Str}
    (hc : Spec.Comments content (pre ++ "# col_headers =".toList :: nameLine :: post))
    (hpre : "# col_headers =".toList ∉ pre) :
    readDatafile content = (metadataToDict (pre ++ (splitSummary post).2) >>= fun mu =>
      spiceRows content >>= fun rows =>
      .ok { metadata := mu.1, data := dataDict (splitWs (lstripChar '#' nameLine)) rows, unrecognized := mu.2,
            errorMsg := (splitSummary post).1 }) := by
  rw [comments_iff] at hc
  rw [readDatafile, hc, listIndex_first hpre]
  show (need (pre ++ colHeaders :: nameLine :: post)[pre.length + 1]? _ >>= _) = _
  have h1 : (pre ++ colHeaders :: nameLine :: post)[pre.length + 1]? = some nameLine := by simp
  have h2 : (pre ++ colHeaders :: nameLine :: post).take pre.length = pre := by simp
  have h3 : (pre ++ colHeaders :: nameLine :: post).drop (pre.length + 2) = post := by
    rw [List.drop_append, List.drop_eq_nil_of_le (by omega)]; simp
  rw [h1, h2, h3]; rfl

/-- **C49** (partial): in a file with a summary, the comment lines before the marker and from the summary on are the
metadata lines, the line after the marker gives the column names, and the lines between column names and summary are the
error messages, in order. Missing: files without a summary, see `C49_lines_lost`; the error messages do not reach the logs,
see `C49_errors_dropped`. -/
theorem C49_partition_partial (content pre err rest : List Str) (nameLine s : Str)
    (hc : Spec.Comments content (pre ++ "# col_headers =".toList :: nameLine :: (err ++ s :: rest)))
    (hpre : "# col_headers =".toList ∉ pre) (herr : ∀ h ∈ err, ¬ Spec.Summary h) (hs : Spec.Summary s)
    (f : SpiceFile) (h : readDatafile content = .ok f) :
    metadataToDict (pre ++ s :: rest) = .ok (f.metadata, f.unrecognized) ∧ f.errorMsg = some err := by
  rw [readDatafile_eq hc hpre, splitSummary_some herr hs] at h
  obtain ⟨mu, h1, h⟩ := py_bind_eq_ok.1 h
  obtain ⟨rows, _, h⟩ := py_bind_eq_ok.1 h
  obtain rfl := Except.ok.inj h
  exact ⟨h1, rfl⟩

/-- **C49**, the code disagrees: in a file without a summary every comment line after the column names is lost. -/
theorem C49_lines_lost (content pre post : List Str) (nameLine : Str)
    (hc : Spec.Comments content (pre ++ "# col_headers =".toList :: nameLine :: post))
    (hpre : "# col_headers =".toList ∉ pre) (hpost : ∀ h ∈ post, ¬ Spec.Summary h)
    (f : SpiceFile) (h : readDatafile content = .ok f) :
    metadataToDict pre = .ok (f.metadata, f.unrecognized) ∧ f.errorMsg = none := by
  rw [readDatafile_eq hc hpre, splitSummary_none hpost] at h
  obtain ⟨mu, h1, h⟩ := py_bind_eq_ok.1 h
  obtain ⟨rows, _, h⟩ := py_bind_eq_ok.1 h
  obtain rfl := Except.ok.inj h
  rw [List.append_nil] at h1
  exact ⟨h1, rfl⟩

/-- **C49**: a file without the marker line is refused. -/
theorem C49_no_marker (content hs : List Str) (hc : Spec.Comments content hs) (h : "# col_headers =".toList ∉ hs) :
    readDatafile content = .error .valueError := by
  rw [comments_iff] at hc
  have : hs.findIdx? (· == colHeaders) = none := by
    rw [List.findIdx?_eq_none_iff]
    intro x hx
    rw [beq_eq_false_iff_ne]
    rintro rfl
    exact h hx
  rw [readDatafile, hc, listIndex, this]; rfl

theorem addAttributes_lookup (md attrs : List (Str × MetaVal)) (k : Str)
    (h : ∀ v, (k, v) ∈ md → v.truthy = false) : lookupKey k (addAttributes attrs md) = lookupKey k attrs := by
  induction md generalizing attrs with
  | nil => rfl
  | cons kv md ih =>
    obtain ⟨k', v⟩ := kv
    rw [addAttributes, List.foldl_cons]
    show lookupKey k (addAttributes _ md) = _
    rw [ih _ fun v hv => h v (by simp [hv])]
    split
    · rename_i ht
      rw [lookupKey_assocSet, if_neg]
      rintro rfl
      rw [h v (by simp)] at ht
      exact absurd ht (by simp)
    · rfl

theorem mem_assocSet {β : Type} {l : List (Str × β)} {k k' : Str} {v v' : β} (h : (k', v') ∈ assocSet l k v) :
    (k', v') ∈ l ∨ (k' = k ∧ v' = v) := by
  induction l with
  | nil =>
    rw [assocSet, List.mem_singleton, Prod.mk.injEq] at h
    exact .inr h
  | cons kv l ih =>
    obtain ⟨k0, v0⟩ := kv
    rw [assocSet] at h
    split at h
    · rename_i hk
      rcases List.mem_cons.1 h with h | h
      · obtain ⟨rfl, rfl⟩ := Prod.mk.inj h
        exact .inr ⟨hk, rfl⟩
      · exact .inl (by simp [h])
    · rcases List.mem_cons.1 h with h | h
      · exact .inl (by simp [h])
      · rcases ih h with h | h
        · exact .inl (by simp [h])
        · exact .inr h

theorem mem_assocUpdate {β : Type} {l e : List (Str × β)} {k : Str} {v : β} (h : (k, v) ∈ assocUpdate l e) :
    (k, v) ∈ l ∨ (k, v) ∈ e := by
  induction e generalizing l with
  | nil => exact .inl h
  | cons kv e ih =>
    rw [assocUpdate, List.foldl_cons] at h
    rcases ih h with h | h
    · rcases mem_assocSet h with h | ⟨rfl, rfl⟩
      · exact .inl h
      · exact .inr (by simp)
    · exact .inr (by simp [h])

/-- **C49**, the code disagrees: whatever error messages a scan has, they are not in the attributes of the log group. -/
theorem C49_errors_dropped (f : SpiceFile) (instrument : Str) (attrs : List (Str × MetaVal))
    (hmd : "Error Messages".toList ∉ f.metadata.map Prod.fst)
    (ha : "Error Messages".toList ∉ attrs.map Prod.fst) :
    lookupKey "Error Messages".toList (addAttributes attrs (logAttrs instrument f)) = none := by
  rw [addAttributes_lookup, lookupKey_eq_none]
  · exact ha
  · intro v hv
    have h1 : ∀ v, ("Error Messages".toList, v) ∉
        assocUpdate [("instrument".toList, MetaVal.str instrument)] f.metadata := by
      intro v hv
      rcases mem_assocUpdate hv with h | h
      · rw [List.mem_singleton, Prod.mk.injEq] at h
        exact absurd h.1 (by decide +kernel)
      · exact hmd (List.mem_map.2 ⟨_, h, rfl⟩)
    have h2 : ∀ v, ("Error Messages".toList, v) ∈ (match f.errorMsg with
        | none => assocSet (assocUpdate [("instrument".toList, MetaVal.str instrument)] f.metadata) "Error Messages".toList .none
        | some [] => assocSet (assocUpdate [("instrument".toList, MetaVal.str instrument)] f.metadata)
            "Error Messages".toList (.strs [])
        | some (_ :: _) => assocUpdate [("instrument".toList, MetaVal.str instrument)] f.metadata) →
        v.truthy = false := by
      intro v hv
      split at hv
      · rcases mem_assocSet hv with h | ⟨_, rfl⟩
        · exact absurd h (h1 v)
        · rfl
      · rcases mem_assocSet hv with h | ⟨_, rfl⟩
        · exact absurd h (h1 v)
        · rfl
      · exact absurd hv (h1 v)
    rw [logAttrs] at hv
    split at hv
    · exact h2 v hv
    · rcases mem_assocSet hv with h | ⟨h, _⟩
      · exact h2 v h
      · exact absurd h (by decide +kernel)

/-! ## C52: UB files -/

theorem addUb_other {xml : List Str → Option Str} {fs : FS} {path temp : List Str} {logs out : List (Str × LogVal)}
    (h : addUb xml fs path temp logs = .ok out) (k : Str) (hk : k ≠ "ub_conf".toList) :
    lookupKey k out = lookupKey k logs := by
  rw [addUb] at h
  split at h
  · cases hr : readUbconf xml fs path with
    | error e => rw [hr] at h; simp [Except.map] at h
    | ok c =>
      rw [hr] at h
      obtain rfl := Except.ok.inj h
      rw [lookupKey_assocSet, if_neg hk]
  · split at h
    · cases hr : readUbconf xml fs path with
      | error e => rw [hr] at h; simp [Except.map] at h
      | ok c =>
        rw [hr] at h
        obtain rfl := Except.ok.inj h
        rw [lookupKey_assocSet, if_neg hk]
    · rw [Except.ok.inj h]

/-- The UB file a scan refers to, in the folder next to the data folder. -/
def Spec.ubPath (dir : List Str) (name : Str) : List Str := dir.dropLast ++ ["UBConf".toList, name]

/-- The same in the temp folder. -/
def Spec.ubTemp (dir : List Str) (name : Str) : List Str := dir.dropLast ++ ["UBConf".toList, "temp".toList, name]

/-- The file name at the end of a Windows or Unix path. -/
def Spec.BaseName (path name : Str) : Prop :=
  ('\\' ∉ name ∧ ∃ d, path = d ++ '\\' :: name) ∨
  ('\\' ∉ path ∧ '/' ∉ name ∧ (path = name ∨ ∃ d, path = d ++ '/' :: name))

theorem splitChar_last {c : Char} {d name : Str} (h : c ∉ name) : (splitChar c (d ++ c :: name)).getLastD [] = name := by
  induction hn : d.length using Nat.strong_induction_on generalizing d with
  | _ n ih =>
    by_cases hd : c ∈ d
    · obtain ⟨a, w, rfl, ha⟩ := split_first hd
      have := ih w.length (by rw [← hn]; simp; omega) rfl
      rw [List.append_assoc, List.cons_append, splitChar_cons ha]
      cases hs : splitChar c (w ++ c :: name) with
      | nil => exact absurd hs (splitChar_ne_nil _ _)
      | cons x xs =>
        rw [hs] at this
        simpa [List.getLastD_cons] using this
    · rw [splitChar_cons hd, splitChar_plain h]; rfl

theorem baseName_iff {path name : Str} (h : Spec.BaseName path name) : ubFileName path = name := by
  rw [ubFileName]
  rcases h with ⟨h1, d, rfl⟩ | ⟨h1, h2, rfl | ⟨d, rfl⟩⟩
  · rw [if_pos (by simp), splitChar_last h1]
  · rw [if_neg (by simpa using h1), if_neg (by simpa using h2)]
  · rw [if_neg (by simpa using h1), if_pos (by simp), splitChar_last h2]

theorem createSpicelogs_eq {xml : List Str → Option Str} {fs : FS} {dir : List Str} {name ub base : Str} {f : SpiceFile}
    (hf : readSpiceDatafile fs (dir ++ [name]) = .ok f) (hub : lookupKey "ubconf".toList f.metadata = some (.str ub))
    (hb : Spec.BaseName ub base) :
    createSpicelogs xml fs dir name = addUb xml fs (Spec.ubPath dir base) (Spec.ubTemp dir base)
      (logBase ((splitChar '_' name).headD []) f) := by
  rw [createSpicelogs, hf]
  show (metaText f.metadata "ubconf".toList >>= _) = _
  rw [metaText, hub]
  show addUb _ _ _ _ _ = _
  rw [baseName_iff hb]; rfl

/-- **C52** (partial): a UB file in the UB folder is read and its contents are in the logs the reader returns. Missing: files
in the temp folder only (`C52_temp_fails`), and the contents do not reach the log group of the entry (`C52_dropped`). -/
theorem C52_read_partial (xml : List Str → Option Str) (fs : FS) (dir : List Str) (name ub base : Str) (f : SpiceFile)
    (hf : readSpiceDatafile fs (dir ++ [name]) = .ok f) (hub : lookupKey "ubconf".toList f.metadata = some (.str ub))
    (hb : Spec.BaseName ub base) (lines : List Str) (hfile : fs (Spec.ubPath dir base) = some (.file lines))
    (conf : List (Str × UbVal)) (hconf : readUbconf xml fs (Spec.ubPath dir base) = .ok conf) :
    ∃ logs, createSpicelogs xml fs dir name = .ok logs ∧
      lookupKey "ub_conf".toList logs = some (.ub (Spec.ubPath dir base) conf) := by
  rw [createSpicelogs_eq hf hub hb, addUb, if_pos (by rw [isFile, hfile]), hconf]
  exact ⟨_, rfl, by rw [lookupKey_assocSet, if_pos rfl]⟩

/-- **C52**, the code disagrees: a UB file that is only in the temp folder makes reading the scan fail. -/
theorem C52_temp_fails (xml : List Str → Option Str) (fs : FS) (dir : List Str) (name ub base : Str) (f : SpiceFile)
    (hf : readSpiceDatafile fs (dir ++ [name]) = .ok f) (hub : lookupKey "ubconf".toList f.metadata = some (.str ub))
    (hb : Spec.BaseName ub base) (lines : List Str) (hno : fs (Spec.ubPath dir base) = none)
    (htemp : fs (Spec.ubTemp dir base) = some (.file lines)) :
    createSpicelogs xml fs dir name = .error .fileNotFound := by
  rw [createSpicelogs_eq hf hub hb, addUb, if_neg (by rw [isFile, hno]; simp), if_pos (by rw [isFile, htemp]), readUbconf,
    openText, hno]; rfl

theorem assocErase_set {β : Type} (l : List (Str × β)) (k : Str) (v : β) : assocErase (assocSet l k v) k = assocErase l k := by
  induction l with
  | nil => rw [assocSet, assocErase, List.filter_cons_of_neg (by simp)]; rfl
  | cons kv l ih =>
    obtain ⟨k', v'⟩ := kv
    rw [assocSet]
    split
    · rename_i h
      rw [assocErase, assocErase, List.filter_cons_of_neg (by simp [h]), List.filter_cons_of_neg (by simp [h])]
    · rename_i h
      rw [assocErase, List.filter_cons_of_pos (by simp [h]), assocErase, List.filter_cons_of_pos (by simp [h])]
      exact congrArg _ ih

theorem assocErase_none {β : Type} {l : List (Str × β)} {k : Str} (h : lookupKey k l = none) : assocErase l k = l := by
  rw [lookupKey_eq_none] at h
  rw [assocErase, List.filter_eq_self]
  intro kv hkv
  simp only [ne_eq, decide_eq_true_eq]
  rintro rfl
  exact h (List.mem_map.2 ⟨_, hkv, rfl⟩)

/-- **C52**, the code disagrees: the log group of the entry is the same whether there is a UB file or not, and whatever it
contains. -/
theorem C52_dropped (xml : List Str → Option Str) (fs fs' : FS) (dir : List Str) (name ub base : Str) (f : SpiceFile)
    (hf : readSpiceDatafile fs (dir ++ [name]) = .ok f) (hf' : readSpiceDatafile fs' (dir ++ [name]) = .ok f)
    (hub : lookupKey "ubconf".toList f.metadata = some (.str ub))
    (hb : Spec.BaseName ub base) (hno : lookupKey "ub_conf".toList (logBase ((splitChar '_' name).headD []) f) = none)
    (logs logs' : List (Str × LogVal))
    (h : createSpicelogs xml fs dir name = .ok logs) (h' : createSpicelogs xml fs' dir name = .ok logs') :
    formattedSpicelogs logs = formattedSpicelogs logs' := by
  have key : ∀ (fs : FS) (out : List (Str × LogVal)),
      addUb xml fs (Spec.ubPath dir base) (Spec.ubTemp dir base) (logBase ((splitChar '_' name).headD []) f) = .ok out →
      formattedSpicelogs out = formattedSpicelogs (logBase ((splitChar '_' name).headD []) f) := by
    intro fs out h
    have hset : ∀ p c, formattedSpicelogs (assocSet (logBase ((splitChar '_' name).headD []) f) "ub_conf".toList (.ub p c)) =
        formattedSpicelogs (logBase ((splitChar '_' name).headD []) f) := by
      intro p c
      rw [formattedSpicelogs, formattedSpicelogs, lookupKey_assocSet, if_pos rfl, hno]
      dsimp only
      rw [assocErase_set, assocErase_none hno]
    rw [addUb] at h
    split at h
    · cases hr : readUbconf xml fs (Spec.ubPath dir base) with
      | error e => rw [hr] at h; simp [Except.map] at h
      | ok c =>
        rw [hr] at h
        obtain rfl := Except.ok.inj h
        exact hset _ _
    · split at h
      · cases hr : readUbconf xml fs (Spec.ubPath dir base) with
        | error e => rw [hr] at h; simp [Except.map] at h
        | ok c =>
          rw [hr] at h
          obtain rfl := Except.ok.inj h
          exact hset _ _
      · rw [Except.ok.inj h]
  rw [createSpicelogs_eq hf hub hb] at h
  rw [createSpicelogs_eq hf' hub hb] at h'
  rw [key fs logs h, key fs' logs' h']

end Tavi
