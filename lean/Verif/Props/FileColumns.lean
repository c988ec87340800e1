import Verif.Props.Columns
import Verif.Props.Numbers

/-!
# Loading a SPICE file (C75)
-/

namespace Tavi

open Spec

/-! ## Distinct keys -/

theorem nodup_assocUpdate {β : Type} (e : List (Str × β)) {l : List (Str × β)} (h : (l.map Prod.fst).Nodup) :
    ((assocUpdate l e).map Prod.fst).Nodup := by
  induction e generalizing l with
  | nil => exact h
  | cons kv e ih => exact ih (nodup_assocSet h _ _)

theorem nodup_metaStep (st : MetaState) (line : Str) (h : (st.md.map Prod.fst).Nodup) :
    ((metaStep st line).md.map Prod.fst).Nodup := by
  unfold metaStep
  split
  · show ((setEndTime _ _).map Prod.fst).Nodup
    unfold setEndTime
    split
    · exact nodup_assocSet h _ _
    · exact h
  · split
    · show ((addPair _ _).map Prod.fst).Nodup
      unfold addPair
      split
      · exact h
      · split <;> exact nodup_assocSet h _ _
    · exact h

theorem nodup_metaFold (lines : List Str) (st : MetaState) (h : (st.md.map Prod.fst).Nodup) :
    ((lines.foldl metaStep st).md.map Prod.fst).Nodup := by
  induction lines generalizing st with
  | nil => exact h
  | cons l lines ih => exact ih _ (nodup_metaStep st l h)

theorem nodup_metadata {lines : List Str} {mu : List (Str × MetaVal) × Option (List Str)}
    (h : metadataToDict lines = .ok mu) : (mu.1.map Prod.fst).Nodup := by
  rw [metadataToDict] at h
  obtain ⟨md, h1, h⟩ := py_bind_eq_ok.1 h
  obtain rfl := Except.ok.inj h
  have h0 := nodup_metaFold lines ⟨[], []⟩ (by simp)
  have h0' : (((lines.foldl metaStep ⟨[], []⟩).md.map fun kv => (kv.1, MetaVal.str kv.2)).map Prod.fst).Nodup := by
    rw [List.map_map]; exact h0
  rw [addCounts] at h1
  split at h1
  · obtain ⟨cf, _, h1⟩ := py_bind_eq_ok.1 h1
    obtain ⟨chs, _, h1⟩ := py_bind_eq_ok.1 h1
    obtain rfl := Except.ok.inj h1
    exact nodup_assocUpdate _ h0'
  · obtain rfl := Except.ok.inj h1
    exact h0'

theorem nodup_dataDict {names : List Str} {rows : List (List (Option ℚ))} {d : List (Str × List (Option ℚ))}
    (h : dataDict names rows = some d) : (d.map Prod.fst).Nodup := by
  unfold dataDict at h
  split at h
  · exact absurd h (by simp)
  · rw [← Option.some.inj h]; exact nodup_assocUpdate _ (by simp)
  · split at h
    · rw [← Option.some.inj h]; exact nodup_assocUpdate _ (by simp)
    · rw [← Option.some.inj h]; exact nodup_assocUpdate _ (by simp)

theorem nodup_file {fs : FS} {path : List Str} {f : SpiceFile} (h : readSpiceDatafile fs path = .ok f) :
    (f.metadata.map Prod.fst).Nodup ∧ ∀ d, f.data = some d → (d.map Prod.fst).Nodup := by
  rw [readSpiceDatafile] at h
  obtain ⟨content, _, h⟩ := py_bind_eq_ok.1 h
  split at h
  · rw [readDatafile] at h
    obtain ⟨i, _, h⟩ := py_bind_eq_ok.1 h
    obtain ⟨nl, _, h⟩ := py_bind_eq_ok.1 h
    obtain ⟨mu, h1, h⟩ := py_bind_eq_ok.1 h
    obtain ⟨rows, _, h⟩ := py_bind_eq_ok.1 h
    obtain rfl := Except.ok.inj h
    exact ⟨nodup_metadata h1, fun d hd => nodup_dataDict hd⟩
  · exact absurd h (by simp)

/-! ## The logs of a file -/

namespace Spec

/-- The columns of a file. -/
def columns (f : SpiceFile) : List (Str × List (Option ℚ)) := f.data.getD []

/-- The text of a header entry. -/
def header (f : SpiceFile) (k : Str) : Option Str :=
  match lookupKey k f.metadata with
  | some (.str s) => some s
  | _ => none

end Spec

theorem nodup_columns {fs : FS} {path : List Str} {f : SpiceFile} (h : readSpiceDatafile fs path = .ok f) :
    ((columns f).map Prod.fst).Nodup := by
  unfold columns
  cases hd : f.data with
  | none => simp
  | some d => exact (nodup_file h).2 d hd

theorem logBase_eq (i : Str) (f : SpiceFile) : logBase i f =
    assocUpdate [("metadata".toList, .meta_ (logAttrs i f))] ((columns f).map fun kv => (kv.1, LogVal.col kv.2)) := by
  unfold logBase columns
  split
  · rename_i h; rw [h]; rfl
  · rename_i d h; rw [h]; rfl

theorem logBase_lookup {i : Str} {f : SpiceFile} (hn : ((columns f).map Prod.fst).Nodup) (k : Str) :
    lookupKey k (logBase i f) = ((lookupKey k (columns f)).map LogVal.col).or
      (if k = "metadata".toList then some (.meta_ (logAttrs i f)) else none) := by
  rw [logBase_eq, lookupKey_assocUpdate _ (by rw [List.map_map]; exact hn), lookupKey_map]
  congr 1
  show (if "metadata".toList = k then _ else none) = _
  simp only [eq_comm]

theorem createSpicelogs_inv {xml : List Str → Option Str} {fs : FS} {dir : List Str} {name : Str}
    {logs : List (Str × LogVal)} (h : createSpicelogs xml fs dir name = .ok logs) :
    ∃ f path temp, readSpiceDatafile fs (dir ++ [name]) = .ok f ∧
      addUb xml fs path temp (logBase ((splitChar '_' name).headD []) f) = .ok logs := by
  rw [createSpicelogs] at h
  obtain ⟨f, hf, h⟩ := py_bind_eq_ok.1 h
  obtain ⟨ub, _, h⟩ := py_bind_eq_ok.1 h
  exact ⟨f, _, _, hf, h⟩

theorem logs_lookup {xml : List Str → Option Str} {fs : FS} {dir : List Str} {name : Str} {f : SpiceFile}
    {logs : List (Str × LogVal)} (hf : readSpiceDatafile fs (dir ++ [name]) = .ok f)
    (h : createSpicelogs xml fs dir name = .ok logs) {k : Str} (hk : k ≠ "ub_conf".toList) :
    lookupKey k logs = ((lookupKey k (columns f)).map LogVal.col).or
      (if k = "metadata".toList then some (.meta_ (logAttrs ((splitChar '_' name).headD []) f)) else none) := by
  obtain ⟨f', _, _, hf', h'⟩ := createSpicelogs_inv h
  obtain rfl := Except.ok.inj (hf.symm.trans hf')
  rw [addUb_other h' k hk, logBase_lookup (nodup_columns hf)]

theorem lookupKey_logAttrs {i : Str} {f : SpiceFile} (hn : (f.metadata.map Prod.fst).Nodup) {k : Str}
    (h1 : k ≠ "Error Messages".toList) (h2 : k ≠ "Others".toList) :
    lookupKey k (logAttrs i f) = (lookupKey k f.metadata).or
      (if "instrument".toList = k then some (MetaVal.str i) else none) := by
  have h0 : lookupKey k (assocUpdate [("instrument".toList, MetaVal.str i)] f.metadata) = (lookupKey k f.metadata).or
      (if "instrument".toList = k then some (MetaVal.str i) else none) := by
    rw [lookupKey_assocUpdate _ hn]; rfl
  unfold logAttrs
  dsimp only
  cases f.unrecognized <;> cases f.errorMsg with
  | none => simp only [lookupKey_assocSet, if_neg h1, if_neg h2, h0]
  | some l => cases l <;> simp only [lookupKey_assocSet, if_neg h1, if_neg h2, h0]

theorem textOf_logAttrs {i : Str} {f : SpiceFile} (hn : (f.metadata.map Prod.fst).Nodup) {k : Str}
    (h0 : k ≠ "instrument".toList) (h1 : k ≠ "Error Messages".toList) (h2 : k ≠ "Others".toList) :
    textOf (logAttrs i f) k = header f k := by
  rw [textOf, lookupKey_logAttrs hn h1 h2, if_neg (Ne.symm h0), Option.or_none]; rfl

/-! ## C75: every known column can be read -/

/-- The scan counts through a count file. -/
def Spec.Polarized (f : SpiceFile) : Prop := header f "preset_type".toList = some "countfile".toList

theorem known_ne {P : Prop} {n : ℕ} {c name : Str} {int : Bool} (h : KnownColumn P n c name int) :
    c ≠ "metadata".toList ∧ c ≠ "ub_conf".toList := by
  have hn : ∀ s ∈ ["metadata".toList, "ub_conf".toList], NotNumbered s := by decide
  have hnum : ∀ (q : Str) (_ : q ∈ numNames) (i : ℕ), withNumber q i ≠ "metadata".toList ∧ withNumber q i ≠ "ub_conf".toList := by
    intro q hq i
    rw [← suffixed_eq]
    exact ⟨Ne.symm ((hn _ (by decide)).ne hq i), Ne.symm ((hn _ (by decide)).ne hq i)⟩
  cases h with
  | same hc => exact (show ∀ c ∈ Spec.sameName, c ≠ "metadata".toList ∧ c ≠ "ub_conf".toList by decide) c hc
  | renamed hc => exact (show ∀ c ∈ Spec.renamed, c.1 ≠ "metadata".toList ∧ c.1 ≠ "ub_conf".toList by decide) _ hc
  | detector => decide
  | point => decide
  | time _ => decide
  | mcu _ => decide
  | monitor _ => decide
  | detectors _ _ => exact hnum _ (by decide) _
  | times _ _ _ => exact hnum _ (by decide) _
  | mcus _ _ _ => exact hnum _ (by decide) _
  | monitors _ _ _ => exact hnum _ (by decide) _

/-- What is behind a loaded file. -/
theorem fileToNx_inv {iso : Str → Py Str} {xml : List Str → Option Str} {fs : FS} {dir : List Str} {name : Str} {f : SpiceFile}
    {d : Dict} (hf : readSpiceDatafile fs (dir ++ [name]) = .ok f) (h : fileToNx iso xml fs dir name = .ok d) :
    ∃ logs p, createSpicelogs xml fs dir name = .ok logs ∧ Made iso logs p ∧ d = p.entry ∧
      p.md = logAttrs ((splitChar '_' name).headD []) f := by
  rw [fileToNx] at h
  obtain ⟨logs, h1, h⟩ := py_bind_eq_ok.1 h
  obtain ⟨p, hp, rfl⟩ := scanToNx_inv h
  refine ⟨logs, p, h1, hp, rfl, ?_⟩
  have h2 := hp.hmd
  rw [logs_lookup hf h1 (by decide), if_pos rfl] at h2
  cases hm : lookupKey "metadata".toList (columns f) with
  | some l => rw [hm] at h2; exact absurd (Option.some.inj h2) (by simp)
  | none =>
    rw [hm] at h2
    have := Option.some.inj h2
    simpa using this.symm

theorem colOf_file {xml : List Str → Option Str} {fs : FS} {dir : List Str} {name : Str} {f : SpiceFile}
    {logs : List (Str × LogVal)} (hf : readSpiceDatafile fs (dir ++ [name]) = .ok f)
    (h : createSpicelogs xml fs dir name = .ok logs) {c : Str} (h1 : c ≠ "metadata".toList) (h2 : c ≠ "ub_conf".toList) :
    colOf logs c = lookupKey c (columns f) := by
  rw [colOf, logs_lookup hf h h2, if_neg h1, Option.or_none]
  cases lookupKey c (columns f) <;> rfl

theorem detectors_file {xml : List Str → Option Str} {fs : FS} {dir : List Str} {name : Str} {f : SpiceFile}
    {logs : List (Str × LogVal)} (hf : readSpiceDatafile fs (dir ++ [name]) = .ok f)
    (h : createSpicelogs xml fs dir name = .ok logs) (n : ℕ) :
    Detectors ((columns f).map Prod.fst) n ↔ nDet logs = n := by
  have hmem : ∀ i, withNumber "detector".toList i ∈ logs.map Prod.fst ↔
      withNumber "detector".toList i ∈ (columns f).map Prod.fst := by
    intro i
    have hn : ∀ s ∈ ["metadata".toList, "ub_conf".toList], NotNumbered s := by decide
    have h1 : withNumber "detector".toList i ≠ "metadata".toList := by
      rw [← suffixed_eq]; exact Ne.symm ((hn _ (by decide)).ne (by decide) i)
    have h2 : withNumber "detector".toList i ≠ "ub_conf".toList := by
      rw [← suffixed_eq]; exact Ne.symm ((hn _ (by decide)).ne (by decide) i)
    rw [← lookup_isSome, ← lookup_isSome, logs_lookup hf h h2, if_neg h1, Option.or_none, Option.isSome_map]
  rw [← detectors_iff]
  unfold Detectors
  simp only [hmem]

theorem file_gives {iso : Str → Py Str} {xml : List Str → Option Str} {fs : FS} {dir : List Str} {name : Str}
    {f : SpiceFile} (hf : readSpiceDatafile fs (dir ++ [name]) = .ok f) {d : Dict}
    (h : fileToNx iso xml fs dir name = .ok d) {n : ℕ} (hn : Detectors ((columns f).map Prod.fst) n) {c nm : Str} {int : Bool}
    (hc : KnownColumn (Polarized f) n c nm int) (reads : List (Str × Bool)) :
    (lookupKey c (columns f) = none → (nxGet (afterReads d reads) nm false).1 = .ok none) ∧
    (∀ qs, lookupKey c (columns f) = some qs →
      (nxGet (afterReads d reads) nm false).1 = .ok (some (.leaf (.arr (shown int qs))))) := by
  obtain ⟨logs, p, h1, hp, rfl, hmd⟩ := fileToNx_inv hf h
  have hpol : Polarized f ↔ Polarised p.md := by
    unfold Polarized Polarised
    rw [hmd, textOf_logAttrs (nodup_file hf).1 (by decide) (by decide) (by decide)]
  have hc' : KnownColumn (Polarised p.md) (nDet logs) c nm int := by
    rw [(detectors_file hf h1 n).1 hn, ← propext hpol]; exact hc
  have hg := hp.column hc' reads
  rwa [colOf_file hf h1 (known_ne hc).1 (known_ne hc).2] at hg

/-- **C75** (partial): after loading a scan file, every column with a known name can be read from the entry under its NeXus
name and gives the numbers in the file, in order, whatever was read before; counts are cut to whole numbers. Missing:
columns with other names (`C75_unknown_lost`) and, for polarised scans, the unnumbered `time`, `monitor` and `mcu`
(`C75_totals_lost`); counts that are `nan`. -/
theorem C75_columns_partial (iso : Str → Py Str) (xml : List Str → Option Str) (fs : FS) (dir : List Str) (name : Str)
    (f : SpiceFile) (hf : readSpiceDatafile fs (dir ++ [name]) = .ok f) (d : Dict)
    (h : fileToNx iso xml fs dir name = .ok d) (n : ℕ) (hn : Detectors ((columns f).map Prod.fst) n) (c nm : Str) (int : Bool)
    (hc : KnownColumn (Polarized f) n c nm int) (qs : List (Option ℚ)) (hq : lookupKey c (columns f) = some qs)
    (reads : List (Str × Bool)) :
    (nxGet (afterReads d reads) nm false).1 = .ok (some (.leaf (.arr (shown int qs)))) :=
  (file_gives hf h hn hc reads).2 qs hq

/-- **C75**: a known column that is not in the file reads as `None`. -/
theorem C75_absent (iso : Str → Py Str) (xml : List Str → Option Str) (fs : FS) (dir : List Str) (name : Str)
    (f : SpiceFile) (hf : readSpiceDatafile fs (dir ++ [name]) = .ok f) (d : Dict)
    (h : fileToNx iso xml fs dir name = .ok d) (n : ℕ) (hn : Detectors ((columns f).map Prod.fst) n) (c nm : Str) (int : Bool)
    (hc : KnownColumn (Polarized f) n c nm int) (hq : c ∉ (columns f).map Prod.fst) (reads : List (Str × Bool)) :
    (nxGet (afterReads d reads) nm false).1 = .ok none :=
  (file_gives hf h hn hc reads).1 ((lookupKey_eq_none _ _).2 hq)

theorem monK_polarised {md : List (Str × MetaVal)} (hp : Polarised md) (n : ℕ) :
    monK md n = ["preset_type".toList, "countfile".toList] ++ (oneTo n).flatMap chanK := by
  have hp' : textOf md "preset_type".toList = some "countfile".toList := hp
  rw [monK, if_neg (by rw [hp']; decide), if_pos hp']

/-- **C75**, the code disagrees: in a scan with a count file the unnumbered `time`, `monitor` and `mcu` read as `None`,
whatever the file holds. -/
theorem C75_totals_lost (iso : Str → Py Str) (xml : List Str → Option Str) (fs : FS) (dir : List Str) (name : Str)
    (f : SpiceFile) (hf : readSpiceDatafile fs (dir ++ [name]) = .ok f) (d : Dict)
    (h : fileToNx iso xml fs dir name = .ok d) (hpol : Polarized f) (c : Str)
    (hc : c ∈ ["time".toList, "monitor".toList, "mcu".toList]) (reads : List (Str × Bool)) :
    (nxGet (afterReads d reads) c false).1 = .ok none := by
  obtain ⟨logs, p, h1, hp, rfl, hmd⟩ := fileToNx_inv hf h
  have hpol' : Polarised p.md := by
    unfold Polarised
    rw [hmd, textOf_logAttrs (nodup_file hf).1 (by decide) (by decide) (by decide)]; exact hpol
  have hno : p.mon.get? c = none := by
    refine hp.flat_mon.get_none ?_ ((show ∀ c ∈ ["time".toList, "monitor".toList, "mcu".toList], Plain c by decide) c hc)
    rw [monK_polarised hpol', List.mem_append, not_or]
    refine ⟨(show ∀ c ∈ ["time".toList, "monitor".toList, "mcu".toList],
      c ∉ ["preset_type".toList, "countfile".toList] by decide) c hc, fun hm => ?_⟩
    obtain ⟨i, _, hm⟩ := List.mem_flatMap.1 hm
    rw [chanK_eq, List.mem_map] at hm
    obtain ⟨q, hq, hm⟩ := hm
    exact ((show ∀ c ∈ ["time".toList, "monitor".toList, "mcu".toList], NotNumbered c by decide) c hc).ne
      (List.mem_cons_of_mem _ hq) i hm.symm
  by_cases hm : c = "monitor".toList
  · subst hm
    have e : (nxGet (afterReads p.entry reads) "monitor".toList false).1 =
        getItem (dropLogs p.entry) ["monitor".toList, "monitor".toList] false := by
      rw [C42_history, nxGet, split_special]; rfl
    rw [e]
    exact getItem_miss (entry_mon p) hno
  · have hf8 : Free 8 c := by
      simp only [List.mem_cons, List.not_mem_nil, or_false] at hc
      rcases hc with rfl | rfl | rfl
      · decide +kernel
      · exact absurd rfl hm
      · decide +kernel
    have hne : c ≠ "detector".toList ∧ c ≠ "sample".toList := by
      constructor
      · rintro rfl; exact hf8.2.1 (by decide)
      · rintro rfl; exact hf8.2.2.1 (by decide)
    rw [get_free reads hne.1 hm hne.2 hf8.2.2.2.2.2]
    exact (hp.lone 8 (by decide) hf8.1 hf8.2.1 hf8.2.2.1 (hp.others_none hf8.1 hf8.2.2.2.1 hf8.2.2.2.2.1)).1 hno

/-! ## Columns with other names -/

namespace Spec

/-- The names of everything in an entry that is not a column, and of the columns that are renamed. -/
def otherNames : List Str :=
  ["attrs", "dataset", "data", "definition", "title", "start_time", "end_time", "instrument", "monitor", "sample", "user",
   "source", "monochromator", "collimator", "analyser", "detector", "slits", "flipper", "goniometer", "name",
   "probe", "type", "sense", "divergence_x", "preset_type", "countfile", "mode", "preset",
   "unit_cell", "mosaic", "orientation_matrix", "plane_normal", "qh", "qk", "ql", "en"].map String.toList

end Spec

theorem fixed_sub : ∀ j ∈ List.range 11, j ≠ 8 → ∀ k ∈ fixedK.getD j [],
    k ∈ Spec.sameName ∨ k ∈ Spec.otherNames ∨ k = "Pt.".toList := by decide +kernel

theorem inst_top_sub : ∀ k ∈ instK ++ topK, k ∈ Spec.otherNames := by decide +kernel

/-- **C75**, the code disagrees: a column whose name is not known reads as `None`, whatever the file holds. -/
theorem C75_unknown_lost (iso : Str → Py Str) (xml : List Str → Option Str) (fs : FS) (dir : List Str) (name : Str)
    (f : SpiceFile) (hf : readSpiceDatafile fs (dir ++ [name]) = .ok f) (d : Dict)
    (h : fileToNx iso xml fs dir name = .ok d) (n : ℕ) (hn : Detectors ((columns f).map Prod.fst) n) (c : Str)
    (hc : ∀ nm int, ¬ KnownColumn (Polarized f) n c nm int) (ho : c ∉ Spec.otherNames)
    (hch : ∀ q ∈ ["mode".toList, "preset".toList, "label".toList], ∀ i, c ≠ withNumber q i) (hs : '/' ∉ c)
    (reads : List (Str × Bool)) :
    (nxGet (afterReads d reads) c false).1 = .ok none := by
  obtain ⟨logs, p, h1, hp, rfl, hmd⟩ := fileToNx_inv hf h
  have hpol : Polarized f ↔ Polarised p.md := by
    unfold Polarized Polarised
    rw [hmd, textOf_logAttrs (nodup_file hf).1 (by decide) (by decide) (by decide)]
  have hnd := (detectors_file hf h1 n).1 hn
  have hoth : ∀ k ∈ Spec.otherNames, c ≠ k := fun k hk e => ho (e ▸ hk)
  have hpl : Plain c := ⟨hoth _ (by decide), hoth _ (by decide)⟩
  rw [get_free reads (hoth _ (by decide)) (hoth _ (by decide)) (hoth _ (by decide)) hs]
  have hsame : c ∉ Spec.sameName := fun e => hc _ _ (.same e)
  have hpt : c ≠ "Pt.".toList := by rintro rfl; exact hc _ _ .point
  have hfix : ∀ j < 11, j ≠ 8 → c ∉ fixedK.getD j [] := by
    intro j hj h8 hk
    rcases fixed_sub j (List.mem_range.2 hj) h8 c hk with h' | h' | h'
    · exact hsame h'
    · exact ho h'
    · exact hpt h'
  have hall : ∀ j < 11, (p.groups.getD j .nil).get? c = none := by
    intro j hj
    by_cases h8 : j = 8
    · subst h8
      refine hp.flat_mon.get_none (fun hk => ?_) hpl
      by_cases hP : Polarised p.md
      · rw [monK_polarised hP, List.mem_append] at hk
        rcases hk with hk | hk
        · exact ho ((show ∀ k ∈ ["preset_type".toList, "countfile".toList], k ∈ Spec.otherNames by decide) c hk)
        · obtain ⟨i, hi, hk⟩ := List.mem_flatMap.1 hk
          rw [mem_oneTo, hnd] at hi
          rw [chanK_eq, List.mem_map] at hk
          obtain ⟨q, hq, rfl⟩ := hk
          simp only [suffixed_eq] at hch hc
          simp only [chanNames, List.mem_cons, List.not_mem_nil, or_false] at hq
          rcases hq with rfl | rfl | rfl | rfl | rfl | rfl
          · exact hch _ (by decide) i rfl
          · exact hch _ (by decide) i rfl
          · exact hc _ _ (.times (hpol.2 hP) hi.1 hi.2)
          · exact hc _ _ (.monitors (hpol.2 hP) hi.1 hi.2)
          · exact hc _ _ (.mcus (hpol.2 hP) hi.1 hi.2)
          · exact hch _ (by decide) i rfl
      · have hP' : ¬ Polarized f := fun e => hP (hpol.1 e)
        have hK : ∀ k ∈ monK p.md (nDet logs), k ∈ Spec.otherNames ∨ k ∈ ["time".toList, "monitor".toList, "mcu".toList] := by
          rw [monK]
          split
          · decide
          · rw [if_neg (show ¬ textOf p.md "preset_type".toList = some "countfile".toList from hP)]
            decide
        rcases hK c hk with h' | h'
        · exact ho h'
        · simp only [List.mem_cons, List.not_mem_nil, or_false] at h'
          rcases h' with rfl | rfl | rfl
          · exact hc _ _ (.time hP')
          · exact hc _ _ (.monitor hP')
          · exact hc _ _ (.mcu hP')
    · by_cases h4 : j = 4
      · subst h4
        refine hp.flat_det.get_none (fun hk => ?_) hpl
        rw [detK, List.mem_cons] at hk
        rcases hk with hk | hk
        · exact hoth _ (by decide) hk
        · obtain ⟨i, hi, rfl⟩ := List.mem_map.1 hk
          rw [mem_oneTo, hnd] at hi
          simp only [suffixed_eq] at hc
          exact hc _ _ (.detectors hi.1 hi.2)
      · obtain ⟨K, hfl, hK⟩ : ∃ K, Flat (p.groups.getD j .nil) K ∧ K = fixedK.getD j [] := by
          interval_cases j
          · exact ⟨_, hp.flat_src, rfl⟩
          · exact ⟨_, hp.flat_mono, rfl⟩
          · exact ⟨_, hp.flat_coll, rfl⟩
          · exact ⟨_, hp.flat_ana, rfl⟩
          · exact absurd rfl h4
          · exact ⟨_, hp.flat_slits, rfl⟩
          · exact ⟨_, hp.flat_flip, rfl⟩
          · exact ⟨_, hp.flat_goni, rfl⟩
          · exact absurd rfl h8
          · exact ⟨_, hp.flat_samp, rfl⟩
          · exact ⟨_, hp.flat_user, rfl⟩
        exact hfl.get_none (hK ▸ hfix j hj h8) hpl
  exact (hp.lone 0 (by decide) hpl (fun e => ho (inst_top_sub c (List.mem_append_left _ e)))
    (fun e => ho (inst_top_sub c (List.mem_append_right _ e))) (fun j hj _ => hall j hj)).1 (hall 0 (by decide))

end Tavi
