import Verif.Model.Ornl
import Verif.Props.Datafile
import Verif.Props.Filter

/-! # C71: what the second SPICE reader makes of a file -/

namespace Tavi

open Spec (Blank Tight Trim)

/-- Characters the reader cuts off at both ends of a comment line. -/
def Spec.Edge (c : Char) : Prop := c = '#' ∨ c = ' '

/-- `b` is the line `h` without hashes and spaces at both ends. -/
def Spec.Core (h b : Str) : Prop :=
  ∃ x y, h = x ++ b ++ y ∧ (∀ c ∈ x, Spec.Edge c) ∧ (∀ c ∈ y, Spec.Edge c) ∧
    (∀ c, b.head? = some c → ¬ Spec.Edge c) ∧ ∀ c, b.getLast? = some c → ¬ Spec.Edge c

/-- What a comment line tells: a value for a key, or something else. -/
inductive Spec.Told where
  | entry (k v : Str)
  | other (b : Str)

/-- The meaning of a line. A line that mentions `completed` or `stopped` tells the time of the end: its fourth, first and second
word. Otherwise the key is what stands before the first `=`, the value what stands after it but for one character. -/
def Spec.Tells (h : Str) : Spec.Told → Prop
  | .entry k v => ∃ b, Spec.Core h b ∧
      ((Spec.Ended b ∧ k = "end_time".toList ∧ ∃ w0 w1 w2 w3 rest, b = joinStr " ".toList (w0 :: w1 :: w2 :: w3 :: rest) ∧
          (∀ w ∈ w0 :: w1 :: w2 :: w3 :: rest, ' ' ∉ w) ∧ v = w3 ++ " ".toList ++ w0 ++ " ".toList ++ w1) ∨
        (¬ Spec.Ended b ∧ ∃ k0 x, b = k0 ++ '=' :: x ∧ '=' ∉ k0 ∧ Trim k0 k ∧ v = x.drop 1))
  | .other b => Spec.Core h b ∧ ¬ Spec.Ended b ∧ '=' ∉ b

/-- The last value told for a key. -/
def Spec.lastTold (k : Str) (ms : List Spec.Told) : Option Str :=
  (ms.filterMap fun m => match m with | .entry k' v => if k' = k then some v else none | .other _ => none).getLast?

/-- Everything else that was told. -/
def Spec.otherTold (ms : List Spec.Told) : List Str :=
  ms.filterMap fun m => match m with | .entry _ _ => none | .other b => some b

/-- The comment lines of a file: all lines with a hash anywhere, without white space at the ends. -/
def Spec.Hashed (content hs : List Str) : Prop := List.Forall₂ Trim (content.filter fun l => decide ('#' ∈ l)) hs

namespace Ornl

theorem hashed_iff {content hs : List Str} : Spec.Hashed content hs ↔ headers content = hs := forall₂_trim

theorem dropWhile_edges {x : Str} (hx : ∀ c ∈ x, Spec.Edge c) {b : Str} (hb : ∀ c, b.head? = some c → ¬ Spec.Edge c) :
    (x ++ b).dropWhile (fun c => decide (c ∈ "# ".toList)) = b := by
  have he : ∀ c : Char, c ∈ "# ".toList ↔ Spec.Edge c := fun c => by
    show c ∈ ['#', ' '] ↔ _
    simp [Spec.Edge]
  induction x with
  | nil =>
    cases b with
    | nil => rfl
    | cons c b =>
      rw [List.nil_append, List.dropWhile_cons_of_neg]
      rw [decide_eq_true_eq, he]
      exact hb c rfl
  | cons c x ih =>
    rw [List.cons_append, List.dropWhile_cons_of_pos]
    · exact ih fun c' h' => hx c' (List.mem_cons_of_mem _ h')
    · rw [decide_eq_true_eq, he]; exact hx c List.mem_cons_self

theorem core_iff {h b : Str} : Spec.Core h b ↔ stripSet "# ".toList h = b := by
  constructor
  · rintro ⟨x, y, rfl, hx, hy, h1, h2⟩
    rw [stripSet, List.append_assoc]
    by_cases hb : b = []
    · subst hb
      rw [List.nil_append, ← List.append_nil (x ++ y), dropWhile_edges (b := [])]
      · rfl
      · intro c hc; rcases List.mem_append.1 hc with hc | hc
        · exact hx c hc
        · exact hy c hc
      · simp
    · rw [dropWhile_edges hx, List.reverse_append, dropWhile_edges, List.reverse_reverse]
      · exact fun c hc => hy c (List.mem_reverse.1 hc)
      · intro c hc; rw [List.head?_reverse] at hc; exact h2 c hc
      · intro c hc
        apply h1
        cases b with
        | nil => exact absurd rfl hb
        | cons _ _ => exact hc
  · rintro rfl
    have he : ∀ c : Char, decide (c ∈ "# ".toList) = true ↔ Spec.Edge c := fun c => by
      rw [decide_eq_true_eq]
      show c ∈ ['#', ' '] ↔ _
      simp [Spec.Edge]
    have hsplit : ∀ s : Str, s = s.takeWhile (fun c => decide (c ∈ "# ".toList)) ++ s.dropWhile (fun c => decide (c ∈ "# ".toList)) :=
      fun s => List.takeWhile_append_dropWhile.symm
    have hhead : ∀ s : Str, ∀ c, (s.dropWhile fun c => decide (c ∈ "# ".toList)).head? = some c → ¬ Spec.Edge c := by
      intro s c hc h
      have := List.head?_dropWhile_not (fun c => decide (c ∈ "# ".toList)) s
      rw [hc] at this
      simp only at this
      rw [(he c).2 h] at this
      simp at this
    rw [stripSet]
    generalize hd : h.dropWhile (fun c => decide (c ∈ "# ".toList)) = d
    have hh : h = h.takeWhile (fun c => decide (c ∈ "# ".toList)) ++ d := hd ▸ hsplit h
    refine ⟨h.takeWhile (fun c => decide (c ∈ "# ".toList)), (d.reverse.takeWhile fun c => decide (c ∈ "# ".toList)).reverse, ?_, ?_, ?_, ?_, ?_⟩
    · rw [List.append_assoc, ← List.reverse_append, ← hsplit, List.reverse_reverse]; exact hh
    · intro c hc; exact (he c).1 (all_takeWhile _ _ c hc)
    · intro c hc; exact (he c).1 (all_takeWhile _ _ c (List.mem_reverse.1 hc))
    · intro c hc
      have h3 := hsplit d.reverse
      have h4 : d = (d.reverse.dropWhile fun c => decide (c ∈ "# ".toList)).reverse ++
          (d.reverse.takeWhile fun c => decide (c ∈ "# ".toList)).reverse := by
        rw [← List.reverse_append, ← h3, List.reverse_reverse]
      refine hhead h c ?_
      rw [hd, h4, List.head?_append, hc]; rfl
    · intro c hc
      rw [List.getLast?_reverse] at hc
      exact hhead _ c hc

theorem core_unique {h b b' : Str} (h1 : Spec.Core h b) (h2 : Spec.Core h b') : b = b' :=
  (core_iff.1 h1).symm.trans (core_iff.1 h2)

theorem ended_bool (b : Str) :
    (isSubstr "completed".toList b = true ∨ isSubstr "stopped".toList b = true) ↔ Spec.Ended b := by
  rw [isSubstr_iff, isSubstr_iff]; rfl

theorem keyVal_eq {k0 x k : Str} (h : '=' ∉ k0) (hk : Trim k0 k) : keyVal (k0 ++ '=' :: x) = (k, x.drop 1) := by
  rw [keyVal, splitChar_cons h]
  show (strip k0, (joinStr "=".toList (splitChar '=' x)).drop 1) = _
  rw [trim_iff.1 hk]
  have := (join_splitChar '=' x).1
  rw [show "=".toList = ['='] from rfl, this]

/-- What a told line does to metadata and other lines. -/
def tellStep (st : List (Str × Str) × List Str) : Spec.Told → List (Str × Str) × List Str
  | .entry k v => (assocSet st.1 k v, st.2)
  | .other b => (st.1, st.2 ++ [b])

theorem metaEntry_ok {h : Str} {m : Spec.Told} (hm : Spec.Tells h m) (st : List (Str × Str) × List Str) :
    metaEntry h st = .ok (tellStep st m) := by
  cases m with
  | entry k v =>
    obtain ⟨b, hc, hm⟩ := hm
    rw [metaEntry]
    simp only [core_iff.1 hc]
    rcases hm with ⟨he, rfl, w0, w1, w2, w3, rest, hb, hw, rfl⟩ | ⟨he, k0, x, rfl, hk0, hk, rfl⟩
    · rw [if_pos ((ended_bool b).2 he)]
      have hs : splitChar ' ' b = w0 :: w1 :: w2 :: w3 :: rest := by
        rw [hb]; exact splitChar_join (by simp) hw
      rw [hs]; rfl
    · rw [if_neg (fun h => he ((ended_bool _).1 h)), if_pos (by simp), keyVal_eq hk0 hk]; rfl
  | other b =>
    obtain ⟨hc, he, hb⟩ := hm
    rw [metaEntry]
    simp only [core_iff.1 hc]
    rw [if_neg (fun h => he ((ended_bool _).1 h)), if_neg hb]; rfl

/-- The line has no meaning: it mentions the end with fewer than four words. -/
def _root_.Tavi.Spec.Truncated (h : Str) : Prop :=
  ∃ b, Spec.Core h b ∧ Spec.Ended b ∧ ∃ ws : List Str, ws.length < 4 ∧ b = joinStr " ".toList ws ∧ ws ≠ [] ∧ ∀ w ∈ ws, ' ' ∉ w

theorem metaEntry_err {h : Str} (hm : Spec.Truncated h) (st : List (Str × Str) × List Str) :
    metaEntry h st = .error .indexError := by
  obtain ⟨b, hc, he, ws, hl, hb, hn, hw⟩ := hm
  rw [metaEntry]
  simp only [core_iff.1 hc]
  rw [if_pos ((ended_bool b).2 he)]
  have hs : splitChar ' ' b = ws := by rw [hb]; exact splitChar_join hn hw
  rw [hs, List.getElem?_eq_none (by omega)]
  rfl

theorem tells_or (h : Str) : (∃ m, Spec.Tells h m) ∨ Spec.Truncated h := by
  obtain ⟨b, hb⟩ : ∃ b, Spec.Core h b := ⟨_, core_iff.2 rfl⟩
  by_cases he : Spec.Ended b
  · have hj := join_splitChar ' ' b
    rcases hs : splitChar ' ' b with _ | ⟨w0, _ | ⟨w1, _ | ⟨w2, _ | ⟨w3, rest⟩⟩⟩⟩
    · exact absurd hs (splitChar_ne_nil _ _)
    · exact .inr ⟨b, hb, he, _, by simp, (hs ▸ hj.1).symm, by simp, hs ▸ hj.2⟩
    · exact .inr ⟨b, hb, he, _, by simp, (hs ▸ hj.1).symm, by simp, hs ▸ hj.2⟩
    · exact .inr ⟨b, hb, he, _, by simp, (hs ▸ hj.1).symm, by simp, hs ▸ hj.2⟩
    · exact .inl ⟨.entry _ _, b, hb, .inl ⟨he, rfl, w0, w1, w2, w3, rest, (hs ▸ hj.1).symm, hs ▸ hj.2, rfl⟩⟩
  · by_cases hq : '=' ∈ b
    · obtain ⟨k0, x, rfl, hk⟩ := split_first hq
      exact .inl ⟨.entry _ _, _, hb, .inr ⟨he, k0, x, rfl, hk, trim_strip k0, rfl⟩⟩
    · exact .inl ⟨.other b, hb, he, hq⟩

theorem metaLoop_ok {hs : List Str} {ms : List Spec.Told} (h : List.Forall₂ Spec.Tells hs ms)
    (st : List (Str × Str) × List Str) : metaLoop hs st = .ok (ms.foldl tellStep st) := by
  induction h generalizing st with
  | nil => rfl
  | cons h1 _ ih =>
    rw [metaLoop, metaEntry_ok h1]
    exact ih _

theorem metaLoop_tells {hs : List Str} {st st' : List (Str × Str) × List Str} (h : metaLoop hs st = .ok st') :
    ∃ ms, List.Forall₂ Spec.Tells hs ms := by
  induction hs generalizing st with
  | nil => exact ⟨[], .nil⟩
  | cons a hs ih =>
    rw [metaLoop] at h
    obtain ⟨st1, h1, h2⟩ := py_bind_eq_ok.1 h
    obtain ⟨ms, hms⟩ := ih h2
    rcases tells_or a with ⟨m, hm⟩ | ht
    · exact ⟨m :: ms, .cons hm hms⟩
    · rw [metaEntry_err ht] at h1; cases h1

theorem foldl_lookup (ms : List Spec.Told) (st : List (Str × Str) × List Str) (k : Str) :
    lookupKey k (ms.foldl tellStep st).1 = (Spec.lastTold k ms).or (lookupKey k st.1) := by
  induction ms generalizing st with
  | nil => rfl
  | cons m ms ih =>
    rw [List.foldl_cons, ih]
    cases m with
    | entry k' v =>
      simp only [tellStep, Spec.lastTold, List.filterMap_cons]
      rw [lookupKey_assocSet]
      by_cases hk : k' = k
      · rw [if_pos hk.symm, if_pos hk]
        simp only
        rw [List.getLast?_cons]
        cases (List.getLast? _) <;> rfl
      · rw [if_neg (Ne.symm hk), if_neg hk]
    | other b => rfl

theorem foldl_others (ms : List Spec.Told) (st : List (Str × Str) × List Str) :
    (ms.foldl tellStep st).2 = st.2 ++ Spec.otherTold ms := by
  induction ms generalizing st with
  | nil => simp [Spec.otherTold]
  | cons m ms ih =>
    rw [List.foldl_cons, ih]
    cases m with
    | entry k' v => rfl
    | other b => simp [tellStep, Spec.otherTold]

theorem lookup_told (ms : List Spec.Told) (k : Str) :
    lookupKey k (ms.foldl tellStep ([], [])).1 = Spec.lastTold k ms := by
  rw [foldl_lookup]
  exact Option.or_none

theorem forall₂_left {α β : Type} {R : α → β → Prop} {l : List α} {r : List β} (h : List.Forall₂ R l r) {a : α} (ha : a ∈ l) :
    ∃ b ∈ r, R a b := by
  induction h with
  | nil => cases ha
  | cons h1 _ ih =>
    rcases List.mem_cons.1 ha with rfl | ha
    · exact ⟨_, List.mem_cons_self, h1⟩
    · obtain ⟨b, hb, hr⟩ := ih ha
      exact ⟨b, List.mem_cons_of_mem _ hb, hr⟩

/-- The file has this layout: metadata, marker, column names, and then messages and summary, the summary beginning with the first
line of all that says `# Sum of Counts =`. -/
structure _root_.Tavi.Spec.Layout (content : List Str) (pre : List Str) (nameLine : Str) (err summary : List Str) : Prop where
  linesEq : Spec.Hashed content (pre ++ "# col_headers =".toList :: nameLine :: (err ++ summary))
  preOk : "# col_headers =".toList ∉ pre
  nameOk : ∀ h ∈ pre ++ [nameLine], ¬ Spec.Summary h
  errOk : ∀ h ∈ err, ¬ Spec.Summary h
  sumOk : ∀ s, summary.head? = some s → Spec.Summary s

theorem not_summary_marker : ¬ Spec.Summary "# col_headers =".toList := by
  rw [← summary_iff]; decide

theorem groups_eq {content pre err summary : List Str} {nameLine : Str} (h : Spec.Layout content pre nameLine err summary) :
    groups (headers content) pre.length = (pre ++ summary, err) := by
  rw [hashed_iff.1 h.linesEq]
  have hd : (pre ++ "# col_headers =".toList :: nameLine :: (err ++ summary)).drop (pre.length + 2) = err ++ summary := by
    rw [List.drop_append, List.drop_eq_nil_of_le (by omega)]; simp
  have ht : (pre ++ "# col_headers =".toList :: nameLine :: (err ++ summary)).take pre.length = pre := by simp
  have hno : ∀ x ∈ pre ++ "# col_headers =".toList :: nameLine :: err, startsWith sumOfCounts x = false := by
    intro x hx
    rw [← Bool.not_eq_true, summary_iff]
    rcases List.mem_append.1 hx with hx | hx
    · exact h.nameOk x (List.mem_append_left _ hx)
    · rcases List.mem_cons.1 hx with rfl | hx
      · exact not_summary_marker
      · rcases List.mem_cons.1 hx with rfl | hx
        · exact h.nameOk _ (List.mem_append_right _ List.mem_cons_self)
        · exact h.errOk x hx
  have hass : pre ++ "# col_headers =".toList :: nameLine :: (err ++ summary) =
      (pre ++ "# col_headers =".toList :: nameLine :: err) ++ summary := by simp
  rcases summary with _ | ⟨s, rest⟩
  · have hf : (pre ++ "# col_headers =".toList :: nameLine :: (err ++ [])).findIdx? (startsWith sumOfCounts) = none := by
      rw [List.findIdx?_eq_none_iff]
      intro x hx
      rw [List.append_nil] at hx
      exact hno x hx
    rw [groups, hf]
    simp only
    rw [hd, ht, List.append_nil, List.append_nil]
  · have hf : (pre ++ "# col_headers =".toList :: nameLine :: (err ++ s :: rest)).findIdx? (startsWith sumOfCounts) =
        some (pre ++ "# col_headers =".toList :: nameLine :: err).length := by
      rw [hass, List.findIdx?_eq_some_iff_getElem]
      refine ⟨by simp, ?_, fun j hj => ?_⟩
      · rw [List.getElem_append_right (le_refl _)]
        simpa using (summary_iff s).2 (h.sumOk s rfl)
      · rw [List.getElem_append_left hj, Bool.not_eq_true]
        exact hno _ (List.getElem_mem hj)
    rw [groups, hf]
    simp only
    rw [hd, ht]
    have h3 : (pre ++ "# col_headers =".toList :: nameLine :: (err ++ s :: rest)).drop
        (pre ++ "# col_headers =".toList :: nameLine :: err).length = s :: rest := by rw [hass, List.drop_left]
    rw [h3]
    congr 1
    have hl : (err ++ s :: rest).length - ((pre ++ "# col_headers =".toList :: nameLine :: (err ++ s :: rest)).length -
        (pre ++ "# col_headers =".toList :: nameLine :: err).length) = err.length := by
      simp only [List.length_append, List.length_cons]; omega
    rw [hl, List.take_left]

theorem readDatafile_layout {content pre err summary : List Str} {nameLine : Str}
    (h : Spec.Layout content pre nameLine err summary) :
    readDatafile content = (metaLoop (pre ++ summary) ([], []) >>= fun st =>
      addCountfile (pre ++ summary) st.1 >>= fun md =>
      tableRows content >>= fun rows =>
      .ok { rows := rows, colNames := splitWs (stripSet "#".toList nameLine), metadata := md, others := st.2,
            errors := err }) := by
  rw [readDatafile]
  have h1 : listIndex (headers content) colHeaders = .ok pre.length := by
    rw [hashed_iff.1 h.linesEq]; exact listIndex_first h.preOk
  rw [h1]
  show (need (headers content)[pre.length + 1]? _ >>= _) = _
  have h2 : (headers content)[pre.length + 1]? = some nameLine := by
    rw [hashed_iff.1 h.linesEq]; simp
  rw [h2, groups_eq h]
  rfl

/-- **C71**: in every file that can be read, each key has the last value told for it by the lines before the marker and from the
summary on; lines without meaning are kept in order; the error messages are the lines between column names and summary. Only
`countfile` follows another rule when the preset is a count file, see `C71_countfile`. -/
theorem _root_.Tavi.C71_file (content pre err summary : List Str) (nameLine : Str)
    (h : Spec.Layout content pre nameLine err summary) (f : File) (hf : readDatafile content = .ok f) :
    (∃ ms, List.Forall₂ Spec.Tells (pre ++ summary) ms) ∧ f.errors = err ∧
    ∀ ms, List.Forall₂ Spec.Tells (pre ++ summary) ms →
      (∀ k, k ≠ "countfile".toList ∨ Spec.lastTold "preset_type".toList ms ≠ some "countfile".toList →
        lookupKey k f.metadata = Spec.lastTold k ms) ∧
      f.others = Spec.otherTold ms := by
  rw [readDatafile_layout h] at hf
  obtain ⟨st, h1, hf⟩ := py_bind_eq_ok.1 hf
  obtain ⟨md, h2, hf⟩ := py_bind_eq_ok.1 hf
  obtain ⟨rows, _, hf⟩ := py_bind_eq_ok.1 hf
  obtain rfl := Except.ok.inj hf
  refine ⟨metaLoop_tells h1, rfl, fun ms hms => ?_⟩
  rw [metaLoop_ok hms] at h1
  obtain rfl := Except.ok.inj h1
  refine ⟨fun k hk => ?_, by simp [foldl_others]⟩
  have hl := lookup_told ms
  rw [addCountfile, hl] at h2
  by_cases hp : Spec.lastTold "preset_type".toList ms = some "countfile".toList
  · rw [if_pos hp] at h2
    obtain ⟨vs, _, rfl⟩ := map_eq_ok.1 h2
    rw [lookupKey_assocSet, if_neg (hk.resolve_right fun h => h hp), hl]
  · rw [if_neg hp] at h2
    obtain rfl := Except.ok.inj h2
    exact hl k

/-- The value of a line `# countfile… = value`: it has one `=` only. -/
def _root_.Tavi.Spec.CountEntry (h v : Str) : Prop := ∃ k x, h = k ++ '=' :: x ∧ '=' ∉ k ∧ '=' ∉ x ∧ Trim x v

theorem countVal_ok {h v : Str} (hv : Spec.CountEntry h v) : countVal h = .ok v := by
  obtain ⟨k, x, rfl, hk, hx, ht⟩ := hv
  rw [countVal, splitChar_cons hk, splitChar_plain hx]
  simp only
  rw [trim_iff.1 ht]

theorem countVal_inv {h v : Str} (hv : countVal h = .ok v) : Spec.CountEntry h v := by
  have hj := join_splitChar '=' h
  rw [countVal] at hv
  rcases hs : splitChar '=' h with _ | ⟨a, _ | ⟨b, _ | ⟨c, r⟩⟩⟩
  · rw [hs] at hv; cases hv
  · rw [hs] at hv; cases hv
  · rw [hs] at hv hj
    obtain rfl := Except.ok.inj hv
    refine ⟨a, b, ?_, hj.2 a (by simp), hj.2 b (by simp), trim_strip b⟩
    rw [← hj.1]; simp [joinStr]
  · rw [hs] at hv; cases hv

/-- **C71**: with a count file as preset the entry `countfile` lists the values of all lines beginning `# countfile`, in order. -/
theorem _root_.Tavi.C71_countfile (content pre err summary : List Str) (nameLine : Str)
    (h : Spec.Layout content pre nameLine err summary) (ms : List Spec.Told)
    (hms : List.Forall₂ Spec.Tells (pre ++ summary) ms)
    (hp : Spec.lastTold "preset_type".toList ms = some "countfile".toList) (f : File) (hf : readDatafile content = .ok f) :
    ∃ vs, List.Forall₂ Spec.CountEntry ((pre ++ summary).filter fun l => decide ("# countfile".toList <+: l)) vs ∧
      lookupKey "countfile".toList f.metadata = some (joinStr ", ".toList vs) := by
  rw [readDatafile_layout h, metaLoop_ok hms, py_bind_ok] at hf
  obtain ⟨md, h2, hf⟩ := py_bind_eq_ok.1 hf
  obtain ⟨rows, _, hf⟩ := py_bind_eq_ok.1 hf
  obtain rfl := Except.ok.inj hf
  rw [addCountfile, lookup_told, if_pos hp] at h2
  obtain ⟨vs, h3, rfl⟩ := map_eq_ok.1 h2
  have hfil : ((pre ++ summary).filter fun l => decide ("# countfile".toList <+: l)) =
      (pre ++ summary).filter (startsWith "# countfile".toList) := by
    apply List.filter_congr
    intro x _
    rw [startsWith, Bool.eq_iff_iff, decide_eq_true_eq, List.isPrefixOf_iff_prefix]
  refine ⟨vs, ?_, ?_⟩
  · rw [hfil]
    exact (mapM_ok_inv h3).imp fun _ _ h => countVal_inv h
  · rw [lookupKey_assocSet, if_pos rfl]

/-- **C71**: when reading succeeds and when it raises. Every line must have a meaning, lines beginning `# countfile` must have one
`=` when the preset is a count file, and the table must be rectangular. -/
theorem _root_.Tavi.C71_total (content pre err summary : List Str) (nameLine : Str)
    (h : Spec.Layout content pre nameLine err summary) :
    (∃ f, readDatafile content = .ok f) ↔
      (∃ ms, List.Forall₂ Spec.Tells (pre ++ summary) ms ∧
        (Spec.lastTold "preset_type".toList ms = some "countfile".toList →
          ∀ l ∈ pre ++ summary, "# countfile".toList <+: l → ∃ v, Spec.CountEntry l v)) ∧
      ∃ rows, tableRows content = .ok rows := by
  rw [readDatafile_layout h]
  constructor
  · rintro ⟨f, hf⟩
    obtain ⟨st, h1, hf⟩ := py_bind_eq_ok.1 hf
    obtain ⟨md, h2, hf⟩ := py_bind_eq_ok.1 hf
    obtain ⟨rows, h3, hf⟩ := py_bind_eq_ok.1 hf
    obtain ⟨ms, hms⟩ := metaLoop_tells h1
    refine ⟨⟨ms, hms, fun hp l hl hl' => ?_⟩, rows, h3⟩
    rw [metaLoop_ok hms] at h1
    obtain rfl := Except.ok.inj h1
    rw [addCountfile, lookup_told, if_pos hp] at h2
    obtain ⟨vs, h4, _⟩ := map_eq_ok.1 h2
    have h5 := mapM_ok_inv h4
    have hm : l ∈ (pre ++ summary).filter (startsWith "# countfile".toList) :=
      List.mem_filter.2 ⟨hl, by rw [startsWith, List.isPrefixOf_iff_prefix]; exact hl'⟩
    obtain ⟨v, _, hv⟩ := forall₂_left h5 hm
    exact ⟨v, countVal_inv hv⟩
  · rintro ⟨⟨ms, hms, hc⟩, rows, h3⟩
    rw [metaLoop_ok hms, h3]
    have : ∃ md, addCountfile (pre ++ summary) (ms.foldl tellStep ([], [])).1 = .ok md := by
      rw [addCountfile, lookup_told]
      by_cases hp : Spec.lastTold "preset_type".toList ms = some "countfile".toList
      · rw [if_pos hp]
        have hv : ∀ l ∈ (pre ++ summary).filter (startsWith "# countfile".toList), ∃ v, countVal l = .ok v := by
          intro l hl
          obtain ⟨hl, hl'⟩ := List.mem_filter.1 hl
          rw [startsWith, List.isPrefixOf_iff_prefix] at hl'
          obtain ⟨v, hv⟩ := hc hp l hl hl'
          exact ⟨v, countVal_ok hv⟩
        classical
        have h6 : ((pre ++ summary).filter (startsWith "# countfile".toList)).mapM countVal =
            .ok (((pre ++ summary).filter (startsWith "# countfile".toList)).map fun l =>
              if h : ∃ v, countVal l = .ok v then h.choose else []) :=
          mapM_ok fun l hl => by rw [dif_pos (hv l hl)]; exact (hv l hl).choose_spec
        rw [h6]
        exact ⟨_, rfl⟩
      · rw [if_neg hp]; exact ⟨_, rfl⟩
    obtain ⟨md, hmd⟩ := this
    rw [py_bind_ok, hmd]
    exact ⟨_, rfl⟩

/-- **C71**: a line `# key = value` tells exactly the value, with all blanks and `=` inside it, as long as key and value do not end
with the characters that are cut off. An empty value (`# key =`) is told as empty. -/
theorem _root_.Tavi.C71_exact (k v : Str) (hk : k ≠ []) (hk1 : Tight k) (hk2 : '=' ∉ k) (hk3 : k.head? ≠ some '#')
    (hv : ∀ c, v.getLast? = some c → ¬ Spec.Edge c) :
    (v ≠ [] → ¬ Spec.Ended (k ++ " = ".toList ++ v) → Spec.Tells ("# ".toList ++ k ++ " = ".toList ++ v) (.entry k v)) ∧
    (¬ Spec.Ended (k ++ " =".toList) → Spec.Tells ("# ".toList ++ k ++ " =".toList) (.entry k [])) := by
  have hhead : ∀ x : Str, ∀ c, (k ++ x).head? = some c → ¬ Spec.Edge c := by
    intro x c hc he
    cases k with
    | nil => exact hk rfl
    | cons a k =>
      obtain rfl : a = c := Option.some.inj hc
      rcases he with rfl | rfl
      · exact hk3 rfl
      · have := hk1.1 ' ' rfl
        revert this; decide
  have htrim : Trim (k ++ " ".toList) k := ⟨[], " ".toList, by simp, by simp [Blank], by
    intro c hc; obtain rfl : c = ' ' := by simpa using hc
    decide, hk1⟩
  have hnk : '=' ∉ k ++ " ".toList := by
    intro h; rcases List.mem_append.1 h with h | h
    · exact hk2 h
    · revert h; decide
  constructor
  · intro hne he
    refine ⟨k ++ " = ".toList ++ v, ⟨"# ".toList, [], by simp, ?_, by simp, ?_, ?_⟩, .inr ⟨he, k ++ " ".toList, ' ' :: v, ?_, hnk, htrim, rfl⟩⟩
    · intro c hc
      have : c = '#' ∨ c = ' ' := by simpa using hc
      exact this
    · rw [List.append_assoc]; exact hhead _
    · intro c hc
      rw [List.getLast?_append_of_ne_nil _ hne] at hc
      exact hv c hc
    · simp
  · intro he
    refine ⟨k ++ " =".toList, ⟨"# ".toList, [], by simp, ?_, by simp, hhead _, ?_⟩, .inr ⟨he, k ++ " ".toList, [], by simp, hnk, htrim, rfl⟩⟩
    · intro c hc
      have : c = '#' ∨ c = ' ' := by simpa using hc
      exact this
    · intro c hc
      rw [List.getLast?_append_of_ne_nil _ (by simp)] at hc
      obtain rfl : '=' = c := by simpa using hc
      rintro (h | h) <;> exact absurd h (by decide)

/-- **C71**, the code disagrees: without a blank after the `=` the first character of the value is lost. -/
theorem _root_.Tavi.C71_first_lost (k v : Str) (c : Char) (hk : k ≠ []) (hk1 : Tight k) (hk2 : '=' ∉ k)
    (hk3 : k.head? ≠ some '#') (hv : ∀ d, (c :: v).getLast? = some d → ¬ Spec.Edge d)
    (he : ¬ Spec.Ended (k ++ '=' :: c :: v)) : Spec.Tells ("# ".toList ++ k ++ '=' :: c :: v) (.entry k v) := by
  refine ⟨k ++ '=' :: c :: v, ⟨"# ".toList, [], by simp, ?_, by simp, ?_, ?_⟩, .inr ⟨he, k, c :: v, rfl, hk2, ?_, rfl⟩⟩
  · intro c hc
    have : c = '#' ∨ c = ' ' := by simpa using hc
    exact this
  · intro d hd he
    cases k with
    | nil => exact hk rfl
    | cons a k =>
      obtain rfl : a = d := Option.some.inj hd
      rcases he with rfl | rfl
      · exact hk3 rfl
      · have := hk1.1 ' ' rfl
        revert this; decide
  · intro d hd
    rw [List.getLast?_append_of_ne_nil _ (by simp), List.getLast?_cons_cons] at hd
    exact hv d hd
  · exact ⟨[], [], by simp, by simp [Blank], by simp [Blank], hk1⟩

/-- **C71**, the code disagrees: a line that mentions `completed` or `stopped` in fewer than four words, wherever it stands among
the metadata, makes the whole file unreadable. -/
theorem _root_.Tavi.C71_short_end_fails (content pre err summary : List Str) (nameLine : Str)
    (h : Spec.Layout content pre nameLine err summary) (l : Str) (hl : l ∈ pre ++ summary) (ht : Spec.Truncated l) (f : File) :
    readDatafile content ≠ .ok f := by
  intro hf
  obtain ⟨⟨ms, hms, _⟩, _⟩ := (C71_total content pre err summary nameLine h).1 ⟨f, hf⟩
  obtain ⟨m, _, hm⟩ := forall₂_left hms hl
  have h1 := metaEntry_ok hm ([], [])
  rw [metaEntry_err ht] at h1
  cases h1

/-- **C71**: without the marker line, or with nothing after it, there is no result. -/
theorem _root_.Tavi.C71_no_marker (content hs : List Str) (hc : Spec.Hashed content hs) :
    ("# col_headers =".toList ∉ hs → readDatafile content = .error .valueError) ∧
    (∀ pre, hs = pre ++ ["# col_headers =".toList] → "# col_headers =".toList ∉ pre →
      readDatafile content = .error .indexError) := by
  constructor
  · intro h
    have : listIndex hs colHeaders = .error .valueError := by
      rw [listIndex, List.findIdx?_eq_none_iff.2]
      · rfl
      · intro x hx
        rw [beq_eq_false_iff_ne]
        rintro rfl
        exact h hx
    rw [readDatafile, hashed_iff.1 hc, this]; rfl
  · rintro pre rfl hpre
    rw [readDatafile, hashed_iff.1 hc, listIndex_first hpre]
    show (need (pre ++ [colHeaders])[pre.length + 1]? _ >>= _) = _
    rw [List.getElem?_eq_none (by simp)]; rfl

end Ornl

namespace Demo

open Ornl

/-- A small file: two metadata lines, a message, a summary, one point. -/
def ornlLines : List Str :=
  ["# scan = 7\n".toList, "# def_x = h = k\n".toList, "# col_headers =\n".toList, "#   Pt.   s1   detector\n".toList,
    "   1   2.5   100\n".toList, "# s1 out of reach\n".toList, "# Sum of Counts = 100\n".toList,
    "# 8:30:00 AM  6/29/2024 scan completed.\n".toList]

/-- The lines of `ornlLines`. -/
theorem ornlLayout : Spec.Layout ornlLines ["# scan = 7".toList, "# def_x = h = k".toList] "#   Pt.   s1   detector".toList
    ["# s1 out of reach".toList] ["# Sum of Counts = 100".toList, "# 8:30:00 AM  6/29/2024 scan completed.".toList] where
  linesEq := hashed_iff.2 (by decide +kernel)
  preOk := by decide +kernel
  nameOk := by
    intro h hh
    rw [← summary_iff]
    revert h
    decide +kernel
  errOk := by
    intro h hh
    rw [← summary_iff]
    revert h
    decide +kernel
  sumOk := by
    intro s hs
    rw [← summary_iff]
    obtain rfl := Option.some.inj hs
    decide +kernel

example : (match Ornl.readDatafile ornlLines with
    | .ok f => decide (f.metadata = [("scan".toList, "7".toList), ("def_x".toList, "h = k".toList),
        ("Sum of Counts".toList, "100".toList), ("end_time".toList, "6/29/2024 8:30:00 AM".toList)] ∧
        f.colNames = ["Pt.".toList, "s1".toList, "detector".toList] ∧ f.others = [] ∧ f.errors = ["# s1 out of reach".toList])
    | .error _ => false) = true := by decide +kernel

example : ∃ ms, List.Forall₂ Spec.Tells ["# scan = 7".toList, "# def_x = h = k".toList] ms ∧
    Spec.lastTold "def_x".toList ms = some "h = k".toList := by
  refine ⟨[.entry "scan".toList "7".toList, .entry "def_x".toList "h = k".toList], .cons ?_ (.cons ?_ .nil), by decide +kernel⟩
  · exact (C71_exact "scan".toList "7".toList (by decide) ⟨by decide +kernel, by decide +kernel⟩ (by decide) (by decide)
      (by intro c hc; obtain rfl := Option.some.inj hc; rintro (h | h) <;> exact absurd h (by decide))).1 (by decide)
      (by rw [← ended_bool]; decide +kernel)
  · exact (C71_exact "def_x".toList "h = k".toList (by decide) ⟨by decide +kernel, by decide +kernel⟩ (by decide) (by decide)
      (by intro c hc; obtain rfl := Option.some.inj hc; rintro (h | h) <;> exact absurd h (by decide))).1 (by decide)
      (by rw [← ended_bool]; decide +kernel)

/-- A title that mentions stopping. -/
example : Spec.Truncated "# stopped".toList :=
  ⟨"stopped".toList, core_iff.2 (by decide +kernel), (ended_bool _).1 (by decide +kernel), ["stopped".toList], by decide,
    by decide +kernel, by decide, by decide +kernel⟩

end Demo

end Tavi
