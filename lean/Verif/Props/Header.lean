import Verif.Lemmas.Text
import Verif.Lemmas.Assoc
import Verif.Lemmas.Dec
import Verif.Lemmas.Numpy

/-!
# SPICE headers (C48) and count files (C50)
-/

namespace Tavi

open Spec

/-! ## What a header line says -/

/-- The three kinds of header lines. -/
inductive Spec.Meaning where
  /-- a completion line and its words -/
  | done (words : List Str)
  /-- a key and the pieces of its value between the `=` -/
  | pair (key : Str) (pieces : List Str)
  /-- anything else -/
  | other (text : Str)

/-- The text of a line: without leading `#` and without the white space around. -/
def Spec.Body (line b : Str) : Prop := ∃ n r, line = List.replicate n '#' ++ r ∧ r.head? ≠ some '#' ∧ Trim r b

/-- A text that tells that the scan has ended. -/
def Spec.Ended (b : Str) : Prop := "completed".toList <:+: b ∨ "stopped".toList <:+: b

/-- What a text says. -/
def Spec.Says (b : Str) : Spec.Meaning → Prop
  | .done ws => Spec.Ended b ∧ Words b ws
  | .pair k vs => ¬ Spec.Ended b ∧ ∃ k0 v0s, v0s ≠ [] ∧ b = joinStr "=".toList (k0 :: v0s) ∧ (∀ p ∈ k0 :: v0s, '=' ∉ p) ∧
      Trim k0 k ∧ List.Forall₂ Trim v0s vs
  | .other s => ¬ Spec.Ended b ∧ '=' ∉ b ∧ s = b

/-- What a line says. -/
def Spec.Reads (line : Str) (m : Spec.Meaning) : Prop := ∃ b, Spec.Body line b ∧ Spec.Says b m

/-- The values given to a key, in order. -/
def Spec.valuesOf (k : Str) (ms : List Spec.Meaning) : List Str :=
  ms.filterMap fun m => match m with
    | .pair k' vs => if k' = k then some (joinStr "=".toList vs) else none
    | _ => none

/-- The end times given by completion lines with at least three words: date, time, meridiem. -/
def Spec.endsOf (ms : List Spec.Meaning) : List Str :=
  ms.filterMap fun m => match m with
    | .done (t :: m :: d :: _) => some (d ++ " ".toList ++ t ++ " ".toList ++ m)
    | _ => none

/-- The other lines, in order. -/
def Spec.othersOf (ms : List Spec.Meaning) : List Str :=
  ms.filterMap fun m => match m with
    | .other s => some s
    | _ => none

/-- All values of a key in one text; nothing when there is none. -/
def Spec.joined (vs : List Str) : Option Str := if vs = [] then none else some (joinStr ", ".toList vs)

theorem lstrip_hash (n : ℕ) (r : Str) (h : r.head? ≠ some '#') :
    lstripChar '#' (List.replicate n '#' ++ r) = r := by
  induction n with
  | zero =>
    cases r with
    | nil => rfl
    | cons c r =>
      rw [List.replicate_zero, List.nil_append, lstripChar, List.dropWhile_cons_of_neg]
      intro hc
      exact h (by rw [eq_of_beq hc]; rfl)
  | succ n ih =>
    rw [List.replicate_succ, List.cons_append, lstripChar, List.dropWhile_cons_of_pos (by simp)]
    exact ih

theorem body_iff {line b : Str} : Spec.Body line b ↔ lineBody line = b := by
  constructor
  · rintro ⟨n, r, rfl, hr, ht⟩
    rw [lineBody, lstrip_hash n r hr, trim_iff.1 ht]
  · rintro rfl
    refine ⟨(line.takeWhile (· == '#')).length, lstripChar '#' line, ?_, ?_, trim_strip _⟩
    · have : line.takeWhile (· == '#') = List.replicate (line.takeWhile (· == '#')).length '#' :=
        List.eq_replicate_iff.2 ⟨rfl, fun c hc => eq_of_beq (all_takeWhile (· == '#') line c hc)⟩
      rw [← this, lstripChar, List.takeWhile_append_dropWhile]
    · intro h
      have := List.head?_dropWhile_not (· == '#') line
      rw [lstripChar] at h
      rw [h] at this
      simp at this

theorem ended_iff (b : Str) :
    (isSubstr "completed".toList b || isSubstr "stopped".toList b) = true ↔ Spec.Ended b := by
  rw [Bool.or_eq_true, isSubstr_iff, isSubstr_iff]; rfl

theorem forall₂_trim {xs ys : List Str} : List.Forall₂ Trim xs ys ↔ xs.map strip = ys := by
  induction xs generalizing ys with
  | nil => cases ys <;> simp
  | cons x xs ih =>
    cases ys with
    | nil => simp
    | cons y ys => rw [List.forall₂_cons, ih, trim_iff, List.map_cons, List.cons.injEq]

theorem eq_mem_split (b : Str) (h : '=' ∈ b) :
    ∃ k0 v0s, v0s ≠ [] ∧ splitChar '=' b = k0 :: v0s ∧ b = joinStr "=".toList (k0 :: v0s) ∧ ∀ p ∈ k0 :: v0s, '=' ∉ p := by
  obtain ⟨a, w, rfl, ha⟩ := split_first h
  have := join_splitChar '=' (a ++ '=' :: w)
  rw [splitChar_cons ha] at this
  exact ⟨a, splitChar '=' w, splitChar_ne_nil _ _, splitChar_cons ha w, this.1.symm, this.2⟩

theorem eq_mem_join {k0 : Str} {v0s : List Str} (h : v0s ≠ []) : '=' ∈ joinStr "=".toList (k0 :: v0s) := by
  rw [joinStr_cons _ _ h]; simp

/-- Every line says something. -/
theorem reads_exists (line : Str) : ∃ m, Spec.Reads line m := by
  have hb := body_iff.2 (rfl : lineBody line = lineBody line)
  by_cases he : Spec.Ended (lineBody line)
  · exact ⟨.done (splitWs (lineBody line)), _, hb, he, words_iff.2 rfl⟩
  by_cases h : '=' ∈ lineBody line
  · obtain ⟨k0, v0s, h1, _, h3, h4⟩ := eq_mem_split _ h
    exact ⟨.pair (strip k0) (v0s.map strip), _, hb, he, k0, v0s, h1, h3, h4, trim_strip _, forall₂_trim.2 rfl⟩
  · exact ⟨.other (lineBody line), _, hb, he, h, rfl⟩

/-- One step of the reader in terms of what the line says. -/
def sayStep (st : MetaState) : Spec.Meaning → MetaState
  | .done ws => match ws with
    | t :: m :: d :: _ => { st with md := assocSet st.md "end_time".toList (d ++ " ".toList ++ t ++ " ".toList ++ m) }
    | _ => st
  | .pair k vs => match lookupKey k st.md with
    | some old => { st with md := assocSet st.md k (old ++ ", ".toList ++ joinStr "=".toList vs) }
    | none => { st with md := assocSet st.md k (joinStr "=".toList vs) }
  | .other s => { st with unrec := st.unrec ++ [s] }

theorem metaStep_says {line : Str} {m : Spec.Meaning} (h : Spec.Reads line m) (st : MetaState) :
    metaStep st line = sayStep st m := by
  obtain ⟨b, hb, hm⟩ := h
  rw [body_iff] at hb
  rw [metaStep, hb]
  cases m with
  | done ws =>
    rw [if_pos ((ended_iff b).2 hm.1), setEndTime, words_iff.1 hm.2]
    rcases ws with _ | ⟨t, _ | ⟨m, _ | ⟨d, r⟩⟩⟩ <;> rfl
  | pair k vs =>
    obtain ⟨he, k0, v0s, h1, rfl, h3, h4, h5⟩ := hm
    have hj : splitChar '=' (joinStr "=".toList (k0 :: v0s)) = k0 :: v0s := splitChar_join (by simp) h3
    rw [if_neg (fun h => he ((ended_iff _).1 h)), if_pos (decide_eq_true (eq_mem_join h1)), addPair, hj, List.map_cons, trim_iff.1 h4, forall₂_trim.1 h5, sayStep]
    dsimp only
    cases lookupKey k st.md <;> rfl
  | other s =>
    obtain ⟨he, h1, rfl⟩ := hm
    rw [if_neg (fun h => he ((ended_iff _).1 h)), if_neg (by simpa using h1), sayStep]

theorem joinStr_snoc (sep : Str) {l : List Str} (hl : l ≠ []) (a : Str) :
    joinStr sep (l ++ [a]) = joinStr sep l ++ sep ++ a := by
  induction l with
  | nil => exact absurd rfl hl
  | cons x l ih =>
    cases l with
    | nil => rfl
    | cons y l =>
      rw [List.cons_append, joinStr_cons sep x (l := y :: l ++ [a]) (by simp), ih (by simp),
        joinStr_cons sep x (l := y :: l) (by simp)]
      simp only [List.append_assoc]

theorem joined_snoc (vs : List Str) (v : Str) :
    Spec.joined (vs ++ [v]) = some (match Spec.joined vs with
      | some old => old ++ ", ".toList ++ v
      | none => v) := by
  rw [Spec.joined, if_neg (by simp), Spec.joined]
  by_cases h : vs = []
  · subst h; rfl
  · rw [if_neg h, joinStr_snoc _ h]

theorem meta_inv (lines : List Str) (ms : List Spec.Meaning) (h : List.Forall₂ Spec.Reads lines ms) :
    (∀ k, k ≠ "end_time".toList → lookupKey k (lines.foldl metaStep ⟨[], []⟩).md = Spec.joined (Spec.valuesOf k ms)) ∧
    (Spec.valuesOf "end_time".toList ms = [] →
      lookupKey "end_time".toList (lines.foldl metaStep ⟨[], []⟩).md = (Spec.endsOf ms).getLast?) ∧
    (lines.foldl metaStep ⟨[], []⟩).unrec = Spec.othersOf ms := by
  induction ms using List.reverseRecOn generalizing lines with
  | nil =>
    cases h
    exact ⟨fun k _ => rfl, fun _ => rfl, rfl⟩
  | append_singleton ms m ih =>
    obtain ⟨lines', last, h1, h2, rfl⟩ : ∃ lines' last, List.Forall₂ Spec.Reads lines' ms ∧ Spec.Reads last m ∧
        lines = lines' ++ [last] := by
      have hlen := h.length_eq
      rw [List.length_append] at hlen
      have h1 := List.forall₂_take_append _ _ _ h
      have h2 := List.forall₂_drop_append _ _ _ h
      obtain ⟨last, hl, hr⟩ : ∃ last, lines.drop ms.length = [last] ∧ Spec.Reads last m := by
        cases hd : lines.drop ms.length with
        | nil => rw [hd] at h2; cases h2
        | cons x xs =>
          rw [hd] at h2
          obtain ⟨hx, hxs⟩ := List.forall₂_cons.1 h2
          cases hxs
          exact ⟨x, rfl, hx⟩
      exact ⟨lines.take ms.length, last, h1, hr, by rw [← hl, List.take_append_drop]⟩
    obtain ⟨i1, i2, i3⟩ := ih lines' h1
    rw [List.foldl_append, List.foldl_cons, List.foldl_nil, metaStep_says h2]
    generalize lines'.foldl metaStep ⟨[], []⟩ = st at i1 i2 i3
    have hv : ∀ k, Spec.valuesOf k (ms ++ [m]) = Spec.valuesOf k ms ++ Spec.valuesOf k [m] := by
      intro k; rw [Spec.valuesOf, List.filterMap_append]; rfl
    have he : Spec.endsOf (ms ++ [m]) = Spec.endsOf ms ++ Spec.endsOf [m] := by
      rw [Spec.endsOf, List.filterMap_append]; rfl
    have ho : Spec.othersOf (ms ++ [m]) = Spec.othersOf ms ++ Spec.othersOf [m] := by
      rw [Spec.othersOf, List.filterMap_append]; rfl
    cases m with
    | done ws =>
      have hv' : ∀ k, Spec.valuesOf k (ms ++ [.done ws]) = Spec.valuesOf k ms := by
        intro k; rw [hv]; exact List.append_nil _
      have ho' : Spec.othersOf (ms ++ [.done ws]) = Spec.othersOf ms := by rw [ho]; exact List.append_nil _
      rw [ho', hv']
      have hk' : ∀ k, k ≠ "end_time".toList → lookupKey k (sayStep st (.done ws)).md = lookupKey k st.md := by
        intro k hk
        rcases ws with _ | ⟨t, _ | ⟨m, _ | ⟨d, r⟩⟩⟩
        · rfl
        · rfl
        · rfl
        · rw [sayStep]; dsimp only; rw [lookupKey_assocSet, if_neg hk]
      refine ⟨fun k hk => by rw [hv', hk' k hk]; exact i1 k hk, fun hno => ?_, ?_⟩
      · rw [he]
        rcases ws with _ | ⟨t, _ | ⟨m, _ | ⟨d, r⟩⟩⟩
        · exact (i2 hno).trans (congrArg _ (List.append_nil _).symm)
        · exact (i2 hno).trans (congrArg _ (List.append_nil _).symm)
        · exact (i2 hno).trans (congrArg _ (List.append_nil _).symm)
        · rw [sayStep]; dsimp only; rw [lookupKey_assocSet, if_pos rfl]
          exact (List.getLast?_concat).symm
      · rw [← i3]
        rcases ws with _ | ⟨t, _ | ⟨m, _ | ⟨d, r⟩⟩⟩ <;> rfl
    | pair k0 vs =>
      have hme : Spec.endsOf (ms ++ [.pair k0 vs]) = Spec.endsOf ms := by rw [he]; exact List.append_nil _
      have hmo : Spec.othersOf (ms ++ [.pair k0 vs]) = Spec.othersOf ms := by rw [ho]; exact List.append_nil _
      have hs : sayStep st (.pair k0 vs) = { st with md := assocSet st.md k0 (match lookupKey k0 st.md with
          | some old => old ++ ", ".toList ++ joinStr "=".toList vs
          | none => joinStr "=".toList vs) } := by
        rw [sayStep]; cases lookupKey k0 st.md <;> rfl
      have h1 : ∀ k, Spec.valuesOf k [.pair k0 vs] = if k0 = k then [joinStr "=".toList vs] else [] := by
        intro k; by_cases h : k0 = k <;> simp [Spec.valuesOf, h]
      rw [hs, hme, hmo]
      refine ⟨fun k hk => ?_, fun hno => ?_, i3⟩
      · dsimp only
        rw [lookupKey_assocSet, hv, h1]
        by_cases h : k = k0
        · subst h
          rw [if_pos rfl, if_pos rfl, joined_snoc, i1 k hk]
        · rw [if_neg h, if_neg (fun h' => h h'.symm), List.append_nil, i1 k hk]
      · dsimp only
        rw [hv, h1, List.append_eq_nil_iff] at hno
        rw [lookupKey_assocSet, if_neg, i2 hno.1]
        intro h
        rw [if_pos h.symm] at hno
        exact absurd hno.2 (by simp)
    | other s =>
      have hv' : ∀ k, Spec.valuesOf k (ms ++ [.other s]) = Spec.valuesOf k ms := by
        intro k; rw [hv]; exact List.append_nil _
      have hme : Spec.endsOf (ms ++ [.other s]) = Spec.endsOf ms := by rw [he]; exact List.append_nil _
      rw [hv', hme, ho]
      exact ⟨fun k hk => by rw [hv']; exact i1 k hk, i2, by rw [sayStep]; dsimp only; rw [i3]; rfl⟩

theorem lookupKey_map {β γ : Type} (f : β → γ) (l : List (Str × β)) (k : Str) :
    lookupKey k (l.map fun kv => (kv.1, f kv.2)) = (lookupKey k l).map f := by
  induction l with
  | nil => rfl
  | cons kv l ih =>
    obtain ⟨k', v⟩ := kv
    rw [List.map_cons, lookupKey, lookupKey]
    by_cases h : k' = k
    · rw [if_pos h, if_pos h]; rfl
    · rw [if_neg h, if_neg h]; exact ih

/-- Keys the reader adds itself. -/
def Spec.Own (k : Str) : Prop := k = "norm_vals".toList ∨ k = "norm_channels".toList ∨ k = "labels".toList

theorem addCounts_lookup {md : List (Str × Str)} {out : List (Str × MetaVal)} (h : addCounts md = .ok out) {k : Str}
    (hk : ¬ Spec.Own k) : lookupKey k out = (lookupKey k md).map MetaVal.str := by
  rw [addCounts] at h
  split at h
  · obtain ⟨cf, _, h⟩ := py_bind_eq_ok.1 h
    obtain ⟨chs, _, h⟩ := py_bind_eq_ok.1 h
    rw [← Except.ok.inj h, lookupKey_assocUpdate _ (by simp only [List.map_cons, List.map_nil]; decide +kernel),
      lookupKey_map]
    have : lookupKey k [("norm_vals".toList, MetaVal.nums (chs.map Channel.val)),
        ("norm_channels".toList, .strs (chs.map Channel.name)), ("labels".toList, .strs (chs.map Channel.label))] = none := by
      rw [lookupKey_eq_none]
      simp only [List.map_cons, List.map_nil, List.mem_cons, List.not_mem_nil, or_false]
      exact hk
    rw [this]; rfl
  · rw [← Except.ok.inj h, lookupKey_map]

theorem metadataToDict_inv {lines : List Str} {md : List (Str × MetaVal)} {un : Option (List Str)}
    (h : metadataToDict lines = .ok (md, un)) :
    addCounts (lines.foldl metaStep ⟨[], []⟩).md = .ok md ∧
      un = if (lines.foldl metaStep ⟨[], []⟩).unrec = [] then none else some (lines.foldl metaStep ⟨[], []⟩).unrec := by
  rw [metadataToDict] at h
  obtain ⟨md', h1, h2⟩ := py_bind_eq_ok.1 h
  obtain ⟨rfl, rfl⟩ := Prod.mk.inj (Except.ok.inj h2)
  exact ⟨h1, rfl⟩

/-- **C48**: every `key = value` line is returned under its key, the values of a key that occurs several times all kept in
order. -/
theorem C48_values (lines : List Str) (ms : List Spec.Meaning) (hms : List.Forall₂ Spec.Reads lines ms)
    (md : List (Str × MetaVal)) (un : Option (List Str)) (h : metadataToDict lines = .ok (md, un))
    (k : Str) (hk : k ≠ "end_time".toList) (hk' : ¬ Spec.Own k) :
    lookupKey k md = (Spec.joined (Spec.valuesOf k ms)).map MetaVal.str := by
  rw [addCounts_lookup (metadataToDict_inv h).1 hk', (meta_inv lines ms hms).1 k hk]

/-- **C48**: completion lines set the end time (date, time, meridiem of the last one that has them) and nothing else. -/
theorem C48_end_time (lines : List Str) (ms : List Spec.Meaning) (hms : List.Forall₂ Spec.Reads lines ms)
    (md : List (Str × MetaVal)) (un : Option (List Str)) (h : metadataToDict lines = .ok (md, un))
    (hno : Spec.valuesOf "end_time".toList ms = []) :
    lookupKey "end_time".toList md = ((Spec.endsOf ms).getLast?).map MetaVal.str := by
  rw [addCounts_lookup (metadataToDict_inv h).1 (by unfold Spec.Own; decide +kernel), (meta_inv lines ms hms).2.1 hno]

/-- **C48**: all other lines are kept as unrecognised, in order. -/
theorem C48_others (lines : List Str) (ms : List Spec.Meaning) (hms : List.Forall₂ Spec.Reads lines ms)
    (md : List (Str × MetaVal)) (un : Option (List Str)) (h : metadataToDict lines = .ok (md, un)) :
    un = if Spec.othersOf ms = [] then none else some (Spec.othersOf ms) := by
  rw [(metadataToDict_inv h).2, (meta_inv lines ms hms).2.2]

/-- **C48**: reading never fails unless the scan says it uses a count file. -/
theorem C48_total (lines : List Str) (ms : List Spec.Meaning) (hms : List.Forall₂ Spec.Reads lines ms)
    (hno : Spec.joined (Spec.valuesOf "preset_type".toList ms) ≠ some "countfile".toList) :
    ∃ md un, metadataToDict lines = .ok (md, un) ∧
      ∀ k, Spec.Own k → lookupKey k md = (Spec.joined (Spec.valuesOf k ms)).map MetaVal.str := by
  have hp := (meta_inv lines ms hms).1 "preset_type".toList (by decide +kernel)
  refine ⟨_, _, by rw [metadataToDict, addCounts, if_neg (by rw [hp]; exact hno)]; rfl, fun k hk => ?_⟩
  rw [lookupKey_map, (meta_inv lines ms hms).1 k]
  rcases hk with rfl | rfl | rfl <;> decide +kernel

/-! ### Values containing `=` -/

/-- No white space next to an `=`. -/
def Spec.Snug (v : Str) : Prop := ∀ a b, v ≠ a ++ '=' :: b ∨
  ((∀ c, a.getLast? = some c → isSpace c = false) ∧ ∀ c, b.head? = some c → isSpace c = false)

theorem snug_split {v : Str} (ht : Tight v) (hs : Spec.Snug v) : (splitChar '=' v).map strip = splitChar '=' v := by
  induction hn : v.length using Nat.strong_induction_on generalizing v with
  | _ n ih =>
    by_cases h : '=' ∈ v
    · obtain ⟨a, w, rfl, ha⟩ := split_first h
      obtain h' | ⟨h1, h2⟩ := hs a w
      · exact absurd rfl h'
      · rw [splitChar_cons ha, List.map_cons]
        have hta : Tight a := by
          refine ⟨fun c hc => ht.1 c ?_, h1⟩
          rw [List.head?_append, hc]; rfl
        have htw : Tight w := by
          refine ⟨h2, fun c hc => ht.2 c ?_⟩
          rw [List.getLast?_append, List.getLast?_cons, hc]; rfl
        have hsw : Spec.Snug w := by
          intro x y
          rcases hs (a ++ '=' :: x) y with h | ⟨g1, g2⟩
          · left
            rintro rfl
            exact h (by simp)
          · right
            refine ⟨fun c hc => g1 c ?_, g2⟩
            rw [List.getLast?_append, List.getLast?_cons, hc]; rfl
        rw [strip_tight hta, ih w.length (by rw [← hn]; simp; omega) htw hsw rfl]
    · rw [splitChar_plain h, List.map_cons, strip_tight ht]; rfl

theorem not_mem_blank {c : Char} (hc : isSpace c = false) {a : Str} (ha : Blank a) : c ∉ a := by
  intro h
  rw [ha c h] at hc
  exact absurd hc (by simp)

theorem strip_split_left {c : Char} (hc : isSpace c = false) {a : Str} (ha : Blank a) (s : Str) :
    (splitChar c (a ++ s)).map strip = (splitChar c s).map strip := by
  have hca := not_mem_blank hc ha
  by_cases h : c ∈ s
  · obtain ⟨x, w, rfl, hx⟩ := split_first h
    rw [← List.append_assoc, splitChar_cons (by simp [hca, hx]), splitChar_cons hx, List.map_cons, List.map_cons,
      strip_append ha]
  · rw [splitChar_plain h, splitChar_plain (by simp [hca, h]), List.map_cons, strip_append ha]; rfl

theorem strip_split_right {c : Char} (hc : isSpace c = false) {b : Str} (hb : Blank b) (s : Str) :
    (splitChar c (s ++ b)).map strip = (splitChar c s).map strip := by
  have hcb := not_mem_blank hc hb
  induction hn : s.length using Nat.strong_induction_on generalizing s with
  | _ n ih =>
    by_cases h : c ∈ s
    · obtain ⟨x, w, rfl, hx⟩ := split_first h
      rw [List.append_assoc, List.cons_append, splitChar_cons hx, splitChar_cons hx, List.map_cons, List.map_cons,
        ih w.length (by rw [← hn]; simp; omega) w rfl]
    · rw [splitChar_plain h, splitChar_plain (by simp [hcb, h]), List.map_cons, strip_append_right hb]; rfl

/-- **C48** (partial): a value is returned as it stands, also when it contains `=`. Missing: values with white space next to
an inner `=`, see `C48_blanks_lost`, and lines whose value mentions the end of the scan, see `C48_swallowed`. -/
theorem C48_value_partial (line k v : Str) (hb : Spec.Body line (k ++ '=' :: v)) (hk : '=' ∉ k)
    (he : ¬ Spec.Ended (k ++ '=' :: v)) (v' : Str) (hv : Trim v v') (hs : Spec.Snug v') :
    ∃ key vs, Spec.Reads line (.pair key vs) ∧ Trim k key ∧ joinStr "=".toList vs = v' := by
  obtain ⟨h1, h2⟩ := join_splitChar '=' v
  refine ⟨strip k, (splitChar '=' v).map strip, ⟨_, hb, he, k, splitChar '=' v, splitChar_ne_nil _ _, ?_, ?_, trim_strip _,
    forall₂_trim.2 rfl⟩, trim_strip _, ?_⟩
  · rw [joinStr_cons _ _ (splitChar_ne_nil _ _), show joinStr "=".toList (splitChar '=' v) = v from h1]; simp
  · intro p hp
    rcases List.mem_cons.1 hp with rfl | hp
    · exact hk
    · exact h2 p hp
  · obtain ⟨a, b, rfl, ha, hb', ht⟩ := hv
    rw [strip_split_right (by decide) hb', strip_split_left (by decide) ha, snug_split ht hs]
    exact (join_splitChar '=' v').1

/-- **C48**, the code disagrees: white space next to an `=` inside a value is lost. -/
theorem C48_blanks_lost (k x y : Str) (hk : Tight k) (hk' : '=' ∉ k) (hk2 : k.head? ≠ some '#') (hk3 : k ≠ [])
    (hx : Tight x) (hx' : '=' ∉ x) (hy : Tight y) (hy' : '=' ∉ y) (hy2 : y ≠ [])
    (he : ¬ Spec.Ended (k ++ '=' :: (x ++ " = ".toList ++ y))) :
    Spec.Reads (k ++ '=' :: (x ++ " = ".toList ++ y)) (.pair k [x, y]) ∧
      joinStr "=".toList [x, y] ≠ x ++ " = ".toList ++ y := by
  have hb1 : Blank [' '] := by intro c hc; rw [List.mem_singleton.1 hc]; decide
  refine ⟨⟨_, ⟨0, _, rfl, ?_, [], [], by simp, by intro c hc; simp at hc, by intro c hc; simp at hc, ?_, ?_⟩, he, k,
    [x ++ [' '], ' ' :: y], by simp, ?_, ?_, ?_, ?_⟩, ?_⟩
  · cases k with
    | nil => exact absurd rfl hk3
    | cons c k => exact hk2
  · intro c hc
    cases k with
    | nil => exact absurd rfl hk3
    | cons c' k => exact hk.1 c hc
  · intro c hc
    apply hy.2 c
    cases hl : y.getLast? with
    | none => exact absurd (List.getLast?_eq_none_iff.1 hl) hy2
    | some c' =>
      rw [← List.cons_append, ← List.append_assoc, List.getLast?_append, hl] at hc
      exact hc
  · show _ = k ++ ['='] ++ (x ++ [' '] ++ ['='] ++ ' ' :: y)
    simp
  · intro p hp
    simp only [List.mem_cons, List.not_mem_nil, or_false] at hp
    rcases hp with rfl | rfl | rfl
    · exact hk'
    · simp [hx']
    · simp [hy']
  · exact trim_iff.2 (strip_tight hk)
  · refine .cons (trim_iff.2 ?_) (.cons (trim_iff.2 ?_) .nil)
    · rw [strip_append_right hb1, strip_tight hx]
    · rw [show ' ' :: y = [' '] ++ y from rfl, strip_append hb1, strip_tight hy]
  · intro h
    have := congrArg List.length h
    simp [joinStr] at this

/-- **C48**, the code disagrees: a line whose value mentions that something was stopped or completed is taken for the end
of the scan; its key is lost. -/
theorem C48_swallowed (line b : Str) (hb : Spec.Body line b) (he : Spec.Ended b) (lines : List Str) (k : Str)
    (hk : k ≠ "end_time".toList) :
    lookupKey k ((lines ++ [line]).foldl metaStep ⟨[], []⟩).md = lookupKey k (lines.foldl metaStep ⟨[], []⟩).md := by
  rw [List.foldl_append, List.foldl_cons, List.foldl_nil,
    metaStep_says (m := .done (splitWs b)) ⟨b, hb, he, words_iff.2 rfl⟩]
  rcases splitWs b with _ | ⟨t, _ | ⟨m, _ | ⟨d, r⟩⟩⟩
  · rfl
  · rfl
  · rfl
  · rw [sayStep]; dsimp only; rw [lookupKey_assocSet, if_neg hk]

/-! ## Count files -/

/-- The polarisation direction a command sets. -/
def Spec.dirOf (t : Str) : Option Str :=
  if "parq".toList <:+: t then some "Px".toList
  else if "perpqh".toList <:+: t then some "Py".toList
  else if "perpq".toList <:+: t then some "Pz".toList
  else none

/-- The flipper state a command sets. -/
def Spec.flipOf (t : Str) : Option Str :=
  if "drive hguide off vguide off".toList <:+: t ∨ "floff".toList <:+: t ∨ "drive hguide 0 vguide 0".toList <:+: t
  then some "NSF".toList
  else if "drive hguide on vguide on".toList <:+: t ∨ "flon".toList <:+: t ∨ "drive".toList <:+: t then some "SF".toList
  else none

/-- What is in force after some commands: set by the last command that sets it, nothing at the beginning. -/
def Spec.lastNamed (f : Str → Option Str) (ts : List Str) : Str := ((ts.filterMap f).getLast?).getD []

/-- A command that counts. -/
def Spec.Counts (t : Str) : Prop := "count preset".toList <:+: t

instance (t : Str) : Decidable (Spec.Counts t) := inferInstanceAs (Decidable (_ <:+: _))

/-- The number of commands that count. -/
def Spec.nCounts (ts : List Str) : ℕ := ts.countP fun t => decide (Spec.Counts t)

theorem nCounts_pos {t : Str} (h : Spec.Counts t) (ts : List Str) : Spec.nCounts (t :: ts) = Spec.nCounts ts + 1 :=
  List.countP_cons_of_pos (decide_eq_true h)

theorem nCounts_neg {t : Str} (h : ¬ Spec.Counts t) (ts : List Str) : Spec.nCounts (t :: ts) = Spec.nCounts ts :=
  List.countP_cons_of_neg (by rw [decide_eq_false h]; simp)

/-- In force after some commands, given what was in force before. -/
def forceFrom (p : Str) (f : Str → Option Str) (ts : List Str) : Str := ((ts.filterMap f).getLast?).getD p

theorem countDir_eq (t p : Str) : countDir t p = (Spec.dirOf t).getD p := by
  rw [countDir, Spec.dirOf]
  by_cases h1 : "parq".toList <:+: t
  · rw [if_pos ((isSubstr_iff _ _).2 h1), if_pos h1]; rfl
  rw [if_neg (fun h => h1 ((isSubstr_iff _ _).1 h)), if_neg h1]
  by_cases h2 : "perpqh".toList <:+: t
  · rw [if_pos ((isSubstr_iff _ _).2 h2), if_pos h2]; rfl
  rw [if_neg (fun h => h2 ((isSubstr_iff _ _).1 h)), if_neg h2]
  by_cases h3 : "perpq".toList <:+: t
  · rw [if_pos ((isSubstr_iff _ _).2 h3), if_pos h3]; rfl
  rw [if_neg (fun h => h3 ((isSubstr_iff _ _).1 h)), if_neg h3]; rfl

theorem or3_iff (a b c t : Str) : (isSubstr a t || isSubstr b t || isSubstr c t) = true ↔ a <:+: t ∨ b <:+: t ∨ c <:+: t := by
  rw [Bool.or_eq_true, Bool.or_eq_true, isSubstr_iff, isSubstr_iff, isSubstr_iff, or_assoc]

theorem flip_aux (a b c d e f t x y p : Str) :
    (if isSubstr a t || isSubstr b t || isSubstr c t then x
      else if isSubstr d t || isSubstr e t || isSubstr f t then y else p) =
    (if a <:+: t ∨ b <:+: t ∨ c <:+: t then some x
      else if d <:+: t ∨ e <:+: t ∨ f <:+: t then some y else none).getD p := by
  by_cases h1 : a <:+: t ∨ b <:+: t ∨ c <:+: t
  · rw [if_pos ((or3_iff _ _ _ _).2 h1), if_pos h1]; rfl
  rw [if_neg (fun h => h1 ((or3_iff _ _ _ _).1 h)), if_neg h1]
  by_cases h2 : d <:+: t ∨ e <:+: t ∨ f <:+: t
  · rw [if_pos ((or3_iff _ _ _ _).2 h2), if_pos h2]; rfl
  rw [if_neg (fun h => h2 ((or3_iff _ _ _ _).1 h)), if_neg h2]; rfl

theorem countFlip_eq (t p : Str) : countFlip t p = (Spec.flipOf t).getD p := flip_aux _ _ _ _ _ _ t _ _ p

theorem forceFrom_cons (p : Str) (f : Str → Option Str) (t : Str) (ts : List Str) :
    forceFrom p f (t :: ts) = forceFrom ((f t).getD p) f ts := by
  rw [forceFrom, forceFrom, List.filterMap_cons]
  cases f t with
  | none => rfl
  | some x =>
    dsimp only
    rw [List.getLast?_cons]
    cases (ts.filterMap f).getLast? <;> rfl

theorem countPreset_ok {t c : Str} {x : ℚ} (h : countPreset t = .ok (c, x)) :
    ∃ ws v, Words t (ws ++ [c, v]) ∧ pyFloat v = .ok x := by
  rw [countPreset] at h
  cases hr : (splitWs t).reverse with
  | nil => rw [hr] at h; simp at h
  | cons v l =>
    cases l with
    | nil => rw [hr] at h; simp at h
    | cons c' l =>
      rw [hr] at h
      dsimp only at h
      cases hf : pyFloat v with
      | error e => rw [hf] at h; simp [Except.map] at h
      | ok y =>
        rw [hf] at h
        obtain ⟨rfl, rfl⟩ := Prod.mk.inj (Except.ok.inj h)
        refine ⟨l.reverse, v, words_iff.2 ?_, hf⟩
        rw [← List.reverse_reverse (splitWs t), hr]; simp

theorem countLoop_ok (cs : List Str) (p sf : Str) (n : ℕ) (chs : List Channel) (h : countLoop cs p sf n = .ok chs) :
    chs.length = Spec.nCounts (cs.map strip) ∧
    ∀ pre t post, cs.map strip = pre ++ t :: post → Spec.Counts t →
      ∃ ws c v x, Words t (ws ++ [c, v]) ∧ pyFloat v = .ok x ∧
        chs[Spec.nCounts pre]? = some
          { val := x, name := c ++ "_".toList ++ decStr (n + Spec.nCounts pre),
            label := forceFrom p Spec.dirOf (pre ++ [t]) ++ " ".toList ++ forceFrom sf Spec.flipOf (pre ++ [t]) } := by
  induction cs generalizing p sf n chs with
  | nil =>
    rw [countLoop] at h
    obtain rfl := Except.ok.inj h
    refine ⟨rfl, ?_⟩
    intro pre t post h
    cases pre <;> simp at h
  | cons c0 cs ih =>
    rw [countLoop] at h
    split at h
    · rename_i hc
      rw [isSubstr_iff] at hc
      obtain ⟨⟨c, x⟩, h1, h⟩ := py_bind_eq_ok.1 h
      obtain ⟨chs', h2, h⟩ := py_bind_eq_ok.1 h
      obtain rfl := Except.ok.inj h
      obtain ⟨i1, i2⟩ := ih _ _ _ _ h2
      refine ⟨?_, ?_⟩
      · rw [List.length_cons, i1, List.map_cons, nCounts_pos hc]
      · intro pre t post heq ht
        cases pre with
        | nil =>
          rw [List.map_cons, List.nil_append, List.cons.injEq] at heq
          obtain ⟨rfl, _⟩ := heq
          obtain ⟨ws, v, g1, g2⟩ := countPreset_ok h1
          refine ⟨ws, c, v, x, g1, g2, ?_⟩
          rw [List.nil_append, forceFrom_cons, forceFrom_cons, countDir_eq, countFlip_eq]
          rfl
        | cons t0 pre =>
          rw [List.map_cons, List.cons_append, List.cons.injEq] at heq
          obtain ⟨rfl, heq⟩ := heq
          obtain ⟨ws, c', v, y, g1, g2, g3⟩ := i2 pre t post heq ht
          refine ⟨ws, c', v, y, g1, g2, ?_⟩
          rw [nCounts_pos hc, List.getElem?_cons_succ, g3, List.cons_append,
            forceFrom_cons, forceFrom_cons, countDir_eq, countFlip_eq, Nat.add_right_comm, Nat.add_assoc]
    · rename_i hc
      rw [isSubstr_iff] at hc
      obtain ⟨i1, i2⟩ := ih _ _ _ _ h
      refine ⟨?_, ?_⟩
      · rw [i1, List.map_cons, nCounts_neg hc]
      · intro pre t post heq ht
        cases pre with
        | nil =>
          rw [List.map_cons, List.nil_append, List.cons.injEq] at heq
          obtain ⟨rfl, _⟩ := heq
          exact absurd ht hc
        | cons t0 pre =>
          rw [List.map_cons, List.cons_append, List.cons.injEq] at heq
          obtain ⟨rfl, heq⟩ := heq
          obtain ⟨ws, c', v, y, g1, g2, g3⟩ := i2 pre t post heq ht
          refine ⟨ws, c', v, y, g1, g2, ?_⟩
          rw [nCounts_neg hc, g3, List.cons_append, forceFrom_cons, forceFrom_cons, countDir_eq, countFlip_eq]

/-- **C50**: the count file, read as commands separated by commas, yields one channel per `count preset` command; the
channel of the `j`-th such command has the preset name and value of the command, the number `j`, and the direction and
flipper state in force at the command. -/
theorem C50_channels (cs ts : List Str) (hcs : cs ≠ []) (hc : ∀ c ∈ cs, ',' ∉ c) (hts : List.Forall₂ Trim cs ts)
    (chs : List Channel) (h : parseCountfile (joinStr ",".toList cs) = .ok chs) :
    chs.length = Spec.nCounts ts ∧
    ∀ pre t post, ts = pre ++ t :: post → Spec.Counts t →
      ∃ ws c v x, Words t (ws ++ [c, v]) ∧ pyFloat v = .ok x ∧
        chs[Spec.nCounts pre]? = some
          { val := x, name := c ++ "_".toList ++ decStr (Spec.nCounts pre + 1),
            label := Spec.lastNamed Spec.dirOf (pre ++ [t]) ++ " ".toList ++ Spec.lastNamed Spec.flipOf (pre ++ [t]) } := by
  rw [parseCountfile, show splitChar ',' (joinStr ",".toList cs) = cs from splitChar_join hcs hc] at h
  obtain ⟨h1, h2⟩ := countLoop_ok _ _ _ _ _ h
  rw [forall₂_trim.1 hts] at h1 h2
  refine ⟨h1, fun pre t post heq ht => ?_⟩
  obtain ⟨ws, c, v, x, g1, g2, g3⟩ := h2 pre t post heq ht
  exact ⟨ws, c, v, x, g1, g2, by rw [g3, Nat.add_comm 1]; rfl⟩

/-- **C50**: decoding succeeds when every `count preset` command ends with a channel and a number. -/
theorem C50_total (cs ts : List Str) (hcs : cs ≠ []) (hc : ∀ c ∈ cs, ',' ∉ c) (hts : List.Forall₂ Trim cs ts)
    (hw : ∀ t ∈ ts, Spec.Counts t → ∃ ws c v x, Words t (ws ++ [c, v]) ∧ pyFloat v = .ok x) :
    ∃ chs, parseCountfile (joinStr ",".toList cs) = .ok chs := by
  rw [parseCountfile, show splitChar ',' (joinStr ",".toList cs) = cs from splitChar_join hcs hc]
  rw [← forall₂_trim.1 hts] at hw
  clear hcs hc hts
  generalize ([] : Str) = p
  generalize (1 : ℕ) = n
  have : ∀ p sf n, ∃ chs, countLoop cs p sf n = .ok chs := by
    induction cs with
    | nil => exact fun _ _ _ => ⟨_, rfl⟩
    | cons c0 cs ih =>
      intro p sf n
      have ih := ih fun t ht => hw t (by rw [List.map_cons]; exact List.mem_cons_of_mem _ ht)
      rw [countLoop]
      split
      · rename_i hc
        rw [isSubstr_iff] at hc
        obtain ⟨ws, c, v, x, g1, g2⟩ := hw (strip c0) (by simp) hc
        have : countPreset (strip c0) = .ok (c, x) := by
          rw [countPreset, words_iff.1 g1]
          simp [g2, Except.map]
        rw [this]
        obtain ⟨chs, hch⟩ := ih (countDir (strip c0) p) (countFlip (strip c0) sf) (n + 1)
        exact ⟨_, by show (countLoop _ _ _ _ >>= _) = _; rw [hch]; rfl⟩
      · exact ih _ _ _
  exact this p p n

end Tavi
