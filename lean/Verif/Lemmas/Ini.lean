import Verif.Model.Ini
import Verif.Lemmas.Text
import Verif.Lemmas.Assoc
import Verif.Props.Configuration

/-!
# Settings files: what is read is what was written
-/

namespace Tavi

open Spec

/-! ## Characters and lines -/

theorem toLower_cases (c : Char) : c.toLower = c ∨ ('A'.toNat ≤ c.toNat ∧ c.toNat ≤ 'Z'.toNat ∧ c.toLower.toNat = c.toNat + 32) := by
  unfold Char.toLower
  split
  · rename_i h
    right
    have h1 : 65 ≤ c.toNat := h.1
    have h2 : c.toNat ≤ 90 := h.2
    refine ⟨h1, h2, ?_⟩
    show (c.val + _).toNat = _
    rw [UInt32.toNat_add]
    show (c.toNat + 32) % _ = _
    omega
  · left; rfl

theorem char_of_toNat {c d : Char} (h : c.toNat = d.toNat) : c = d := Char.toNat_inj.1 h

theorem toLower_idem (c : Char) : c.toLower.toLower = c.toLower := by
  rcases toLower_cases c with h | ⟨h1, h2, h3⟩
  · rw [h]; exact h
  · rcases toLower_cases c.toLower with h | ⟨h4, h5, h6⟩
    · exact h
    · have : 'A'.toNat = 65 := rfl
      have : 'Z'.toNat = 90 := rfl
      omega

/-- Lower case changes no character outside the alphabet, and makes none. -/
theorem toLower_eq {c d : Char} (hd : d.toNat < 65 ∨ (90 < d.toNat ∧ d.toNat < 97) ∨ 122 < d.toNat) : c.toLower = d ↔ c = d := by
  have e1 : 'A'.toNat = 65 := rfl
  have e2 : 'Z'.toNat = 90 := rfl
  constructor
  · intro h
    rcases toLower_cases c with h' | ⟨h1, h2, h3⟩
    · rw [← h, h']
    · rw [h] at h3
      omega
  · rintro rfl
    rcases toLower_cases c with h' | ⟨h1, h2, h3⟩
    · exact h'
    · omega

theorem isSpace_toLower (c : Char) : isSpace c.toLower = isSpace c := by
  rcases toLower_cases c with h | ⟨h1, h2, h3⟩
  · rw [h]
  · have e1 : 'A'.toNat = 65 := rfl
    have e2 : 'Z'.toNat = 90 := rfl
    rw [e1] at h1
    rw [e2] at h2
    unfold isSpace
    rw [h3]
    have : ∀ n : ℕ, 65 ≤ n → n ≤ 122 →
      ((9 ≤ n && n ≤ 13) || (28 ≤ n && n ≤ 32) || n == 0x85 || n == 0xa0 || n == 0x1680 || (0x2000 ≤ n && n ≤ 0x200a) ||
        n == 0x2028 || n == 0x2029 || n == 0x202f || n == 0x205f || n == 0x3000) = false := by
      intro n a b
      simp only [Bool.or_eq_false_iff, Bool.and_eq_false_iff, decide_eq_false_iff_not, beq_eq_false_iff_ne]
      omega
    rw [this _ (by omega) (by omega), this _ (by omega) (by omega)]

theorem isDelim_toLower (c : Char) : isDelim c.toLower = isDelim c := by
  unfold isDelim
  have h1 : c.toLower = '=' ↔ c = '=' := toLower_eq (by decide)
  have h2 : c.toLower = ':' ↔ c = ':' := toLower_eq (by decide)
  by_cases a : c = '='
  · rw [h1.2 a, a]
  · by_cases b : c = ':'
    · rw [h2.2 b, b]
    · have a' := fun h => a (h1.1 h)
      have b' := fun h => b (h2.1 h)
      rw [beq_eq_false_iff_ne.2 a, beq_eq_false_iff_ne.2 b, beq_eq_false_iff_ne.2 a', beq_eq_false_iff_ne.2 b']

theorem lowerStr_idem (s : Str) : lowerStr (lowerStr s) = lowerStr s := by
  unfold lowerStr
  rw [List.map_map]
  exact List.map_congr_left fun c _ => toLower_idem c

theorem rstrip_tight {t : Str} (h : ∀ c, t.getLast? = some c → isSpace c = false) : rstrip t = t := by
  rw [rstrip, dropWhile_tight, List.reverse_reverse]
  intro c hc
  rw [List.head?_reverse] at hc
  exact h c hc

theorem rstrip_blank {b : Str} (hb : Blank b) (s : Str) : rstrip (s ++ b) = rstrip s := by
  rw [rstrip, rstrip, List.reverse_append, dropWhile_blank (blank_reverse hb)]

theorem rstrip_split (s : Str) : ∃ b, s = rstrip s ++ b ∧ Blank b ∧ ∀ c, (rstrip s).getLast? = some c → isSpace c = false := by
  obtain ⟨a, ha, ha'⟩ := dropWhile_split s.reverse
  refine ⟨a.reverse, ?_, blank_reverse ha', ?_⟩
  · rw [rstrip, ← List.reverse_append, ← ha, List.reverse_reverse]
  · intro c hc
    rw [rstrip, List.getLast?_reverse] at hc
    exact head_dropWhile _ c hc

/-- A line is a section header iff it starts with a bracket that is closed, with something in between. -/
theorem header_some (v : Str) : (iniHeader v).isSome = true ↔ v.head? = some '[' ∧ ']' ∈ v.drop 2 := by
  unfold iniHeader
  cases v with
  | nil => simp
  | cons c t =>
    by_cases hc : c = '['
    · subst hc
      show (match t.reverse.dropWhile (· ≠ ']') with
        | ']' :: h => if h = [] then none else some h.reverse
        | _ => none).isSome = true ↔ _
      have hsplit : t.reverse = t.reverse.takeWhile (· ≠ ']') ++ t.reverse.dropWhile (· ≠ ']') :=
        List.takeWhile_append_dropWhile.symm
      have hno : ']' ∉ t.reverse.takeWhile (· ≠ ']') := by
        intro h
        have := all_takeWhile _ _ _ h
        simp at this
      cases hd : t.reverse.dropWhile (· ≠ ']') with
      | nil =>
        rw [hd, List.append_nil] at hsplit
        rw [← hsplit] at hno
        refine ⟨by intro h; exact absurd h (by simp), ?_⟩
        rintro ⟨-, h⟩
        exact absurd (List.mem_reverse.2 (List.mem_of_mem_drop (i := 1) h)) hno
      | cons d h =>
        have hd' : d = ']' := by
          have := List.head?_dropWhile_not (fun c : Char => decide (c ≠ ']')) t.reverse
          rw [hd] at this
          simpa using this
        subst hd'
        rw [hd] at hsplit
        have ht : t = h.reverse ++ ']' :: (t.reverse.takeWhile (· ≠ ']')).reverse := by
          have := congrArg List.reverse hsplit
          rw [List.reverse_reverse, List.reverse_append, List.reverse_cons, List.append_assoc] at this
          exact this
        have hno' : ']' ∉ (t.reverse.takeWhile (· ≠ ']')).reverse := fun h => hno (List.mem_reverse.1 h)
        generalize (t.reverse.takeWhile (· ≠ ']')).reverse = u at ht hno'
        show (if h = [] then none else some h.reverse : Option Str).isSome = true ↔ _
        by_cases hh : h = []
        · subst hh
          rw [ht]
          simp [hno']
        · rw [if_neg hh]
          refine ⟨fun _ => ⟨rfl, ?_⟩, fun _ => rfl⟩
          show ']' ∈ t.drop 1
          rw [ht, List.drop_append_of_le_length (by rw [List.length_reverse]; exact List.length_pos_of_ne_nil hh)]
          simp
    · refine ⟨fun h => ?_, fun h => absurd (Option.some.inj h.1) hc⟩
      split at h
      · rename_i heq; exact absurd (List.cons.inj heq).1 hc
      · exact absurd h (by simp)

theorem header_bracket (n : Str) (hn : n ≠ []) : iniHeader ('[' :: n ++ [']']) = some n := by
  show (match (n ++ [']']).reverse.dropWhile (· ≠ ']') with
        | ']' :: h => if h = [] then none else some h.reverse
        | _ => none) = _
  rw [List.reverse_append]
  show (match (']' :: n.reverse).dropWhile (· ≠ ']') with
        | ']' :: h => if h = [] then none else some h.reverse
        | _ => none) = _
  rw [List.dropWhile_cons_of_neg (by simp)]
  show (if n.reverse = [] then none else some n.reverse.reverse : Option Str) = _
  rw [if_neg (by simpa using hn), List.reverse_reverse]

theorem header_mem {v h : Str} (hv : iniHeader v = some h) : h ≠ [] ∧ ∀ c ∈ h, c ∈ v := by
  unfold iniHeader at hv
  split at hv
  · rename_i t
    split at hv
    · rename_i h' heq
      split at hv
      · exact absurd hv (by simp)
      · rename_i hne
        cases hv
        refine ⟨by simpa using hne, fun c hc => ?_⟩
        have : c ∈ t.reverse.dropWhile (· ≠ ']') := by rw [heq]; exact List.mem_cons_of_mem _ (List.mem_reverse.1 hc)
        exact List.mem_cons_of_mem _ (List.mem_reverse.1 (List.dropWhile_suffix _ |>.mem this))
    · exact absurd hv (by simp)
  · exact absurd hv (by simp)

/-! ## What has been read -/

/-- An option name as it is stored: not empty, no blanks around, lower case, no delimiter, no line end, not a comment. -/
def KeyOk (ps : List Char) (k : Str) : Prop :=
  k ≠ [] ∧ Tight k ∧ lowerStr k = k ∧ (∀ c ∈ k, isDelim c = false) ∧ '\n' ∉ k ∧ ∀ c, k.head? = some c → c ∉ ps

/-- A line of a value. -/
def LineOk (l : Str) : Prop := Tight l ∧ '\n' ∉ l

/-- An option as it is stored, with the lines of its value; written, it is not taken for a section header. -/
def EntryOk (ps : List Char) (nv : Bool) (e : Str × Option (List Str)) : Prop :=
  KeyOk ps e.1 ∧ match e.2 with
    | none => nv = true ∧ ¬(e.1.head? = some '[' ∧ ']' ∈ e.1.drop 2)
    | some [] => False
    | some (l0 :: ls) => LineOk l0 ∧ (∀ l ∈ ls, LineOk l ∧ ∀ c, l.head? = some c → c ∉ ps) ∧
        ¬(e.1.head? = some '[' ∧ (']' ∈ e.1.drop 2 ∨ ']' ∈ l0))

/-- A section as it is stored. -/
def RawOk (ps : List Char) (nv : Bool) (r : RawSec) : Prop := (r.map Prod.fst).Nodup ∧ ∀ e ∈ r, EntryOk ps nv e

/-- The name of a section. -/
def NameOk (n : Str) : Prop := n ≠ [] ∧ n ≠ defaultSect ∧ '\n' ∉ n

/-- All that has been read so far. -/
def StOk (ps : List Char) (nv : Bool) (st : IniState) : Prop :=
  (st.sections.map Prod.fst).Nodup ∧ RawOk ps nv st.defaults ∧ ∀ s ∈ st.sections, NameOk s.1 ∧ RawOk ps nv s.2

theorem ini_mem_assocSet {β : Type} {l : List (Str × β)} {k : Str} {v : β} {x : Str × β} (h : x ∈ assocSet l k v) :
    x = (k, v) ∨ x ∈ l := by
  induction l with
  | nil => left; simpa [assocSet] using h
  | cons kv l ih =>
    obtain ⟨k', v'⟩ := kv
    rw [assocSet] at h
    split at h
    · rename_i hk
      subst hk
      rcases List.mem_cons.1 h with h | h
      · left; exact h
      · right; exact List.mem_cons_of_mem _ h
    · rcases List.mem_cons.1 h with h | h
      · right; rw [h]; simp
      · rcases ih h with h | h
        · left; exact h
        · right; exact List.mem_cons_of_mem _ h

theorem lookup_getD_ok {P : RawSec → Prop} {l : List (Str × RawSec)} {n : Str} (hd : (l.map Prod.fst).Nodup)
    (h0 : P []) (h : ∀ s ∈ l, P s.2) : P ((lookupKey n l).getD []) := by
  cases hl : lookupKey n l with
  | none => exact h0
  | some r => exact h (n, r) ((lookupKey_mem hd).1 hl)

theorem rawOk_nil (ps : List Char) (nv : Bool) : RawOk ps nv [] := ⟨List.nodup_nil, by simp⟩

theorem stOk_sec {ps : List Char} {nv : Bool} {st : IniState} (h : StOk ps nv st) (n : Str) : RawOk ps nv (st.sec n) := by
  unfold IniState.sec
  split
  · exact h.2.1
  · exact lookup_getD_ok h.1 (rawOk_nil ps nv) fun s hs => (h.2.2 s hs).2

theorem stOk_setSec {ps : List Char} {nv : Bool} {st : IniState} (h : StOk ps nv st) {n : Str}
    (hn : n = defaultSect ∨ NameOk n) {r : RawSec} (hr : RawOk ps nv r) : StOk ps nv (st.setSec n r) := by
  unfold IniState.setSec
  split
  · exact ⟨h.1, hr, h.2.2⟩
  · rename_i hd
    refine ⟨nodup_assocSet h.1 _ _, h.2.1, fun s hs => ?_⟩
    rcases ini_mem_assocSet hs with rfl | hs
    · exact ⟨hn.resolve_left hd, hr⟩
    · exact h.2.2 s hs

theorem rawOk_snoc {ps : List Char} {nv : Bool} {r : RawSec} (h : RawOk ps nv r) {e : Str × Option (List Str)}
    (hk : lookupKey e.1 r = none) (he : EntryOk ps nv e) : RawOk ps nv (r ++ [e]) := by
  refine ⟨?_, ?_⟩
  · rw [List.map_append, List.nodup_append]
    refine ⟨h.1, by simp, ?_⟩
    intro a ha b hb
    have : b = e.1 := by simpa using hb
    subst this
    rintro rfl
    exact (lookupKey_eq_none _ _).1 hk ha
  · intro x hx
    rcases List.mem_append.1 hx with hx | hx
    · exact h.2 x hx
    · have : x = e := by simpa using hx
      exact this ▸ he

theorem rawOk_append {ps : List Char} {nv : Bool} {r : RawSec} (h : RawOk ps nv r) {o : Str} {ls : List Str}
    (ho : lookupKey o r = some (some ls)) {l : Str} (hl : LineOk l ∧ ∀ c, l.head? = some c → c ∉ ps) :
    RawOk ps nv (assocSet r o (some (ls ++ [l]))) := by
  refine ⟨nodup_assocSet h.1 _ _, fun x hx => ?_⟩
  rcases ini_mem_assocSet hx with rfl | hx
  · have := h.2 (o, some ls) ((lookupKey_mem h.1).1 ho)
    cases ls with
    | nil => exact this.2.elim
    | cons l0 ls =>
      refine ⟨this.1, this.2.1, ?_, this.2.2.2⟩
      intro l' hl'
      rcases List.mem_append.1 hl' with h' | h'
      · exact this.2.2.1 l' h'
      · have : l' = l := by simpa using h'
        exact this ▸ hl
  · exact h.2 x hx

/-- The parts of an option line. -/
theorem option_ok {v : Str} (hv : Tight v) (hnl : '\n' ∉ v) (hh : iniHeader v = none) {ps : List Char}
    (hps : ∀ c, v.head? = some c → c ∉ ps) (hpl : ∀ c ∈ ps, c.toNat < 65) {nv : Bool}
    (hk : (iniOption v).1 ≠ []) (hnv : (iniOption v).2 = none → nv = true) :
    EntryOk ps nv ((iniOption v).1, (iniOption v).2.map fun x => [x]) := by
  have hno : ¬(v.head? = some '[' ∧ ']' ∈ v.drop 2) := by
    intro h
    have := (header_some v).2 h
    rw [hh] at this
    exact absurd this (by simp)
  have hsplit : v.takeWhile (fun c => !isDelim c) ++ v.dropWhile (fun c => !isDelim c) = v := List.takeWhile_append_dropWhile
  obtain ⟨b, hb, hb', hlast⟩ := rstrip_split (v.takeWhile fun c => !isDelim c)
  have hfst : (iniOption v).1 = lowerStr (rstrip (v.takeWhile fun c => !isDelim c)) := rfl
  have hr : rstrip (v.takeWhile fun c => !isDelim c) ≠ [] := by
    intro h
    rw [hfst, h] at hk
    exact hk rfl
  have htake := all_takeWhile (fun c => !isDelim c) v
  generalize v.takeWhile (fun c => !isDelim c) = tk at *
  obtain ⟨a, k, hak⟩ := List.exists_cons_of_ne_nil hr
  have hhead : v.head? = some a := by
    rw [← hsplit, hb, hak]; rfl
  have hmem : ∀ c ∈ rstrip tk, c ∈ v := by
    intro c hc
    rw [← hsplit, hb]; simp [hc]
  have hlow : ∀ {c d : Char}, (d.toNat < 65 ∨ (90 < d.toNat ∧ d.toNat < 97) ∨ 122 < d.toNat) → c.toLower = d → c = d :=
    fun hd h => (toLower_eq hd).1 h
  have hkey : KeyOk ps (iniOption v).1 := by
    rw [hfst]
    refine ⟨by rw [hak]; simp [lowerStr], ⟨?_, ?_⟩, lowerStr_idem _, ?_, ?_, ?_⟩
    · intro c hc
      rw [hak] at hc
      have : c = a.toLower := by simpa [lowerStr, eq_comm] using hc
      rw [this, isSpace_toLower]
      exact hv.1 a hhead
    · intro c hc
      rw [lowerStr, List.getLast?_map] at hc
      obtain ⟨d, hd, rfl⟩ := Option.map_eq_some_iff.1 hc
      rw [isSpace_toLower]
      exact hlast d hd
    · intro c hc
      obtain ⟨d, hd, rfl⟩ := List.mem_map.1 hc
      rw [isDelim_toLower]
      have := htake d (by rw [hb]; simp [hd])
      simpa using this
    · intro hc
      obtain ⟨d, hd, hd'⟩ := List.mem_map.1 hc
      have := hlow (by decide) hd'
      subst this
      exact hnl (hmem _ hd)
    · intro c hc hcp
      rw [hak] at hc
      have : a.toLower = c := by simpa [lowerStr] using hc
      have := hlow (.inl (hpl c hcp)) this
      subst this
      exact hps _ hhead hcp
  have hbrk : (iniOption v).1.head? = some '[' → v.head? = some '[' := by
    intro h
    rw [hfst, hak] at h
    have : a.toLower = '[' := by simpa [lowerStr] using h
    rw [hhead, hlow (by decide) this]
  have hclose : ']' ∈ (iniOption v).1.drop 2 → ']' ∈ v.drop 2 := by
    intro h
    rw [hfst, lowerStr, ← List.map_drop] at h
    obtain ⟨d, hd, hd'⟩ := List.mem_map.1 h
    have := hlow (by decide) hd'
    subst this
    rw [← hsplit, hb, List.append_assoc]
    rw [List.drop_append]
    exact List.mem_append_left _ hd
  refine ⟨hkey, ?_⟩
  cases hd : v.dropWhile (fun c => !isDelim c) with
  | nil =>
    have h2 : (iniOption v).2 = none := by unfold iniOption; dsimp only; rw [hd]
    rw [h2]
    exact ⟨hnv h2, fun h => hno ⟨hbrk h.1, hclose h.2⟩⟩
  | cons d t =>
    have h2 : (iniOption v).2 = some (strip t) := by unfold iniOption; dsimp only; rw [hd]
    rw [h2]
    obtain ⟨p, q, hpq, -, -, htt⟩ := trim_strip t
    have hsub : ∀ c ∈ strip t, c ∈ t := fun c hc => by rw [hpq]; simp [hc]
    refine ⟨⟨htt, fun h => hnl ?_⟩, by simp, ?_⟩
    · rw [← hsplit, hd]; simp [hsub _ h]
    · rintro ⟨h1, h | h⟩
      · exact hno ⟨hbrk h1, hclose h⟩
      · refine hno ⟨hbrk h1, ?_⟩
        rw [← hsplit, hd, hb, hak]
        show ']' ∈ ((k ++ b) ++ d :: t).drop 1
        cases k ++ b with
        | nil => exact hsub _ h
        | cons x y => simp [hsub _ h]

theorem target_inv {st : IniState} {s o : Str} {x : Option (List Str)} (h : st.target = some (s, o, x)) :
    st.cur = some s ∧ st.opt = some o ∧ o ≠ [] ∧ x = (lookupKey o (st.sec s)).join := by
  unfold IniState.target at h
  split at h
  · rename_i s' o' h1 h2
    split at h
    · exact absurd h (by simp)
    · rename_i hne
      simp only [Option.some.injEq, Prod.mk.injEq] at h
      obtain ⟨rfl, rfl, rfl⟩ := h
      exact ⟨h1, h2, hne, rfl⟩
  · exact absurd h (by simp)

theorem join_some {α : Type} {x : Option (Option α)} {a : α} (h : x.join = some a) : x = some (some a) := by
  cases x with
  | none => exact absurd h (by simp)
  | some y => exact congrArg some h

/-- The section lines are added to is the defaults or has a proper name. -/
def CurOk (st : IniState) : Prop := ∀ n, st.cur = some n → n = defaultSect ∨ NameOk n

theorem strip_mem {s : Str} {c : Char} (h : c ∈ strip s) : c ∈ s := by
  obtain ⟨a, b, hab, -⟩ := trim_strip s
  rw [hab]; simp [h]

theorem setSec_bad (st : IniState) (n : Str) (r : RawSec) : (st.setSec n r).bad = st.bad := by
  unfold IniState.setSec; split <;> rfl

theorem setSec_cur (st : IniState) (n : Str) (r : RawSec) : (st.setSec n r).cur = st.cur := by
  unfold IniState.setSec; split <;> rfl

theorem setSec_opt (st : IniState) (n : Str) (r : RawSec) : (st.setSec n r).opt = st.opt := by
  unfold IniState.setSec; split <;> rfl

theorem setSec_indent (st : IniState) (n : Str) (r : RawSec) : (st.setSec n r).indent = st.indent := by
  unfold IniState.setSec; split <;> rfl

theorem iniNew_ok {m : IniMode} (hpl : ∀ c ∈ m.comment, c.toNat < 65) {st st' : IniState} {v : Str} (hv : Tight v)
    (hnl : '\n' ∉ v) (hps : ∀ c, v.head? = some c → c ∉ m.comment) (h : iniNew m st v = .ok st')
    (hbad : st'.bad = false) :
    st.bad = false ∧ (CurOk st → CurOk st') ∧ (CurOk st → StOk m.comment m.noValue st → StOk m.comment m.noValue st') := by
  unfold iniNew at h
  cases hh : iniHeader v with
  | some n =>
    rw [hh] at h
    dsimp only at h
    obtain ⟨hn0, hnm⟩ := header_mem hh
    split at h
    · rename_i hd
      cases h
      exact ⟨hbad, fun _ k hk => .inl ((Option.some.inj hk).symm.trans hd), fun _ h => h⟩
    · rename_i hd
      split at h
      · exact absurd h (by simp)
      · rename_i hl
        cases h
        have hnk : NameOk n := ⟨hn0, hd, fun hc => hnl (hnm _ hc)⟩
        refine ⟨hbad, fun _ k hk => .inr (Option.some.inj hk ▸ hnk), fun _ h => ⟨?_, h.2.1, ?_⟩⟩
        · rw [List.map_append, List.nodup_append]
          refine ⟨h.1, by simp, ?_⟩
          intro a ha b hb
          have : b = n := by simpa using hb
          subst this
          rintro rfl
          exact (lookupKey_eq_none _ _).1 (by simpa using hl) ha
        · intro s hs
          rcases List.mem_append.1 hs with hs | hs
          · exact h.2.2 s hs
          · have : s = (n, []) := by simpa using hs
            subst this
            exact ⟨hnk, rawOk_nil _ _⟩
  | none =>
    rw [hh] at h
    dsimp only at h
    cases hc : st.cur with
    | none => rw [hc] at h; exact absurd h (by simp)
    | some s =>
      rw [hc] at h
      dsimp only [iniEntry] at h
      split at h
      · cases h; exact absurd hbad (by simp)
      · rename_i hnv
        split at h
        · exact absurd h (by simp)
        · rename_i hl
          cases h
          dsimp only at hbad
          rw [Bool.or_eq_false_iff] at hbad
          refine ⟨hbad.1, ?_, ?_⟩
          · intro hcur n hn
            refine hcur n ?_
            rw [← hn]
            exact (setSec_cur _ _ _).symm
          · intro hcur h
            have hk : (iniOption v).1 ≠ [] := by simpa using hbad.2
            have he := option_ok hv hnl hh hps hpl hk (nv := m.noValue) (by
              intro h2
              cases hm : m.noValue with
              | true => rfl
              | false => exact absurd ⟨h2, hm⟩ hnv)
            exact stOk_setSec h (hcur s hc) (rawOk_snoc (stOk_sec h s) (by simpa using hl) he)

theorem iniStep_ok {m : IniMode} (hpl : ∀ c ∈ m.comment, c.toNat < 65) {st st' : IniState} {line : Str} (hnl : '\n' ∉ line)
    (h : iniStep m st line = .ok st') (hbad : st'.bad = false) :
    st.bad = false ∧ (CurOk st → CurOk st') ∧ (CurOk st → StOk m.comment m.noValue st → StOk m.comment m.noValue st') := by
  have happ : ∀ {s o : Str} {ls : List Str} {l : Str}, st.target = some (s, o, some ls) →
      (LineOk l ∧ ∀ c, l.head? = some c → c ∉ m.comment) → (st.append s o ls l).bad = false →
      st.bad = false ∧ (CurOk st → CurOk (st.append s o ls l)) ∧
        (CurOk st → StOk m.comment m.noValue st → StOk m.comment m.noValue (st.append s o ls l)) := by
    intro s o ls l ht hl hb
    obtain ⟨hc, -, -, hx⟩ := target_inv ht
    refine ⟨by rwa [IniState.append, setSec_bad] at hb, ?_, ?_⟩
    · intro hcur n hn
      rw [IniState.append, setSec_cur] at hn
      exact hcur n hn
    · intro hcur h
      exact stOk_setSec h (hcur s hc) (rawOk_append (stOk_sec h s) (join_some hx.symm) hl)
  have hnls : '\n' ∉ strip line := fun h => hnl (strip_mem h)
  have htight : Tight (strip line) := (trim_iff.2 rfl : Trim line (strip line)).choose_spec.choose_spec.2.2.2
  unfold iniStep at h
  cases hs : strip line with
  | nil =>
    rw [hs] at h
    dsimp only at h
    cases ht : st.target with
    | none => rw [ht] at h; cases h; exact ⟨hbad, id, fun _ => id⟩
    | some x =>
      obtain ⟨s, o, x⟩ := x
      rw [ht] at h
      cases x with
      | none => cases h; exact ⟨hbad, id, fun _ => id⟩
      | some ls =>
        cases h
        exact happ ht ⟨⟨⟨by simp, by simp⟩, by simp⟩, by simp⟩ hbad
  | cons c v =>
    rw [hs] at h hnls htight
    dsimp only at h
    split at h
    · cases h; exact ⟨hbad, id, fun _ => id⟩
    · rename_i hc
      have hps : ∀ c', (c :: v).head? = some c' → c' ∉ m.comment := by
        intro c' hc'
        rw [← Option.some.inj hc']; exact hc
      have hnew := fun h => iniNew_ok hpl htight hnls hps (st := { st with indent := indentOf line }) (st' := st') h hbad
      split at h
      · cases ht : st.target with
        | none => rw [ht] at h; exact hnew h
        | some x =>
          obtain ⟨s, o, x⟩ := x
          rw [ht] at h
          cases x with
          | none => exact absurd h (by simp)
          | some ls =>
            cases h
            exact happ ht ⟨⟨htight, hnls⟩, hps⟩ hbad
      · exact hnew h

theorem fold_ok {m : IniMode} (hpl : ∀ c ∈ m.comment, c.toNat < 65) (lines : List Str) {st st' : IniState}
    (hnl : ∀ l ∈ lines, '\n' ∉ l) (h : lines.foldlM (iniStep m) st = .ok st') (hbad : st'.bad = false) :
    st.bad = false ∧ (CurOk st → StOk m.comment m.noValue st → StOk m.comment m.noValue st') := by
  induction lines generalizing st with
  | nil => cases h; exact ⟨hbad, fun _ => id⟩
  | cons l lines ih =>
    rw [List.foldlM_cons] at h
    cases hs : iniStep m st l with
    | error e => rw [hs] at h; exact absurd h (by simp [bind, Except.bind])
    | ok s1 =>
      rw [hs] at h
      obtain ⟨h1, h2⟩ := ih (fun x hx => hnl x (by simp [hx])) h
      obtain ⟨a, b, c⟩ := iniStep_ok hpl (hnl l (by simp)) hs h1
      exact ⟨a, fun hc hst => h2 (b hc) (c hc hst)⟩

theorem textLines_nl (s : Str) : ∀ l ∈ textLines s, '\n' ∉ l := by
  intro l hl
  refine (join_splitChar '\n' s).2 l ?_
  unfold textLines at hl
  dsimp only at hl
  split at hl
  · exact List.mem_of_mem_dropLast hl
  · exact hl

/-! ## The values of what has been read -/

theorem ini_joinStr_snoc (sep : Str) {ls : List Str} (h : ls ≠ []) (x : Str) :
    joinStr sep (ls ++ [x]) = joinStr sep ls ++ sep ++ x := by
  induction ls with
  | nil => exact absurd rfl h
  | cons a ls ih =>
    cases ls with
    | nil => rfl
    | cons b ls =>
      rw [List.cons_append, joinStr_cons sep a (by simp), ih (by simp), joinStr_cons sep a (l := b :: ls) (by simp)]
      simp only [List.append_assoc]

theorem joinVal_blank (ls : List Str) : joinVal (ls ++ [[]]) = joinVal ls := by
  by_cases h : ls = []
  · subst h; rfl
  · rw [joinVal, ini_joinStr_snoc _ h, List.append_nil, rstrip_blank, joinVal]
    intro c hc
    have : c = '\n' := by simpa using hc
    subst this; rfl

/-- An option as it is stored. -/
def OptOk (ps : List Char) (nv : Bool) (e : Str × Option Str) : Prop :=
  ∃ x, EntryOk ps nv (e.1, x) ∧
    ((x = none ∧ e.2 = none) ∨ ∃ ls, x = some ls ∧ e.2 = some (joinStr "\n".toList ls) ∧ joinVal ls = joinStr "\n".toList ls)

theorem trim_value {ps : List Char} {nv : Bool} {k l0 : Str} (ls : List Str) (h : EntryOk ps nv (k, some (l0 :: ls))) :
    OptOk ps nv (k, some (joinVal (l0 :: ls))) := by
  induction ls using List.reverseRecOn with
  | nil =>
    refine ⟨_, h, .inr ⟨_, rfl, ?_, ?_⟩⟩ <;>
    · show _ = _
      have : joinVal [l0] = l0 := rstrip_tight h.2.1.1.2
      rw [this]; rfl
  | append_singleton ls x ih =>
    by_cases hx : x = []
    · subst hx
      rw [← List.cons_append, joinVal_blank]
      exact ih ⟨h.1, h.2.1, fun l hl => h.2.2.1 l (by simp [hl]), h.2.2.2⟩
    · have hl : joinVal (l0 :: (ls ++ [x])) = joinStr "\n".toList (l0 :: (ls ++ [x])) := by
        apply rstrip_tight
        intro c hc
        rw [← List.cons_append, ini_joinStr_snoc _ (by simp), List.getLast?_append] at hc
        obtain ⟨d, hd⟩ := Option.isSome_iff_exists.1 (List.getLast?_isSome.2 hx)
        rw [hd] at hc
        rw [← Option.some.inj hc]
        exact (h.2.2.1 x (by simp)).1.1.2 d hd
      exact ⟨_, h, .inr ⟨_, rfl, congrArg some hl, hl⟩⟩

/-- A section as it is stored. -/
def SecOk (ps : List Char) (nv : Bool) (s : Section) : Prop := (s.map Prod.fst).Nodup ∧ ∀ e ∈ s, OptOk ps nv e

/-- A configuration as it is stored. -/
def ConfOk (ps : List Char) (nv : Bool) (c : Config) : Prop :=
  (c.sections.map Prod.fst).Nodup ∧ SecOk ps nv c.defaults ∧ ∀ s ∈ c.sections, NameOk s.1 ∧ SecOk ps nv s.2

theorem joinSec_ok {ps : List Char} {nv : Bool} {r : RawSec} (h : RawOk ps nv r) : SecOk ps nv (joinSec r) := by
  refine ⟨?_, ?_⟩
  · rw [joinSec, List.map_map]
    exact h.1
  · intro e he
    obtain ⟨⟨k, x⟩, hm, rfl⟩ := List.mem_map.1 he
    have := h.2 _ hm
    cases x with
    | none => exact ⟨none, this, .inl ⟨rfl, rfl⟩⟩
    | some ls => cases ls with
      | nil => exact this.2.elim
      | cons l0 ls => exact trim_value ls this

/-- What is read is in the form in which settings are stored. -/
theorem read_ok {m : IniMode} (hpl : ∀ c ∈ m.comment, c.toNat < 65) {text : Str} {c : Config} (h : iniRead m text = .ok c) :
    ConfOk m.comment m.noValue c := by
  unfold iniRead at h
  cases hf : (textLines text).foldlM (iniStep m) {} with
  | error e => rw [hf] at h; exact absurd h (by simp [bind, Except.bind])
  | ok st =>
    rw [hf] at h
    change (if st.bad = true then _ else _) = _ at h
    split at h
    · exact absurd h (by simp)
    · rename_i hb
      cases h
      have hb' : st.bad = false := by simpa using hb
      have hst := (fold_ok hpl _ (textLines_nl text) hf hb').2 (by intro n hn; exact absurd hn (by simp))
        ⟨List.nodup_nil, rawOk_nil _ _, by simp⟩
      refine ⟨?_, joinSec_ok hst.2.1, ?_⟩
      · rw [List.map_map]; exact hst.1
      · intro s hs
        obtain ⟨t, ht, rfl⟩ := List.mem_map.1 hs
        exact ⟨(hst.2.2 t ht).1, joinSec_ok (hst.2.2 t ht).2⟩

/-! ## Reading what was written -/

/-- Lines with their line ends. -/
def unlines (L : List Str) : Str := L.flatMap fun l => l ++ ['\n']

theorem split_unlines {L : List Str} (h : ∀ l ∈ L, '\n' ∉ l) : splitChar '\n' (unlines L) = L ++ [[]] := by
  induction L with
  | nil => rfl
  | cons l L ih =>
    show splitChar '\n' (l ++ ['\n'] ++ unlines L) = _
    rw [List.append_assoc]
    show splitChar '\n' (l ++ '\n' :: unlines L) = _
    rw [splitChar_cons (h l (by simp)), ih fun x hx => h x (by simp [hx])]
    rfl

theorem textLines_unlines {L : List Str} (h : ∀ l ∈ L, '\n' ∉ l) : textLines (unlines L) = L := by
  unfold textLines
  rw [split_unlines h]
  simp

/-- Reading the text leads from one state to the other. -/
def Reads (m : IniMode) (st : IniState) (text : Str) (st' : IniState) : Prop :=
  ∃ L, text = unlines L ∧ (∀ l ∈ L, '\n' ∉ l) ∧ L.foldlM (iniStep m) st = .ok st'

theorem Reads.nil (m : IniMode) (st : IniState) : Reads m st [] st := ⟨[], rfl, by simp, rfl⟩

theorem Reads.trans {m : IniMode} {a b c : IniState} {s t : Str} (h1 : Reads m a s b) (h2 : Reads m b t c) :
    Reads m a (s ++ t) c := by
  obtain ⟨L, rfl, hL, f⟩ := h1
  obtain ⟨K, rfl, hK, g⟩ := h2
  refine ⟨L ++ K, by simp [unlines], ?_, ?_⟩
  · intro l hl
    rcases List.mem_append.1 hl with h | h
    · exact hL l h
    · exact hK l h
  · rw [List.foldlM_append, f]; exact g

theorem Reads.one {m : IniMode} {a b : IniState} {l : Str} (hl : '\n' ∉ l) (h : iniStep m a l = .ok b) :
    Reads m a (l ++ ['\n']) b :=
  ⟨[l], by simp [unlines], by simpa using hl, by rw [List.foldlM_cons, h]; rfl⟩

theorem sec_setSec (st : IniState) (n : Str) (r : RawSec) : (st.setSec n r).sec n = r := by
  unfold IniState.setSec IniState.sec
  split
  · rfl
  · dsimp only; rw [lookupKey_assocSet, if_pos rfl]; rfl

theorem assocSet_twice {β : Type} (l : List (Str × β)) (k : Str) (v w : β) : assocSet (assocSet l k v) k w = assocSet l k w := by
  induction l with
  | nil => simp [assocSet]
  | cons kv l ih =>
    obtain ⟨k', v'⟩ := kv
    by_cases h : k' = k
    · simp [assocSet, h]
    · simp [assocSet, h, ih]

theorem setSec_twice (st : IniState) (n : Str) (r r' : RawSec) (o : Option Str) :
    ({ st.setSec n r with opt := o } : IniState).setSec n r' = { st.setSec n r' with opt := o } := by
  unfold IniState.setSec
  split
  · rfl
  · dsimp only; rw [assocSet_twice]

theorem assocSet_snoc {β : Type} {l : List (Str × β)} {k : Str} (h : lookupKey k l = none) (v w : β) :
    assocSet (l ++ [(k, v)]) k w = l ++ [(k, w)] := by
  induction l with
  | nil => simp [assocSet]
  | cons kv l ih =>
    obtain ⟨k', v'⟩ := kv
    rw [lookupKey] at h
    by_cases hk : k' = k
    · rw [if_pos hk] at h; exact absurd h (by simp)
    · rw [if_neg hk] at h
      rw [List.cons_append, assocSet, if_neg hk, ih h]; rfl

theorem lookupKey_snoc {β : Type} {l : List (Str × β)} {k : Str} (h : lookupKey k l = none) (v : β) :
    lookupKey k (l ++ [(k, v)]) = some v := by
  induction l with
  | nil => simp [lookupKey]
  | cons kv l ih =>
    obtain ⟨k', v'⟩ := kv
    rw [lookupKey] at h
    by_cases hk : k' = k
    · rw [if_pos hk] at h; exact absurd h (by simp)
    · rw [if_neg hk] at h
      rw [List.cons_append, lookupKey, if_neg hk, ih h]

/-- The state after an option has been read. -/
def optState (st : IniState) (n k : Str) (x : Option (List Str)) : IniState :=
  { st.setSec n (st.sec n ++ [(k, x)]) with opt := some k }

theorem indent_zero {l : Str} (h : ∀ c, l.head? = some c → isSpace c = false) : indentOf l = 0 := by
  unfold indentOf
  cases l with
  | nil => rfl
  | cons c l => rw [List.takeWhile_cons, h c rfl]; rfl

theorem mem_drop_append {α : Type} {x : α} {a b : List α} {n : ℕ} (h : x ∈ (a ++ b).drop n) : x ∈ a.drop n ∨ x ∈ b := by
  rw [List.drop_append] at h
  rcases List.mem_append.1 h with h | h
  · exact .inl h
  · exact .inr (List.mem_of_mem_drop h)

theorem takeWhile_all_append {p : Char → Bool} {a : Str} (h : ∀ c ∈ a, p c = true) (b : Str) :
    (a ++ b).takeWhile p = a ++ b.takeWhile p := by
  induction a with
  | nil => rfl
  | cons c a ih => rw [List.cons_append, List.takeWhile_cons, h c (by simp), if_pos rfl, ih fun d hd => h d (by simp [hd])]; rfl

theorem dropWhile_all_append {p : Char → Bool} {a : Str} (h : ∀ c ∈ a, p c = true) (b : Str) :
    (a ++ b).dropWhile p = b.dropWhile p := by
  induction a with
  | nil => rfl
  | cons c a ih => rw [List.cons_append, List.dropWhile_cons, h c (by simp), if_pos rfl, ih fun d hd => h d (by simp [hd])]

theorem step_new {m : IniMode} {st : IniState} (h0 : st.indent = 0) {line : Str} (hne : strip line ≠ [])
    (hi : indentOf line = 0) (hc : ∀ c, (strip line).head? = some c → c ∉ m.comment) :
    iniStep m st line = iniNew m st (strip line) := by
  unfold iniStep
  have hst : ({ st with indent := indentOf line } : IniState) = st := by rw [hi, ← h0]
  cases hs : strip line with
  | nil => exact absurd hs hne
  | cons c v =>
    dsimp only
    rw [hs] at hc
    rw [if_neg (hc c rfl), if_neg (by omega), hst]

theorem step_option {m : IniMode} {st : IniState} (h0 : st.indent = 0) {n k : Str} (hn : st.cur = some n)
    {x : Option Str} (hkey : KeyOk m.comment k) (hnv : x = none → m.noValue = true)
    (hno : ¬(k.head? = some '[' ∧ (']' ∈ k.drop 2 ∨ ∃ l, x = some l ∧ ']' ∈ l))) (hx : ∀ l, x = some l → Tight l)
    (hnew : lookupKey k (st.sec n) = none) :
    iniStep m st (k ++ match x with
      | some l => " = ".toList ++ l
      | none => []) = .ok (optState st n k (x.map fun l => [l])) := by
  obtain ⟨hk0, hkt, hklow, hkd, hknl, hkc⟩ := hkey
  obtain ⟨a, k', hak⟩ := List.exists_cons_of_ne_nil hk0
  have hhead : ∀ r : Str, (k ++ r).head? = some a := by intro r; rw [hak]; rfl
  have hsp : isSpace a = false := hkt.1 a (by rw [hak]; rfl)
  -- the stripped line
  have key : ∀ w : Str, Tight (k ++ w) → strip (k ++ match x with
      | some l => " = ".toList ++ l
      | none => []) = k ++ w → iniHeader (k ++ w) = none → iniOption (k ++ w) = (k, x) →
      iniStep m st (k ++ match x with
      | some l => " = ".toList ++ l
      | none => []) = .ok (optState st n k (x.map fun l => [l])) := by
    intro w hw hs hh ho
    rw [step_new h0 (by rw [hs, hak]; simp)
      (indent_zero (by intro c hc; rw [hhead] at hc; rw [← Option.some.inj hc]; exact hsp))
      (by intro c hc; rw [hs, hhead] at hc; rw [← Option.some.inj hc]; exact hkc a (by rw [hak]; rfl)), hs]
    unfold iniNew
    rw [hh, hn, ho]
    dsimp only
    unfold iniEntry
    dsimp only
    rw [if_neg (by rintro ⟨h1, h2⟩; rw [hnv h1] at h2; exact absurd h2 (by simp)), hnew, if_neg (by simp)]
    unfold optState
    rw [decide_eq_false hk0, Bool.or_false]
    congr 1
    generalize hq : st.sec n ++ [(k, x.map fun l => [l])] = q
    have := setSec_bad st n q
    rw [← this]
  have hnohead : ∀ w : Str, (∀ c ∈ w, c = ']' → ∃ l, x = some l ∧ ']' ∈ l) → iniHeader (k ++ w) = none := by
    intro w hw
    cases hh : iniHeader (k ++ w) with
    | none => rfl
    | some h =>
      exfalso
      obtain ⟨h1, h2⟩ := (header_some (k ++ w)).1 (by rw [hh]; rfl)
      rw [hhead] at h1
      refine hno ⟨by rw [hak]; exact h1, ?_⟩
      rcases mem_drop_append h2 with h | h
      · exact .inl h
      · exact .inr (hw _ h rfl)
  have hnd : ∀ c ∈ k, (!isDelim c) = true := fun c hc => by rw [hkd c hc]; rfl
  cases x with
  | none =>
    refine key [] (by rwa [List.append_nil]) ?_ (hnohead [] (by simp)) ?_
    · show strip (k ++ []) = _
      rw [List.append_nil, strip_tight hkt]
    · rw [List.append_nil]
      unfold iniOption
      have h1 : k.takeWhile (fun c => !isDelim c) = k := by
        have := takeWhile_all_append hnd []
        simpa using this
      have h2 : k.dropWhile (fun c => !isDelim c) = [] := by
        have := dropWhile_all_append hnd []
        simpa using this
      rw [h1, h2, rstrip_tight hkt.2, hklow]
  | some l =>
    have hl := hx l rfl
    have htail : ∀ w : Str, (k ++ ' ' :: '=' :: w).takeWhile (fun c => !isDelim c) = k ++ [' '] ∧
        (k ++ ' ' :: '=' :: w).dropWhile (fun c => !isDelim c) = '=' :: w := by
      intro w
      rw [takeWhile_all_append hnd, dropWhile_all_append hnd]
      exact ⟨rfl, rfl⟩
    have hr : rstrip (k ++ [' ']) = k := by
      rw [rstrip_blank (by intro c hc; have : c = ' ' := by simpa using hc
                           subst this; rfl), rstrip_tight hkt.2]
    have hopt : ∀ w : Str, strip w = l → iniOption (k ++ ' ' :: '=' :: w) = (k, some l) := by
      intro w hw
      unfold iniOption
      rw [(htail w).1, (htail w).2, hr, hklow]
      dsimp only
      rw [hw]
    by_cases hl0 : l = []
    · subst hl0
      refine key [' ', '='] ⟨?_, ?_⟩ ?_ (hnohead _ (by simp)) (hopt [] rfl)
      · intro c hc; rw [hhead] at hc; rw [← Option.some.inj hc]; exact hsp
      · intro c hc
        rw [List.getLast?_append] at hc
        have : c = '=' := by simpa [eq_comm] using hc
        subst this; rfl
      · show strip (k ++ [' ', '=', ' ']) = _
        rw [show k ++ [' ', '=', ' '] = (k ++ [' ', '=']) ++ [' '] by simp]
        rw [strip_append_right (by intro c hc; have : c = ' ' := by simpa using hc
                                   subst this; rfl), strip_tight]
        refine ⟨?_, ?_⟩
        · intro c hc; rw [hhead] at hc; rw [← Option.some.inj hc]; exact hsp
        · intro c hc
          rw [List.getLast?_append] at hc
          have : c = '=' := by simpa [eq_comm] using hc
          subst this; rfl
    · have htight : Tight (k ++ ' ' :: '=' :: ' ' :: l) := by
        refine ⟨?_, ?_⟩
        · intro c hc; rw [hhead] at hc; rw [← Option.some.inj hc]; exact hsp
        · intro c hc
          rw [show k ++ ' ' :: '=' :: ' ' :: l = (k ++ [' ', '=', ' ']) ++ l by simp, List.getLast?_append] at hc
          obtain ⟨d, hd⟩ := Option.isSome_iff_exists.1 (List.getLast?_isSome.2 hl0)
          rw [hd] at hc
          rw [← Option.some.inj hc]
          exact hl.2 d hd
      refine key (' ' :: '=' :: ' ' :: l) htight (strip_tight htight) (hnohead _ ?_) (hopt (' ' :: l) ?_)
      · rintro c hc rfl
        exact ⟨l, rfl, by simpa using hc⟩
      · show strip ([' '] ++ l) = l
        rw [strip_append (by intro c hc; have : c = ' ' := by simpa using hc
                             subst this; rfl), strip_tight hl]

theorem optState_target {st : IniState} {n k : Str} (hn : st.cur = some n) (hk : k ≠ [])
    (hnew : lookupKey k (st.sec n) = none) (x : Option (List Str)) : (optState st n k x).target = some (n, k, x) := by
  unfold optState IniState.target
  dsimp only
  rw [setSec_cur, hn]
  dsimp only
  rw [if_neg hk]
  show some (n, k, (lookupKey k ((st.setSec n (st.sec n ++ [(k, x)])).sec n)).join) = _
  rw [sec_setSec, lookupKey_snoc hnew]
  rfl

theorem optState_append {st : IniState} {n k : Str} (hnew : lookupKey k (st.sec n) = none) (ls : List Str) (l : Str) :
    (optState st n k (some ls)).append n k ls l = optState st n k (some (ls ++ [l])) := by
  unfold IniState.append
  have : (optState st n k (some ls)).sec n = st.sec n ++ [(k, some ls)] := sec_setSec st n _
  rw [this, assocSet_snoc hnew]
  exact setSec_twice st n _ _ _

theorem step_more {m : IniMode} {st : IniState} (h0 : st.indent = 0) {n k : Str} (hn : st.cur = some n) (hk : k ≠ [])
    (hnew : lookupKey k (st.sec n) = none) (ls : List Str) {l : Str} (hl : LineOk l) (hc : ∀ c, l.head? = some c → c ∉ m.comment) :
    iniStep m (optState st n k (some ls)) ('\t' :: l) = .ok (optState st n k (some (ls ++ [l]))) := by
  have hs : strip ('\t' :: l) = l := by
    show strip (['\t'] ++ l) = l
    rw [strip_append (by intro c hc; have : c = '\t' := by simpa using hc
                         subst this; rfl), strip_tight hl.1]
  unfold iniStep
  rw [hs, optState_target hn hk hnew]
  have hi : (optState st n k (some ls)).indent = 0 := by
    unfold optState; dsimp only; rw [setSec_indent, h0]
  cases l with
  | nil =>
    dsimp only
    rw [optState_append hnew]
  | cons c v =>
    dsimp only
    rw [if_neg (hc c rfl), if_pos (by rw [hi]; exact Nat.succ_pos _), optState_append hnew]

theorem fold_more {m : IniMode} {st : IniState} (h0 : st.indent = 0) {n k : Str} (hn : st.cur = some n) (hk : k ≠ [])
    (hnew : lookupKey k (st.sec n) = none) (more : List Str)
    (hl : ∀ l ∈ more, LineOk l ∧ ∀ c, l.head? = some c → c ∉ m.comment) (ls : List Str) :
    Reads m (optState st n k (some ls)) (unlines (more.map ('\t' :: ·))) (optState st n k (some (ls ++ more))) := by
  induction more generalizing ls with
  | nil => rw [List.append_nil]; exact Reads.nil _ _
  | cons l more ih =>
    have h1 := step_more h0 hn hk hnew ls (hl l (by simp)).1 (hl l (by simp)).2
    have h2 := ih (fun x hx => hl x (by simp [hx])) (ls ++ [l])
    rw [List.append_assoc] at h2
    exact (Reads.one (by simpa using (hl l (by simp)).1.2) h1).trans h2

theorem indentNl_append (a b : Str) : indentNl (a ++ b) = indentNl a ++ indentNl b := List.flatMap_append

theorem indentNl_line {l : Str} (h : '\n' ∉ l) : indentNl l = l := by
  induction l with
  | nil => rfl
  | cons c l ih =>
    show (if c = '\n' then _ else _) ++ indentNl l = _
    rw [if_neg (by rintro rfl; exact h (by simp)), ih fun hc => h (by simp [hc])]; rfl

theorem indentNl_join (l0 : Str) (ls : List Str) (h0 : '\n' ∉ l0) (h : ∀ l ∈ ls, '\n' ∉ l) :
    indentNl (joinStr "\n".toList (l0 :: ls)) ++ ['\n'] = l0 ++ ['\n'] ++ unlines (ls.map ('\t' :: ·)) := by
  induction ls generalizing l0 with
  | nil => show indentNl l0 ++ _ = _; rw [indentNl_line h0]; simp [unlines]
  | cons l ls ih =>
    rw [joinStr_cons _ _ (by simp), indentNl_append, indentNl_append, indentNl_line h0, List.append_assoc,
      ih l (h l (by simp)) fun x hx => h x (by simp [hx])]
    show l0 ++ ['\n', '\t'] ++ (l ++ ['\n'] ++ unlines _) = l0 ++ ['\n'] ++ ('\t' :: l ++ ['\n'] ++ unlines _)
    simp

/-- Reading one written option. -/
theorem reads_entry {m : IniMode} {ps : List Char} {nv : Bool} (hps : ∀ c ∈ m.comment, c ∈ ps) (hm : nv = true → m.noValue = true)
    {st : IniState} (h0 : st.indent = 0) {n : Str} (hn : st.cur = some n) {e : Str × Option Str} (he : OptOk ps nv e)
    (hnew : lookupKey e.1 (st.sec n) = none) :
    ∃ x, Reads m st (iniWriteEntry e) (optState st n e.1 x) ∧ x.map joinVal = e.2 ∧ e.1 ≠ [] := by
  obtain ⟨k, v⟩ := e
  obtain ⟨x, hx, h⟩ := he
  have hkey : KeyOk m.comment k := by
    obtain ⟨a, b, c, d, e, f⟩ := hx.1
    exact ⟨a, b, c, d, e, fun ch h h' => f ch h (hps ch h')⟩
  rcases h with ⟨rfl, hv⟩ | ⟨ls, rfl, hv, hj⟩
  · dsimp only at hv
    subst hv
    refine ⟨none, ?_, rfl, hkey.1⟩
    have := step_option (m := m) h0 hn (x := none) hkey (fun _ => hm hx.2.1)
      (by rintro ⟨h1, h2 | ⟨l, h2, -⟩⟩
          · exact hx.2.2 ⟨h1, h2⟩
          · exact absurd h2 (by simp)) (by simp) hnew
    refine Reads.one ?_ this
    show '\n' ∉ k ++ []
    rw [List.append_nil]
    exact hkey.2.2.2.2.1
  · dsimp only at hv
    subst hv
    cases ls with
    | nil => exact hx.2.elim
    | cons l0 ls =>
      obtain ⟨-, hl0, hls, hno⟩ := hx
      refine ⟨some (l0 :: ls), ?_, congrArg some hj, hkey.1⟩
      have h1 := step_option (m := m) h0 hn (x := some l0) hkey (by simp)
        (by rintro ⟨h1, h2 | ⟨l, h2, h3⟩⟩
            · exact hno ⟨h1, .inl h2⟩
            · rw [← Option.some.inj h2] at h3
              exact hno ⟨h1, .inr h3⟩) (by rintro l h; rw [← Option.some.inj h]; exact hl0.1) hnew
      have h2 := fold_more h0 hn hkey.1 hnew ls (fun l hl => ⟨(hls l hl).1, fun c hc h' => (hls l hl).2 c hc (hps c h')⟩) [l0]
      have ht : iniWriteEntry (k, some (joinStr "\n".toList (l0 :: ls))) =
          k ++ (" = ".toList ++ l0) ++ ['\n'] ++ unlines (ls.map ('\t' :: ·)) := by
        unfold iniWriteEntry
        dsimp only
        rw [List.append_assoc, List.append_assoc, indentNl_join _ _ hl0.2 fun l hl => (hls l hl).1.2]
        simp only [List.append_assoc]
      rw [ht]
      refine (Reads.one ?_ h1).trans h2
      intro h
      have hsp : '\n' ∉ " = ".toList := by decide
      rcases List.mem_append.1 h with h | h
      · exact hkey.2.2.2.2.1 h
      · rcases List.mem_append.1 h with h | h
        · exact hsp h
        · exact hl0.2 h

theorem joinSec_lookup (r : RawSec) (k : Str) : lookupKey k (joinSec r) = (lookupKey k r).map fun x => x.map joinVal := by
  induction r with
  | nil => rfl
  | cons e r ih =>
    show lookupKey k ((e.1, e.2.map joinVal) :: joinSec r) = _
    obtain ⟨k', x⟩ := e
    rw [lookupKey, lookupKey]
    by_cases h : k' = k
    · rw [if_pos h, if_pos h]; rfl
    · rw [if_neg h, if_neg h, ih]

theorem joinSec_set (r : RawSec) (k : Str) (x : Option (List Str)) :
    joinSec (assocSet r k x) = assocSet (joinSec r) k (x.map joinVal) := by
  induction r with
  | nil => rfl
  | cons e r ih =>
    obtain ⟨k', x'⟩ := e
    show joinSec (assocSet ((k', x') :: r) k x) = assocSet ((k', x'.map joinVal) :: joinSec r) k (x.map joinVal)
    rw [assocSet, assocSet]
    by_cases h : k' = k
    · rw [if_pos h, if_pos h]; rfl
    · rw [if_neg h, if_neg h, ← ih]; rfl

theorem joinSec_append (a b : RawSec) : joinSec (a ++ b) = joinSec a ++ joinSec b := List.map_append

/-- The section is there. -/
def HasSec (st : IniState) (n : Str) : Prop := n = defaultSect ∨ (lookupKey n st.sections).isSome = true

theorem setSec_self {st : IniState} {n : Str} (h : HasSec st n) : st.setSec n (st.sec n) = st := by
  unfold IniState.setSec IniState.sec
  split
  · rfl
  · rename_i hd
    obtain ⟨r, hr⟩ := Option.isSome_iff_exists.1 (h.resolve_left hd)
    rw [hr, Option.getD_some, assocSet_same hr]

theorem setSec_has {st : IniState} {n : Str} (r : RawSec) : HasSec (st.setSec n r) n := by
  unfold HasSec IniState.setSec
  split
  · exact .inl ‹_›
  · right; dsimp only; rw [lookupKey_assocSet, if_pos rfl]; rfl

/-- The blank line behind a section belongs to its last value, from which it is stripped. -/
theorem reads_blank {m : IniMode} {st : IniState} {n : Str} (hn : st.cur = some n) (hh : HasSec st n) :
    ∃ raw, Reads m st ['\n'] (st.setSec n raw) ∧ joinSec raw = joinSec (st.sec n) := by
  have hone : ∀ st', iniStep m st [] = .ok st' → Reads m st ['\n'] st' := fun st' h => Reads.one (l := []) (by simp) h
  cases ht : st.target with
  | none =>
    refine ⟨st.sec n, hone _ ?_, rfl⟩
    rw [setSec_self hh]
    unfold iniStep
    rw [ht]; rfl
  | some x =>
    obtain ⟨s, o, x⟩ := x
    obtain ⟨h1, -, -, h3⟩ := target_inv ht
    rw [hn] at h1
    cases h1
    cases x with
    | none =>
      refine ⟨st.sec n, hone _ ?_, rfl⟩
      rw [setSec_self hh]
      unfold iniStep
      rw [ht]; rfl
    | some ls =>
      refine ⟨assocSet (st.sec n) o (some (ls ++ [[]])), hone _ ?_, ?_⟩
      · unfold iniStep
        rw [ht]; rfl
      · rw [joinSec_set]
        apply assocSet_same
        rw [joinSec_lookup, join_some h3.symm]
        show some (some (joinVal ls)) = some (some (joinVal (ls ++ [[]])))
        rw [joinVal_blank]

/-- Reading the options of a section and the blank line behind them. -/
theorem reads_entries {m : IniMode} {ps : List Char} {nv : Bool} (hps : ∀ c ∈ m.comment, c ∈ ps)
    (hm : nv = true → m.noValue = true) {n : Str} (es : Section) (hes : ∀ e ∈ es, OptOk ps nv e) (hnd : (es.map Prod.fst).Nodup)
    {st : IniState} (h0 : st.indent = 0) (hn : st.cur = some n) (hh : HasSec st n)
    (hdis : ∀ e ∈ es, lookupKey e.1 (st.sec n) = none) :
    ∃ raw o, Reads m st (es.flatMap iniWriteEntry ++ ['\n']) { st.setSec n raw with opt := o } ∧
      joinSec raw = joinSec (st.sec n) ++ es := by
  induction es generalizing st with
  | nil =>
    obtain ⟨raw, h1, h2⟩ := reads_blank (m := m) hn hh
    refine ⟨raw, st.opt, ?_, by rw [h2, List.append_nil]⟩
    have := setSec_opt st n raw
    rw [← this]
    exact h1
  | cons e es ih =>
    rw [List.map_cons, List.nodup_cons] at hnd
    obtain ⟨x, h1, h2, -⟩ := reads_entry hps hm h0 hn (hes e (by simp)) (hdis e (by simp))
    have hsec : (optState st n e.1 x).sec n = st.sec n ++ [(e.1, x)] := sec_setSec st n _
    obtain ⟨raw, o, h3, h4⟩ := ih (fun x hx => hes x (by simp [hx])) hnd.2 (st := optState st n e.1 x)
      (by unfold optState; dsimp only; rw [setSec_indent, h0])
      (by unfold optState; dsimp only; rw [setSec_cur, hn])
      (setSec_has _)
      (by
        intro e' he'
        rw [hsec, lookupKey_eq_none, List.map_append, List.mem_append]
        rintro (h | h)
        · exact (lookupKey_eq_none _ _).1 (hdis e' (by simp [he'])) h
        · have : e'.1 = e.1 := by simpa using h
          exact hnd.1 (List.mem_map.2 ⟨e', he', this⟩))
    refine ⟨raw, o, ?_, ?_⟩
    · have := h1.trans h3
      rw [List.flatMap_cons, List.append_assoc]
      rw [show ({ (optState st n e.1 x).setSec n raw with opt := o } : IniState) = { st.setSec n raw with opt := o } by
        unfold optState; rw [setSec_twice]] at this
      exact this
    · rw [h4, hsec, joinSec_append, List.append_assoc]
      show _ ++ ([(e.1, x.map joinVal)] ++ es) = _
      rw [h2]; rfl

theorem step_header {m : IniMode} (hb : '[' ∉ m.comment) {st : IniState} (h0 : st.indent = 0) {n : Str} (hn : n ≠ []) :
    iniStep m st ('[' :: n ++ [']']) =
      if n = defaultSect then .ok { st with cur := some n, opt := none }
      else if (lookupKey n st.sections).isSome then .error .duplicateSection
      else .ok { st with sections := st.sections ++ [(n, [])], cur := some n, opt := none } := by
  have ht : Tight ('[' :: n ++ [']']) := by
    refine ⟨?_, ?_⟩
    · intro c hc
      rw [← Option.some.inj hc]; rfl
    · intro c hc
      rw [List.getLast?_append] at hc
      rw [← Option.some.inj hc]; rfl
  rw [step_new h0 (by rw [strip_tight ht]; simp) (indent_zero ht.1)
    (by rw [strip_tight ht]; intro c hc; rw [← Option.some.inj hc]; exact hb), strip_tight ht]
  unfold iniNew
  rw [header_bracket n hn]

theorem reads_sections {m : IniMode} {ps : List Char} {nv : Bool} (hb : '[' ∉ m.comment) (hps : ∀ c ∈ m.comment, c ∈ ps)
    (hm : nv = true → m.noValue = true) (ss : List (Str × Section)) (hss : ∀ s ∈ ss, NameOk s.1 ∧ SecOk ps nv s.2)
    (hnd : (ss.map Prod.fst).Nodup) {st : IniState} (h0 : st.indent = 0) (hbad : st.bad = false)
    (hdis : ∀ s ∈ ss, lookupKey s.1 st.sections = none) :
    ∃ st', Reads m st (ss.flatMap fun s => iniWriteSection s.1 s.2) st' ∧ st'.bad = false ∧ st'.defaults = st.defaults ∧
      (st'.sections.map fun s => (s.1, joinSec s.2)) = (st.sections.map fun s => (s.1, joinSec s.2)) ++ ss := by
  induction ss generalizing st with
  | nil => exact ⟨st, Reads.nil _ _, hbad, rfl, by simp⟩
  | cons s ss ih =>
    obtain ⟨n, es⟩ := s
    rw [List.map_cons, List.nodup_cons] at hnd
    obtain ⟨hname, hsec⟩ := hss _ List.mem_cons_self
    have hnone : lookupKey n st.sections = none := hdis (n, es) List.mem_cons_self
    have h1 := step_header hb h0 hname.1
    rw [if_neg hname.2.1, hnone, if_neg (by simp)] at h1
    have hlook : lookupKey n (st.sections ++ [(n, ([] : RawSec))]) = some [] := lookupKey_snoc hnone _
    have hsec1 : ({ st with sections := st.sections ++ [(n, [])], cur := some n, opt := none } : IniState).sec n = [] := by
      unfold IniState.sec
      rw [if_neg hname.2.1]
      dsimp only
      rw [hlook]; rfl
    obtain ⟨raw, o, h2, h3⟩ := reads_entries hps hm es hsec.2 hsec.1
      (st := { st with sections := st.sections ++ [(n, [])], cur := some n, opt := none }) h0 rfl
      (.inr (by dsimp only; rw [hlook]; rfl)) (by intro e _; rw [hsec1]; rfl)
    rw [hsec1] at h3
    have hfin : ({ ({ st with sections := st.sections ++ [(n, [])], cur := some n, opt := none } : IniState).setSec n raw with
        opt := o } : IniState) = { st with sections := st.sections ++ [(n, raw)], cur := some n, opt := o } := by
      unfold IniState.setSec
      rw [if_neg hname.2.1]
      dsimp only
      rw [assocSet_snoc hnone]
    rw [hfin] at h2
    obtain ⟨st', h4, h5, h6, h7⟩ := ih (fun x hx => hss x (List.mem_cons_of_mem _ hx)) hnd.2
      (st := { st with sections := st.sections ++ [(n, raw)], cur := some n, opt := o }) h0 hbad (by
        intro s hs
        rw [lookupKey_eq_none]
        dsimp only
        rw [List.map_append, List.mem_append]
        rintro (h | h)
        · exact (lookupKey_eq_none _ _).1 (hdis s (List.mem_cons_of_mem _ hs)) h
        · have : s.1 = n := by simpa using h
          exact hnd.1 (List.mem_map.2 ⟨s, hs, this⟩))
    refine ⟨st', ?_, h5, h6, ?_⟩
    · rw [List.flatMap_cons]
      refine Reads.trans ?_ h4
      have hnl : '\n' ∉ '[' :: n ++ [']'] := by
        intro h
        rcases List.mem_append.1 h with h | h
        · rcases List.mem_cons.1 h with h | h
          · exact absurd h (by decide)
          · exact hname.2.2 h
        · exact absurd (List.mem_singleton.1 h) (by decide)
      have := (Reads.one hnl h1).trans h2
      unfold iniWriteSection
      dsimp only
      rw [List.append_assoc, show '[' :: n ++ [']', '\n'] = '[' :: n ++ [']'] ++ ['\n'] by simp]
      exact this
    · rw [h7]
      show (List.map _ (st.sections ++ [(n, raw)])) ++ ss = _
      rw [List.map_append, List.append_assoc]
      show _ ++ ([(n, joinSec raw)] ++ ss) = _
      rw [h3]
      rfl

/-- **What is written is what is read**, for every configuration in the form in which settings are stored. -/
theorem read_write {m : IniMode} {ps : List Char} {nv : Bool} (hb : '[' ∉ m.comment) (hps : ∀ c ∈ m.comment, c ∈ ps)
    (hm : nv = true → m.noValue = true) {c : Config} (h : ConfOk ps nv c) : iniRead m (iniWrite c) = .ok c := by
  obtain ⟨defaults, sections⟩ := c
  have hend : ∀ {text : Str} {st : IniState}, Reads m {} text st → st.bad = false → joinSec st.defaults = defaults →
      (st.sections.map fun s => (s.1, joinSec s.2)) = sections → iniRead m text = .ok ⟨defaults, sections⟩ := by
    intro text st hr hbad hd hs
    obtain ⟨L, rfl, hL, hf⟩ := hr
    unfold iniRead
    rw [textLines_unlines hL, hf]
    show (if st.bad = true then _ else _) = _
    rw [hbad, if_neg (by simp), hd, hs]
  unfold iniWrite
  dsimp only
  by_cases hd : defaults = []
  · rw [if_pos hd, List.nil_append]
    obtain ⟨st', h1, h2, h3, h4⟩ := reads_sections hb hps hm sections h.2.2 h.1 (st := {}) rfl rfl (by intros; rfl)
    refine hend h1 h2 ?_ ?_
    · rw [h3, hd]; rfl
    · rw [h4]; rfl
  · rw [if_neg hd]
    have hne : defaultSect ≠ [] := by decide
    have h1 := step_header hb (st := {}) rfl hne
    rw [if_pos rfl] at h1
    obtain ⟨raw, o, h2, h3⟩ := reads_entries hps hm defaults h.2.1.2 h.2.1.1 (n := defaultSect)
      (st := { cur := some defaultSect, opt := none }) rfl rfl (.inl rfl) (by intros; rfl)
    have hfin : ({ ({ cur := some defaultSect, opt := none } : IniState).setSec defaultSect raw with
        opt := o } : IniState) = { defaults := raw, cur := some defaultSect, opt := o } := rfl
    rw [hfin] at h2
    obtain ⟨st', h4, h5, h6, h7⟩ := reads_sections hb hps hm sections h.2.2 h.1
      (st := { defaults := raw, cur := some defaultSect, opt := o }) rfl rfl (by intros; rfl)
    have hnl : '\n' ∉ '[' :: defaultSect ++ [']'] := by decide
    have hr : Reads m {} (iniWriteSection defaultSect defaults ++ sections.flatMap fun s => iniWriteSection s.1 s.2) st' := by
      refine Reads.trans ?_ h4
      have := (Reads.one hnl h1).trans h2
      unfold iniWriteSection
      rw [List.append_assoc, show '[' :: defaultSect ++ [']', '\n'] = '[' :: defaultSect ++ [']'] ++ ['\n'] by simp]
      exact this
    refine hend hr h5 ?_ ?_
    · rw [h6, h3]; rfl
    · rw [h7]; rfl

end Tavi
