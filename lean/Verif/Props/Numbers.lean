import Verif.Props.Datafile
import Verif.Props.Group

/-!
# Numbers in headers (C51) and data columns (C69)
-/

namespace Tavi

open Spec

/-! ## Decimal numerals -/

/-- A decimal numeral: optional sign, digits, optionally a point and digits, optionally an exponent. -/
structure Spec.Numeral where
  /-- `some true` for `-`, `some false` for `+` -/
  sign : Option Bool
  ip : Str
  fp : Option Str
  /-- sign and digits of the exponent -/
  exp : Option (Option Bool × Str)
  /-- the exponent is written with a capital `E` -/
  big : Bool

/-- The sign as text. -/
def Spec.signText : Option Bool → Str
  | none => []
  | some true => ['-']
  | some false => ['+']

/-- The sign as a factor. -/
def Spec.signFactor : Option Bool → ℤ
  | some true => -1
  | some false => 1
  | none => 1

/-- The number a string of digits stands for. -/
def Spec.decVal (s : Str) : ℕ := Nat.ofDigits 10 (s.reverse.map fun c => c.toNat - '0'.toNat)

/-- The digits and the point as text. -/
def Spec.Numeral.mantText (n : Spec.Numeral) : Str :=
  n.ip ++ match n.fp with
    | none => []
    | some f => '.' :: f

/-- The exponent as text. -/
def Spec.Numeral.expText (n : Spec.Numeral) : Str :=
  match n.exp with
  | none => []
  | some (s, d) => (if n.big then 'E' else 'e') :: (Spec.signText s ++ d)

/-- The numeral as text. -/
def Spec.Numeral.text (n : Spec.Numeral) : Str := Spec.signText n.sign ++ (n.mantText ++ n.expText)

/-- The number without sign and exponent. -/
def Spec.Numeral.mant (n : Spec.Numeral) : ℚ :=
  Spec.decVal n.ip + match n.fp with
    | none => 0
    | some f => Spec.decVal f / 10 ^ f.length

/-- The exponent. -/
def Spec.Numeral.exponent (n : Spec.Numeral) : ℤ :=
  match n.exp with
  | none => 0
  | some (s, d) => Spec.signFactor s * Spec.decVal d

/-- The number a numeral stands for. -/
def Spec.Numeral.value (n : Spec.Numeral) : ℚ := Spec.signFactor n.sign * (n.mant * 10 ^ n.exponent)

/-- Only digits. -/
def Spec.Digits (s : Str) : Prop := s.all isDigit = true

/-- The numeral is well-formed: digits where digits belong, at least one before or after the point and in the exponent. -/
def Spec.Numeral.Valid (n : Spec.Numeral) : Prop :=
  Spec.Digits n.ip ∧ (∀ f, n.fp = some f → Spec.Digits f) ∧ (n.ip ≠ [] ∨ ∃ f, n.fp = some f ∧ f ≠ []) ∧
  ∀ s d, n.exp = some (s, d) → Spec.Digits d ∧ d ≠ []

theorem decVal_eq (s : Str) : Spec.decVal s = digitsVal s := by
  induction s using List.reverseRecOn with
  | nil => rfl
  | append_singleton s c ih =>
    rw [Spec.decVal, List.reverse_append, List.reverse_singleton, List.singleton_append, List.map_cons, Nat.ofDigits_cons,
      digitsVal, List.foldl_append]
    show _ + 10 * Spec.decVal s = 10 * digitsVal s + digitVal c
    rw [ih, digitVal]; simp; omega

theorem digit_ne {c d : Char} (hd : isDigit d = false) (h : isDigit c = true) : c ≠ d := by
  rintro rfl; rw [h] at hd; exact absurd hd (by simp)

theorem not_mem_digits {d : Char} (hd : isDigit d = false) {s : Str} (h : Spec.Digits s) : d ∉ s := by
  intro hm
  have := List.all_eq_true.1 h d hm
  rw [hd] at this; exact absurd this (by simp)

theorem digit_not_space {c : Char} (h : isDigit c = true) : isSpace c = false := by
  rw [isDigit, decide_eq_true_eq] at h
  have h1 : 48 ≤ c.toNat := h.1
  have h2 : c.toNat ≤ 57 := h.2
  unfold isSpace
  simp only [Bool.or_eq_false_iff, Bool.and_eq_false_iff, decide_eq_false_iff_not, beq_eq_false_iff_ne]
  omega

theorem mantText_chars {n : Spec.Numeral} (h : n.Valid) {c : Char} (hc : c ∈ n.mantText) : isDigit c = true ∨ c = '.' := by
  rw [Spec.Numeral.mantText, List.mem_append] at hc
  rcases hc with hc | hc
  · exact .inl (List.all_eq_true.1 h.1 c hc)
  · cases hf : n.fp with
    | none => rw [hf] at hc; simp at hc
    | some f =>
      rw [hf] at hc
      rcases List.mem_cons.1 hc with rfl | hc
      · exact .inr rfl
      · exact .inl (List.all_eq_true.1 (h.2.1 f hf) c hc)

theorem mantText_ne {n : Spec.Numeral} (h : n.Valid) : n.mantText ≠ [] := by
  rw [Spec.Numeral.mantText]
  rcases h.2.2.1 with h | ⟨f, hf, _⟩
  · simp [h]
  · rw [hf]; simp

theorem signText_chars {s : Option Bool} {c : Char} (hc : c ∈ Spec.signText s) : c = '-' ∨ c = '+' := by
  rcases s with _ | _ | _ <;> simp [Spec.signText] at hc <;> simp [hc]

theorem expText_chars {n : Spec.Numeral} (h : n.Valid) {c : Char} (hc : c ∈ n.expText) :
    isDigit c = true ∨ c = 'e' ∨ c = 'E' ∨ c = '-' ∨ c = '+' := by
  rw [Spec.Numeral.expText] at hc
  cases he : n.exp with
  | none => rw [he] at hc; simp at hc
  | some sd =>
    obtain ⟨s, d⟩ := sd
    rw [he] at hc
    rcases List.mem_cons.1 hc with hc | hc
    · split at hc <;> simp [hc]
    · rcases List.mem_append.1 hc with hc | hc
      · rcases signText_chars hc with rfl | rfl <;> simp
      · exact .inl (List.all_eq_true.1 (h.2.2.2 s d he).1 c hc)

theorem text_chars {n : Spec.Numeral} (h : n.Valid) {c : Char} (hc : c ∈ n.text) :
    isDigit c = true ∨ c ∈ ['.', 'e', 'E', '-', '+'] := by
  rw [Spec.Numeral.text] at hc
  rcases List.mem_append.1 hc with hc | hc
  · right; rcases signText_chars hc with rfl | rfl <;> simp
  rcases List.mem_append.1 hc with hc | hc
  · rcases mantText_chars h hc with h | rfl
    · exact .inl h
    · right; simp
  · rcases expText_chars h hc with h | rfl | rfl | rfl | rfl
    · exact .inl h
    all_goals right; simp

theorem text_not_space {n : Spec.Numeral} (h : n.Valid) {c : Char} (hc : c ∈ n.text) : isSpace c = false := by
  rcases text_chars h hc with h | h
  · exact digit_not_space h
  · simp only [List.mem_cons, List.not_mem_nil, or_false] at h
    rcases h with rfl | rfl | rfl | rfl | rfl <;> decide

theorem text_tight {n : Spec.Numeral} (h : n.Valid) : Tight n.text :=
  ⟨fun _ hc => text_not_space h (List.mem_of_mem_head? hc), fun _ hc => text_not_space h (List.mem_of_getLast? hc)⟩

theorem parseMant_ok {n : Spec.Numeral} (h : n.Valid) : parseMant n.mantText = some n.mant := by
  have hip := not_mem_digits (d := '.') (by decide) h.1
  rw [parseMant, Spec.Numeral.mantText, Spec.Numeral.mant]
  cases hf : n.fp with
  | none =>
    dsimp only
    rw [List.append_nil, splitChar_plain hip]
    dsimp only
    rw [if_pos]
    · rw [decVal_eq, add_zero]
    · refine ⟨?_, h.1⟩
      rcases h.2.2.1 with h | ⟨f, hf', _⟩
      · exact h
      · rw [hf] at hf'; exact absurd hf' (by simp)
  | some f =>
    dsimp only
    have hfd := h.2.1 f hf
    rw [splitChar_cons hip, splitChar_plain (not_mem_digits (by decide) hfd)]
    dsimp only
    rw [if_pos]
    · rw [decVal_eq, decVal_eq]
    · refine ⟨?_, h.1, hfd⟩
      rcases h.2.2.1 with h | ⟨f', hf', hne⟩
      · exact .inl h
      · rw [hf] at hf'
        obtain rfl := Option.some.inj hf'
        exact .inr hne

theorem pyInt_signed (s : Option Bool) {d : Str} (hd : Spec.Digits d) (hne : d ≠ []) :
    pyInt (Spec.signText s ++ d) = .ok (Spec.signFactor s * (Spec.decVal d : ℤ)) := by
  rcases s with _ | _ | _
  · rw [Spec.signText, List.nil_append, pyInt_digits hne hd, decVal_eq, Spec.signFactor, one_mul]
  · show pyInt ('+' :: d) = _
    rw [pyInt, if_pos ⟨hne, hd⟩, decVal_eq, Spec.signFactor, one_mul]
  · show pyInt ('-' :: d) = _
    rw [pyInt, if_pos ⟨hne, hd⟩, decVal_eq, Spec.signFactor, neg_one_mul]

theorem map_lower {s : Str} (h : 'E' ∉ s) : (s.map fun c => if c = 'E' then 'e' else c) = s := by
  induction s with
  | nil => rfl
  | cons c s ih =>
    rw [List.map_cons, ih (fun h' => h (by simp [h'])), if_neg (by rintro rfl; exact h (by simp))]

theorem parseUnsigned_ok {n : Spec.Numeral} (h : n.Valid) :
    parseUnsigned (n.mantText ++ n.expText) = some (n.mant * 10 ^ n.exponent) := by
  have hE : 'E' ∉ n.mantText := fun hm => by
    rcases mantText_chars h hm with h | h
    · exact absurd h (by decide)
    · exact absurd h (by decide)
  have he : 'e' ∉ n.mantText := fun hm => by
    rcases mantText_chars h hm with h | h
    · exact absurd h (by decide)
    · exact absurd h (by decide)
  rw [parseUnsigned, List.map_append, map_lower hE, Spec.Numeral.expText, Spec.Numeral.exponent]
  cases hx : n.exp with
  | none =>
    dsimp only
    rw [List.map_nil, List.append_nil, splitChar_plain he]
    dsimp only
    rw [parseMant_ok h, zpow_zero, mul_one]
  | some sd =>
    obtain ⟨s, d⟩ := sd
    obtain ⟨hd, hne⟩ := h.2.2.2 s d hx
    have hs : ∀ c ∈ Spec.signText s ++ d, c ≠ 'E' ∧ c ≠ 'e' := by
      intro c hc
      rcases List.mem_append.1 hc with hc | hc
      · rcases signText_chars hc with rfl | rfl <;> decide
      · have := List.all_eq_true.1 hd c hc
        exact ⟨digit_ne (by decide) this, digit_ne (by decide) this⟩
    dsimp only
    rw [List.map_cons, map_lower (fun hm => (hs _ hm).1 rfl)]
    have : (if (if n.big then 'E' else 'e') = 'E' then 'e' else (if n.big then 'E' else 'e')) = 'e' := by
      cases n.big <;> rfl
    rw [this, splitChar_cons he, splitChar_plain (fun hm => (hs _ hm).2 rfl)]
    dsimp only
    rw [parseMant_ok h, pyInt_signed s hd hne]

/-- `float()` of a numeral, white space around allowed, is the number it stands for. -/
theorem pyFloat_ok {n : Spec.Numeral} (h : n.Valid) {s : Str} (hs : Trim s n.text) : pyFloat s = .ok n.value := by
  rw [pyFloat, trim_iff.1 hs]
  have hu := parseUnsigned_ok h
  rw [Spec.Numeral.text, Spec.Numeral.value]
  rcases n.sign with _ | _ | _
  · rw [Spec.signText, List.nil_append, Spec.signFactor]
    obtain ⟨c, t, ht⟩ : ∃ c t, n.mantText ++ n.expText = c :: t := by
      cases hm : n.mantText with
      | nil => exact absurd hm (mantText_ne h)
      | cons c t => exact ⟨c, _, rfl⟩
    have hc : isDigit c = true ∨ c = '.' := by
      apply mantText_chars h
      cases hm : n.mantText with
      | nil => exact absurd hm (mantText_ne h)
      | cons c' t' =>
        rw [hm, List.cons_append] at ht
        rw [(List.cons.inj ht).1]; simp
    rw [ht] at hu ⊢
    split
    · rename_i t' heq
      obtain ⟨rfl, _⟩ := List.cons.inj heq
      rcases hc with h | h <;> exact absurd h (by decide)
    · rename_i t' heq
      obtain ⟨rfl, _⟩ := List.cons.inj heq
      rcases hc with h | h <;> exact absurd h (by decide)
    · rw [hu]; simp [need]
  · show need (parseUnsigned (n.mantText ++ n.expText)) .valueError = _
    rw [hu, Spec.signFactor]; simp [need]
  · show need ((parseUnsigned (n.mantText ++ n.expText)).map _) .valueError = _
    rw [hu, Spec.signFactor]; simp [need]

/-! ## C51 -/

theorem comma_not_mem {n : Spec.Numeral} (h : n.Valid) : ',' ∉ n.text := by
  intro hc
  rcases text_chars h hc with h | h
  · exact absurd h (by decide)
  · exact absurd h (by decide)

theorem filter_point (s : Str) (h : ∀ c ∈ s, isDigit c = true ∨ c = '.') : (s.filter (· != '.')).all isDigit = true := by
  rw [List.all_eq_true]
  intro c hc
  obtain ⟨h1, h2⟩ := List.mem_filter.1 hc
  rcases h c h1 with h | rfl
  · exact h
  · exact absurd h2 (by decide)

theorem plain_text {n : Spec.Numeral} (hs : n.sign = none) (he : n.exp = none) : n.text = n.mantText := by
  rw [Spec.Numeral.text, hs, Spec.signText, List.nil_append, Spec.Numeral.expText, he, List.append_nil]

theorem isNumericText_plain {n : Spec.Numeral} (h : n.Valid) : isNumericText n.mantText = true := by
  rw [isNumericText, Bool.and_eq_true]
  refine ⟨decide_eq_true ?_, filter_point _ fun c hc => mantText_chars h hc⟩
  have : ∃ c ∈ n.mantText, c ≠ '.' := by
    rcases h.2.2.1 with hi | ⟨f, hf, hfne⟩
    · obtain ⟨c, t, hct⟩ := List.exists_cons_of_ne_nil hi
      refine ⟨c, by rw [Spec.Numeral.mantText, hct]; simp, ?_⟩
      exact digit_ne (by decide) (List.all_eq_true.1 h.1 c (by rw [hct]; simp))
    · obtain ⟨c, t, hct⟩ := List.exists_cons_of_ne_nil hfne
      refine ⟨c, by rw [Spec.Numeral.mantText, hf, hct]; simp, ?_⟩
      exact digit_ne (by decide) (List.all_eq_true.1 (h.2.1 f hf) c (by rw [hct]; simp))
  obtain ⟨c, hc, hne⟩ := this
  exact List.ne_nil_of_mem (List.mem_filter.2 ⟨hc, by simpa using hne⟩)

/-- **C51** (partial): a header string that is a numeral without sign and exponent is converted to the number it denotes.
Missing: signs and exponents, see `C51_signed_fails`. -/
theorem C51_plain_partial (n : Spec.Numeral) (h : n.Valid) (hs : n.sign = none) (he : n.exp = none) :
    recastStr n.text true = .ok (.num n.value) := by
  rw [recastStr, if_neg (by simpa using comma_not_mem h), if_pos (by rw [plain_text hs he]; exact isNumericText_plain h),
    if_pos rfl, pyFloat_ok h (trim_iff.2 (strip_tight (text_tight h)))]; rfl

/-- **C51** (partial): a header string of digits is converted to the integer it denotes. -/
theorem C51_int_partial (n : Spec.Numeral) (h : n.Valid) (hs : n.sign = none) (he : n.exp = none) (hf : n.fp = none) :
    recastStr n.text false = .ok (.num n.value) := by
  have ht : n.text = n.ip := by rw [plain_text hs he, Spec.Numeral.mantText, hf, List.append_nil]
  have hne : n.ip ≠ [] := by
    rcases h.2.2.1 with h | ⟨f, hf', _⟩
    · exact h
    · rw [hf] at hf'; exact absurd hf' (by simp)
  have hv : n.value = ((digitsVal n.ip : ℤ) : ℚ) := by
    rw [Spec.Numeral.value, Spec.Numeral.mant, Spec.Numeral.exponent, hs, hf, he, decVal_eq, Spec.signFactor]; simp
  rw [recastStr, if_neg (by simpa using comma_not_mem h), if_pos (by rw [plain_text hs he]; exact isNumericText_plain h),
    if_neg (by simp), pyIntText, strip_tight (text_tight h), ht, pyInt_digits hne h.1, hv]; rfl

/-- **C51**: a comma-separated list of numerals, whatever their signs and notation, is converted to the numbers. -/
theorem C51_vector (ns : List Spec.Numeral) (ss : List Str) (hlen : 2 ≤ ns.length) (hv : ∀ n ∈ ns, n.Valid)
    (hs : List.Forall₂ (fun s (n : Spec.Numeral) => Trim s n.text) ss ns) :
    recastStr (joinStr ",".toList ss) true = .ok (.arr (ns.map Spec.Numeral.value)) := by
  have hs' : List.Forall₂ (fun s (n : Spec.Numeral) => ',' ∉ s ∧ pyFloat s = .ok n.value) ss ns := by
    clear hlen
    induction hs with
    | nil => exact .nil
    | @cons s n ss ns h _ ih =>
      refine .cons ⟨?_, pyFloat_ok (hv n (by simp)) h⟩ (ih fun n hn => hv n (by simp [hn]))
      obtain ⟨a, b, rfl, ha, hb, _⟩ := h
      simp only [List.mem_append, not_or]
      exact ⟨⟨not_mem_blank (by decide) ha, comma_not_mem (hv n (by simp))⟩, not_mem_blank (by decide) hb⟩
  have hc : ∀ s ∈ ss, ',' ∉ s := by
    clear hlen hv hs
    induction hs' with
    | nil => simp
    | cons h _ ih =>
      intro s hs
      rcases List.mem_cons.1 hs with rfl | hs
      · exact h.1
      · exact ih s hs
  have hm : ss.mapM pyFloat = .ok (ns.map Spec.Numeral.value) := by
    clear hlen hv hs hc
    induction hs' with
    | nil => rfl
    | cons h _ ih => rw [List.mapM_cons, h.2, ih]; rfl
  have hl := hs.length_eq
  match ss, hl with
  | [], hl => simp at hl; omega
  | [_], hl => simp at hl; omega
  | s1 :: s2 :: ss, _ =>
    have hj : splitChar ',' (joinStr ",".toList (s1 :: s2 :: ss)) = s1 :: s2 :: ss := splitChar_join (by simp) hc
    rw [recastStr, if_pos (by simp [joinStr]), if_pos rfl, hj, hm]; rfl

/-- **C51**, the code disagrees: a header string that is a single numeral with a sign or an exponent is not converted at all,
the conversion raises `UnboundLocalError`. -/
theorem C51_signed_fails (n : Spec.Numeral) (h : n.Valid) (hs : n.sign ≠ none ∨ n.exp ≠ none) (isFloat : Bool) :
    recastStr n.text isFloat = .error .unboundLocal := by
  have hx : ∃ c ∈ n.text, isDigit c = false ∧ c ≠ '.' := by
    rw [Spec.Numeral.text]
    rcases hs with hs | hs
    · rcases hn : n.sign with _ | _ | _
      · exact absurd hn hs
      · exact ⟨'+', by simp [Spec.signText], by decide⟩
      · exact ⟨'-', by simp [Spec.signText], by decide⟩
    · rw [Spec.Numeral.expText]
      rcases hn : n.exp with _ | ⟨s, d⟩
      · exact absurd hn hs
      · cases n.big
        · exact ⟨'e', by simp, by decide⟩
        · exact ⟨'E', by simp, by decide⟩
  obtain ⟨c, hc, hd, hp⟩ := hx
  rw [recastStr, if_neg (by simpa using comma_not_mem h), if_neg]
  rw [isNumericText, Bool.and_eq_true, not_and]
  intro _ hall
  have := List.all_eq_true.1 hall c (List.mem_filter.2 ⟨hc, by simpa using hp⟩)
  rw [hd] at this; exact absurd this (by simp)

/-- **C51**: converting a string that is a numeral with a point to an integer is refused. -/
theorem C51_int_fraction (n : Spec.Numeral) (h : n.Valid) (hs : n.sign = none) (he : n.exp = none) (f : Str)
    (hf : n.fp = some f) : recastStr n.text false = .error .valueError := by
  have hpt : '.' ∈ n.text := by rw [plain_text hs he, Spec.Numeral.mantText, hf]; simp
  rw [recastStr, if_neg (by simpa using comma_not_mem h), if_pos (by rw [plain_text hs he]; exact isNumericText_plain h),
    if_neg (by simp), pyIntText, strip_tight (text_tight h)]
  have hall : ¬ (n.text.all isDigit = true) := fun hall => absurd (List.all_eq_true.1 hall '.' hpt) (by decide)
  have hc : ∀ c, n.text.head? = some c → isDigit c = true ∨ c = '.' := by
    intro c hc
    rw [plain_text hs he] at hc
    exact mantText_chars h (List.mem_of_mem_head? hc)
  have : pyInt n.text = .error .valueError := by
    unfold pyInt
    split
    · rename_i t heq
      have := hc '-' (by rw [heq]; rfl)
      exact absurd this (by decide)
    · rename_i t heq
      have := hc '+' (by rw [heq]; rfl)
      exact absurd this (by decide)
    · rw [if_neg (fun h => hall h.2)]
  rw [this]; rfl

/-! ## C69: data columns -/

/-- The words of the part of a line before a comment. -/
def Spec.Cells (line : Str) (ws : List Str) : Prop :=
  ∃ t c, line = t ++ c ∧ '#' ∉ t ∧ (∀ x, c.head? = some x → x = '#') ∧ Words t ws

/-- The number in a cell, `nan` (none) when it is no number. -/
def Spec.cellNum (w : Str) : Option ℚ := (pyFloat w).toOption

theorem tableRow_cells {line : Str} {ws : List Str} (h : Spec.Cells line ws) : tableRow line = ws.map Spec.cellNum := by
  obtain ⟨t, c, rfl, ht, hc, hw⟩ := h
  have : (t ++ c).takeWhile (· != '#') = t := by
    rw [List.takeWhile_append_of_pos]
    · cases c with
      | nil => simp
      | cons x c => rw [List.takeWhile_cons_of_neg (by simp [hc x rfl]), List.append_nil]
    · intro x hx
      simp only [bne_iff_ne, ne_eq]
      rintro rfl; exact ht hx
  rw [tableRow, this, words_iff.1 hw]; rfl

theorem tableRows_eq {content : List Str} {wss : List (List Str)} (h : List.Forall₂ Spec.Cells content wss) :
    (content.map tableRow).filter (fun r => decide (r ≠ [])) =
      (wss.filter fun ws => decide (ws ≠ [])).map fun ws => ws.map Spec.cellNum := by
  induction h with
  | nil => rfl
  | @cons line ws content wss h _ ih =>
    rw [List.map_cons, tableRow_cells h]
    by_cases hw : ws = []
    · rw [List.filter_cons_of_neg (by simp [hw]), List.filter_cons_of_neg (by simp [hw]), ih]
    · rw [List.filter_cons_of_pos (by simp [hw]), List.filter_cons_of_pos (by simp [hw]), ih, List.map_cons]

theorem words_append_blank {t b : Str} {ws : List Str} (h : Words t ws) (hb : Blank b) : Words (t ++ b) ws := by
  induction h with
  | nil h =>
    refine .nil fun c hc => ?_
    rcases List.mem_append.1 hc with hc | hc
    · exact h c hc
    · exact hb c hc
  | cons ha hw hw' hr _ ih =>
    rw [List.append_assoc]
    refine .cons ha hw hw' (fun c hc => ?_) ih
    rw [List.head?_append] at hc
    rename_i rest _ _
    cases hh : rest.head? with
    | none => rw [hh] at hc; exact hb c (List.mem_of_mem_head? hc)
    | some x => rw [hh] at hc; exact hr c (by rw [hh]; exact hc)

theorem splitWs_strip (s : Str) : splitWs (strip s) = splitWs s := by
  obtain ⟨a, b, h, ha, hb, _⟩ := trim_strip s
  have h1 : splitWs s = splitWs (a ++ strip s ++ b) := congrArg splitWs h
  rw [h1, List.append_assoc, splitWs_blank ha]
  exact (words_iff.1 (words_append_blank (words_iff.2 rfl) hb)).symm

theorem lookupKey_zip {β : Type} {names : List Str} {cols : List β} (hn : names.Nodup) {j : ℕ} {name : Str} {c : β}
    (h1 : names[j]? = some name) (h2 : cols[j]? = some c) :
    lookupKey name (assocUpdate [] (names.zip cols)) = some c := by
  have hnd : ((names.zip cols).map Prod.fst).Nodup := by
    refine hn.sublist ?_
    clear h1 h2 hn
    induction names generalizing cols with
    | nil => simp
    | cons a names ih =>
      cases cols with
      | nil => simp
      | cons b cols => rw [List.zip_cons_cons, List.map_cons]; exact (ih (cols := cols)).cons_cons a
  rw [lookupKey_assocUpdate _ hnd]
  have : lookupKey name (names.zip cols) = some c := by
    rw [lookupKey_mem hnd]
    apply List.mem_of_getElem? (i := j)
    rw [List.getElem?_zip_eq_some]
    exact ⟨h1, h2⟩
  rw [this]; rfl

theorem dataDict_column {names : List Str} (hn : names.Nodup) {rows : List (List (Option ℚ))} {m : ℕ}
    (hne : rows ≠ []) (hm : ∀ r ∈ rows, r.length = m) (hshape : rows.length = 1 ∨ m ≠ 1) :
    ∃ d, dataDict names rows = some d ∧ ∀ j name, names[j]? = some name → j < m →
      lookupKey name d = some (rows.map fun r => (r[j]?).join) := by
  match rows, hne with
  | [r], _ =>
    refine ⟨_, rfl, fun j name h1 h2 => ?_⟩
    refine lookupKey_zip hn h1 ?_
    have hr := hm r (by simp)
    rw [List.getElem?_map, List.getElem?_eq_getElem (by omega)]
    simp [List.getElem?_eq_getElem (show j < r.length by omega)]
  | r :: r' :: rs, _ =>
    have hr := hm r (by simp)
    have hm1 : r.length ≠ 1 := by
      rcases hshape with h | h
      · simp at h
      · omega
    refine ⟨_, by rw [dataDict, if_neg hm1]; simp, fun j name h1 h2 => ?_⟩
    refine lookupKey_zip hn h1 ?_
    rw [List.getElem?_map, List.getElem?_range (by omega)]; rfl

/-- **C69** (partial): every named column of the table is returned under its own name, with the numbers of all rows in
order. Missing: tables with a single column and several rows, see `C69_column_cut`. -/
theorem C69_columns_partial (content pre post : List Str) (nameLine body : Str) (names : List Str)
    (hc : Spec.Comments content (pre ++ "# col_headers =".toList :: nameLine :: post))
    (hpre : "# col_headers =".toList ∉ pre) (hbody : Spec.Body nameLine body) (hnames : Words body names)
    (hnd : names.Nodup) (wss : List (List Str)) (hw : List.Forall₂ Spec.Cells content wss)
    (hne : (wss.filter fun ws => decide (ws ≠ [])) ≠ []) (m : ℕ) (hm : ∀ ws ∈ wss, ws ≠ [] → ws.length = m)
    (hshape : (wss.filter fun ws => decide (ws ≠ [])).length = 1 ∨ m ≠ 1)
    (f : SpiceFile) (h : readDatafile content = .ok f) :
    ∃ d, f.data = some d ∧ ∀ j name, names[j]? = some name → j < m →
      lookupKey name d = some ((wss.filter fun ws => decide (ws ≠ [])).map fun ws => (ws[j]?).bind Spec.cellNum) := by
  rw [readDatafile_eq hc hpre] at h
  obtain ⟨mu, h1, h⟩ := py_bind_eq_ok.1 h
  obtain ⟨rows, h2, h⟩ := py_bind_eq_ok.1 h
  obtain rfl := Except.ok.inj h
  have hn : splitWs (lstripChar '#' nameLine) = names := by
    rw [← splitWs_strip]
    exact (congrArg splitWs (body_iff.1 hbody)).trans (words_iff.1 hnames)
  have hrows : rows = (wss.filter fun ws => decide (ws ≠ [])).map fun ws => ws.map Spec.cellNum := by
    replace h2 := (spiceRows_ok.1 h2).1
    rw [tableRows, tableRows_eq hw] at h2
    split at h2
    · rename_i heq
      rw [← Except.ok.inj h2, heq]
    · rename_i r rs heq
      split at h2
      · rw [← Except.ok.inj h2, heq]
      · exact absurd h2 (by simp)
  obtain ⟨d, hd, hcol⟩ := dataDict_column (names := names) hnd (rows := rows) (m := m)
    (by rw [hrows]; simpa using hne)
    (by
      intro r hr
      rw [hrows] at hr
      obtain ⟨ws, hws, rfl⟩ := List.mem_map.1 hr
      obtain ⟨h1, h2⟩ := List.mem_filter.1 hws
      rw [List.length_map]
      exact hm ws h1 (by simpa using h2))
    (by rw [hrows, List.length_map]; exact hshape)
  refine ⟨d, by dsimp only; rw [hn]; exact hd, fun j name g1 g2 => ?_⟩
  rw [hcol j name g1 g2, hrows, List.map_map]
  congr 2
  funext ws
  simp only [Function.comp, List.getElem?_map]
  cases ws[j]? <;> rfl

/-- **C69**: rows with different numbers of columns are refused. -/
theorem C69_ragged (content : List Str) (wss : List (List Str)) (hw : List.Forall₂ Spec.Cells content wss)
    (ws ws' : List Str) (h1 : ws ∈ wss) (h2 : ws' ∈ wss) (hne : ws ≠ []) (hne' : ws' ≠ []) (hl : ws.length ≠ ws'.length) :
    tableRows content = .error .valueError := by
  rw [tableRows, tableRows_eq hw]
  have m1 : ws ∈ wss.filter fun ws => decide (ws ≠ []) := List.mem_filter.2 ⟨h1, by simpa using hne⟩
  have m2 : ws' ∈ wss.filter fun ws => decide (ws ≠ []) := List.mem_filter.2 ⟨h2, by simpa using hne'⟩
  cases hf : (wss.filter fun ws => decide (ws ≠ [])) with
  | nil => rw [hf] at m1; simp at m1
  | cons r rs =>
    rw [List.map_cons]
    dsimp only
    rw [if_neg]
    intro hall
    rw [List.all_eq_true] at hall
    have key : ∀ w ∈ r :: rs, w.length = r.length := by
      intro w hw
      rcases List.mem_cons.1 hw with rfl | hw
      · rfl
      · have := hall (w.map Spec.cellNum) (List.mem_map.2 ⟨w, hw, rfl⟩)
        simpa using this
    rw [hf] at m1 m2
    exact hl ((key ws m1).trans (key ws' m2).symm)

/-- **C69**, the code disagrees: of a table with one column only the first row is returned. -/
theorem C69_column_cut (name : Str) (x y : Option ℚ) (rows : List (List (Option ℚ))) :
    ∃ d, dataDict [name] ([x] :: [y] :: rows) = some d ∧ lookupKey name d = some [x] := by
  refine ⟨assocUpdate [] ([name].zip ([x] :: [y] :: rows)), ?_,
    lookupKey_zip (j := 0) (List.nodup_singleton name) rfl rfl⟩
  rw [dataDict, if_pos (show [x].length = 1 from rfl), List.map_id']
  simp

/-- **C69**, the code disagrees: a table with a single number is refused. -/
theorem C69_single (content : List Str) (wss : List (List Str)) (hw : List.Forall₂ Spec.Cells content wss) (w : Str)
    (h1 : (wss.filter fun ws => decide (ws ≠ [])) = [[w]]) (f : SpiceFile) : readDatafile content ≠ .ok f := by
  intro h
  rw [readDatafile] at h
  obtain ⟨i, _, h⟩ := py_bind_eq_ok.1 h
  obtain ⟨nl, _, h⟩ := py_bind_eq_ok.1 h
  obtain ⟨mu, _, h⟩ := py_bind_eq_ok.1 h
  obtain ⟨rows, h2, _⟩ := py_bind_eq_ok.1 h
  obtain ⟨h3, h4⟩ := spiceRows_ok.1 h2
  rw [tableRows, tableRows_eq hw, h1] at h3
  exact h4 _ (Except.ok.inj h3).symm

theorem readSpiceDatafile_of {fs : FS} {path : List Str} {lines : List Str} (h : fs path = some (.file lines))
    (hs : suffixOf (nameOf path) = ".dat".toList) : readSpiceDatafile fs path = readDatafile lines := by
  rw [readSpiceDatafile, openText, h]
  exact if_pos hs

theorem readUbconf_of {xml : List Str → Option Str} {fs : FS} {path : List Str} {first : Str} {lines : List Str}
    (h : fs path = some (.file (first :: lines)))
    (hs : suffixOf (nameOf path) = ".ini".toList) (h1 : isSubstr "[UBMode]".toList first = true) :
    readUbconf xml fs path = parseIni (first :: lines) := by
  rw [readUbconf, openText, h]
  exact (if_pos (Or.inl hs)).trans (if_pos h1)

/-! ## Concrete cases -/

namespace Demo

/-- A data file. -/
def dataFile : List Str :=
  ["# scan = 34\n", "# scan_title = T=10 K\n", "# users = A\n", "# users = B\n", "# free text\n", "# ubconf = C:\\UB\\ub34.ini\n",
   "# col_headers =\n", "#   Pt.   s1   detector\n", "   1   10.5   100\n", "   2   -1.5e1   200\n",
   "# Motor s2 at limit\n", "# Sum of Counts = 300\n", "# 3:04:11 PM   6/27/2024 scan completed.\n"].map String.toList

theorem dataFile_comments : Spec.Comments dataFile
    (["# scan = 34", "# scan_title = T=10 K", "# users = A", "# users = B", "# free text",
      "# ubconf = C:\\UB\\ub34.ini"].map String.toList ++
     "# col_headers =".toList :: "#   Pt.   s1   detector".toList ::
     (["# Motor s2 at limit".toList] ++ "# Sum of Counts = 300".toList ::
      ["# 3:04:11 PM   6/27/2024 scan completed.".toList])) :=
  comments_iff.2 (by decide +kernel)

/-- The file can be read; the error message is separated, the columns have their values. -/
theorem dataFile_read : ∃ f, readDatafile dataFile = .ok f ∧ f.errorMsg = some ["# Motor s2 at limit".toList] ∧
    f.unrecognized = some ["free text".toList] ∧
    f.data = some [("Pt.".toList, [some 1, some 2]), ("s1".toList, [some (21 / 2), some (-15)]),
      ("detector".toList, [some 100, some 200])] ∧
    f.metadata = [("scan".toList, .str "34".toList), ("scan_title".toList, .str "T=10 K".toList),
      ("users".toList, .str "A, B".toList), ("ubconf".toList, .str "C:\\UB\\ub34.ini".toList),
      ("Sum of Counts".toList, .str "300".toList), ("end_time".toList, .str "6/27/2024 3:04:11 PM".toList)] := by
  have h1 : (readDatafile dataFile).toOption.map (fun f => (f.errorMsg, f.unrecognized)) =
      some (some ["# Motor s2 at limit".toList], some ["free text".toList]) := by decide +kernel
  have h2 : (readDatafile dataFile).toOption.map (·.data) =
      some (some [("Pt.".toList, [some 1, some 2]), ("s1".toList, [some (21 / 2), some (-15)]),
          ("detector".toList, [some 100, some 200])]) := by decide +kernel
  have h3 : (readDatafile dataFile).toOption.map (·.metadata) =
      some [("scan".toList, .str "34".toList), ("scan_title".toList, .str "T=10 K".toList),
          ("users".toList, .str "A, B".toList), ("ubconf".toList, .str "C:\\UB\\ub34.ini".toList),
          ("Sum of Counts".toList, .str "300".toList), ("end_time".toList, .str "6/27/2024 3:04:11 PM".toList)] := by
    decide +kernel
  cases hr : readDatafile dataFile with
  | error e => rw [hr] at h1; exact absurd h1 (by simp [Except.toOption])
  | ok f =>
    rw [hr] at h1 h2 h3
    have := Prod.mk.inj (Option.some.inj h1)
    exact ⟨f, rfl, this.1, this.2, Option.some.inj h2, Option.some.inj h3⟩

/-- The partition theorem applied to the file. -/
example (f : SpiceFile) (h : readDatafile dataFile = .ok f) : f.errorMsg = some ["# Motor s2 at limit".toList] :=
  (C49_partition_partial dataFile _ _ _ _ _ dataFile_comments (by decide +kernel)
    (by intro h hh; rw [List.mem_singleton.1 hh]; unfold Spec.Summary; decide +kernel)
    (by unfold Spec.Summary; decide +kernel) f h).2

/-- A file without the summary. -/
def cutFile : List Str := dataFile.take 11

/-- The error message of the file without summary is lost. -/
example (f : SpiceFile) (h : readDatafile cutFile = .ok f) : f.errorMsg = none :=
  (C49_lines_lost cutFile
    (["# scan = 34", "# scan_title = T=10 K", "# users = A", "# users = B", "# free text",
      "# ubconf = C:\\UB\\ub34.ini"].map String.toList) ["# Motor s2 at limit".toList] "#   Pt.   s1   detector".toList
    (comments_iff.2 (by decide +kernel)) (by decide +kernel)
    (by intro h hh; rw [List.mem_singleton.1 hh]; unfold Spec.Summary; decide +kernel) f h).2

/-- `-12.5e-1` -/
def numeral : Spec.Numeral := ⟨some true, "12".toList, some "5".toList, some (some true, "1".toList), false⟩

theorem numeral_valid : numeral.Valid :=
  ⟨by unfold Spec.Digits; decide, fun f hf => by obtain rfl := Option.some.inj hf; unfold Spec.Digits; decide,
    .inl (by decide), fun s d h => by
      obtain ⟨rfl, rfl⟩ := Prod.mk.inj (Option.some.inj h)
      exact ⟨by unfold Spec.Digits; decide, by decide⟩⟩

example : numeral.text = "-12.5e-1".toList := by decide +kernel
example : recastStr "-12.5e-1".toList true = .error .unboundLocal := C51_signed_fails numeral numeral_valid (.inl (by decide)) true
example : recastStr "0.5".toList true = .ok (.num (1 / 2)) := by decide +kernel
example : recastStr "5.1, -6e-1".toList true = .ok (.arr [51 / 10, -3 / 5]) := by decide +kernel

/-- A polarised count file. -/
def countFile : List Str := ["parq", " drive hguide off vguide off", " count preset mcu 5.0", " flon", " perpqh",
  " count preset time 3"].map String.toList

example : ∃ chs, parseCountfile (joinStr ",".toList countFile) = .ok chs ∧
    chs.map (fun c => (c.val, c.name, c.label)) =
      [(5, "mcu_1".toList, "Px NSF".toList), (3, "time_2".toList, "Py SF".toList)] := by
  have h : (parseCountfile (joinStr ",".toList countFile)).toOption.map (List.map fun c => (c.val, c.name, c.label)) =
      some [(5, "mcu_1".toList, "Px NSF".toList), (3, "time_2".toList, "Py SF".toList)] := by decide +kernel
  cases hr : parseCountfile (joinStr ",".toList countFile) with
  | error e => rw [hr] at h; exact absurd h (by simp [Except.toOption])
  | ok chs => rw [hr] at h; exact ⟨chs, rfl, Option.some.inj h⟩

/-- A title that mentions a stop is taken for the end of the scan. -/
example : (metadataToDict ["# scan_title = stopped flow 2".toList]).toOption.map (·.1) =
    some [("end_time".toList, .str "stopped scan_title =".toList)] := by decide +kernel

/-- The UB file. -/
def ubFile : List Str := ["[UBMode]\n", "Mode=1\n", "[Data]\n", "ScattPlaneNormal=\"0,1,0\"\n", "Energy=14.5\n"].map String.toList

/-- A folder with the scan and the UB file at `ubAt`. -/
def disk (ubAt : List Str) : FS := fun p =>
  if p = ["exp".toList, "Datafiles".toList, "HB3_exp0001_scan0034.dat".toList] then some (.file dataFile)
  else if p = ubAt then some (.file ubFile) else none

theorem disk_read (ubAt : List Str) :
    ∃ f, readSpiceDatafile (disk ubAt) (["exp".toList, "Datafiles".toList] ++ ["HB3_exp0001_scan0034.dat".toList]) = .ok f ∧
      lookupKey "ubconf".toList f.metadata = some (.str "C:\\UB\\ub34.ini".toList) := by
  obtain ⟨f, hf, -, -, -, hm⟩ := dataFile_read
  refine ⟨f, ?_, ?_⟩
  · rw [readSpiceDatafile_of (lines := dataFile) (by rw [disk, if_pos (by decide +kernel)]) (by decide +kernel)]
    exact hf
  · rw [hm]; decide +kernel

theorem base : Spec.BaseName "C:\\UB\\ub34.ini".toList "ub34.ini".toList := by
  unfold Spec.BaseName; exact .inl ⟨by decide +kernel, "C:\\UB".toList, by decide +kernel⟩

example : ∃ logs conf, createSpicelogs (fun _ => none) (disk ["exp".toList, "UBConf".toList, "ub34.ini".toList])
      ["exp".toList, "Datafiles".toList] "HB3_exp0001_scan0034.dat".toList = .ok logs ∧
    lookupKey "ub_conf".toList logs = some (.ub ["exp".toList, "UBConf".toList, "ub34.ini".toList] conf) := by
  obtain ⟨f, hf, hub⟩ := disk_read ["exp".toList, "UBConf".toList, "ub34.ini".toList]
  have hfile : disk ["exp".toList, "UBConf".toList, "ub34.ini".toList]
      (Spec.ubPath ["exp".toList, "Datafiles".toList] "ub34.ini".toList) = some (.file ubFile) := by
    rw [disk, if_neg (by decide +kernel), if_pos (by decide +kernel)]
  have : ∃ conf, parseIni ubFile = .ok conf := by
    have h : (parseIni ubFile).toOption.isSome = true := by decide +kernel
    cases hr : parseIni ubFile with
    | error e => rw [hr] at h; exact absurd h (by simp [Except.toOption])
    | ok c => exact ⟨c, rfl⟩
  obtain ⟨conf, hc⟩ := this
  obtain ⟨logs, h1, h2⟩ := C52_read_partial (fun _ => none) _ _ _ _ _ f hf hub base ubFile hfile conf (by
    exact (readUbconf_of hfile (by decide +kernel) (by decide +kernel)).trans hc)
  exact ⟨logs, conf, h1, h2⟩

example : createSpicelogs (fun _ => none) (disk ["exp".toList, "UBConf".toList, "temp".toList, "ub34.ini".toList])
      ["exp".toList, "Datafiles".toList] "HB3_exp0001_scan0034.dat".toList = .error .fileNotFound := by
  obtain ⟨f, hf, hub⟩ := disk_read ["exp".toList, "UBConf".toList, "temp".toList, "ub34.ini".toList]
  refine C52_temp_fails (fun _ => none) _ _ _ _ _ f hf hub base ubFile ?_ ?_
  · rw [disk, if_neg (by decide +kernel), if_neg (by decide +kernel)]
  · rw [disk, if_neg (by decide +kernel), if_pos (by decide +kernel)]

end Demo

end Tavi
