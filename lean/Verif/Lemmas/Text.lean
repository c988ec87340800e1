import Verif.Model.Spice

/-!
# Text: trimming, splitting, words

Specifications of the string methods used by the readers, independent of the way the model computes them.
-/

namespace Tavi

/-- Only white space. -/
def Spec.Blank (s : Str) : Prop := ∀ c ∈ s, isSpace c = true

/-- No white space at either end. -/
def Spec.Tight (t : Str) : Prop :=
  (∀ c, t.head? = some c → isSpace c = false) ∧ ∀ c, t.getLast? = some c → isSpace c = false

/-- `t` is `s` without the white space around. -/
def Spec.Trim (s t : Str) : Prop := ∃ a b, s = a ++ t ++ b ∧ Spec.Blank a ∧ Spec.Blank b ∧ Spec.Tight t

theorem dropWhile_blank {a : Str} (ha : Spec.Blank a) (t : Str) : (a ++ t).dropWhile isSpace = t.dropWhile isSpace := by
  induction a with
  | nil => rfl
  | cons c a ih =>
    rw [List.cons_append, List.dropWhile_cons_of_pos (ha c (by simp))]
    exact ih fun c hc => ha c (by simp [hc])

theorem dropWhile_tight {t : Str} (h : ∀ c, t.head? = some c → isSpace c = false) : t.dropWhile isSpace = t := by
  cases t with
  | nil => rfl
  | cons c t => rw [List.dropWhile_cons_of_neg]; rw [h c rfl]; simp

theorem strip_append {a : Str} (ha : Spec.Blank a) (s : Str) : strip (a ++ s) = strip s := by
  rw [strip, strip, dropWhile_blank ha]

theorem blank_reverse {a : Str} (ha : Spec.Blank a) : Spec.Blank a.reverse := fun c hc => ha c (List.mem_reverse.1 hc)

theorem dropWhile_all {s : Str} (h : Spec.Blank s) : s.dropWhile isSpace = [] := by
  have := dropWhile_blank h []
  rwa [List.append_nil] at this

theorem all_takeWhile (p : Char → Bool) (s : Str) : ∀ c ∈ s.takeWhile p, p c = true := by
  induction s with
  | nil => simp
  | cons a l ih =>
    rw [List.takeWhile_cons]
    split
    · rename_i h
      intro c hc
      rcases List.mem_cons.1 hc with rfl | hc
      · exact h
      · exact ih c hc
    · simp

theorem dropWhile_split (s : Str) : ∃ a, s = a ++ s.dropWhile isSpace ∧ Spec.Blank a :=
  ⟨s.takeWhile isSpace, List.takeWhile_append_dropWhile.symm, all_takeWhile _ s⟩

theorem strip_append_right {b : Str} (hb : Spec.Blank b) (s : Str) : strip (s ++ b) = strip s := by
  rw [strip, strip]
  by_cases hs : Spec.Blank s
  · rw [dropWhile_all hs, dropWhile_all (s := s ++ b)]
    intro c hc
    rcases List.mem_append.1 hc with h | h
    · exact hs c h
    · exact hb c h
  · have : (s ++ b).dropWhile isSpace = s.dropWhile isSpace ++ b := by
      rw [List.dropWhile_append, if_neg]
      rw [List.isEmpty_iff]
      intro h
      apply hs
      obtain ⟨a, ha, ha'⟩ := dropWhile_split s
      rw [h, List.append_nil] at ha
      rw [ha]; exact ha'
    rw [this, List.reverse_append, dropWhile_blank (blank_reverse hb)]

theorem strip_tight {t : Str} (h : Spec.Tight t) : strip t = t := by
  rw [strip, dropWhile_tight h.1, dropWhile_tight, List.reverse_reverse]
  intro c hc
  rw [List.head?_reverse] at hc
  exact h.2 c hc

theorem head_dropWhile (s : Str) (c : Char) (h : (s.dropWhile isSpace).head? = some c) : isSpace c = false := by
  have := List.head?_dropWhile_not isSpace s
  rw [h] at this
  simpa using this

theorem trim_strip (s : Str) : Spec.Trim s (strip s) := by
  obtain ⟨a, ha, ha'⟩ := dropWhile_split s
  obtain ⟨b, hb, hb'⟩ := dropWhile_split (s.dropWhile isSpace).reverse
  have hb2 : s.dropWhile isSpace = strip s ++ b.reverse := by
    rw [strip, ← List.reverse_append, ← hb, List.reverse_reverse]
  refine ⟨a, b.reverse, ?_, ha', blank_reverse hb', ?_, ?_⟩
  · rw [List.append_assoc, ← hb2]; exact ha
  · intro c hc
    apply head_dropWhile s c
    rw [hb2, List.head?_append, hc]; rfl
  · intro c hc
    rw [strip, List.getLast?_reverse] at hc
    exact head_dropWhile _ c hc

theorem trim_iff {s t : Str} : Spec.Trim s t ↔ strip s = t := by
  constructor
  · rintro ⟨a, b, rfl, ha, hb, ht⟩
    rw [strip_append_right hb, strip_append ha, strip_tight ht]
  · rintro rfl; exact trim_strip s

/-! ## Splitting at a character -/

theorem splitChar_plain {c : Char} {s : Str} (h : c ∉ s) : splitChar c s = [s] := by
  induction s with
  | nil => rfl
  | cons a l ih =>
    rw [splitChar, if_neg (by rintro rfl; exact h (by simp)), ih (fun h' => h (by simp [h']))]

theorem splitChar_cons {c : Char} {a : Str} (h : c ∉ a) (s : Str) : splitChar c (a ++ c :: s) = a :: splitChar c s := by
  induction a with
  | nil => rw [List.nil_append, splitChar, if_pos rfl]
  | cons x l ih =>
    rw [List.cons_append, splitChar, if_neg (by rintro rfl; exact h (by simp)), ih (fun h' => h (by simp [h']))]

theorem split_first {c : Char} {s : Str} (h : c ∈ s) : ∃ a w, s = a ++ c :: w ∧ c ∉ a := by
  induction s with
  | nil => simp at h
  | cons x l ih =>
    by_cases hx : x = c
    · exact ⟨[], l, by simp [hx], by simp⟩
    · obtain ⟨a, w, rfl, ha⟩ := ih (by simpa [Ne.symm hx] using h)
      exact ⟨x :: a, w, rfl, by simp [Ne.symm hx, ha]⟩

theorem splitChar_ne_nil (c : Char) (s : Str) : splitChar c s ≠ [] := by
  by_cases h : c ∈ s
  · obtain ⟨a, w, rfl, ha⟩ := split_first h
    rw [splitChar_cons ha]; simp
  · rw [splitChar_plain h]; simp

theorem joinStr_cons (sep a : Str) {l : List Str} (h : l ≠ []) : joinStr sep (a :: l) = a ++ sep ++ joinStr sep l := by
  cases l with
  | nil => exact absurd rfl h
  | cons b l => rfl

/-- Splitting inverts joining. -/
theorem splitChar_join {c : Char} {l : List Str} (hl : l ≠ []) (h : ∀ p ∈ l, c ∉ p) : splitChar c (joinStr [c] l) = l := by
  induction l with
  | nil => exact absurd rfl hl
  | cons a l ih =>
    cases l with
    | nil => exact splitChar_plain (h a (by simp))
    | cons b l =>
      rw [joinStr, List.append_assoc, List.singleton_append, splitChar_cons (h a (by simp)), ih (by simp)
        (fun p hp => h p (by simp [hp]))]

/-- Joining inverts splitting, and the pieces do not contain the separator. -/
theorem join_splitChar (c : Char) (s : Str) : joinStr [c] (splitChar c s) = s ∧ ∀ p ∈ splitChar c s, c ∉ p := by
  induction hn : s.length using Nat.strong_induction_on generalizing s with
  | _ n ih =>
    by_cases h : c ∈ s
    · obtain ⟨a, w, rfl, ha⟩ := split_first h
      have := ih w.length (by rw [← hn]; simp; omega) w rfl
      rw [splitChar_cons ha, joinStr_cons _ _ (splitChar_ne_nil c w), this.1]
      refine ⟨by simp, fun p hp => ?_⟩
      rcases List.mem_cons.1 hp with rfl | hp
      · exact ha
      · exact this.2 p hp
    · rw [splitChar_plain h]
      exact ⟨rfl, by simpa using h⟩

/-! ## Containing a word -/

theorem isSubstr_iff (w s : Str) : isSubstr w s = true ↔ w <:+: s := by
  induction s with
  | nil => cases w <;> simp [isSubstr]
  | cons a l ih =>
    rw [isSubstr, Bool.or_eq_true, ih, List.infix_cons_iff, List.isPrefixOf_iff_prefix]

/-! ## Words -/

/-- The words of a text: `Words s ws` when `s` consists of the words `ws`, separated by white space. -/
inductive Spec.Words : Str → List Str → Prop
  | nil {s : Str} (h : Spec.Blank s) : Spec.Words s []
  | cons {a w rest : Str} {ws : List Str} (ha : Spec.Blank a) (hw : w ≠ []) (hw' : ∀ c ∈ w, isSpace c = false)
      (hr : ∀ c, rest.head? = some c → isSpace c = true) (h : Spec.Words rest ws) : Spec.Words (a ++ w ++ rest) (w :: ws)

theorem splitWs_blank_cons {c : Char} (h : isSpace c = true) (s : Str) : splitWs (c :: s) = splitWs s := by
  rw [splitWs, splitWs, List.splitOnP_cons_eq_if_modifyHead, if_pos h, List.filter_cons_of_neg (by simp)]

theorem splitWs_blank {a : Str} (h : Spec.Blank a) (s : Str) : splitWs (a ++ s) = splitWs s := by
  induction a with
  | nil => rfl
  | cons c a ih =>
    rw [List.cons_append, splitWs_blank_cons (h c (by simp))]
    exact ih fun c hc => h c (by simp [hc])

theorem splitWs_word {w rest : Str} (hw : w ≠ []) (hw' : ∀ c ∈ w, isSpace c = false)
    (hr : ∀ c, rest.head? = some c → isSpace c = true) : splitWs (w ++ rest) = w :: splitWs rest := by
  cases rest with
  | nil =>
    rw [List.append_nil, splitWs, List.splitOnP_eq_singleton hw']
    simp [hw, splitWs]
  | cons c rest =>
    rw [splitWs, List.splitOnP_append_cons_of_forall_mem hw' c (hr c rfl), splitWs_blank_cons (hr c rfl), splitWs,
      List.filter_cons_of_pos (by simpa using hw)]

theorem words_iff {s : Str} {ws : List Str} : Spec.Words s ws ↔ splitWs s = ws := by
  constructor
  · intro h
    induction h with
    | @nil s h =>
      have := splitWs_blank h []
      rw [List.append_nil] at this
      rw [this]; rfl
    | cons ha hw hw' hr _ ih => rw [List.append_assoc, splitWs_blank ha, splitWs_word hw hw' hr, ih]
  · rintro rfl
    induction hn : s.length using Nat.strong_induction_on generalizing s with
    | _ n ih =>
      obtain ⟨a, ha, ha'⟩ := dropWhile_split s
      cases ht : s.dropWhile isSpace with
      | nil =>
        rw [ht, List.append_nil] at ha
        rw [ha]
        rw [← List.append_nil a, splitWs_blank ha', List.append_nil]
        exact .nil ha'
      | cons c t =>
        have hc := head_dropWhile s c (by rw [ht]; rfl)
        have hsp : s = a ++ (s.dropWhile isSpace).takeWhile (fun c => !isSpace c)
            ++ (s.dropWhile isSpace).dropWhile (fun c => !isSpace c) := by
          rw [List.append_assoc, List.takeWhile_append_dropWhile]; exact ha
        have hw : (s.dropWhile isSpace).takeWhile (fun c => !isSpace c) ≠ [] := by
          rw [ht, List.takeWhile_cons_of_pos (by simp [hc])]; simp
        have hw' : ∀ c ∈ (s.dropWhile isSpace).takeWhile (fun c => !isSpace c), isSpace c = false := by
          intro c hc; simpa using all_takeWhile _ _ c hc
        have hr : ∀ c, ((s.dropWhile isSpace).dropWhile (fun c => !isSpace c)).head? = some c → isSpace c = true := by
          intro c hc
          have := List.head?_dropWhile_not (fun c => !isSpace c) (s.dropWhile isSpace)
          rw [hc] at this
          simpa using this
        generalize (s.dropWhile isSpace).takeWhile (fun c => !isSpace c) = w at hsp hw hw'
        generalize (s.dropWhile isSpace).dropWhile (fun c => !isSpace c) = rest at hsp hr
        subst hsp
        rw [List.append_assoc, splitWs_blank ha', splitWs_word hw hw' hr, ← List.append_assoc]
        refine .cons ha' hw hw' hr (ih rest.length ?_ rfl)
        have := List.length_pos_iff.2 hw
        rw [← hn]; simp; omega

end Tavi
