import Verif.Model.Misc
import Verif.Lemmas.Dec
import Verif.Lemmas.Assoc
import Verif.Lemmas.Numpy
import Verif.Props.Filter

/-! # C61, C62, C64, C70: plot axes, labels, motor positions, components -/

namespace Tavi

/-! ## C61 -/

/-- **C61**: there and back, and back and there, whenever the axes are not parallel. -/
theorem C61_inverse (x y angle : ℝ) (h : Real.sin (angle / 180 * Real.pi) ≠ 0) :
    (∃ p, tr x y angle = .ok p ∧ invTr p.1 p.2 angle = .ok (x, y)) ∧
    (∃ p, invTr x y angle = .ok p ∧ tr p.1 p.2 angle = .ok (x, y)) := by
  simp only [tr, invTr, plotOverTan, if_neg h, Except.map]
  exact ⟨⟨_, rfl, by simp⟩, ⟨_, rfl, by simp⟩⟩

/-- **C61**: no transform exists exactly when the angle is a multiple of 180 degrees. -/
theorem C61_parallel (x y angle : ℝ) :
    ((∀ p, tr x y angle ≠ .ok p) ↔ ∃ n : ℤ, angle = 180 * n) ∧ ((∀ p, invTr x y angle ≠ .ok p) ↔ ∃ n : ℤ, angle = 180 * n) := by
  have hs : Real.sin (angle / 180 * Real.pi) = 0 ↔ ∃ n : ℤ, angle = 180 * n := by
    rw [Real.sin_eq_zero_iff]
    refine exists_congr fun n => ⟨fun h => ?_, fun h => ?_⟩
    · have := mul_right_cancel₀ Real.pi_ne_zero h
      field_simp at this
      linarith
    · rw [h]; ring
  rw [← hs]
  by_cases h : Real.sin (angle / 180 * Real.pi) = 0
  · simp [tr, invTr, plotOverTan, h, Except.map]
  · simp [tr, invTr, plotOverTan, h, Except.map]

/-- **C61**: the second axis is drawn at the given angle to the first: a step `t` along it has length `t / sin`, direction
`(cos, sin)`; and the first axis stays. -/
theorem C61_direction (x t angle : ℝ) (h : Real.sin (angle / 180 * Real.pi) ≠ 0) :
    tr 0 t angle = .ok (t / Real.sin (angle / 180 * Real.pi) * Real.cos (angle / 180 * Real.pi),
      t / Real.sin (angle / 180 * Real.pi) * Real.sin (angle / 180 * Real.pi)) ∧
    tr x 0 angle = .ok (x, 0) := by
  simp only [tr, plotOverTan, if_neg h, Except.map]
  refine ⟨congrArg Except.ok (Prod.ext ?_ ?_), by simp⟩
  · dsimp only; ring
  · dsimp only; rw [div_mul_cancel₀ _ h]

/-! ## C62 -/

/-- How an entry is to be written: nothing but `0` for zero, the bare letter for one, otherwise number and letter; numbers that
are not whole with three decimals. -/
def Spec.entryText (fmt3 : ℚ → Str) (letter : Char) (q : ℚ) : Str :=
  if q = 0 then ['0'] else if q = 1 then [letter] else if q = -1 then ['-', letter]
  else if q.den = 1 then (if q < 0 then '-' :: decStr q.num.natAbs else decStr q.num.natAbs) ++ [letter]
  else fmt3 q ++ [letter]

/-- How a vector is to be written. -/
def Spec.vectorText (fmt3 : ℚ → Str) (letter : Char) (p : LabelAxis) : Str :=
  '(' :: (", ".toList.intercalate (p.entries.map fun v => Spec.entryText fmt3 letter v.val) ++ ") (r.l.u.)".toList)

theorem labelEntry_spec (fmt3 : ℚ → Str) (letter : Char) (v : LabelNum) :
    labelEntry fmt3 letter v = Spec.entryText fmt3 letter v.val := by
  have key : ∀ q : ℚ, q.den = 1 →
      (if q.num = 0 then "0".toList else if q.num = 1 then [letter] else if q.num = -1 then ['-', letter]
        else intStr q.num ++ [letter]) = Spec.entryText fmt3 letter q := by
    intro q hq
    have e0 : q.num = 0 ↔ q = 0 := Rat.num_eq_zero
    have hq' : q = (q.num : ℚ) := (Rat.den_eq_one_iff q).1 hq |>.symm
    have e1 : q.num = 1 ↔ q = 1 := ⟨fun h => by rw [hq', h]; rfl, fun h => by rw [h]; rfl⟩
    have e2 : q.num = -1 ↔ q = -1 := ⟨fun h => by rw [hq', h]; rfl, fun h => by rw [h]; rfl⟩
    rw [Spec.entryText]
    simp only [e0, e1, e2, hq, if_true]
    refine if_congr Iff.rfl rfl (if_congr Iff.rfl rfl (if_congr Iff.rfl rfl ?_))
    rw [intStr]
    by_cases hn : 0 ≤ q.num
    · rw [if_pos hn, if_neg (not_lt.2 (Rat.num_nonneg.1 hn))]
      rw [show q.num.toNat = q.num.natAbs by omega]
    · rw [if_neg hn, if_pos (by rw [← not_le, ← Rat.num_nonneg]; exact hn)]
      rw [show (-q.num).toNat = q.num.natAbs by omega]
  cases v with
  | int n =>
    rw [labelEntry]
    dsimp only
    rw [if_pos rfl]
    exact key (n : ℚ) (Rat.den_intCast n)
  | float q =>
    rw [labelEntry]
    dsimp only
    by_cases hd : q.den = 1
    · rw [if_pos (by simpa using hd)]
      exact key q hd
    · rw [if_neg (by simpa using hd)]
      rw [LabelNum.val, Spec.entryText, if_neg (by rintro rfl; exact hd rfl), if_neg (by rintro rfl; exact hd rfl),
        if_neg (by rintro rfl; exact hd rfl), if_neg hd]

theorem labelVec_spec (fmt3 : ℚ → Str) (letter : Char) (a b c : LabelNum) :
    labelVec fmt3 letter a b c = Spec.vectorText fmt3 letter (.vec a b c) := by
  rw [labelVec, labelEntry_spec, labelEntry_spec, labelEntry_spec, Spec.vectorText]
  simp [LabelAxis.entries, List.intercalate, List.intersperse]

/-- Axes, the letters given to the vectors among them, and the labels. -/
inductive Spec.Labelled (fmt3 : ℚ → Str) : List LabelAxis → List Char → List Str → Prop
  | nil : Spec.Labelled fmt3 [] [] []
  | en {axes cs ls} : Spec.Labelled fmt3 axes cs ls → Spec.Labelled fmt3 (.en :: axes) cs ("E (meV)".toList :: ls)
  | vec {a b c axes letter cs ls} : Spec.Labelled fmt3 axes cs ls →
      Spec.Labelled fmt3 (.vec a b c :: axes) (letter :: cs) (Spec.vectorText fmt3 letter (.vec a b c) :: ls)

/-- A vector that is not zero. -/
def Spec.NonZero (p : LabelAxis) : Prop := p ≠ .en → ∃ v ∈ p.entries, v.val ≠ 0

/-- The vectors among the axes. -/
def Spec.vectors (axes : List LabelAxis) : List LabelAxis := axes.filter fun p => decide (p ≠ .en)

/-- Place of the first entry that is not zero, as the letter of the reciprocal axis. -/
def Spec.ownLetter (p : LabelAxis) (c : Char) : Prop :=
  ∃ (i : ℕ) (v : LabelNum), p.entries[i]? = some v ∧ v.val ≠ 0 ∧ (∀ (j : ℕ) (w : LabelNum), j < i → p.entries[j]? = some w → w.val = 0) ∧
    ['H', 'K', 'L'][i]? = some c

theorem firstNonzero_lt {a b c : LabelNum} (h : Spec.NonZero (.vec a b c)) : firstNonzero a b c < 3 := by
  rw [firstNonzero]
  obtain ⟨v, hv, hv'⟩ := h (by simp)
  by_cases h0 : a.val = 0 <;> by_cases h1 : b.val = 0 <;> by_cases h2 : c.val = 0 <;> simp [h0, h1, h2]
  simp only [LabelAxis.entries, List.mem_cons, List.not_mem_nil, or_false] at hv
  rcases hv with rfl | rfl | rfl <;> contradiction

theorem ownLetter_iff {a b c : LabelNum} (h : Spec.NonZero (.vec a b c)) (l : Char) :
    Spec.ownLetter (.vec a b c) l ↔ l = hklLetter (firstNonzero a b c) := by
  obtain ⟨v, hv, hv'⟩ := h (by simp)
  simp only [Spec.ownLetter, LabelAxis.entries] at *
  rw [firstNonzero]
  constructor
  · rintro ⟨i, w, h1, h2, h3, h4⟩
    match i with
    | 0 =>
      obtain rfl : a = w := by simpa using h1
      rw [if_pos h2]
      exact (Option.some.inj h4).symm
    | 1 =>
      obtain rfl : b = w := by simpa using h1
      have := h3 0 a one_pos rfl
      rw [if_neg (by simpa using this), if_pos h2]
      exact (Option.some.inj h4).symm
    | 2 =>
      obtain rfl : c = w := by simpa using h1
      have e0 := h3 0 a two_pos rfl
      have e1 := h3 1 b one_lt_two rfl
      rw [if_neg (by simpa using e0), if_neg (by simpa using e1), if_pos h2]
      exact (Option.some.inj h4).symm
    | (n + 3) => simp at h1
  · rintro rfl
    by_cases h0 : a.val = 0
    · by_cases h1 : b.val = 0
      · have h2 : c.val ≠ 0 := by
          intro h2
          simp only [List.mem_cons, List.not_mem_nil, or_false] at hv
          rcases hv with rfl | rfl | rfl <;> contradiction
        rw [if_neg (by simpa using h0), if_neg (by simpa using h1), if_pos h2]
        refine ⟨2, c, rfl, h2, fun j w hj hw => ?_, rfl⟩
        match j with
        | 0 => obtain rfl : a = w := by simpa using hw
               exact h0
        | 1 => obtain rfl : b = w := by simpa using hw
               exact h1
        | (n + 2) => omega
      · rw [if_neg (by simpa using h0), if_pos h1]
        refine ⟨1, b, rfl, h1, fun j w hj hw => ?_, rfl⟩
        obtain rfl : j = 0 := by omega
        obtain rfl : a = w := by simpa using hw
        exact h0
    · rw [if_pos h0]
      exact ⟨0, a, rfl, h0, fun j w hj _ => by omega, rfl⟩

theorem chooseKey_spec {left : List ℕ} {idx : ℕ} (hi : idx < 3) (hl : left ≠ []) (hs : ∀ k ∈ left, k < 3) :
    ∃ k ∈ left, chooseKey left idx = .ok k ∧ (idx ∈ left → k = idx) := by
  have hi3 : ¬ idx = 3 := by omega
  simp only [chooseKey, if_neg hi3]
  by_cases h0 : idx ∈ left
  · exact ⟨idx, h0, by rw [if_pos h0], fun _ => rfl⟩
  rw [if_neg h0]
  by_cases h1 : (idx + 1) % 3 ∈ left
  · exact ⟨_, h1, by rw [if_pos h1], fun h => absurd h h0⟩
  rw [if_neg h1]
  by_cases h2 : (idx + 2) % 3 ∈ left
  · exact ⟨_, h2, by rw [if_pos h2], fun h => absurd h h0⟩
  exfalso
  obtain ⟨k, hk⟩ := List.exists_mem_of_ne_nil _ hl
  have := hs k hk
  have : k = idx ∨ k = (idx + 1) % 3 ∨ k = (idx + 2) % 3 := by omega
  rcases this with rfl | rfl | rfl <;> contradiction

theorem hklLetter_inj {i j : ℕ} (hi : i < 3) (hj : j < 3) (h : hklLetter i = hklLetter j) : i = j := by
  interval_cases i <;> interval_cases j <;> first | rfl | (exact absurd h (by decide))

theorem labelLoop_spec (fmt3 : ℚ → Str) (axes : List LabelAxis) : ∀ left : List ℕ, left.Nodup → (∀ k ∈ left, k < 3) →
    (Spec.vectors axes).length ≤ left.length → (∀ p ∈ axes, Spec.NonZero p) →
    ∃ (ks : List ℕ) (ls : List Str), labelLoop fmt3 left axes = .ok ls ∧ Spec.Labelled fmt3 axes (ks.map hklLetter) ls ∧ ks.Nodup ∧ (∀ k ∈ ks, k ∈ left) ∧
      ks.length = (Spec.vectors axes).length ∧
      ∀ (j : ℕ) (p : LabelAxis) (k : ℕ), (Spec.vectors axes)[j]? = some p → ks[j]? = some k →
        ∀ i ∈ left, Spec.ownLetter p (hklLetter i) → i ∉ ks.take j → k = i := by
  induction axes with
  | nil => exact fun left _ _ _ _ => ⟨[], [], rfl, .nil, List.nodup_nil, by simp, rfl, by simp [Spec.vectors]⟩
  | cons p axes ih =>
    intro left hnd hlt hlen hnz
    cases p with
    | en =>
      have hv : Spec.vectors (.en :: axes) = Spec.vectors axes := by simp [Spec.vectors]
      rw [hv] at hlen ⊢
      obtain ⟨ks, ls, h1, h2, h3, h4, h5, h6⟩ := ih left hnd hlt hlen fun p hp => hnz p (List.mem_cons_of_mem _ hp)
      refine ⟨ks, _, ?_, .en h2, h3, h4, h5, h6⟩
      rw [labelLoop, h1]
      rfl
    | vec a b c =>
      have hv : Spec.vectors (.vec a b c :: axes) = .vec a b c :: Spec.vectors axes := by simp [Spec.vectors]
      rw [hv] at hlen ⊢
      have hne : left ≠ [] := by rintro rfl; simp at hlen
      have hz := hnz _ List.mem_cons_self
      obtain ⟨k, hk, hck, hown⟩ := chooseKey_spec (firstNonzero_lt hz) hne hlt
      obtain ⟨ks, ls, h1, h2, h3, h4, h5, h6⟩ := ih (left.erase k) (hnd.erase k)
        (fun i hi => hlt i (List.mem_of_mem_erase hi))
        (by rw [List.length_erase_of_mem hk]; simp only [List.length_cons] at hlen; omega)
        (fun p hp => hnz p (List.mem_cons_of_mem _ hp))
      refine ⟨k :: ks, labelVec fmt3 (hklLetter k) a b c :: ls, ?_, ?_, List.nodup_cons.2 ⟨fun hm => ?_, h3⟩, ?_, by simp [h5], ?_⟩
      · rw [labelLoop, hck, py_bind_ok, h1]
        rfl
      · rw [labelVec_spec]
        exact .vec h2
      · exact ((hnd.mem_erase_iff).1 (h4 k hm)).1 rfl
      · intro i hi
        rcases List.mem_cons.1 hi with rfl | hi
        · exact hk
        · exact List.mem_of_mem_erase (h4 i hi)
      · intro j p k' hj hk' i hi ho hnot
        cases j with
        | zero =>
          obtain rfl : LabelAxis.vec a b c = p := by simpa using hj
          obtain rfl : k = k' := by simpa using hk'
          have e := (ownLetter_iff hz _).1 ho
          have e := hklLetter_inj (hlt i hi) (firstNonzero_lt hz) e
          rw [hown (e ▸ hi), e]
        | succ j =>
          have hik : i ≠ k := by
            rintro rfl
            exact hnot (by simp)
          exact h6 j p k' (by simpa using hj) (by simpa using hk') i ((hnd.mem_erase_iff).2 ⟨hik, hi⟩) ho
            (fun hm => hnot (by simp [hm]))

theorem same_val {a b : LabelNum} (h : a.val = b.val) (fmt3 : ℚ → Str) (l : Char) :
    Spec.entryText fmt3 l a.val = Spec.entryText fmt3 l b.val := by rw [h]

theorem sameAxes_cons {p : LabelAxis} {ps axes : List LabelAxis} (h : sameAxes axes (p :: ps) = true) :
    ∃ q qs, axes = q :: qs ∧ q.same p = true ∧ sameAxes qs ps = true := by
  cases axes with
  | nil => simp [sameAxes] at h
  | cons q qs => exact ⟨q, qs, rfl, by simpa [sameAxes] using h⟩

theorem same_vec {q : LabelAxis} {a b c : LabelNum} (h : q.same (.vec a b c) = true) :
    ∃ a' b' c', q = .vec a' b' c' ∧ a'.val = a.val ∧ b'.val = b.val ∧ c'.val = c.val := by
  cases q with
  | en => simp [LabelAxis.same] at h
  | vec a' b' c' =>
    simp only [LabelAxis.same, Bool.and_eq_true, decide_eq_true_eq] at h
    exact ⟨a', b', c', rfl, h.1.1, h.1.2, h.2⟩

/-- The shortcut for the usual axes gives what the loop gives. -/
theorem labels_shortcut (fmt3 : ℚ → Str) (axes : List LabelAxis) (h : sameAxes axes defaultAxes = true) :
    labelLoop fmt3 [0, 1, 2] axes = .ok ["(H, 0, 0) (r.l.u.)".toList, "(0, K, 0) (r.l.u.)".toList,
      "(0, 0, L) (r.l.u.)".toList, "E (meV)".toList] := by
  rw [defaultAxes] at h
  obtain ⟨q0, qs, rfl, hq0, h⟩ := sameAxes_cons h
  obtain ⟨q1, qs, rfl, hq1, h⟩ := sameAxes_cons h
  obtain ⟨q2, qs, rfl, hq2, h⟩ := sameAxes_cons h
  obtain ⟨q3, qs, rfl, hq3, h⟩ := sameAxes_cons h
  obtain ⟨a0, b0, c0, rfl, ha0, hb0, hc0⟩ := same_vec hq0
  obtain ⟨a1, b1, c1, rfl, ha1, hb1, hc1⟩ := same_vec hq1
  obtain ⟨a2, b2, c2, rfl, ha2, hb2, hc2⟩ := same_vec hq2
  cases q3 with
  | vec => simp [LabelAxis.same] at hq3
  | en =>
    cases qs with
    | cons => simp [sameAxes] at h
    | nil =>
      have v0 : (LabelNum.int 0).val = 0 := rfl
      have v1 : (LabelNum.int 1).val = 1 := rfl
      rw [v0] at hb0 hc0 ha1 hc1 ha2 hb2
      rw [v1] at ha0 hb1 hc2
      have f0 : firstNonzero a0 b0 c0 = 0 := by simp [firstNonzero, ha0]
      have f1 : firstNonzero a1 b1 c1 = 1 := by simp [firstNonzero, ha1, hb1]
      have f2 : firstNonzero a2 b2 c2 = 2 := by simp [firstNonzero, ha2, hb2, hc2]
      have e : ∀ (p q r : LabelNum) (l : Char), labelVec fmt3 l p q r = Spec.vectorText fmt3 l (.vec p q r) :=
        fun p q r l => labelVec_spec fmt3 l p q r
      simp only [labelLoop, f0, f1, f2]
      rw [show chooseKey [0, 1, 2] 0 = .ok 0 from rfl, py_bind_ok, show ([0, 1, 2] : List ℕ).erase 0 = [1, 2] from rfl,
        show chooseKey [1, 2] 1 = .ok 1 from rfl, py_bind_ok, show ([1, 2] : List ℕ).erase 1 = [2] from rfl,
        show chooseKey [2] 2 = .ok 2 from rfl, py_bind_ok]
      simp only [Except.map, e, Spec.vectorText, LabelAxis.entries, List.map_cons, List.map_nil, ha0, hb0, hc0, ha1, hb1, hc1,
        ha2, hb2, hc2]
      simp [Spec.entryText, hklLetter, List.intercalate, List.intersperse]

/-- **C62**: for at most three vectors, none zero, wherever the energy axis is, there are labels; every vector has its own letter
out of H, K, L, no letter is used twice, and a vector gets the letter of its first entry that is not zero unless an earlier vector
has it. The first vector always gets it. -/
theorem C62_labels (fmt3 : ℚ → Str) (axes : List LabelAxis) (hlen : (Spec.vectors axes).length ≤ 3)
    (hnz : ∀ p ∈ axes, Spec.NonZero p) :
    ∃ (letters : List Char) (labels : List Str), labelsFromProjection fmt3 (some axes) = .ok labels ∧ Spec.Labelled fmt3 axes letters labels ∧
      letters.Nodup ∧ (∀ c ∈ letters, c ∈ ['H', 'K', 'L']) ∧
      (∀ (j : ℕ) (p : LabelAxis) (l c : Char), (Spec.vectors axes)[j]? = some p → letters[j]? = some l → Spec.ownLetter p c → c ∉ letters.take j → l = c) := by
  obtain ⟨ks, ls, h1, h2, h3, h4, h5, h6⟩ := labelLoop_spec fmt3 axes [0, 1, 2] (by decide) (by decide) hlen hnz
  have hk3 : ∀ k ∈ ks, k < 3 := fun k hk => by
    have := h4 k hk
    simp only [List.mem_cons, List.not_mem_nil, or_false] at this
    omega
  refine ⟨ks.map hklLetter, ls, ?_, h2, ?_, ?_, ?_⟩
  · rw [labelsFromProjection]
    split
    · rename_i h
      rw [labels_shortcut fmt3 axes h] at h1
      exact h1
    · exact h1
  · exact List.Nodup.map_on (fun i hi j hj h => hklLetter_inj (hk3 i hi) (hk3 j hj) h) h3
  · intro c hc
    obtain ⟨k, hk, rfl⟩ := List.mem_map.1 hc
    have := hk3 k hk
    interval_cases k <;> decide
  · intro j p l c hp hl ho hnot
    rw [List.getElem?_map] at hl
    obtain ⟨k, hk, rfl⟩ := Option.map_eq_some_iff.1 hl
    obtain ⟨i, v, e1, e2, e3, e4⟩ := ho
    have hi : i < 3 := by
      by_contra h
      rw [List.getElem?_eq_none (by simp; omega)] at e4
      simp at e4
    have hc : c = hklLetter i := by
      interval_cases i <;> exact (Option.some.inj e4).symm
    subst hc
    have := h6 j p k hp hk i (by interval_cases i <;> decide) ⟨i, v, e1, e2, e3, e4⟩ (fun hm => hnot (by
      rw [← List.map_take]
      exact List.mem_map_of_mem hm))
    rw [this]

/-- **C62**: the label of a vector that is not zero shows its letter, and no other of the three (as long as numbers are written
without these letters). -/
theorem C62_shown (fmt3 : ℚ → Str) (a b c : LabelNum) (hz : Spec.NonZero (.vec a b c)) (l l' : Char)
    (hl : l ∈ ['H', 'K', 'L']) (hl' : l' ∈ ['H', 'K', 'L']) (hf : ∀ q, ∀ x ∈ fmt3 q, x ∉ ['H', 'K', 'L']) :
    l' ∈ Spec.vectorText fmt3 l (.vec a b c) ↔ l' = l := by
  have dec : ∀ n : ℕ, ∀ x ∈ decStr n, x ∉ ['H', 'K', 'L'] := by
    intro n x hx hm
    have := List.all_eq_true.1 (decStr_spec n).2.1 x hx
    simp only [List.mem_cons, List.not_mem_nil, or_false] at hm
    rcases hm with rfl | rfl | rfl <;> exact absurd this (by decide)
  have ent : ∀ q : ℚ, l' ∈ Spec.entryText fmt3 l q ↔ q ≠ 0 ∧ l' = l := by
    intro q
    have hne0 : l' ≠ '0' := by rintro rfl; revert hl'; decide
    have hne1 : l' ≠ '-' := by rintro rfl; revert hl'; decide
    have hd : ∀ n, l' ∉ decStr n := fun n hm => dec n _ hm hl'
    have hf' : l' ∉ fmt3 q := fun hm => hf q _ hm hl'
    rw [Spec.entryText]
    split_ifs with h1 h2 h3 h4 h5 <;> simp_all
  simp only [Spec.vectorText, LabelAxis.entries, List.map_cons, List.map_nil, List.intercalate, List.intersperse,
    List.flatten_cons, List.flatten_nil, List.append_nil]
  simp only [List.mem_cons, List.mem_append, ent]
  have p1 : l' ≠ '(' := by rintro rfl; revert hl'; decide
  have p2 : l' ∉ ", ".toList := by
    simp only [List.mem_cons, List.not_mem_nil, or_false] at hl'
    rcases hl' with rfl | rfl | rfl <;> decide
  have p3 : l' ∉ ") (r.l.u.)".toList := by
    simp only [List.mem_cons, List.not_mem_nil, or_false] at hl'
    rcases hl' with rfl | rfl | rfl <;> decide
  constructor
  · rintro (h | h)
    · exact absurd h p1
    · rcases h with h | h
      · tauto
      · exact absurd h p3
  · rintro rfl
    obtain ⟨v, hv, hv'⟩ := hz (by simp)
    simp only [LabelAxis.entries, List.mem_cons, List.not_mem_nil, or_false] at hv
    rcases hv with rfl | rfl | rfl <;> tauto

/-- Found on the way: a zero vector can make the labelling fail ("Should not reach here!"), here after two vectors along H and K. -/
theorem C62_zero_fails (fmt3 : ℚ → Str) :
    labelsFromProjection fmt3 (some [.vec (.int 1) (.int 0) (.int 0), .vec (.int 0) (.int 1) (.int 0),
      .vec (.int 0) (.int 0) (.int 0)]) = .error .indexError := rfl

/-! ## C64 -/

theorem motorEqLoop_self (l : List (Option ℝ)) : motorEqLoop (l.zip l) = .ok true := by
  induction l with
  | nil => rfl
  | cons a l ih =>
    cases a with
    | none => exact ih
    | some a =>
      rw [List.zip_cons_cons, motorEqLoop, allclose1, py_bind_ok, if_pos, ih]
      rw [decide_eq_true_iff, sub_self, abs_zero]
      positivity

/-- **C64**: reflexive. -/
theorem C64_refl (m : MotorAngles) : m.eq m = .ok true := motorEqLoop_self m.fields

/-- Two readings that the tolerance does not tell apart by order: within 0.1, or apart by more than 0.1 and a hundred thousandth
of the larger one. -/
def Spec.ClearCut (a b : ℝ) : Prop := |a - b| ≤ 1e-1 ∨ 1e-1 + 1e-5 * max |a| |b| < |a - b|

theorem clearCut_close {a b : ℝ} (h : Spec.ClearCut a b) :
    (|a - b| ≤ 1e-1 + 1e-5 * |b| ↔ |a - b| ≤ 1e-1) ∧ (|b - a| ≤ 1e-1 + 1e-5 * |a| ↔ |a - b| ≤ 1e-1) := by
  rw [abs_sub_comm b a]
  have ha : (0 : ℝ) ≤ 1e-5 * |a| := by positivity
  have hb : (0 : ℝ) ≤ 1e-5 * |b| := by positivity
  rcases h with h | h
  · exact ⟨⟨fun _ => h, fun _ => by linarith⟩, ⟨fun _ => h, fun _ => by linarith⟩⟩
  · have h1 : (1e-5 : ℝ) * |a| ≤ 1e-5 * max |a| |b| := mul_le_mul_of_nonneg_left (le_max_left _ _) (by norm_num)
    have h2 : (1e-5 : ℝ) * |b| ≤ 1e-5 * max |a| |b| := mul_le_mul_of_nonneg_left (le_max_right _ _) (by norm_num)
    refine ⟨⟨fun h' => ?_, fun h' => ?_⟩, ⟨fun h' => ?_, fun h' => ?_⟩⟩ <;> linarith

/-- The motors in the order of their declaration. -/
def Spec.motors (m : MotorAngles) : List (Option ℝ) := [some m.twoTheta, m.omega, m.sgl, m.sgu, m.chi, m.phi]

/-- The motors both positions have. -/
def Spec.SameMotors (m n : MotorAngles) : Prop := ∀ (i : ℕ) (a b : Option ℝ), (Spec.motors m)[i]? = some a →
  (Spec.motors n)[i]? = some b →
  (a = none ↔ b = none) ∧ ∀ x y, a = some x → b = some y → Spec.ClearCut x y

theorem motorEqLoop_sym (l : List (Option ℝ × Option ℝ))
    (h : ∀ p ∈ l, (p.1 = none ↔ p.2 = none) ∧ ∀ x y, p.1 = some x → p.2 = some y → Spec.ClearCut x y) :
    ∃ b, motorEqLoop l = .ok b ∧ motorEqLoop (l.map Prod.swap) = .ok b ∧
      (b = true ↔ ∀ p ∈ l, ∀ x y, p.1 = some x → p.2 = some y → |x - y| ≤ 1e-1) := by
  induction l with
  | nil => exact ⟨true, rfl, rfl, by simp⟩
  | cons p l ih =>
    obtain ⟨b, h1, h2, h3⟩ := ih fun p hp => h p (List.mem_cons_of_mem _ hp)
    obtain ⟨e1, e2⟩ := h p List.mem_cons_self
    obtain ⟨u, v⟩ := p
    dsimp only at e1 e2
    cases u with
    | none =>
      obtain rfl := e1.1 rfl
      refine ⟨b, h1, h2, ?_⟩
      rw [h3]
      simp
    | some x =>
      cases v with
      | none => exact absurd (e1.2 rfl) (by simp)
      | some y =>
        obtain ⟨c1, c2⟩ := clearCut_close (e2 x y rfl rfl)
        simp only [motorEqLoop, allclose1, py_bind_ok, List.map_cons, Prod.swap, c1, c2]
        by_cases hc : |x - y| ≤ 1e-1
        · simp only [hc, decide_true, if_true, h1]
          refine ⟨b, rfl, h2, ?_⟩
          rw [h3]
          simp [hc]
        · refine ⟨false, by simp [hc], by simp [hc], ?_⟩
          simp [hc]

/-- **C64** (partial): for positions with the same motors whose readings are clear cut, comparison does not depend on the order
and means "all motors within 0.1 degrees". Missing: readings in the margin of the relative tolerance, and motors missing in one
position, see `C64_asymmetric` and `C64_missing`. -/
theorem C64_symmetric_partial (m n : MotorAngles) (h : Spec.SameMotors m n) :
    ∃ b, m.eq n = .ok b ∧ n.eq m = .ok b ∧
      (b = true ↔ ∀ (i : ℕ) (x y : ℝ), (Spec.motors m)[i]? = some (some x) → (Spec.motors n)[i]? = some (some y) →
        |x - y| ≤ 1e-1) := by
  obtain ⟨b, h1, h2, h3⟩ := motorEqLoop_sym ((Spec.motors m).zip (Spec.motors n)) (fun p hp => by
    obtain ⟨i, hi⟩ := List.mem_iff_getElem?.1 hp
    obtain ⟨e1, e2⟩ := List.getElem?_zip_eq_some.1 hi
    exact h i _ _ e1 e2)
  refine ⟨b, h1, ?_, h3.trans ⟨fun h i x y hx hy => ?_, fun h p hp x y hx hy => ?_⟩⟩
  · rw [MotorAngles.eq, show n.fields = Spec.motors n from rfl, show m.fields = Spec.motors m from rfl, ← List.zip_swap]
    exact h2
  · exact h (some x, some y) (List.mem_iff_getElem?.2 ⟨i, List.getElem?_zip_eq_some.2 ⟨hx, hy⟩⟩) x y rfl rfl
  · obtain ⟨i, hi⟩ := List.mem_iff_getElem?.1 hp
    obtain ⟨e1, e2⟩ := List.getElem?_zip_eq_some.1 hi
    exact h i x y (by rw [e1, hx]) (by rw [e2, hy])

/-- A motor of the left position agrees with that of the right one: it is missing on the left, or both are there and differ by no
more than 0.1 and a hundred thousandth of the right one. -/
def Spec.Agree (a b : Option ℝ) : Prop := ∀ x, a = some x → ∃ y, b = some y ∧ |x - y| ≤ 1e-1 + 1e-5 * |y|

/-- The first pair that does not agree. -/
def Spec.FirstOdd (l : List (Option ℝ × Option ℝ)) (p : Option ℝ × Option ℝ) : Prop :=
  ∃ l1 l2, l = l1 ++ p :: l2 ∧ (∀ q ∈ l1, Spec.Agree q.1 q.2) ∧ ¬ Spec.Agree p.1 p.2

theorem motorEqLoop_complete (l : List (Option ℝ × Option ℝ)) :
    ((∀ p ∈ l, Spec.Agree p.1 p.2) ∧ motorEqLoop l = .ok true) ∨
    (∃ x y, Spec.FirstOdd l (some x, some y) ∧ motorEqLoop l = .ok false) ∨
    (∃ x, Spec.FirstOdd l (some x, none) ∧ motorEqLoop l = .error .typeError) := by
  have push : ∀ {p q l}, Spec.Agree q.1 q.2 → Spec.FirstOdd l p → Spec.FirstOdd (q :: l) p := by
    rintro p q l hq ⟨l1, l2, rfl, h1, h2⟩
    refine ⟨q :: l1, l2, rfl, fun r hr => ?_, h2⟩
    rcases List.mem_cons.1 hr with rfl | hr
    · exact hq
    · exact h1 r hr
  induction l with
  | nil => exact .inl ⟨by simp, rfl⟩
  | cons q l ih =>
    have next : Spec.Agree q.1 q.2 → motorEqLoop (q :: l) = motorEqLoop l →
        ((∀ p ∈ q :: l, Spec.Agree p.1 p.2) ∧ motorEqLoop (q :: l) = .ok true) ∨
        (∃ x y, Spec.FirstOdd (q :: l) (some x, some y) ∧ motorEqLoop (q :: l) = .ok false) ∨
        (∃ x, Spec.FirstOdd (q :: l) (some x, none) ∧ motorEqLoop (q :: l) = .error .typeError) := by
      intro hq e
      rw [e]
      rcases ih with ⟨h1, h2⟩ | ⟨x, y, h1, h2⟩ | ⟨x, h1, h2⟩
      · exact .inl ⟨by simpa using ⟨hq, fun a b h => h1 (a, b) h⟩, h2⟩
      · exact .inr (.inl ⟨x, y, push hq h1, h2⟩)
      · exact .inr (.inr ⟨x, push hq h1, h2⟩)
    obtain ⟨a, b⟩ := q
    cases a with
    | none => exact next (fun x hx => nomatch hx) rfl
    | some x =>
      cases b with
      | none =>
        refine .inr (.inr ⟨x, ⟨[], l, rfl, by simp, fun h => ?_⟩, rfl⟩)
        obtain ⟨y, hy, _⟩ := h x rfl
        cases hy
      | some y =>
        by_cases hc : |x - y| ≤ 1e-1 + 1e-5 * |y|
        · refine next (fun x' hx' => ⟨y, rfl, by cases hx'; exact hc⟩) ?_
          rw [motorEqLoop, allclose1, py_bind_ok, if_pos (decide_eq_true hc)]
        · refine .inr (.inl ⟨x, y, ⟨[], l, rfl, by simp, fun h => ?_⟩, ?_⟩)
          · obtain ⟨y', hy, h⟩ := h x rfl
            cases hy
            exact hc h
          · rw [motorEqLoop, allclose1, py_bind_ok, if_neg (by simpa using hc)]

/-- **C64**, all cases: equal when all motors agree; otherwise the first motor in the order of declaration that does not decides:
`False` when both have it, `TypeError` when it is missing on the right. -/
theorem C64_complete (m n : MotorAngles) :
    ((∀ p ∈ (Spec.motors m).zip (Spec.motors n), Spec.Agree p.1 p.2) ∧ m.eq n = .ok true) ∨
    (∃ x y, Spec.FirstOdd ((Spec.motors m).zip (Spec.motors n)) (some x, some y) ∧ m.eq n = .ok false) ∨
    (∃ x, Spec.FirstOdd ((Spec.motors m).zip (Spec.motors n)) (some x, none) ∧ m.eq n = .error .typeError) :=
  motorEqLoop_complete _

/-- **C64**, the code disagrees: for every reading `b > 0` the position just as far below it as the tolerance allows equals it, but
not the other way round. -/
theorem C64_asymmetric (b : ℝ) (hb : 1 < b) :
    (MotorAngles.mk (b - (1e-1 + 1e-5 * b)) none none none none none).eq ⟨b, none, none, none, none, none⟩ = .ok true ∧
    (MotorAngles.mk b none none none none none).eq ⟨b - (1e-1 + 1e-5 * b), none, none, none, none, none⟩ = .ok false := by
  have h1 : (0 : ℝ) < 1e-1 + 1e-5 * b := by positivity
  have h2 : 0 < b - (1e-1 + 1e-5 * b) := by norm_num; linarith
  constructor
  · simp only [MotorAngles.eq, MotorAngles.fields, List.zip_cons_cons, List.zip_nil_left, motorEqLoop, allclose1, py_bind_ok]
    rw [if_pos]
    rw [decide_eq_true_iff, abs_of_pos (by linarith : 0 < b), show b - (1e-1 + 1e-5 * b) - b = -(1e-1 + 1e-5 * b) by ring, abs_neg,
      abs_of_pos h1]
  · simp only [MotorAngles.eq, MotorAngles.fields, List.zip_cons_cons, List.zip_nil_left, motorEqLoop, allclose1, py_bind_ok]
    rw [if_neg]
    rw [decide_eq_true_iff, abs_of_pos h2, show b - (b - (1e-1 + 1e-5 * b)) = 1e-1 + 1e-5 * b by ring, abs_of_pos h1]
    intro h
    have : (0 : ℝ) < 1e-5 * (1e-1 + 1e-5 * b) := by positivity
    nlinarith

/-- **C64**, the code disagrees: with a motor missing on one side the answer depends on the order, one of them being an
exception. -/
theorem C64_missing (x w : ℝ) :
    (MotorAngles.mk x none none none none none).eq ⟨x, some w, none, none, none, none⟩ = .ok true ∧
    (MotorAngles.mk x (some w) none none none none).eq ⟨x, none, none, none, none, none⟩ = .error .typeError := by
  have h : decide (|x - x| ≤ (1e-1 : ℝ) + 1e-5 * |x|) = true := by
    rw [decide_eq_true_iff, sub_self, abs_zero]; positivity
  constructor <;>
  simp only [MotorAngles.eq, MotorAngles.fields, List.zip_cons_cons, List.zip_nil_left, motorEqLoop, allclose1, py_bind_ok, h,
    if_true, py_bind_err]

/-- **C64**, the code disagrees: positions can be both `==` and `!=`. -/
theorem C64_both (x d : ℝ) (hd : d ≠ 0) (hd' : |d| ≤ 1e-1) :
    (MotorAngles.mk (x + d) none none none none none).eq ⟨x, none, none, none, none, none⟩ = .ok true ∧
    (MotorAngles.mk (x + d) none none none none none).ne ⟨x, none, none, none, none, none⟩ = true := by
  have h0 : (0 : ℝ) ≤ 1e-5 * |x| := by positivity
  constructor
  · simp only [MotorAngles.eq, MotorAngles.fields, List.zip_cons_cons, List.zip_nil_left, motorEqLoop, allclose1, py_bind_ok]
    rw [if_pos]
    rw [decide_eq_true_iff, add_sub_cancel_left]
    linarith
  · rw [MotorAngles.ne, decide_eq_true_iff]
    simp [MotorAngles.fields, hd]

/-! ## C70 -/

/-- Minutes of arc in radians. -/
noncomputable def Spec.minutes (m : ℝ) : ℝ := m / 60 * Real.pi / 180

/-- A distance in centimetres that was set, as Ångström; nothing when it was not set. -/
noncomputable def Spec.inAngstrom : Option ℝ → Option ℝ
  | none => none
  | some l => some (10 ^ 8 * l)

/-- **C70** (partial): divergences and sizes are converted each from its own parameter; the root mean square extension of a
rectangle is its side over `√12`, of a disc its diameter over 4. Missing: the distances, see `C70_distances`. -/
theorem C70_convert_partial (c : CollimatorParams) (s : Sized) (a : Option ℝ) (d : Distances) :
    c.horizontalRad = c.horizontal.map Spec.minutes ∧ c.verticalRad = c.vertical.map Spec.minutes ∧
    min2radOpt a = a.map Spec.minutes ∧
    (s.shape = "rectangular".toList → s.widthA = s.width.map (fun w => 10 ^ 8 * w / Real.sqrt 12) ∧
      s.heightA = s.height.map (fun w => 10 ^ 8 * w / Real.sqrt 12) ∧ s.depthA = s.depth.map fun w => 10 ^ 8 * w / Real.sqrt 12) ∧
    (s.shape = "circular".toList ∨ s.shape = "spherical".toList → s.widthA = s.width.map (fun w => 10 ^ 8 * w / 4) ∧
      s.heightA = s.height.map (fun w => 10 ^ 8 * w / 4) ∧ s.depthA = s.depth.map fun w => 10 ^ 8 * w / 4) ∧
    d.srcMonoA = Spec.inAngstrom d.srcMono := by
  have hm : ∀ m : ℝ, deg2rad (m / 60) = Spec.minutes m := fun m => by rw [deg2rad, Spec.minutes]; ring
  have r1 : ∀ l : Option ℝ, s.shape = "rectangular".toList →
      cm2angstromShape l s.shape = l.map fun w => 10 ^ 8 * w / Real.sqrt 12 := by
    intro l h
    cases l with
    | none => rfl
    | some l => rw [cm2angstromShape, h]; rw [if_pos rfl]; refine congrArg some ?_; norm_num; ring
  have r2 : ∀ l : Option ℝ, (s.shape = "circular".toList ∨ s.shape = "spherical".toList) →
      cm2angstromShape l s.shape = l.map fun w => 10 ^ 8 * w / 4 := by
    intro l h
    cases l with
    | none => rfl
    | some l =>
      rw [cm2angstromShape]
      rw [if_neg (by rcases h with h | h <;> rw [h] <;> decide), if_pos h]
      refine congrArg some ?_
      norm_num
      ring
  refine ⟨?_, ?_, ?_, fun h => ⟨r1 _ h, r1 _ h, r1 _ h⟩, fun h => ⟨r2 _ h, r2 _ h, r2 _ h⟩, ?_⟩
  · simp only [CollimatorParams.horizontalRad, CollimatorParams.horizontal, hm, List.map_cons, List.map_nil]
  · simp only [CollimatorParams.verticalRad, CollimatorParams.vertical, hm, List.map_cons, List.map_nil]
  · cases a with
    | none => rfl
    | some a => exact congrArg some (hm a)
  · rw [Distances.srcMonoA, cm2angstromOpt]
    cases d.srcMono with
    | none => rfl
    | some l => refine congrArg some ?_; norm_num; ring

/-- **C70**, the code disagrees: all distances are computed from the distance source to monochromator, so each of the others is
right only when it happens to be the same. -/
theorem C70_distances (d : Distances) :
    (d.monoSampleA = Spec.inAngstrom d.monoSample ↔ d.monoSample = d.srcMono) ∧
    (d.sampleAnaA = Spec.inAngstrom d.sampleAna ↔ d.sampleAna = d.srcMono) ∧
    (d.anaDetA = Spec.inAngstrom d.anaDet ↔ d.anaDet = d.srcMono) ∧
    (d.monoMonitorA = Spec.inAngstrom d.monoMonitor ↔ d.monoMonitor = d.srcMono) := by
  have key : ∀ a b : Option ℝ, cm2angstromOpt a = Spec.inAngstrom b ↔ b = a := by
    intro a b
    cases a with
    | none => cases b <;> simp [cm2angstromOpt, Spec.inAngstrom]
    | some a =>
      cases b with
      | none => simp [cm2angstromOpt, Spec.inAngstrom]
      | some b =>
        simp only [cm2angstromOpt, Spec.inAngstrom, Option.map_some, Option.some.injEq]
        norm_num
        constructor <;> intro h <;> linarith
  exact ⟨key _ _, key _ _, key _ _, key _ _⟩

/-- **C70**: after loading a configuration every component it names is the attribute of that name, with the parameters given;
components it does not name stay as they were. -/
theorem C70_loaded {P : Type} (attrs : List (Str × Option P)) (config : List (Str × P)) (name : Str) :
    (name ∈ componentNames → ∀ p, lookupKey name config = some p →
      lookupKey name (loadInstrument attrs config) = some (some p)) ∧
    (name ∉ componentNames ∨ lookupKey name config = none →
      lookupKey name (loadInstrument attrs config) = lookupKey name attrs) := by
  have key : ∀ (names : List Str) (attrs : List (Str × Option P)),
      lookupKey name (names.foldl (loadComponent config) attrs) =
      if name ∈ names then (match lookupKey name config with | none => lookupKey name attrs | some p => some (some p))
      else lookupKey name attrs := by
    intro names
    induction names with
    | nil => intro attrs; simp
    | cons n names ih =>
      intro attrs
      rw [List.foldl_cons, ih]
      by_cases hn : name = n
      · subst hn
        cases hl : lookupKey name config with
        | none => simp [loadComponent, hl]
        | some p => simp [loadComponent, hl, lookupKey_assocSet]
      · have : lookupKey name (loadComponent config attrs n) = lookupKey name attrs := by
          rw [loadComponent]
          cases lookupKey n config with
          | none => rfl
          | some p => dsimp only; rw [lookupKey_assocSet, if_neg hn]
        rw [this]
        simp [hn]
  rw [loadInstrument, key]
  constructor
  · intro h p hp
    rw [if_pos h, hp]
  · rintro (h | h)
    · rw [if_neg h]
    · rw [h]; simp

/-- **C70**, the code disagrees: the instrument announces its distances as `arms`, but no configuration ever sets them. -/
theorem C70_arms {P : Type} (config : List (Str × P)) :
    lookupKey "arms".toList (loadInstrument (tasBaseAttrs P) config) = some none := by
  rw [(C70_loaded (tasBaseAttrs P) config "arms".toList).2 (.inl (by decide +kernel))]
  rfl

/-! ## Concrete cases -/

namespace Demo

example : Real.sin (90 / 180 * Real.pi) ≠ 0 := by
  rw [show (90 : ℝ) / 180 * Real.pi = Real.pi / 2 by ring, Real.sin_pi_div_two]; norm_num

/-- Energy first, then three vectors that all begin with H. -/
def labelAxes : List LabelAxis :=
  [.en, .vec (.int 1) (.int 1) (.int 0), .vec (.float (-1)) (.float 1) (.int 0), .vec (.float (1 / 2)) (.int 0) (.int 2)]

example : (Spec.vectors labelAxes).length ≤ 3 ∧ ∀ p ∈ labelAxes, Spec.NonZero p := by
  refine ⟨by decide, ?_⟩
  intro p hp
  simp only [labelAxes, List.mem_cons, List.not_mem_nil, or_false] at hp
  rcases hp with rfl | rfl | rfl | rfl <;> intro h
  · exact absurd rfl h
  · exact ⟨.int 1, by simp [LabelAxis.entries], by decide⟩
  · exact ⟨.float 1, by simp [LabelAxis.entries], by decide⟩
  · exact ⟨.int 2, by simp [LabelAxis.entries], by decide⟩

example : labelsFromProjection (fun _ => "0.500".toList) (some labelAxes) =
    .ok ["E (meV)".toList, "(H, H, 0) (r.l.u.)".toList, "(-K, K, 0) (r.l.u.)".toList, "(0.500L, 0, 2L) (r.l.u.)".toList] := by
  decide +kernel

example : ∃ m n : MotorAngles, Spec.SameMotors m n ∧ Spec.motors m ≠ Spec.motors n := by
  refine ⟨⟨10, some 20, none, none, none, none⟩, ⟨10.05, some 30, none, none, none, none⟩, ?_, ?_⟩
  · intro i a b ha hb
    match i with
    | 0 =>
      obtain rfl : some 10 = a := by simpa [Spec.motors] using ha
      obtain rfl : some 10.05 = b := by simpa [Spec.motors] using hb
      refine ⟨by simp, fun x y hx hy => ?_⟩
      rw [← Option.some.inj hx, ← Option.some.inj hy]
      exact .inl (by norm_num [abs_le])
    | 1 =>
      obtain rfl : some 20 = a := by simpa [Spec.motors] using ha
      obtain rfl : some 30 = b := by simpa [Spec.motors] using hb
      refine ⟨by simp, fun x y hx hy => ?_⟩
      rw [← Option.some.inj hx, ← Option.some.inj hy]
      exact .inr (by norm_num)
    | 2 | 3 | 4 | 5 =>
      obtain rfl : none = a := by simpa [Spec.motors] using ha
      obtain rfl : none = b := by simpa [Spec.motors] using hb
      simp
    | (n + 6) => simp [Spec.motors] at ha
  · norm_num [Spec.motors]

example : (Distances.mk (some 650) (some 150) none none none).monoSampleA ≠ Spec.inAngstrom (some 150) := by
  rw [Ne, (C70_distances ⟨some 650, some 150, none, none, none⟩).1]
  norm_num

end Demo

end Tavi
