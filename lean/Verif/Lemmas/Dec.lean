import Verif.Model.Str
import Mathlib.Tactic.IntervalCases

/-! # Decimal numerals -/

namespace Tavi

theorem digitVal_digitChar {d : ℕ} (h : d < 10) : digitVal (digitChar d) = d := by
  interval_cases d <;> decide

theorem isDigit_digitChar {d : ℕ} (h : d < 10) : isDigit (digitChar d) = true := by
  interval_cases d <;> decide

theorem digitVal_lt {c : Char} (h : isDigit c = true) : digitVal c < 10 := by
  rw [isDigit, decide_eq_true_eq] at h
  have h1 : c.toNat ≤ '9'.toNat := h.2
  have h2 : '9'.toNat = 57 := rfl
  have h3 : '0'.toNat = 48 := rfl
  unfold digitVal
  omega

theorem digitVal_strict {c d : Char} (hc : isDigit c = true) (hd : isDigit d = true) :
    (c < d ↔ digitVal c < digitVal d) ∧ (c = d ↔ digitVal c = digitVal d) := by
  rw [isDigit, decide_eq_true_eq] at hc hd
  have h1 : '0'.toNat ≤ c.toNat := hc.1
  have h2 : '0'.toNat ≤ d.toNat := hd.1
  have h3 : '0'.toNat = 48 := rfl
  unfold digitVal
  constructor
  · show c.toNat < d.toNat ↔ _
    omega
  · constructor
    · rintro rfl; rfl
    · intro h
      have : c.toNat = d.toNat := by omega
      exact Char.toNat_inj.1 this

theorem foldl_digits (s : Str) (a : ℕ) :
    s.foldl (fun a c => 10 * a + digitVal c) a = a * 10 ^ s.length + digitsVal s := by
  induction s generalizing a with
  | nil => simp [digitsVal]
  | cons c s ih =>
    rw [digitsVal, List.foldl_cons, List.foldl_cons, ih, ih (10 * 0 + digitVal c), List.length_cons]
    ring

theorem digitsVal_cons (c : Char) (s : Str) : digitsVal (c :: s) = digitVal c * 10 ^ s.length + digitsVal s := by
  rw [digitsVal, List.foldl_cons, foldl_digits]; ring

theorem digitsVal_append (s t : Str) : digitsVal (s ++ t) = digitsVal s * 10 ^ t.length + digitsVal t := by
  rw [digitsVal, List.foldl_append, foldl_digits]; rfl

theorem digitsVal_lt {s : Str} (h : s.all isDigit = true) : digitsVal s < 10 ^ s.length := by
  induction s with
  | nil => simp [digitsVal]
  | cons c s ih =>
    rw [List.all_cons, Bool.and_eq_true] at h
    have h1 := digitVal_lt h.1
    have h2 := ih h.2
    rw [digitsVal_cons, List.length_cons, pow_succ]
    nlinarith

/-- Numerals of the same length are ordered like their values. -/
theorem digits_order {s t : Str} (hs : s.all isDigit = true) (ht : t.all isDigit = true) (hl : s.length = t.length) :
    (s < t ↔ digitsVal s < digitsVal t) ∧ (s = t ↔ digitsVal s = digitsVal t) := by
  induction s generalizing t with
  | nil =>
    have : t = [] := List.eq_nil_of_length_eq_zero hl.symm
    subst this
    simp
  | cons c s ih =>
    cases t with
    | nil => simp at hl
    | cons d t =>
      rw [List.all_cons, Bool.and_eq_true] at hs ht
      have hl' : s.length = t.length := by simpa using hl
      obtain ⟨i1, i2⟩ := ih hs.2 ht.2 hl'
      obtain ⟨j1, j2⟩ := digitVal_strict hs.1 ht.1
      have b1 := digitsVal_lt hs.2
      have b2 := digitsVal_lt ht.2
      rw [hl'] at b1
      rw [digitsVal_cons, digitsVal_cons, hl', List.cons_lt_cons_iff, List.cons.injEq, i1, i2, j1, j2]
      generalize digitVal c = x at *
      generalize digitVal d = y at *
      generalize digitsVal s = u at *
      generalize digitsVal t = v at *
      generalize 10 ^ t.length = m at *
      rcases lt_trichotomy x y with h | h | h
      · have : x * m + m ≤ y * m := by nlinarith
        constructor
        · constructor
          · intro _; omega
          · intro _; exact .inl h
        · constructor
          · rintro ⟨h', _⟩; omega
          · intro h'; omega
      · subst h
        constructor
        · constructor
          · rintro (h' | ⟨_, h'⟩) <;> omega
          · intro h'; exact .inr ⟨rfl, by omega⟩
        · constructor
          · rintro ⟨_, h'⟩; omega
          · intro h'; exact ⟨rfl, by omega⟩
      · have : y * m + m ≤ x * m := by nlinarith
        constructor
        · constructor
          · rintro (h' | ⟨h', _⟩) <;> omega
          · intro h'; omega
        · constructor
          · rintro ⟨h', _⟩; omega
          · intro h'; omega

theorem decStr_spec (n : ℕ) : digitsVal (decStr n) = n ∧ (decStr n).all isDigit = true ∧ decStr n ≠ [] := by
  induction n using Nat.strong_induction_on with
  | _ n ih =>
    rw [decStr]
    split
    · rename_i h
      refine ⟨?_, ?_, by simp⟩
      · rw [digitsVal_cons, digitVal_digitChar h]; simp [digitsVal]
      · simp [isDigit_digitChar h]
    · obtain ⟨h1, h2, _⟩ := ih (n / 10) (by omega)
      refine ⟨?_, ?_, by simp⟩
      · rw [digitsVal_append, h1, digitsVal_cons, digitVal_digitChar (Nat.mod_lt _ (by norm_num))]
        simp [digitsVal]
        omega
      · rw [List.all_append, h2]
        simp [isDigit_digitChar (Nat.mod_lt n (by norm_num : 0 < 10))]

theorem decStr_injective {m n : ℕ} (h : decStr m = decStr n) : m = n := by
  rw [← (decStr_spec m).1, h, (decStr_spec n).1]

theorem decStr_length_le {n k : ℕ} (hk : 0 < k) (h : n < 10 ^ k) : (decStr n).length ≤ k := by
  induction k generalizing n with
  | zero => omega
  | succ k ih =>
    rw [decStr]
    split
    · simp
    · rename_i h10
      rw [List.length_append]
      have hk' : 0 < k := by
        rcases Nat.eq_zero_or_pos k with rfl | h'
        · simp at h; omega
        · exact h'
      have := ih hk' (n := n / 10) (by rw [pow_succ] at h; omega)
      simp; omega

theorem decStr_length_gt {n k : ℕ} (h : 10 ^ k ≤ n) : k < (decStr n).length := by
  obtain ⟨h1, h2, _⟩ := decStr_spec n
  have := digitsVal_lt h2
  rw [h1] at this
  by_contra hc
  have : 10 ^ (decStr n).length ≤ 10 ^ k := Nat.pow_le_pow_right (by norm_num) (by omega)
  omega

theorem digitsVal_zeros (k : ℕ) : digitsVal (List.replicate k '0') = 0 := by
  induction k with
  | zero => rfl
  | succ k ih => rw [List.replicate_succ, digitsVal_cons, ih, show digitVal '0' = 0 from rfl]; simp

theorem pad4_spec (n : ℕ) : digitsVal (pad4 n) = n ∧ (pad4 n).all isDigit = true ∧ 4 ≤ (pad4 n).length := by
  obtain ⟨h1, h2, _⟩ := decStr_spec n
  refine ⟨?_, ?_, ?_⟩
  · rw [pad4, digitsVal_append, h1, digitsVal_zeros]; simp
  · rw [pad4, List.all_append, h2, Bool.and_true, List.all_eq_true]
    intro c hc
    rw [List.eq_of_mem_replicate hc]; decide
  · rw [pad4, List.length_append, List.length_replicate]; omega

theorem pad4_length {n : ℕ} (h : n ≤ 9999) : (pad4 n).length = 4 := by
  have := decStr_length_le (k := 4) (by norm_num) (show n < 10 ^ 4 by omega)
  rw [pad4, List.length_append, List.length_replicate]; omega

theorem pyInt_digits {s : Str} (hs : s ≠ []) (h : s.all isDigit = true) : pyInt s = .ok (digitsVal s : ℤ) := by
  cases s with
  | nil => exact absurd rfl hs
  | cons c t =>
    have hc : isDigit c = true := by rw [List.all_cons, Bool.and_eq_true] at h; exact h.1
    unfold pyInt
    split
    · rename_i t' heq
      injection heq with h1 _
      subst h1
      exact absurd hc (by decide)
    · rename_i t' heq
      injection heq with h1 _
      subst h1
      exact absurd hc (by decide)
    · rw [if_pos ⟨by simp, h⟩]

end Tavi
