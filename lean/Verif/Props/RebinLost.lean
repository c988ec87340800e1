import Verif.Props.RebinUse

/-! # C32, continued: exactly which points are lost -/

namespace Tavi

/-- **C32** A point not below the minimum is in some bin exactly if it is below the right edge of the last one. -/
theorem C32_kept_iff {mn step x : ℝ} (hs : 0 < step) (N : ℕ) (h1 : mn ≤ x) :
    (∃ j < N, Spec.edge mn step j ≤ x ∧ x < Spec.edge mn step (j + 1)) ↔ x < Spec.edge mn step N := by
  have e0 : Spec.edge mn step 0 ≤ x := by unfold Spec.edge; push_cast; linarith
  constructor
  · rintro ⟨j, hj, h⟩
    by_contra hc
    exact (C30_partition hs N).2 (fun hh => hc hh.2) j hj h
  · intro h
    obtain ⟨j, ⟨a, b⟩, _⟩ := (C30_partition hs N).1 ⟨e0, h⟩
    exact ⟨j, a, b⟩

/-- **C32** No point of the range can be lost exactly if the part of a step by which the range exceeds a whole number of steps is
less than 0.49 or at least 0.99. -/
theorem C32_range_iff {mn mx step : ℝ} {N : ℕ} (hs : 0 < step) (hm : mn ≤ mx) (hN : Spec.BinCount mn mx step N) :
    (∀ x, mn ≤ x → x ≤ mx → ∃ j < N, Spec.edge mn step j ≤ x ∧ x < Spec.edge mn step (j + 1)) ↔
      Int.fract ((mx - mn) / step) < 49 / 100 ∨ 99 / 100 ≤ Int.fract ((mx - mn) / step) := by
  have hf := binCount_floor hs hm hN
  set f := (mx - mn) / step with hfd
  have ef : (mx + step / 100 - mn) / step = f + 1 / 100 := by rw [hfd]; field_simp; ring
  have emx : mx = mn + f * step := by rw [hfd]; field_simp; ring
  rw [ef] at hf
  have key : (∀ x, mn ≤ x → x ≤ mx → ∃ j < N, Spec.edge mn step j ≤ x ∧ x < Spec.edge mn step (j + 1)) ↔
      mx < Spec.edge mn step N := by
    constructor
    · exact fun h => (C32_kept_iff hs N hm).1 (h mx hm le_rfl)
    · exact fun h x h1 h2 => (C32_kept_iff hs N h1).2 (lt_of_le_of_lt h2 h)
  have hN' : (N : ℝ) = ⌊f + 1 / 100⌋ + 1 := by exact_mod_cast hf.symm
  have edge : mx < Spec.edge mn step N ↔ f < ⌊f + 1 / 100⌋ + 49 / 100 := by
    rw [emx]
    unfold Spec.edge
    rw [hN']
    constructor
    · intro h
      by_contra hc
      have := mul_le_mul_of_nonneg_right (not_lt.1 hc) hs.le
      linarith
    · intro h
      have := mul_lt_mul_of_pos_right h hs
      linarith
  rw [key, edge]
  have a := Int.floor_add_fract f
  have b := Int.fract_nonneg f
  have c := Int.fract_lt_one f
  rcases lt_or_ge (Int.fract f) (99 / 100) with h | h
  · have : ⌊f + 1 / 100⌋ = ⌊f⌋ := by
      rw [Int.floor_eq_iff]
      constructor <;> linarith
    rw [this]
    constructor
    · intro h'; left; linarith
    · rintro (h' | h')
      · linarith
      · linarith
  · have : ⌊f + 1 / 100⌋ = ⌊f⌋ + 1 := by
      rw [Int.floor_eq_iff]
      push_cast
      constructor <;> linarith
    rw [this]
    push_cast
    constructor
    · intro; right; exact h
    · intro; linarith

/-- **C32** How much is lost: the counts of the rebinned curve (mean times number of points) and the counts of the points beyond
the right edge of the last bin make up the counts of all points. -/
theorem C32_counts_lost {pts : List Spec.Pt} {norm : Option (List Num)} {p : RebinParams} {mn mx step : ℝ} {N : ℕ}
    (hr : Spec.Range (pts.map (·.x)) p mn mx step) (hN : Spec.BinCount mn mx step N) (hy : ∀ q ∈ pts, 0 ≤ q.y)
    (hmin : ∀ q ∈ pts, mn ≤ q.x) {r : ScanData1D} (h : (Spec.curve pts norm).rebinGrid p = .ok r) :
    Spec.total r.y (Spec.number mn step pts)
      + ((pts.filter fun q => decide (mn + (N - 51 / 100) * step ≤ q.x)).map (·.y)).sum = (pts.map (·.y)).sum := by
  have hs := hr.2.2.2.1
  rw [(C31_counts (norm := norm) (col := none) hr hN hy).1 r h]
  have ee : Spec.edge mn step N = mn + (N - 51 / 100) * step := by unfold Spec.edge; ring
  rw [← ee]
  clear hr h hy
  unfold Spec.window
  induction pts with
  | nil => simp
  | cons q l ih =>
    have hq := hmin q (List.mem_cons_self ..)
    have e0 : Spec.edge mn step 0 ≤ q.x := by unfold Spec.edge; push_cast; linarith
    have ih := ih fun q hq => hmin q (List.mem_cons_of_mem _ hq)
    by_cases hl : q.x < Spec.edge mn step N
    · rw [List.filter_cons_of_pos (by simp [e0, hl]), List.filter_cons_of_neg (by simp [hl])]
      simp only [List.map_cons, List.sum_cons]
      linarith
    · rw [List.filter_cons_of_neg (by simp [e0]; exact not_lt.1 hl), List.filter_cons_of_pos (by simp; exact not_lt.1 hl)]
      simp only [List.map_cons, List.sum_cons]
      linarith

/-- The range of `C32_point_lost` can lose points; the same range in steps of 0.7 cannot, although it is not a whole number of
steps. -/
example {N M : ℕ} (hN : Spec.BinCount 0 (9 / 10) 1 N) (hM : Spec.BinCount 0 (9 / 10) (7 / 10) M) :
    (∃ x, 0 ≤ x ∧ x ≤ 9 / 10 ∧ ¬ ∃ j < N, Spec.edge 0 1 j ≤ x ∧ x < Spec.edge 0 1 (j + 1)) ∧
    ∀ x, 0 ≤ x → x ≤ 9 / 10 → ∃ j < M, Spec.edge 0 (7 / 10) j ≤ x ∧ x < Spec.edge 0 (7 / 10) (j + 1) := by
  constructor
  · by_contra hc
    push Not at hc
    have h := (C32_range_iff one_pos (by norm_num) hN).1 fun x a b => by
      obtain ⟨j, h1, h2, h3⟩ := hc x a b
      exact ⟨j, h1, h2, h3⟩
    have : Int.fract ((9 / 10 - 0) / 1 : ℝ) = 9 / 10 := by
      rw [Int.fract_eq_iff]; norm_num; exact ⟨0, by norm_num⟩
    rw [this] at h
    norm_num at h
  · refine (C32_range_iff (by norm_num) (by norm_num) hM).2 (.inl ?_)
    have : Int.fract ((9 / 10 - 0) / (7 / 10) : ℝ) = 2 / 7 := by
      rw [Int.fract_eq_iff]; norm_num; exact ⟨1, by norm_num⟩
    rw [this]
    norm_num

end Tavi
