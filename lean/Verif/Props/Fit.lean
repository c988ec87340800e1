import Verif.Model.Fit
import Verif.Lemmas.Dec
import Verif.Lemmas.Numpy

/-! # C58, C59, C60: fits -/

namespace Tavi

/-! ## C58: ranges -/

/-- A point is inside a range, both ends included; nan is inside no range. -/
def Spec.Inside (r : ℝ × ℝ) (x : Num) : Prop := ∃ v, x = some v ∧ r.1 ≤ v ∧ v ≤ r.2

theorem inRange_iff {lo hi : ℝ} {x : Num} : inRange lo hi x = true ↔ Spec.Inside (lo, hi) x := by
  cases x with
  | none => simp [inRange, Spec.Inside]
  | some v => simp [inRange, Spec.Inside]

/-- Every point has its value and, if there are errors at all, its error. -/
def Spec.FitAligned (d : FitData) : Prop := d.y.length = d.x.length ∧ ∀ e, d.err = some e → e.length = d.x.length

theorem boolMask_map {α β : Type} (p : α → Bool) (xs : List α) (l : List β) (h : l.length = xs.length) :
    boolMask (xs.map p) l = .ok (((xs.zip l).filter fun q => p q.1).map Prod.snd) := by
  rw [boolMask, if_pos (by rw [List.length_map, h])]
  congr 1
  induction xs generalizing l with
  | nil => simp
  | cons a xs ih =>
    cases l with
    | nil => simp at h
    | cons b l =>
      have := ih l (by simpa using h)
      rw [List.map_cons, List.zip_cons_cons, List.zip_cons_cons, List.filter_cons, List.filter_cons]
      by_cases hp : p a = true
      · rw [if_pos hp, if_pos hp, List.map_cons, List.map_cons, this]
      · rw [if_neg hp, if_neg hp, this]

theorem zip_filter_fst {α β : Type} (p : α → Bool) (xs : List α) (l : List β) (h : l.length = xs.length) :
    ((xs.zip l).filter fun q => p q.1).map Prod.fst = xs.filter p := by
  induction xs generalizing l with
  | nil => simp
  | cons a xs ih =>
    cases l with
    | nil => simp at h
    | cons b l =>
      have := ih l (by simpa using h)
      rw [List.zip_cons_cons, List.filter_cons, List.filter_cons]
      by_cases hp : p a = true
      · rw [if_pos hp, if_pos hp, List.map_cons, this]
      · rw [if_neg hp, if_neg hp, this]

theorem zip_self_filter {α : Type} (p : α → Bool) (xs : List α) :
    ((xs.zip xs).filter fun q => p q.1).map Prod.snd = xs.filter p := by
  induction xs with
  | nil => simp
  | cons a xs ih =>
    rw [List.zip_cons_cons, List.filter_cons, List.filter_cons]
    by_cases hp : p a = true
    · rw [if_pos hp, if_pos hp, List.map_cons, ih]
    · rw [if_neg hp, if_neg hp, ih]

theorem zip_unzip {α β : Type} (l : List (α × β)) : (l.map Prod.fst).zip (l.map Prod.snd) = l := by
  induction l with
  | nil => rfl
  | cons a l ih => simp [ih]

theorem setRange_ok {d : FitData} (h : Spec.FitAligned d) (lo hi : ℝ) :
    d.setRange lo hi = (⟨d.x.filter (inRange lo hi),
      ((d.x.zip d.y).filter fun q => inRange lo hi q.1).map Prod.snd,
      d.err.map fun e => ((d.x.zip e).filter fun q => inRange lo hi q.1).map Prod.snd⟩, none) := by
  rw [FitData.setRange]
  rw [boolMask_map _ _ _ rfl, boolMask_map _ _ _ h.1, zip_self_filter]
  dsimp only
  cases he : d.err with
  | none => rfl
  | some e => dsimp only; rw [boolMask_map _ _ _ (h.2 e he)]; rfl

/-- Successive calls of `set_range`, keeping the exceptions. -/
noncomputable def FitData.setRanges (d : FitData) : List (ℝ × ℝ) → FitData × List PyErr
  | [] => (d, [])
  | r :: rs => let s := d.setRange r.1 r.2
    ((s.1.setRanges rs).1, s.2.toList ++ (s.1.setRanges rs).2)

open Classical in
/-- The rows of a table whose first entry is inside all the ranges, in order. -/
noncomputable def Spec.keep {α : Type} (rs : List (ℝ × ℝ)) (rows : List (Num × α)) : List (Num × α) :=
  rows.filter fun q => decide (∀ r ∈ rs, Spec.Inside r q.1)

theorem keep_cons {α : Type} (r : ℝ × ℝ) (rs : List (ℝ × ℝ)) (rows : List (Num × α)) :
    Spec.keep (r :: rs) rows = Spec.keep rs (rows.filter fun q => inRange r.1 r.2 q.1) := by
  classical
  rw [Spec.keep, Spec.keep, List.filter_filter]
  refine List.filter_congr fun q _ => ?_
  rw [Bool.eq_iff_iff, Bool.and_eq_true, decide_eq_true_iff, decide_eq_true_iff, inRange_iff, List.forall_mem_cons]
  exact and_comm

/-- **C58**: after any sequence of ranges no exception was raised, and the points with their values, and the points with their
errors, are those inside all ranges (ends included), in the original order. -/
theorem C58_ranges (d : FitData) (h : Spec.FitAligned d) (rs : List (ℝ × ℝ)) :
    (d.setRanges rs).2 = [] ∧ Spec.FitAligned (d.setRanges rs).1 ∧
    (d.setRanges rs).1.x.zip (d.setRanges rs).1.y = Spec.keep rs (d.x.zip d.y) ∧
    (∀ e, d.err = some e → ∃ e', (d.setRanges rs).1.err = some e' ∧
      (d.setRanges rs).1.x.zip e' = Spec.keep rs (d.x.zip e)) ∧
    (d.err = none → (d.setRanges rs).1.err = none) := by
  induction rs generalizing d with
  | nil =>
    refine ⟨rfl, h, ?_, fun e he => ⟨e, he, ?_⟩, id⟩ <;>
    · rw [Spec.keep, List.filter_eq_self.2 (fun a _ => by simp)]; rfl
  | cons r rs ih =>
    have hs := setRange_ok h r.1 r.2
    rw [FitData.setRanges]
    dsimp only
    rw [hs]
    set d' : FitData := ⟨d.x.filter (inRange r.1 r.2), _, _⟩ with hd'
    have ex : ∀ l : List Num, l.length = d.x.length →
        d'.x.zip (((d.x.zip l).filter fun q => inRange r.1 r.2 q.1).map Prod.snd) =
          (d.x.zip l).filter fun q => inRange r.1 r.2 q.1 := by
      intro l hl
      rw [hd']
      dsimp only
      rw [← zip_filter_fst (inRange r.1 r.2) d.x l hl, zip_unzip]
    have el : ∀ l : List Num, l.length = d.x.length →
        (((d.x.zip l).filter fun q => inRange r.1 r.2 q.1).map Prod.snd).length = d'.x.length := by
      intro l hl
      rw [hd']
      dsimp only
      rw [← zip_filter_fst (inRange r.1 r.2) d.x l hl, List.length_map, List.length_map]
    have al : Spec.FitAligned d' := by
      refine ⟨el _ h.1, fun e he => ?_⟩
      cases hde : d.err with
      | none => rw [hd'] at he; dsimp only at he; rw [hde] at he; simp at he
      | some e0 =>
        rw [hd'] at he
        dsimp only at he
        rw [hde] at he
        obtain rfl := Option.some.inj he
        exact el _ (h.2 _ hde)
    obtain ⟨i1, i2, i3, i4, i5⟩ := ih d' al
    refine ⟨by simpa using i1, i2, ?_, fun e he => ?_, fun he => i5 (by rw [hd']; dsimp only; rw [he]; rfl)⟩
    · rw [i3, keep_cons, ← ex _ h.1]
    · obtain ⟨e', h1, h2⟩ := i4 (((d.x.zip e).filter fun q => inRange r.1 r.2 q.1).map Prod.snd)
        (by rw [hd']; dsimp only; rw [he]; rfl)
      exact ⟨e', h1, by rw [h2, keep_cons, ex _ (h.2 e he)]⟩

/-- **C58**: restricting twice is restricting once to the intersection. -/
theorem C58_twice (d : FitData) (h : Spec.FitAligned d) (r s : ℝ × ℝ) :
    ((d.setRange r.1 r.2).1.setRange s.1 s.2) = d.setRange (max r.1 s.1) (min r.2 s.2) := by
  have hin : ∀ x : Num, inRange (max r.1 s.1) (min r.2 s.2) x = (inRange s.1 s.2 x && inRange r.1 r.2 x) := by
    intro x
    cases x with
    | none => rfl
    | some v =>
      rw [Bool.eq_iff_iff]
      simp only [inRange, Bool.and_eq_true, decide_eq_true_eq, max_le_iff, le_min_iff]
      tauto
  have hal : Spec.FitAligned (d.setRange r.1 r.2).1 := by
    have := (C58_ranges d h [r]).2.1
    exact this
  rw [setRange_ok hal, setRange_ok h, setRange_ok h]
  have key : ∀ l : List Num, l.length = d.x.length →
      (((d.x.filter (inRange r.1 r.2)).zip (((d.x.zip l).filter fun q => inRange r.1 r.2 q.1).map Prod.snd)).filter
        fun q => inRange s.1 s.2 q.1).map Prod.snd =
      ((d.x.zip l).filter fun q => inRange (max r.1 s.1) (min r.2 s.2) q.1).map Prod.snd := by
    intro l hl
    rw [← zip_filter_fst (inRange r.1 r.2) d.x l hl, zip_unzip, List.filter_filter]
    refine congrArg (List.map Prod.snd) (List.filter_congr fun q _ => ?_)
    rw [hin]
  dsimp only
  refine Prod.ext_iff.2 ⟨?_, rfl⟩
  dsimp only
  have h1 : (d.x.filter (inRange r.1 r.2)).filter (inRange s.1 s.2) = d.x.filter (inRange (max r.1 s.1) (min r.2 s.2)) := by
    rw [List.filter_filter]
    exact List.filter_congr fun q _ => (hin q).symm
  rw [h1, key _ h.1]
  congr 1
  cases he : d.err with
  | none => rfl
  | some e => exact congrArg some (key e (h.2 e he))

/-- The values of a convolved signal at the points of the fit, convfit.py:99-101: `self.rez_params` is handed over whole. -/
noncomputable def ConvFit1D.convolved (f : ConvFit1D) (signal : ℝ → ℝ) : Py (List Num) := conv1d f.data.x signal f.rez

/-- What restricting should do to the convolved values: those of the points that are kept, as they were before. -/
noncomputable def Spec.keptValues (r : ℝ × ℝ) (x values : List Num) : List Num := (Spec.keep [r] (x.zip values)).map Prod.snd

theorem zip_zipWith_left {α β γ : Type} (f : α → β → γ) (xs : List α) (l : List β) (h : xs.length ≤ l.length) :
    xs.zip (List.zipWith f xs l) = List.zipWith (fun a b => (a, f a b)) xs l := by
  induction xs generalizing l with
  | nil => simp
  | cons a xs ih =>
    cases l with
    | nil => simp at h
    | cons b l => simp [ih l (by simpa using h)]

/-- **C58** (partial): when only points at the end are dropped, the convolved values of the kept points are unchanged.
Missing: other ranges, see `C58_misaligned`. -/
theorem C58_conv_partial (f : ConvFit1D) (signal : ℝ → ℝ) (r : ℝ × ℝ) (kept dropped : List Num) (vals : List Num)
    (hx : f.data.x = kept ++ dropped) (hk : ∀ x ∈ kept, Spec.Inside r x) (hd : ∀ x ∈ dropped, ¬ Spec.Inside r x)
    (hal : Spec.FitAligned f.data) (hv : f.convolved signal = .ok vals) :
    (f.setRange r.1 r.2).1.convolved signal = .ok (Spec.keptValues r f.data.x vals) := by
  classical
  rw [ConvFit1D.convolved, conv1d] at hv
  split at hv
  · rename_i hlen
    obtain rfl := Except.ok.inj hv
    have hxl : kept.length ≤ f.rez.length := by
      rw [hx, List.length_append] at hlen; omega
    have hf : f.data.x.filter (inRange r.1 r.2) = kept := by
      rw [hx, List.filter_append, List.filter_eq_self.2 (fun a ha => inRange_iff.2 (hk a ha)),
        List.filter_eq_nil_iff.2 (fun a ha h => hd a ha (inRange_iff.1 h)), List.append_nil]
    have : (f.setRange r.1 r.2).1.data.x = kept := by
      change (f.data.setRange r.1 r.2).1.x = kept
      rw [setRange_ok hal]
      exact hf
    rw [ConvFit1D.convolved, this]
    change conv1d kept signal f.rez = _
    rw [conv1d, if_pos hxl]
    congr 1
    rw [Spec.keptValues, Spec.keep]
    obtain ⟨ra, rb, hrez, hra⟩ : ∃ ra rb, f.rez = ra ++ rb ∧ ra.length = kept.length :=
      ⟨f.rez.take kept.length, f.rez.drop kept.length, (List.take_append_drop _ _).symm, by
        rw [List.length_take]; omega⟩
    have e1 : List.zipWith (convPoint signal) kept f.rez = List.zipWith (convPoint signal) kept ra := by
      rw [hrez]
      have := List.zipWith_append (f := convPoint signal) (l₁ := kept) (l₁' := []) (l₂ := ra) (l₂' := rb) hra.symm
      rw [List.append_nil, List.zipWith_nil_left, List.append_nil] at this
      exact this
    have e2 : List.zipWith (convPoint signal) f.data.x f.rez =
        List.zipWith (convPoint signal) kept ra ++ List.zipWith (convPoint signal) dropped rb := by
      rw [hx, hrez]
      exact List.zipWith_append hra.symm
    have hl1 : (List.zipWith (convPoint signal) kept ra).length = kept.length := by
      rw [List.length_zipWith, hra, Nat.min_self]
    rw [e1, e2, hx, List.zip_append hl1.symm, List.filter_append, List.map_append]
    have f1 : ∀ (l : List Num) (m : List Num), (∀ x ∈ l, Spec.Inside r x) →
        (l.zip m).filter (fun q => decide (∀ s ∈ [r], Spec.Inside s q.1)) = l.zip m := by
      intro l m hl
      refine List.filter_eq_self.2 fun q hq => ?_
      rw [decide_eq_true_iff]
      intro s hs
      rw [List.mem_singleton.1 hs]
      exact hl _ (List.of_mem_zip hq).1
    have f2 : ∀ (l : List Num) (m : List Num), (∀ x ∈ l, ¬ Spec.Inside r x) →
        (l.zip m).filter (fun q => decide (∀ s ∈ [r], Spec.Inside s q.1)) = [] := by
      intro l m hl
      refine List.filter_eq_nil_iff.2 fun q hq h => ?_
      rw [decide_eq_true_iff] at h
      exact hl _ (List.of_mem_zip hq).1 (h r List.mem_cons_self)
    rw [f1 _ _ hk, f2 _ _ hd, List.map_nil, List.append_nil, List.map_snd_zip (by rw [hl1])]
  · simp at hv

theorem convPoint_zero (signal : ℝ → ℝ) (x fwhm : ℝ) : convPoint signal (some x) (0, fwhm) = none ∨
    convPoint signal (some x) (0, fwhm) = some 0 := by
  rw [convPoint]
  dsimp only
  split
  · exact .inl rfl
  · right
    simp [gaussian]

theorem convPoint_pos (c x r0 fwhm : ℝ) (hc : 0 < c) (hr : 0 < r0) (hf : 0 < fwhm) :
    ∃ v, 0 < v ∧ convPoint (constantSignal c) (some x) (r0, fwhm) = some v := by
  rw [convPoint]
  dsimp only
  have hs : 0 < fwhm / (2 * Real.sqrt (2 * Real.log 2)) :=
    div_pos hf (mul_pos two_pos (Real.sqrt_pos.2 (mul_pos two_pos (Real.log_pos one_lt_two))))
  rw [if_neg hs.ne']
  refine ⟨_, ?_, rfl⟩
  refine mul_pos (Finset.sum_pos (fun k _ => mul_pos ?_ hc) ⟨0, Finset.mem_range.2 (by norm_num)⟩) (by positivity)
  rw [gaussian]
  have := Real.sqrt_pos.2 (mul_pos two_pos Real.pi_pos)
  exact mul_pos (div_pos hr (mul_pos this hs)) (Real.exp_pos _)

/-- **C58**, the code disagrees: drop the first of two points. The second point is then given the resolution of the first, and
the convolved value changes whenever the two resolution volumes differ in being zero. -/
theorem C58_misaligned (c x0 x1 r1 w0 w1 : ℝ) (y : List Num) (hy : y.length = 2) (hc : 0 < c) (hx : x0 < x1) (hr : 0 < r1)
    (hw : 0 < w1) (f : ConvFit1D) (hf : f.data = ⟨[some x0, some x1], y, none⟩) (hrez : f.rez = [(0, w0), (r1, w1)]) :
    ∃ vals, f.convolved (constantSignal c) = .ok vals ∧
      (f.setRange x1 x1).1.convolved (constantSignal c) ≠ .ok (Spec.keptValues (x1, x1) f.data.x vals) := by
  classical
  obtain ⟨v, hv, hv'⟩ := convPoint_pos c x1 r1 w1 hc hr hw
  refine ⟨[convPoint (constantSignal c) (some x0) (0, w0), some v], ?_, ?_⟩
  · rw [ConvFit1D.convolved, conv1d, hf, hrez, if_pos (by simp)]
    simp [hv']
  · have hal : Spec.FitAligned f.data := by rw [hf]; exact ⟨hy, by simp⟩
    have hx' : (f.setRange x1 x1).1.data.x = [some x1] := by
      change (f.data.setRange x1 x1).1.x = _
      rw [setRange_ok hal, hf]
      simp [inRange, hx.not_ge]
    have hk : Spec.keptValues (x1, x1) f.data.x [convPoint (constantSignal c) (some x0) (0, w0), some v] = [some v] := by
      rw [Spec.keptValues, Spec.keep, hf]
      simp [Spec.Inside, hx.not_ge]
    rw [hk, ConvFit1D.convolved, hx']
    change conv1d [some x1] _ f.rez ≠ _
    rw [conv1d, hrez, if_pos (by simp)]
    simp only [List.zipWith_cons_cons, List.zipWith_nil_left]
    intro h
    have h := (List.cons.inj (Except.ok.inj h)).1
    rcases convPoint_zero (constantSignal c) x1 w0 with h' | h' <;> rw [h'] at h
    · simp at h
    · exact hv.ne (Option.some.inj h)

/-- Misaligned data, one value too few: the exception comes after `x` has been cut already. -/
theorem C58_short (x : List Num) (y : List Num) (e : Option (List Num)) (h : y.length ≠ x.length) (lo hi : ℝ) :
    (FitData.mk x y e).setRange lo hi = (⟨x.filter (inRange lo hi), y, e⟩, some .indexError) := by
  rw [FitData.setRange]
  dsimp only
  rw [boolMask_map _ _ _ rfl, zip_self_filter]
  dsimp only
  rw [boolMask, if_neg (by rw [List.length_map]; exact Ne.symm h)]

/-! ## C59: prefixes -/

/-- What can be done to a fit. -/
inductive FitOp where
  | signal (shape : Str)
  | background (shape : Str)
  | range (lo hi : ℝ)

/-- One operation, with the exception. -/
noncomputable def Fit1D.step (f : Fit1D) : FitOp → Fit1D × Option PyErr
  | .signal s => f.addSignal s
  | .background s => f.addBackground s
  | .range lo hi => f.setRange lo hi

/-- A history; exceptions do not end it. -/
noncomputable def Fit1D.run (f : Fit1D) (ops : List FitOp) : Fit1D := ops.foldl (fun f o => (f.step o).1) f

/-- The same for `ConvFit1D`. -/
noncomputable def ConvFit1D.step (f : ConvFit1D) : FitOp → ConvFit1D × Option PyErr
  | .signal s => f.addSignal s
  | .background s => f.addBackground s
  | .range lo hi => f.setRange lo hi

/-- The same for `ConvFit1D`. -/
noncomputable def ConvFit1D.run (f : ConvFit1D) (ops : List FitOp) : ConvFit1D := ops.foldl (fun f o => (f.step o).1) f

/-- The prefixes of the components that are models. -/
def Spec.prefixes (l : List FitComp) : List Str := l.filterMap fun c => match c with | .model p _ => some p | .text _ => none

/-- No parameter of one component has the name of a parameter of another: whatever `a` and `b`, the two prefixes lead to
different names. -/
def Spec.NamesApart (p q : Str) : Prop := ∀ a b : Str, p ++ a ≠ q ++ b

theorem digits_sep {m n : ℕ} {a b : Str} (h : decStr m ++ '_' :: a = decStr n ++ '_' :: b) : m = n := by
  have t : ∀ (k : ℕ) (c : Str), (decStr k ++ '_' :: c).takeWhile isDigit = decStr k := by
    intro k c
    rw [List.takeWhile_append_of_pos (by
      intro x hx
      exact List.all_eq_true.1 (decStr_spec k).2.1 x hx)]
    rw [List.takeWhile_cons_of_neg (by decide), List.append_nil]
  have := t m a
  rw [h, t n b] at this
  exact (decStr_injective this).symm

theorem signal_apart {m n : ℕ} (h : m ≠ n) : Spec.NamesApart (signalPrefix m) (signalPrefix n) := by
  intro a b e
  simp only [signalPrefix, List.cons_append, List.append_assoc, List.nil_append, List.cons.injEq, true_and] at e
  exact h (digits_sep e)

theorem background_apart {m n : ℕ} (h : m ≠ n) : Spec.NamesApart (backgroundPrefix m) (backgroundPrefix n) := by
  intro a b e
  simp only [backgroundPrefix, List.cons_append, List.append_assoc, List.nil_append, List.cons.injEq, true_and] at e
  exact h (digits_sep e)

theorem mixed_apart (m n : ℕ) : Spec.NamesApart (signalPrefix m) (backgroundPrefix n) := by
  intro a b e
  simp [signalPrefix, backgroundPrefix] at e

/-- The components carry the prefixes of strictly increasing numbers, none above the counter. -/
def numbered (pre : ℕ → Str) (k : ℕ) (l : List FitComp) : Prop :=
  ∃ ns : List ℕ, Spec.prefixes l = ns.map pre ∧ ns.Pairwise (· < ·) ∧ ∀ n ∈ ns, n ≤ k

theorem numbered_mono {pre : ℕ → Str} {k : ℕ} {l : List FitComp} (h : numbered pre k l) : numbered pre (k + 1) l := by
  obtain ⟨ns, h1, h2, h3⟩ := h
  exact ⟨ns, h1, h2, fun n hn => (h3 n hn).trans (Nat.le_succ k)⟩

theorem numbered_add {pre : ℕ → Str} {k : ℕ} {l : List FitComp} (h : numbered pre k l) (shape : Str) :
    numbered pre (k + 1) (l ++ [.model (pre (k + 1)) shape]) := by
  obtain ⟨ns, h1, h2, h3⟩ := h
  refine ⟨ns ++ [k + 1], ?_, List.pairwise_append.2 ⟨h2, by simp, fun a ha b hb => ?_⟩, fun n hn => ?_⟩
  · rw [Spec.prefixes, List.filterMap_append, List.map_append, ← h1]; rfl
  · rw [List.mem_singleton.1 hb]; exact Nat.lt_succ_of_le (h3 a ha)
  · rcases List.mem_append.1 hn with h | h
    · exact (h3 n h).trans (Nat.le_succ k)
    · exact (List.mem_singleton.1 h).le

theorem numbered_text {pre : ℕ → Str} {k : ℕ} {l : List FitComp} (h : numbered pre k l) (s : Str) :
    numbered pre (k + 1) (l ++ [.text s]) := by
  obtain ⟨ns, h1, h2, h3⟩ := h
  exact ⟨ns, by rw [Spec.prefixes, List.filterMap_append, ← List.append_nil (ns.map pre), ← h1]; rfl, h2,
    fun n hn => (h3 n hn).trans (Nat.le_succ k)⟩

theorem numbered_apart {pre pre' : ℕ → Str} {k k' : ℕ} {l l' : List FitComp} (h : numbered pre k l) (h' : numbered pre' k' l')
    (ha : ∀ m n, m ≠ n → Spec.NamesApart (pre m) (pre n)) (ha' : ∀ m n, m ≠ n → Spec.NamesApart (pre' m) (pre' n))
    (hx : ∀ m n, Spec.NamesApart (pre m) (pre' n)) :
    (Spec.prefixes (l ++ l')).Pairwise Spec.NamesApart := by
  obtain ⟨ns, h1, h2, -⟩ := h
  obtain ⟨ns', h1', h2', -⟩ := h'
  rw [Spec.prefixes, List.filterMap_append]
  change (Spec.prefixes l ++ Spec.prefixes l').Pairwise _
  rw [h1, h1']
  refine List.pairwise_append.2 ⟨List.pairwise_map.2 (h2.imp fun h => ha _ _ h.ne),
    List.pairwise_map.2 (h2'.imp fun h => ha' _ _ h.ne), fun a hm b hm' => ?_⟩
  obtain ⟨m, -, rfl⟩ := List.mem_map.1 hm
  obtain ⟨n, -, rfl⟩ := List.mem_map.1 hm'
  exact hx m n

theorem buildShape_ok {pre shape : Str} {c : FitComp} (h : buildShape pre shape = .ok c) : c = .model pre shape := by
  rw [buildShape] at h
  split at h
  · exact (Except.ok.inj h).symm
  · split at h <;> simp at h

theorem Fit1D.step_inv {f : Fit1D} (h : numbered signalPrefix f.numSignals f.signals ∧
    numbered backgroundPrefix f.numBackgrounds f.backgrounds) (o : FitOp) :
    numbered signalPrefix (f.step o).1.numSignals (f.step o).1.signals ∧
    numbered backgroundPrefix (f.step o).1.numBackgrounds (f.step o).1.backgrounds := by
  cases o with
  | signal s =>
    rw [Fit1D.step, Fit1D.addSignal]
    dsimp only
    cases hb : buildShape (signalPrefix (f.numSignals + 1)) s with
    | error e => exact ⟨numbered_mono h.1, h.2⟩
    | ok c => obtain rfl := buildShape_ok hb; exact ⟨numbered_add h.1 s, h.2⟩
  | background s =>
    rw [Fit1D.step, Fit1D.addBackground]
    dsimp only
    cases hb : buildShape (backgroundPrefix (f.numBackgrounds + 1)) s with
    | error e => exact ⟨h.1, numbered_mono h.2⟩
    | ok c => obtain rfl := buildShape_ok hb; exact ⟨h.1, numbered_add h.2 s⟩
  | range lo hi => exact h

theorem numbered_nil (pre : ℕ → Str) : numbered pre 0 [] := ⟨[], rfl, List.Pairwise.nil, by simp⟩

/-- **C59**: after any history, failures included, no parameter of one component can have the name of a parameter of another. -/
theorem C59_prefixes (d : FitData) (ops : List FitOp) :
    let f := (Fit1D.mk d [] [] 0 0).run ops
    (Spec.prefixes (f.signals ++ f.backgrounds)).Pairwise Spec.NamesApart ∧
    (Spec.prefixes (f.signals ++ f.backgrounds)).Nodup := by
  have key : ∀ f : Fit1D, numbered signalPrefix f.numSignals f.signals ∧
      numbered backgroundPrefix f.numBackgrounds f.backgrounds →
      numbered signalPrefix (f.run ops).numSignals (f.run ops).signals ∧
      numbered backgroundPrefix (f.run ops).numBackgrounds (f.run ops).backgrounds := by
    induction ops with
    | nil => exact fun f h => h
    | cons o ops ih => exact fun f h => ih _ (Fit1D.step_inv h o)
  have h := key (Fit1D.mk d [] [] 0 0) ⟨numbered_nil _, numbered_nil _⟩
  have h2 := numbered_apart h.1 h.2 (fun _ _ => signal_apart) (fun _ _ => background_apart) mixed_apart
  exact ⟨h2, h2.imp fun {a b} h e => h [] [] (by rw [e])⟩

/-- **C59**: one addition. A known shape is added last and nothing else changes; an unknown one raises and adds nothing. -/
theorem C59_added (f : Fit1D) (s : Str) :
    (s ∈ fitShapes → (f.addSignal s).2 = none ∧ (f.addSignal s).1.backgrounds = f.backgrounds ∧
      ∃ p, (f.addSignal s).1.signals = f.signals ++ [.model p s]) ∧
    (s ∉ fitShapes → (f.addSignal s).2 ≠ none ∧ (f.addSignal s).1.backgrounds = f.backgrounds ∧
      (f.addSignal s).1.signals = f.signals) ∧
    (s ∈ fitShapes → (f.addBackground s).2 = none ∧ (f.addBackground s).1.signals = f.signals ∧
      ∃ p, (f.addBackground s).1.backgrounds = f.backgrounds ++ [.model p s]) ∧
    (s ∉ fitShapes → (f.addBackground s).2 ≠ none ∧ (f.addBackground s).1.signals = f.signals ∧
      (f.addBackground s).1.backgrounds = f.backgrounds) := by
  have h1 : ∀ p, s ∈ fitShapes → buildShape p s = .ok (.model p s) := fun p h => by rw [buildShape, if_pos h]
  have h2 : ∀ p, s ∉ fitShapes → ∃ e, buildShape p s = .error e := fun p h => by
    rw [buildShape, if_neg h]; split <;> exact ⟨_, rfl⟩
  refine ⟨fun h => ?_, fun h => ?_, fun h => ?_, fun h => ?_⟩
  · rw [Fit1D.addSignal]; dsimp only; rw [h1 _ h]; exact ⟨rfl, rfl, _, rfl⟩
  · rw [Fit1D.addSignal]; dsimp only; obtain ⟨e, he⟩ := h2 (signalPrefix (f.numSignals + 1)) h; rw [he]; simp
  · rw [Fit1D.addBackground]; dsimp only; rw [h1 _ h]; exact ⟨rfl, rfl, _, rfl⟩
  · rw [Fit1D.addBackground]; dsimp only; obtain ⟨e, he⟩ := h2 (backgroundPrefix (f.numBackgrounds + 1)) h; rw [he]; simp

theorem ConvFit1D.step_inv {f : ConvFit1D} (h : numbered signalPrefix f.numSignals f.signals ∧
    numbered backgroundPrefix f.numBackgrounds f.backgrounds) (o : FitOp) :
    numbered signalPrefix (f.step o).1.numSignals (f.step o).1.signals ∧
    numbered backgroundPrefix (f.step o).1.numBackgrounds (f.step o).1.backgrounds := by
  cases o with
  | signal s =>
    rw [ConvFit1D.step, ConvFit1D.addSignal]
    dsimp only
    split
    · exact ⟨numbered_add h.1 _, h.2⟩
    · exact ⟨numbered_text h.1 _, h.2⟩
  | background s =>
    rw [ConvFit1D.step, ConvFit1D.addBackground]
    dsimp only
    split
    · exact ⟨h.1, numbered_add h.2 _⟩
    · exact ⟨h.1, numbered_text h.2 _⟩
  | range lo hi => exact h

/-- **C59** for convolution fits: the same for the components that are models. -/
theorem C59_conv_prefixes (d : FitData) (rez : List (ℝ × ℝ)) (ops : List FitOp) :
    let f := (ConvFit1D.mk d rez [] [] [] 0 0).run ops
    (Spec.prefixes (f.signals ++ f.backgrounds)).Pairwise Spec.NamesApart ∧
    (Spec.prefixes (f.signals ++ f.backgrounds)).Nodup := by
  have key : ∀ f : ConvFit1D, numbered signalPrefix f.numSignals f.signals ∧
      numbered backgroundPrefix f.numBackgrounds f.backgrounds →
      numbered signalPrefix (f.run ops).numSignals (f.run ops).signals ∧
      numbered backgroundPrefix (f.run ops).numBackgrounds (f.run ops).backgrounds := by
    induction ops with
    | nil => exact fun f h => h
    | cons o ops ih => exact fun f h => ih _ (ConvFit1D.step_inv h o)
  have h := key (ConvFit1D.mk d rez [] [] [] 0 0) ⟨numbered_nil _, numbered_nil _⟩
  have h2 := numbered_apart h.1 h.2 (fun _ _ => signal_apart) (fun _ _ => background_apart) mixed_apart
  exact ⟨h2, h2.imp fun {a b} h e => h [] [] (by rw [e])⟩

/-- Found on the way: a convolution fit keeps the text of an unknown name as if it were a component, for a background without
any exception. -/
theorem C59_conv_text (f : ConvFit1D) (s : Str) :
    (s ≠ "Constant".toList → (f.addBackground s).2 = none ∧
      (f.addBackground s).1.backgrounds = f.backgrounds ++ [.text s]) ∧
    (s ≠ "Gaussian".toList → (f.addSignal s).2 = some .unboundLocal ∧ (f.addSignal s).1.signals = f.signals ++ [.text s] ∧
      (f.addSignal s).1.signalsIntrinsic = f.signalsIntrinsic) := by
  refine ⟨fun h => ?_, fun h => ?_⟩
  · rw [ConvFit1D.addBackground]; dsimp only; rw [if_neg h]; exact ⟨rfl, rfl⟩
  · rw [ConvFit1D.addSignal]; dsimp only; rw [if_neg h]; exact ⟨rfl, rfl, rfl⟩

/-! ## C60: weights -/

/-- Sum of the squared deviations, each divided by its error. -/
noncomputable def Spec.chiSquare : List ℝ → List ℝ → List ℝ → ℝ
  | y :: ys, m :: ms, e :: es => ((y - m) / e) ^ 2 + Spec.chiSquare ys ms es
  | _, _, _ => 0

/-- Sum of the squared deviations. -/
noncomputable def Spec.sumSquares : List ℝ → List ℝ → ℝ
  | y :: ys, m :: ms => (y - m) ^ 2 + Spec.sumSquares ys ms
  | _, _ => 0

/-- `p` makes `F` as small as possible. -/
def Spec.Minimiser {P : Type} (F : P → ℝ) (p : P) : Prop := ∀ q, F p ≤ F q

theorem lmfitObjective_none (y m : List ℝ) : lmfitObjective none y m = Spec.sumSquares y m := by
  rw [lmfitObjective]
  induction y generalizing m with
  | nil => cases m <;> simp [Spec.sumSquares]
  | cons a y ih =>
    cases m with
    | nil => simp [Spec.sumSquares]
    | cons b m =>
      rw [List.zipWith_cons_cons, List.map_cons, List.sum_cons, ih, Spec.sumSquares]
      ring

theorem lmfitObjective_const (e : ℝ) (he : e ≠ 0) (y m : List ℝ) (es : List ℝ) (hes : ∀ x ∈ es, x = e)
    (hl : es.length = y.length) :
    lmfitObjective (some es) y m = e ^ 4 * Spec.chiSquare y m es := by
  rw [lmfitObjective]
  induction y generalizing m es with
  | nil => cases m <;> cases es <;> simp [Spec.chiSquare]
  | cons a y ih =>
    cases m with
    | nil => simp [Spec.chiSquare]
    | cons b m =>
      cases es with
      | nil => simp at hl
      | cons e' es =>
        obtain rfl := hes e' List.mem_cons_self
        have := ih m es (fun x hx => hes x (List.mem_cons_of_mem _ hx)) (by simpa using hl)
        rw [List.zipWith_cons_cons, List.zipWith_cons_cons, List.map_cons, List.sum_cons, this, Spec.chiSquare]
        field_simp
        ring

/-- **C60** (partial): with all errors equal (and not zero) the fit looks for the minimum of chi-square, whatever the model.
Missing: unequal errors, see `C60_inverted`. -/
theorem C60_equal_partial {P : Type} (model : P → List ℝ) (y es : List ℝ) (e : ℝ) (he : e ≠ 0) (hes : ∀ x ∈ es, x = e)
    (hl : es.length = y.length) (p : P) :
    Spec.Minimiser (fun p => fitObjective true (some es) y (model p)) p ↔
      Spec.Minimiser (fun p => Spec.chiSquare y (model p) es) p := by
  have h4 : 0 < e ^ 4 := by positivity
  simp only [fitObjective, if_true, Spec.Minimiser, lmfitObjective_const e he y _ es hes hl]
  exact forall_congr' fun q => mul_le_mul_iff_right₀ h4

/-- **C60**: without error bars the fit looks for the minimum of the sum of squares. -/
theorem C60_plain {P : Type} (model : P → List ℝ) (y : List ℝ) (err : Option (List ℝ)) (p : P) :
    (Spec.Minimiser (fun p => fitObjective false err y (model p)) p ↔
      Spec.Minimiser (fun p => Spec.sumSquares y (model p)) p) ∧
    (Spec.Minimiser (fun p => fitObjective true none y (model p)) p ↔
      Spec.Minimiser (fun p => Spec.sumSquares y (model p)) p) := by
  simp [fitObjective, lmfitObjective_none]

theorem minimiser_two {a b u v c : ℝ} (ha : 0 < a) (hb : 0 < b)
    (h : Spec.Minimiser (fun c => a * (u - c) ^ 2 + b * (v - c) ^ 2) c) : c = (a * u + b * v) / (a + b) := by
  have hab : 0 < a + b := by positivity
  have h0 := h ((a * u + b * v) / (a + b))
  dsimp only at h0
  have : (a + b) * (c - (a * u + b * v) / (a + b)) ^ 2 ≤ 0 := by
    have e : a * (u - c) ^ 2 + b * (v - c) ^ 2 - (a * (u - (a * u + b * v) / (a + b)) ^ 2 +
        b * (v - (a * u + b * v) / (a + b)) ^ 2) = (a + b) * (c - (a * u + b * v) / (a + b)) ^ 2 := by
      field_simp
      ring
    linarith
  have h1 : (c - (a * u + b * v) / (a + b)) ^ 2 ≤ 0 := by
    by_contra h2
    push Not at h2
    have := mul_pos hab h2
    linarith
  have h2 : c - (a * u + b * v) / (a + b) = 0 := by
    have := sq_nonneg (c - (a * u + b * v) / (a + b))
    exact pow_eq_zero_iff (two_ne_zero) |>.1 (le_antisymm h1 this)
  linarith

theorem minimiser_two_is {a b u v : ℝ} (ha : 0 < a) (hb : 0 < b) :
    Spec.Minimiser (fun c => a * (u - c) ^ 2 + b * (v - c) ^ 2) ((a * u + b * v) / (a + b)) := by
  intro q
  have hab : 0 < a + b := by positivity
  have e : a * (u - q) ^ 2 + b * (v - q) ^ 2 - (a * (u - (a * u + b * v) / (a + b)) ^ 2 +
      b * (v - (a * u + b * v) / (a + b)) ^ 2) = (a + b) * (q - (a * u + b * v) / (a + b)) ^ 2 := by
    field_simp
    ring
  have := mul_nonneg hab.le (sq_nonneg (q - (a * u + b * v) / (a + b)))
  dsimp only
  linarith

theorem two_closer {a b u v : ℝ} (ha : 0 < a) (hab : a < b) (huv : u ≠ v) :
    |(a * u + b * v) / (a + b) - v| < |(a * u + b * v) / (a + b) - u| := by
  have hs : 0 < a + b := by linarith
  have e1 : (a * u + b * v) / (a + b) - v = (u - v) * (a / (a + b)) := by field_simp; ring
  have e2 : (a * u + b * v) / (a + b) - u = (u - v) * (-(b / (a + b))) := by field_simp; ring
  rw [e1, e2, abs_mul, abs_mul, abs_neg, abs_of_pos (div_pos ha hs), abs_of_pos (div_pos (ha.trans hab) hs)]
  exact mul_lt_mul_of_pos_left (div_lt_div_of_pos_right hab hs) (abs_pos.2 (sub_ne_zero.2 huv))

/-- **C60**, the code disagrees: a constant fitted to two points. Chi-square has its minimum nearer to the point with the smaller
error; the fit goes to the point with the larger error. -/
theorem C60_inverted (y1 y2 e1 e2 : ℝ) (h1 : 0 < e1) (h12 : e1 < e2) (hy : y1 ≠ y2) :
    (∃ c, Spec.Minimiser (fun c => fitObjective true (some [e1, e2]) [y1, y2] [c, c]) c) ∧
    (∀ c, Spec.Minimiser (fun c => fitObjective true (some [e1, e2]) [y1, y2] [c, c]) c → |c - y2| < |c - y1|) ∧
    (∀ c, Spec.Minimiser (fun c => Spec.chiSquare [y1, y2] [c, c] [e1, e2]) c → |c - y1| < |c - y2|) := by
  have h2 : 0 < e2 := h1.trans h12
  have o1 : (fun c => fitObjective true (some [e1, e2]) [y1, y2] [c, c]) =
      fun c => e1 ^ 2 * (y1 - c) ^ 2 + e2 ^ 2 * (y2 - c) ^ 2 := by
    funext c
    simp only [fitObjective, if_true, lmfitObjective, List.zipWith_cons_cons, List.zipWith_nil_left, List.map_cons, List.map_nil,
      List.sum_cons, List.sum_nil]
    ring
  have o2 : (fun c => Spec.chiSquare [y1, y2] [c, c] [e1, e2]) =
      fun c => (1 / e2 ^ 2) * (y2 - c) ^ 2 + (1 / e1 ^ 2) * (y1 - c) ^ 2 := by
    funext c
    simp only [Spec.chiSquare]
    field_simp
    ring
  have hsq : e1 ^ 2 < e2 ^ 2 := pow_lt_pow_left₀ h12 h1.le two_ne_zero
  rw [o1, o2]
  refine ⟨⟨_, minimiser_two_is (by positivity) (by positivity)⟩, fun c hc => ?_, fun c hc => ?_⟩
  · rw [minimiser_two (by positivity) (by positivity) hc]
    exact two_closer (by positivity) hsq hy
  · rw [minimiser_two (by positivity) (by positivity) hc]
    exact two_closer (by positivity) (one_div_lt_one_div_of_lt (by positivity) hsq) hy.symm

/-! ## Concrete cases -/

namespace Demo

/-- Four points, one of them nan. -/
noncomputable def fitPoints : FitData := ⟨[some 0, none, some 1, some 2], [some 5, some 6, some 7, some 8], some [some 1, some 2, some 3, some 4]⟩

example : Spec.FitAligned fitPoints := ⟨rfl, fun e he => by obtain rfl := Option.some.inj he; rfl⟩

example : ((fitPoints.setRange 1 5).1.setRange 0 1).1.y = [some 7] := by
  have h : Spec.FitAligned fitPoints := ⟨rfl, fun e he => by obtain rfl := Option.some.inj he; rfl⟩
  rw [C58_twice fitPoints h (1, 5) (0, 1), setRange_ok h]
  norm_num [fitPoints, inRange]

/-- A history with a failure, two signals and two backgrounds. -/
noncomputable def fitHistory : List FitOp :=
  [.signal "Gaussian".toList, .signal "Gauss".toList, .background "Spline".toList, .signal "Voigt".toList,
   .background "Linear".toList]

example : ((Fit1D.mk fitPoints [] [] 0 0).run fitHistory).signals =
    [.model "s1_".toList "Gaussian".toList, .model "s3_".toList "Voigt".toList] := by
  decide +kernel

example : ((Fit1D.mk fitPoints [] [] 0 0).run fitHistory).backgrounds = [.model "b2_".toList "Linear".toList] := by
  decide +kernel

/-- Two points of which the first lies outside the range: `C58_misaligned` applies. -/
example : ∃ vals, (ConvFit1D.mk ⟨[some 0, some 1], [some 3, some 4], none⟩ [(0, 1), (1, 1)] [] [] [] 0 0).convolved
      (constantSignal 1) = .ok vals ∧
    ((ConvFit1D.mk ⟨[some 0, some 1], [some 3, some 4], none⟩ [(0, 1), (1, 1)] [] [] [] 0 0).setRange 1 1).1.convolved
      (constantSignal 1) ≠ .ok (Spec.keptValues (1, 1) [some 0, some 1] vals) :=
  C58_misaligned 1 0 1 1 1 1 _ rfl one_pos one_pos one_pos one_pos _ rfl rfl

example : ∀ c : ℝ, Spec.Minimiser (fun c => fitObjective true (some [1, 3]) [10, 20] [c, c]) c → |c - 20| < |c - 10| :=
  (C60_inverted 10 20 1 3 one_pos (by norm_num) (by norm_num)).2.1

end Demo

end Tavi
