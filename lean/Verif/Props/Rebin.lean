import Verif.Model.ScanData
import Verif.Lemmas.Numpy
import Mathlib.Algebra.Order.Floor.Ring
import Mathlib.Algebra.BigOperators.Group.List.Lemmas
import Mathlib.Algebra.Order.BigOperators.Group.List
import Mathlib.Data.List.GetD

/-! # C30–C36: rebinning -/

namespace Tavi

open Classical

/-! ## Specification -/

/-- A measured point: position, counts, monitor. -/
structure Spec.Pt where
  x : ℝ
  y : ℝ
  n : ℝ

/-- Left edge of bin `j`: half a step below the bin centre, moved down by a hundredth of a step. -/
noncomputable def Spec.edge (mn step : ℝ) (j : ℕ) : ℝ := mn + (j - 1 / 2) * step - step / 100

/-- The points that belong to bin `j`: left edge included, right edge excluded. -/
noncomputable def Spec.bin (mn step : ℝ) (pts : List Spec.Pt) (j : ℕ) : List Spec.Pt :=
  pts.filter fun p => decide (Spec.edge mn step j ≤ p.x ∧ p.x < Spec.edge mn step (j + 1))

/-- Total counts in bin `j`. -/
noncomputable def Spec.counts (mn step : ℝ) (pts : List Spec.Pt) (j : ℕ) : ℝ := ((Spec.bin mn step pts j).map (·.y)).sum

/-- Total monitor in bin `j`. -/
noncomputable def Spec.monitor (mn step : ℝ) (pts : List Spec.Pt) (j : ℕ) : ℝ := ((Spec.bin mn step pts j).map (·.n)).sum

/-- Monitor-weighted sum of the positions in bin `j`. -/
noncomputable def Spec.moment (mn step : ℝ) (pts : List Spec.Pt) (j : ℕ) : ℝ :=
  ((Spec.bin mn step pts j).map fun p => p.x * p.n).sum

/-- Number of points in bin `j`. -/
noncomputable def Spec.number (mn step : ℝ) (pts : List Spec.Pt) (j : ℕ) : ℝ := (Spec.bin mn step pts j).length

/-- A quotient which is undefined when the denominator vanishes. -/
noncomputable def Spec.ratio (a b : ℝ) : Option ℝ := if b = 0 then none else some (a / b)

/-- There are exactly as many bins as grid positions `mn, mn + step, …` not beyond the maximum (with a tolerance of a
hundredth of a step). -/
def Spec.BinCount (mn mx step : ℝ) (N : ℕ) : Prop := ∀ j : ℕ, j < N ↔ mn + j * step ≤ mx + step / 100

/-- The range that a request means for given data: explicit limits, or the smallest/largest position. -/
def Spec.Range (xs : List ℝ) (p : RebinParams) (mn mx step : ℝ) : Prop :=
  (p.min = some mn ∨ (p.min = none ∧ mn ∈ xs ∧ ∀ x ∈ xs, mn ≤ x)) ∧
  (p.max = some mx ∨ (p.max = none ∧ mx ∈ xs ∧ ∀ x ∈ xs, x ≤ mx)) ∧
  p.step = some step ∧ 0 < step ∧ mn ≤ mx

/-- A curve made of measured points. -/
noncomputable def Spec.curve (pts : List Spec.Pt) (norm : Option (List Num)) : ScanData1D :=
  { x := pts.map fun p => some p.x, y := pts.map fun p => some p.y,
    err := pts.map fun p => if p.y < 0 then none else some (Real.sqrt p.y), norm := norm }

/-- The monitor column of measured points. -/
noncomputable def Spec.monitors (pts : List Spec.Pt) : List Num := pts.map fun p => some p.n

theorem curve_init (pts : List Spec.Pt) (norm : Option (List Num)) :
    ScanData1D.init (pts.map fun p => some p.x) (pts.map fun p => some p.y) norm = Spec.curve pts norm := by
  unfold ScanData1D.init Spec.curve
  congr 1
  rw [List.map_map]; rfl

/-! ## Bin membership -/

theorem edge_mono {mn step : ℝ} (hs : 0 < step) {i j : ℕ} (h : i ≤ j) : Spec.edge mn step i ≤ Spec.edge mn step j := by
  unfold Spec.edge
  have : (i : ℝ) ≤ j := by exact_mod_cast h
  nlinarith

theorem edge_unique {mn step x : ℝ} (hs : 0 < step) {i j : ℕ} (h1 : Spec.edge mn step i ≤ x)
    (h2 : x < Spec.edge mn step (i + 1)) (h3 : Spec.edge mn step j ≤ x) (h4 : x < Spec.edge mn step (j + 1)) :
    i = j := by
  rcases lt_trichotomy i j with h | h | h
  · have := edge_mono (mn := mn) hs (Nat.succ_le_of_lt h); simp only [Nat.succ_eq_add_one] at this; linarith
  · exact h
  · have := edge_mono (mn := mn) hs (Nat.succ_le_of_lt h); simp only [Nat.succ_eq_add_one] at this; linarith

/-- The boundary list for `N` bins. -/
theorem boundary_ok {mn step : ℝ} (N : ℕ) :
    binBoundary mn step (N : ℤ) = .ok ((List.range (N + 1)).map fun i : ℕ => Spec.edge mn step i + step / 100) := by
  unfold binBoundary linspace
  rw [if_neg (by omega)]
  have e : ((N : ℤ) + 1).toNat = N + 1 := by omega
  rw [e]
  congr 1
  apply List.map_congr_left
  intro i hi
  unfold Spec.edge
  rcases Nat.eq_zero_or_pos N with h | h
  · subst h
    have : i = 0 := by simpa using hi
    subst this; simp; ring
  · have : (N : ℝ) ≠ 0 := by positivity
    push_cast
    rw [show (N : ℝ) + 1 - 1 = N by ring]
    field_simp
    ring

theorem linspace_grid {mn step : ℝ} (N : ℕ) :
    linspace mn (mn + step * (((N : ℤ) : ℝ) - 1)) (N : ℤ) =
      .ok ((List.range N).map fun i : ℕ => mn + (i : ℝ) * step) := by
  unfold linspace
  rw [if_neg (by omega)]
  have e : (N : ℤ).toNat = N := by omega
  rw [e]
  congr 1
  apply List.map_congr_left
  intro i hi
  have hi' : i < N := by simpa using hi
  rcases Nat.lt_or_ge 1 N with h | h
  · have : (N : ℝ) - 1 ≠ 0 := by
      have : (1 : ℝ) < N := by exact_mod_cast h
      linarith
    push_cast
    field_simp
    ring
  · have : i = 0 := by omega
    subst this; simp

/-- The bin index computed by the code: `j + 1` exactly for the points of bin `j`, `0` for points outside the window. -/
theorem argmax_ok {mn step x : ℝ} (hs : 0 < step) (N : ℕ) :
    ∃ k, argmaxGt ((List.range (N + 1)).map fun i : ℕ => Spec.edge mn step i + step / 100) (step / 100) (some x) = .ok k ∧
      k ≤ N ∧ ∀ j < N, (k = j + 1 ↔ (Spec.edge mn step j ≤ x ∧ x < Spec.edge mn step (j + 1))) := by
  set bd := (List.range (N + 1)).map fun i : ℕ => Spec.edge mn step i + step / 100 with hbd
  have hlen : bd.length = N + 1 := by simp [hbd]
  have hne : bd ≠ [] := by intro h; rw [h] at hlen; simp at hlen
  unfold argmaxGt
  rw [if_neg hne]
  dsimp only
  set i := bd.findIdx (fun b => decide (b - step / 100 > x)) with hi
  have get : ∀ m (hm : m < bd.length), bd[m] - step / 100 = Spec.edge mn step m := by
    intro m hm; simp [hbd]
  have before : ∀ m < i, m < bd.length → Spec.edge mn step m ≤ x := by
    intro m hm hm'
    have := List.not_of_lt_findIdx (p := fun b => decide (b - step / 100 > x)) hm
    rw [get m hm'] at this
    simpa using this
  by_cases hlt : i < bd.length
  · rw [if_pos hlt]
    have at_i : x < Spec.edge mn step i := by
      have := List.findIdx_getElem (xs := bd) (p := fun b => decide (b - step / 100 > x)) (w := hlt)
      simp only [decide_eq_true_eq, gt_iff_lt] at this
      rw [← get i hlt]; exact this
    refine ⟨i, rfl, by omega, fun j hj => ⟨?_, ?_⟩⟩
    · intro h
      exact ⟨before j (by omega) (by omega), h ▸ at_i⟩
    · rintro ⟨h1, h2⟩
      by_contra hne
      rcases Nat.lt_or_ge i (j + 1) with h | h
      · have := edge_mono (mn := mn) hs (show i ≤ j by omega); linarith
      · have := before (j + 1) (by omega) (by omega); linarith
  · rw [if_neg hlt]
    refine ⟨0, rfl, by omega, fun j hj => ⟨by omega, ?_⟩⟩
    rintro ⟨_, h2⟩
    have := before (j + 1) (by omega) (by omega); linarith

/-! ## Accumulation -/

/-- An array given by its entries. -/
noncomputable def arr (N : ℕ) (f : ℕ → ℝ) : List Num := (List.range N).map fun j => some (f j)

theorem zeros_arr (N : ℕ) : zeros N = arr N fun _ => 0 := by
  unfold zeros arr
  rw [List.map_const', List.length_range]

theorem bump_arr (N k : ℕ) (f : ℕ → ℝ) (v : ℝ) :
    bump (arr N f) k (some v) = arr N (fun j => if j = k then f j + v else f j) := by
  unfold bump arr
  apply List.ext_getElem
  · simp
  · intro m h1 h2
    simp only [List.length_map, List.length_range] at h2
    rw [List.getElem_modify]
    by_cases h : k = m
    · subst h; simp [nadd]
    · have : ¬ m = k := fun e => h e.symm
      simp [h, this]

/-- Sum over bin `j` of a quantity. -/
noncomputable def binSum (mn step : ℝ) (v : Spec.Pt → ℝ) (pts : List Spec.Pt) (j : ℕ) : ℝ :=
  ((Spec.bin mn step pts j).map v).sum

theorem binSum_cons (mn step : ℝ) (v : Spec.Pt → ℝ) (p : Spec.Pt) (pts : List Spec.Pt) (j : ℕ) :
    binSum mn step v (p :: pts) j =
      (if Spec.edge mn step j ≤ p.x ∧ p.x < Spec.edge mn step (j + 1) then v p else 0) + binSum mn step v pts j := by
  unfold binSum Spec.bin
  by_cases h : Spec.edge mn step j ≤ p.x ∧ p.x < Spec.edge mn step (j + 1)
  · rw [List.filter_cons_of_pos (by simpa using h), if_pos h, List.map_cons, List.sum_cons]
  · rw [List.filter_cons_of_neg (by simpa using h), if_neg h, zero_add]

theorem binSum_nil (mn step : ℝ) (v : Spec.Pt → ℝ) (j : ℕ) : binSum mn step v [] j = 0 := by
  simp [binSum, Spec.bin]

theorem arr_congr {N : ℕ} {f g : ℕ → ℝ} (h : ∀ j < N, f j = g j) : arr N f = arr N g := by
  unfold arr
  apply List.map_congr_left
  intro j hj
  rw [h j (by simpa using hj)]

/-- One step of an accumulator. -/
theorem arr_step {mn step : ℝ} {N k : ℕ} {p : Spec.Pt} {pts : List Spec.Pt} (v : Spec.Pt → ℝ) (f : ℕ → ℝ) (hk : 0 < k)
    (h : ∀ j < N, (k = j + 1 ↔ (Spec.edge mn step j ≤ p.x ∧ p.x < Spec.edge mn step (j + 1)))) :
    arr N (fun j => (if j = k - 1 then f j + v p else f j) + binSum mn step v pts j) =
      arr N (fun j => f j + binSum mn step v (p :: pts) j) := by
  apply arr_congr
  intro j hj
  rw [binSum_cons]
  by_cases e : k = j + 1
  · rw [if_pos (by omega), if_pos ((h j hj).1 e)]; ring
  · rw [if_neg (by omega), if_neg (fun c => e ((h j hj).2 c))]; ring

theorem arr_skip {mn step : ℝ} {N : ℕ} {p : Spec.Pt} {pts : List Spec.Pt} (v : Spec.Pt → ℝ) (f : ℕ → ℝ)
    (h : ∀ j < N, (0 = j + 1 ↔ (Spec.edge mn step j ≤ p.x ∧ p.x < Spec.edge mn step (j + 1)))) :
    arr N (fun j => f j + binSum mn step v pts j) = arr N (fun j => f j + binSum mn step v (p :: pts) j) := by
  apply arr_congr
  intro j hj
  rw [binSum_cons, if_neg (fun c => absurd ((h j hj).2 c) (by omega)), zero_add]

/-- The boundaries used by the loops. -/
noncomputable def bds (mn step : ℝ) (N : ℕ) : List ℝ :=
  (List.range (N + 1)).map fun i : ℕ => Spec.edge mn step i + step / 100

theorem gridLoop_ok {mn step : ℝ} (hs : 0 < step) (N : ℕ) (pts : List Spec.Pt) (f g : ℕ → ℝ) :
    gridLoop (bds mn step N) (step / 100) (pts.map fun p => some p.x) (pts.map fun p => some p.y) (arr N f, arr N g) =
      .ok (arr N (fun j => f j + binSum mn step (·.y) pts j), arr N (fun j => g j + binSum mn step (fun _ => 1) pts j)) := by
  induction pts generalizing f g with
  | nil => simp only [binSum_nil, add_zero]; rfl
  | cons p pts ih =>
    obtain ⟨k, hk, _, hj⟩ := argmax_ok (mn := mn) (x := p.x) hs N
    simp only [List.map_cons]
    unfold gridLoop
    unfold bds
    rw [hk, py_bind_ok]
    by_cases h0 : 0 < k
    · rw [if_pos h0]
      simp only [List.head?_cons, need_some, py_bind_ok, List.tail_cons]
      rw [bump_arr, bump_arr]
      have := ih (fun j => if j = k - 1 then f j + p.y else f j) (fun j => if j = k - 1 then g j + 1 else g j)
      unfold bds at this
      rw [this, arr_step (fun p => p.y) f h0 hj, arr_step (fun _ => 1) g h0 hj]
    · rw [if_neg h0]
      obtain rfl : k = 0 := by omega
      have := ih f g
      unfold bds at this
      rw [List.tail_cons, this, arr_skip (fun p => p.y) f hj, arr_skip (fun _ => 1) g hj]

theorem gridRenormLoop_ok {mn step : ℝ} (hs : 0 < step) (N : ℕ) (pts : List Spec.Pt) (f g : ℕ → ℝ) :
    gridRenormLoop (bds mn step N) (step / 100) (pts.map fun p => some p.x) (pts.map fun p => some p.y)
        (pts.map fun p => some p.n) (arr N f, arr N g) =
      .ok (arr N (fun j => f j + binSum mn step (·.y) pts j), arr N (fun j => g j + binSum mn step (·.n) pts j)) := by
  induction pts generalizing f g with
  | nil => simp only [binSum_nil, add_zero]; rfl
  | cons p pts ih =>
    obtain ⟨k, hk, _, hj⟩ := argmax_ok (mn := mn) (x := p.x) hs N
    simp only [List.map_cons]
    unfold gridRenormLoop
    unfold bds
    rw [hk, py_bind_ok]
    by_cases h0 : 0 < k
    · rw [if_pos h0]
      simp only [List.head?_cons, need_some, py_bind_ok, List.tail_cons]
      rw [bump_arr, bump_arr]
      have := ih (fun j => if j = k - 1 then f j + p.y else f j) (fun j => if j = k - 1 then g j + p.n else g j)
      unfold bds at this
      rw [this, arr_step (fun p => p.y) f h0 hj, arr_step (fun p => p.n) g h0 hj]
    · rw [if_neg h0]
      obtain rfl : k = 0 := by omega
      have := ih f g
      unfold bds at this
      rw [List.tail_cons, List.tail_cons, this, arr_skip (fun p => p.y) f hj, arr_skip (fun p => p.n) g hj]

theorem tolRenormLoop_ok {mn step : ℝ} (hs : 0 < step) (N : ℕ) (pts : List Spec.Pt) (e f g : ℕ → ℝ) :
    tolRenormLoop (bds mn step N) (step / 100) (pts.map fun p => some p.x) (pts.map fun p => some p.y)
        (pts.map fun p => some p.n) (arr N e, arr N f, arr N g) =
      .ok (arr N (fun j => e j + binSum mn step (fun p => p.x * p.n) pts j),
        arr N (fun j => f j + binSum mn step (·.y) pts j), arr N (fun j => g j + binSum mn step (·.n) pts j)) := by
  induction pts generalizing e f g with
  | nil => simp only [binSum_nil, add_zero]; rfl
  | cons p pts ih =>
    obtain ⟨k, hk, _, hj⟩ := argmax_ok (mn := mn) (x := p.x) hs N
    simp only [List.map_cons]
    unfold tolRenormLoop
    unfold bds
    rw [hk, py_bind_ok]
    by_cases h0 : 0 < k
    · rw [if_pos h0]
      simp only [List.head?_cons, need_some, py_bind_ok, List.tail_cons, nmul]
      rw [bump_arr, bump_arr, bump_arr]
      have := ih (fun j => if j = k - 1 then e j + p.x * p.n else e j)
        (fun j => if j = k - 1 then f j + p.y else f j) (fun j => if j = k - 1 then g j + p.n else g j)
      unfold bds at this
      rw [this, arr_step (fun p => p.x * p.n) e h0 hj, arr_step (fun p => p.y) f h0 hj, arr_step (fun p => p.n) g h0 hj]
    · rw [if_neg h0]
      obtain rfl : k = 0 := by omega
      have := ih e f g
      unfold bds at this
      rw [List.tail_cons, List.tail_cons, this, arr_skip (fun p => p.x * p.n) e hj, arr_skip (fun p => p.y) f hj,
        arr_skip (fun p => p.n) g hj]

theorem tolLoop_ok {mn step : ℝ} (hs : 0 < step) (N : ℕ) (pts : List Spec.Pt) (e f g c : ℕ → ℝ) :
    tolLoop (bds mn step N) (step / 100) (pts.map fun p => some p.x) (pts.map fun p => some p.y)
        (pts.map fun p => some p.n) (arr N e, arr N f, arr N g, arr N c) =
      .ok (arr N (fun j => e j + binSum mn step (fun p => p.x * p.n) pts j),
        arr N (fun j => f j + binSum mn step (·.y) pts j), arr N (fun j => g j + binSum mn step (·.n) pts j),
        arr N (fun j => c j + binSum mn step (fun _ => 1) pts j)) := by
  induction pts generalizing e f g c with
  | nil => simp only [binSum_nil, add_zero]; rfl
  | cons p pts ih =>
    obtain ⟨k, hk, _, hj⟩ := argmax_ok (mn := mn) (x := p.x) hs N
    simp only [List.map_cons]
    unfold tolLoop
    unfold bds
    rw [hk, py_bind_ok]
    by_cases h0 : 0 < k
    · rw [if_pos h0]
      simp only [List.head?_cons, need_some, py_bind_ok, List.tail_cons, nmul]
      rw [bump_arr, bump_arr, bump_arr, bump_arr]
      have := ih (fun j => if j = k - 1 then e j + p.x * p.n else e j)
        (fun j => if j = k - 1 then f j + p.y else f j) (fun j => if j = k - 1 then g j + p.n else g j)
        (fun j => if j = k - 1 then c j + 1 else c j)
      unfold bds at this
      rw [this, arr_step (fun p => p.x * p.n) e h0 hj, arr_step (fun p => p.y) f h0 hj, arr_step (fun p => p.n) g h0 hj,
        arr_step (fun _ => 1) c h0 hj]
    · rw [if_neg h0]
      obtain rfl : k = 0 := by omega
      have := ih e f g c
      unfold bds at this
      rw [List.tail_cons, List.tail_cons, this, arr_skip (fun p => p.x * p.n) e hj, arr_skip (fun p => p.y) f hj,
        arr_skip (fun p => p.n) g hj, arr_skip (fun _ => 1) c hj]

/-! ## Range -/

theorem fold_min (xs : List ℝ) (a : ℝ) :
    (xs.map some).foldl (nlift min) (some a) =
      some (xs.foldl min a) := by
  induction xs generalizing a with
  | nil => rfl
  | cons x xs ih => simp only [List.map_cons, List.foldl_cons]; exact ih _

theorem fold_max (xs : List ℝ) (a : ℝ) :
    (xs.map some).foldl (nlift max) (some a) =
      some (xs.foldl max a) := by
  induction xs generalizing a with
  | nil => rfl
  | cons x xs ih => simp only [List.map_cons, List.foldl_cons]; exact ih _

theorem foldl_min_spec (xs : List ℝ) (a : ℝ) :
    xs.foldl min a ∈ a :: xs ∧ ∀ x ∈ a :: xs, xs.foldl min a ≤ x := by
  induction xs generalizing a with
  | nil => simp
  | cons y xs ih =>
    obtain ⟨h1, h2⟩ := ih (min a y)
    simp only [List.foldl_cons]
    refine ⟨?_, ?_⟩
    · rcases List.mem_cons.1 h1 with h | h
      · rw [h]; rcases min_choice a y with e | e <;> rw [e] <;> simp
      · simp [h]
    · intro x hx
      have h0 := h2 _ List.mem_cons_self
      rcases List.mem_cons.1 hx with rfl | hx
      · exact h0.trans (min_le_left _ _)
      · rcases List.mem_cons.1 hx with rfl | hx
        · exact h0.trans (min_le_right _ _)
        · exact h2 _ (List.mem_cons_of_mem _ hx)

theorem foldl_max_spec (xs : List ℝ) (a : ℝ) :
    xs.foldl max a ∈ a :: xs ∧ ∀ x ∈ a :: xs, x ≤ xs.foldl max a := by
  induction xs generalizing a with
  | nil => simp
  | cons y xs ih =>
    obtain ⟨h1, h2⟩ := ih (max a y)
    simp only [List.foldl_cons]
    refine ⟨?_, ?_⟩
    · rcases List.mem_cons.1 h1 with h | h
      · rw [h]; rcases max_choice a y with e | e <;> rw [e] <;> simp
      · simp [h]
    · intro x hx
      have h0 := h2 _ List.mem_cons_self
      rcases List.mem_cons.1 hx with rfl | hx
      · exact (le_max_left _ _).trans h0
      · rcases List.mem_cons.1 hx with rfl | hx
        · exact (le_max_right _ _).trans h0
        · exact h2 _ (List.mem_cons_of_mem _ hx)

theorem npMin_ok {xs : List ℝ} {m : ℝ} (h1 : m ∈ xs) (h2 : ∀ x ∈ xs, m ≤ x) : npMin (xs.map some) = .ok (some m) := by
  cases xs with
  | nil => simp at h1
  | cons a xs =>
    unfold npMin npFold
    simp only [List.map_cons]
    rw [fold_min]
    obtain ⟨i1, i2⟩ := foldl_min_spec xs a
    congr 2
    exact le_antisymm (i2 _ h1) (h2 _ i1)

theorem npMax_ok {xs : List ℝ} {m : ℝ} (h1 : m ∈ xs) (h2 : ∀ x ∈ xs, x ≤ m) : npMax (xs.map some) = .ok (some m) := by
  cases xs with
  | nil => simp at h1
  | cons a xs =>
    unfold npMax npFold
    simp only [List.map_cons]
    rw [fold_max]
    obtain ⟨i1, i2⟩ := foldl_max_spec xs a
    congr 2
    exact le_antisymm (h2 _ i1) (i2 _ h1)

theorem binCount_floor {mn mx step : ℝ} (hs : 0 < step) (hm : mn ≤ mx) {N : ℕ} (hN : Spec.BinCount mn mx step N) :
    ⌊(mx + step / 100 - mn) / step⌋ + 1 = (N : ℤ) := by
  have hpos : 0 < N := (hN 0).2 (by simp; linarith)
  suffices ⌊(mx + step / 100 - mn) / step⌋ = (N : ℤ) - 1 by omega
  rw [Int.floor_eq_iff]
  have h1 := (hN (N - 1)).1 (by omega)
  have h2 : ¬ _ := fun h => lt_irrefl _ ((hN N).2 h)
  have e : ((N - 1 : ℕ) : ℝ) = N - 1 := by push_cast [Nat.cast_sub hpos]; ring
  rw [e] at h1
  push_cast
  refine ⟨?_, ?_⟩
  · rw [le_div_iff₀ hs]; linarith
  · rw [div_lt_iff₀ hs]
    by_contra hc
    exact h2 (by push Not at hc; linarith)

/-- Every range has a bin count, and it is unique. -/
theorem binCount_exists {mn mx step : ℝ} (hs : 0 < step) : ∃! N, Spec.BinCount mn mx step N := by
  have key : ∀ j : ℕ, mn + j * step ≤ mx + step / 100 ↔ (j : ℝ) ≤ (mx + step / 100 - mn) / step := by
    intro j; rw [le_div_iff₀ hs]; constructor <;> intro h <;> linarith
  by_cases h0 : 0 ≤ (mx + step / 100 - mn) / step
  · refine ⟨⌊(mx + step / 100 - mn) / step⌋₊ + 1, fun j => ?_, fun N hN => ?_⟩
    · rw [key, ← Nat.le_floor_iff h0]; omega
    · have h1 := hN (⌊(mx + step / 100 - mn) / step⌋₊)
      have h2 := hN (⌊(mx + step / 100 - mn) / step⌋₊ + 1)
      rw [key, ← Nat.le_floor_iff h0] at h1 h2
      have := h1.2 le_rfl
      have := fun h => h2.1 h
      omega
  · refine ⟨0, fun j => ?_, fun N hN => ?_⟩
    · rw [key]
      constructor
      · omega
      · intro h; exfalso; have : (0 : ℝ) ≤ j := by positivity
        linarith
    · by_contra hne
      have := (hN 0).1 (by omega)
      rw [key] at this
      simp at this; exact h0 this

theorem binRange_ok {xs : List ℝ} {p : RebinParams} {mn mx step : ℝ} {N : ℕ} (hr : Spec.Range xs p mn mx step)
    (hN : Spec.BinCount mn mx step N) :
    binRange (xs.map some) p = .ok (mn, step, step / 100, (N : ℤ)) := by
  obtain ⟨h1, h2, h3, hs, hle⟩ := hr
  have e1 : pickLimit p.min (npMin (xs.map some)) = .ok (some mn) := by
    rcases h1 with h | ⟨h, hm, hl⟩
    · rw [h]; rfl
    · rw [h]; exact npMin_ok hm hl
  have e2 : pickLimit p.max (npMax (xs.map some)) = .ok (some mx) := by
    rcases h2 with h | ⟨h, hm, hl⟩
    · rw [h]; rfl
    · rw [h]; exact npMax_ok hm hl
  unfold binRange
  rw [e1, py_bind_ok, e2, py_bind_ok, h3, need_some, py_bind_ok]
  dsimp only
  rw [need_some, py_bind_ok, need_some, py_bind_ok, if_neg hs.ne', binCount_floor hs hle hN]
  rfl

theorem zip_arr (N : ℕ) (f g : ℕ → ℝ) :
    List.zipWith ndiv (arr N f) (arr N g) = (List.range N).map fun j => Spec.ratio (f j) (g j) := by
  unfold arr
  rw [List.zipWith_map, List.zipWith_self]
  rfl

theorem zip_sqrt_arr (N : ℕ) (f g : ℕ → ℝ) (hf : ∀ j, 0 ≤ f j) :
    List.zipWith ndiv ((arr N f).map nsqrt) (arr N g) =
      (List.range N).map fun j => Spec.ratio (Real.sqrt (f j)) (g j) := by
  have : (arr N f).map nsqrt = arr N fun j => Real.sqrt (f j) := by
    unfold arr
    rw [List.map_map]
    apply List.map_congr_left
    intro j _
    simp only [Function.comp, nsqrt]
    rw [if_neg (not_lt.2 (hf j))]
  rw [this, zip_arr]

theorem counts_eq (mn step : ℝ) (pts : List Spec.Pt) (j : ℕ) :
    0 + binSum mn step (fun p => p.y) pts j = Spec.counts mn step pts j := by rw [zero_add]; rfl
theorem monitor_eq (mn step : ℝ) (pts : List Spec.Pt) (j : ℕ) :
    0 + binSum mn step (fun p => p.n) pts j = Spec.monitor mn step pts j := by rw [zero_add]; rfl
theorem moment_eq (mn step : ℝ) (pts : List Spec.Pt) (j : ℕ) :
    0 + binSum mn step (fun p => p.x * p.n) pts j = Spec.moment mn step pts j := by rw [zero_add]; rfl
theorem number_eq (mn step : ℝ) (pts : List Spec.Pt) (j : ℕ) :
    0 + binSum mn step (fun _ => 1) pts j = Spec.number mn step pts j := by
  rw [zero_add]; unfold binSum Spec.number; simp

theorem counts_nonneg {mn step : ℝ} {pts : List Spec.Pt} (h : ∀ p ∈ pts, 0 ≤ p.y) (j : ℕ) :
    0 ≤ Spec.counts mn step pts j := by
  unfold Spec.counts
  apply List.sum_nonneg
  intro a ha
  obtain ⟨p, hp, rfl⟩ := List.mem_map.1 ha
  exact h p (List.mem_filter.1 hp).1

/-! ## C30: the four rebinnings, completely described -/

theorem curve_x (pts : List Spec.Pt) (norm : Option (List Num)) :
    (Spec.curve pts norm).x = (pts.map (·.x)).map some := by
  unfold Spec.curve; simp

theorem curve_x' (pts : List Spec.Pt) : (pts.map (·.x)).map some = pts.map fun p => some p.x := by
  simp

/-- **C30** Grid rebinning without normalisation: `N` bins, reported at `mn + j step`; bin `j` holds exactly its points; the
intensity is the mean of their counts, the error bar √(total counts)/number; both undefined if there are none. -/
theorem C30_grid {pts : List Spec.Pt} {norm : Option (List Num)} {p : RebinParams} {mn mx step : ℝ} {N : ℕ}
    (hr : Spec.Range (pts.map (·.x)) p mn mx step) (hN : Spec.BinCount mn mx step N) (hy : ∀ q ∈ pts, 0 ≤ q.y) :
    (Spec.curve pts norm).rebinGrid p = .ok {
      x := (List.range N).map fun j : ℕ => some (mn + j * step)
      y := (List.range N).map fun j => Spec.ratio (Spec.counts mn step pts j) (Spec.number mn step pts j)
      err := (List.range N).map fun j => Spec.ratio √(Spec.counts mn step pts j) (Spec.number mn step pts j)
      norm := norm } := by
  have hs := hr.2.2.2.1
  unfold ScanData1D.rebinGrid
  rw [curve_x, binRange_ok hr hN, py_bind_ok]
  dsimp only
  rw [boundary_ok, py_bind_ok, linspace_grid, py_bind_ok]
  simp only [List.length_map, List.length_range]
  have := gridLoop_ok (mn := mn) hs N pts (fun _ => 0) (fun _ => 0)
  unfold bds at this
  have e2 : (Spec.curve pts norm).y = pts.map fun p => some p.y := rfl
  rw [zeros_arr, curve_x', e2, this, py_bind_ok]
  simp only [counts_eq, number_eq]
  rw [zip_arr, zip_sqrt_arr _ _ _ (counts_nonneg hy)]
  simp [Spec.curve]

/-- Normalisation column meant by a request: the given one, or the curve's own. -/
def Spec.Column (given own : Option (List Num)) (c : List Num) : Prop :=
  given = some c ∨ (given = none ∧ own = some c)

theorem normCol_ok {a b : Option (List Num)} {c : List Num} (h : Spec.Column a b c) : normCol a b = .ok c := by
  rcases h with rfl | ⟨rfl, rfl⟩ <;> rfl

theorem map_ratio (N : ℕ) (f g : ℕ → ℝ) (v : ℝ) :
    ((List.range N).map fun j => Spec.ratio (f j) (g j)).map (nmul · (some v)) =
      (List.range N).map fun j => Spec.ratio (f j * v) (g j) := by
  rw [List.map_map]
  apply List.map_congr_left
  intro j _
  simp only [Function.comp, Spec.ratio]
  split
  · rfl
  · simp only [nmul]; congr 1; ring

/-- **C30** Grid rebinning with normalisation. -/
theorem C30_grid_renorm {pts : List Spec.Pt} {norm col : Option (List Num)} {p : RebinParams} {mn mx step v : ℝ} {N : ℕ}
    (hr : Spec.Range (pts.map (·.x)) p mn mx step) (hN : Spec.BinCount mn mx step N) (hy : ∀ q ∈ pts, 0 ≤ q.y)
    (hc : Spec.Column col norm (Spec.monitors pts)) :
    (Spec.curve pts norm).rebinGridRenorm p col v = .ok {
      x := (List.range N).map fun j : ℕ => some (mn + j * step)
      y := (List.range N).map fun j => Spec.ratio (Spec.counts mn step pts j * v) (Spec.monitor mn step pts j)
      err := (List.range N).map fun j => Spec.ratio (√(Spec.counts mn step pts j) * v) (Spec.monitor mn step pts j)
      norm := norm } := by
  have hs := hr.2.2.2.1
  unfold ScanData1D.rebinGridRenorm
  have hc' : normCol col (Spec.curve pts norm).norm = .ok (Spec.monitors pts) := normCol_ok hc
  rw [hc', py_bind_ok, curve_x, binRange_ok hr hN, py_bind_ok]
  dsimp only
  rw [boundary_ok, py_bind_ok, linspace_grid, py_bind_ok]
  simp only [List.length_map, List.length_range]
  have := gridRenormLoop_ok (mn := mn) hs N pts (fun _ => 0) (fun _ => 0)
  unfold bds at this
  have e2 : (Spec.curve pts norm).y = pts.map fun p => some p.y := rfl
  have e3 : Spec.monitors pts = pts.map fun p => some p.n := rfl
  rw [zeros_arr, curve_x', e2, e3, this, py_bind_ok]
  simp only [counts_eq, monitor_eq]
  rw [zip_arr, zip_sqrt_arr _ _ _ (counts_nonneg hy), map_ratio, map_ratio]
  simp [Spec.curve]

theorem bds_tail (mn step : ℝ) (N : ℕ) :
    ((List.range (N + 1)).map fun i : ℕ => Spec.edge mn step i + step / 100).tail.length = N := by simp

/-- **C30** Tolerance binning without normalisation: the reported position is the weighted mean of the positions. -/
theorem C30_tol {pts : List Spec.Pt} {norm col : Option (List Num)} {p : RebinParams} {mn mx step : ℝ} {N : ℕ}
    (hr : Spec.Range (pts.map (·.x)) p mn mx step) (hN : Spec.BinCount mn mx step N) (hy : ∀ q ∈ pts, 0 ≤ q.y)
    (hc : Spec.Column col norm (Spec.monitors pts)) :
    (Spec.curve pts norm).rebinTol p col = .ok {
      x := (List.range N).map fun j => Spec.ratio (Spec.moment mn step pts j) (Spec.monitor mn step pts j)
      y := (List.range N).map fun j => Spec.ratio (Spec.counts mn step pts j) (Spec.number mn step pts j)
      err := (List.range N).map fun j => Spec.ratio √(Spec.counts mn step pts j) (Spec.number mn step pts j)
      norm := norm } := by
  have hs := hr.2.2.2.1
  unfold ScanData1D.rebinTol
  have hc' : normCol col (Spec.curve pts norm).norm = .ok (Spec.monitors pts) := normCol_ok hc
  rw [hc', py_bind_ok, curve_x, binRange_ok hr hN, py_bind_ok]
  dsimp only
  rw [boundary_ok, py_bind_ok, bds_tail]
  have := tolLoop_ok (mn := mn) hs N pts (fun _ => 0) (fun _ => 0) (fun _ => 0) (fun _ => 0)
  unfold bds at this
  have e2 : (Spec.curve pts norm).y = pts.map fun p => some p.y := rfl
  have e3 : Spec.monitors pts = pts.map fun p => some p.n := rfl
  rw [zeros_arr, curve_x', e2, e3, this, py_bind_ok]
  simp only [counts_eq, monitor_eq, moment_eq, number_eq]
  rw [zip_arr, zip_arr, zip_sqrt_arr _ _ _ (counts_nonneg hy)]
  rfl

/-- **C30** Tolerance binning with normalisation. -/
theorem C30_tol_renorm {pts : List Spec.Pt} {norm col : Option (List Num)} {p : RebinParams} {mn mx step v : ℝ} {N : ℕ}
    (hr : Spec.Range (pts.map (·.x)) p mn mx step) (hN : Spec.BinCount mn mx step N) (hy : ∀ q ∈ pts, 0 ≤ q.y)
    (hc : Spec.Column col norm (Spec.monitors pts)) :
    (Spec.curve pts norm).rebinTolRenorm p col v = .ok {
      x := (List.range N).map fun j => Spec.ratio (Spec.moment mn step pts j) (Spec.monitor mn step pts j)
      y := (List.range N).map fun j => Spec.ratio (Spec.counts mn step pts j * v) (Spec.monitor mn step pts j)
      err := (List.range N).map fun j => Spec.ratio (√(Spec.counts mn step pts j) * v) (Spec.monitor mn step pts j)
      norm := norm } := by
  have hs := hr.2.2.2.1
  unfold ScanData1D.rebinTolRenorm
  have hc' : normCol col (Spec.curve pts norm).norm = .ok (Spec.monitors pts) := normCol_ok hc
  rw [hc', py_bind_ok, curve_x, binRange_ok hr hN, py_bind_ok]
  dsimp only
  rw [boundary_ok, py_bind_ok, bds_tail]
  have := tolRenormLoop_ok (mn := mn) hs N pts (fun _ => 0) (fun _ => 0) (fun _ => 0)
  unfold bds at this
  have e2 : (Spec.curve pts norm).y = pts.map fun p => some p.y := rfl
  have e3 : Spec.monitors pts = pts.map fun p => some p.n := rfl
  rw [zeros_arr, curve_x', e2, e3, this, py_bind_ok]
  simp only [counts_eq, monitor_eq, moment_eq]
  rw [zip_arr, zip_arr, zip_sqrt_arr _ _ _ (counts_nonneg hy), map_ratio, map_ratio]
  rfl

/-- **C30** Without any normalisation column the binnings that need one are refused. -/
theorem C30_no_column (d : ScanData1D) (p : RebinParams) (v : ℝ) (h : d.norm = none) :
    d.rebinTol p none = .error .valueError ∧ d.rebinTolRenorm p none v = .error .valueError ∧
      d.rebinGridRenorm p none v = .error .valueError ∧ d.renorm none v = .error .valueError := by
  unfold ScanData1D.rebinTol ScanData1D.rebinTolRenorm ScanData1D.rebinGridRenorm ScanData1D.renorm
  rw [h]
  exact ⟨rfl, rfl, rfl, rfl⟩

/-- **C30** The bins are disjoint and cover one contiguous window: a position is in exactly one of the first `N` bins when
it lies in `[edge 0, edge N)`, and in none of them otherwise. -/
theorem C30_partition {mn step x : ℝ} (hs : 0 < step) (N : ℕ) :
    ((Spec.edge mn step 0 ≤ x ∧ x < Spec.edge mn step N) →
      ∃! j, j < N ∧ Spec.edge mn step j ≤ x ∧ x < Spec.edge mn step (j + 1)) ∧
    (¬ (Spec.edge mn step 0 ≤ x ∧ x < Spec.edge mn step N) →
      ∀ j < N, ¬ (Spec.edge mn step j ≤ x ∧ x < Spec.edge mn step (j + 1))) := by
  constructor
  · rintro ⟨h1, h2⟩
    have : ∃ j, j < N ∧ Spec.edge mn step j ≤ x ∧ x < Spec.edge mn step (j + 1) := by
      induction N with
      | zero => linarith
      | succ n ih =>
        by_cases h : x < Spec.edge mn step n
        · obtain ⟨j, a, b, c⟩ := ih h
          exact ⟨j, by omega, b, c⟩
        · exact ⟨n, by omega, not_lt.1 h, h2⟩
    obtain ⟨j, a, b, c⟩ := this
    exact ⟨j, ⟨a, b, c⟩, fun i ⟨_, hb, hc⟩ => edge_unique hs hb hc b c⟩
  · rintro h j hj ⟨a, b⟩
    apply h
    have h0 := edge_mono (mn := mn) hs (Nat.zero_le j)
    have h1 := edge_mono (mn := mn) hs (show j + 1 ≤ N by omega)
    exact ⟨h0.trans a, b.trans_le h1⟩

end Tavi
