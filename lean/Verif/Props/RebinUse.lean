import Verif.Props.Rebin
import Mathlib.Data.List.Perm.Basic
import Mathlib.Algebra.Order.BigOperators.Ring.List

/-! # C31–C35: consequences of the rebinning description that a user relies on -/

namespace Tavi

open Classical

/-! ## C31 conservation -/

/-- The points inside the window covered by `N` bins. -/
noncomputable def Spec.window (mn step : ℝ) (N : ℕ) (pts : List Spec.Pt) : List Spec.Pt :=
  pts.filter fun p => decide (Spec.edge mn step 0 ≤ p.x ∧ p.x < Spec.edge mn step N)

theorem sum_one_bin {mn step x : ℝ} (hs : 0 < step) (v : ℝ) (N : ℕ) :
    ((List.range N).map fun j =>
        if Spec.edge mn step j ≤ x ∧ x < Spec.edge mn step (j + 1) then v else 0).sum =
      if Spec.edge mn step 0 ≤ x ∧ x < Spec.edge mn step N then v else 0 := by
  induction N with
  | zero => rw [if_neg (by rintro ⟨a, b⟩; linarith)]; simp
  | succ n ih =>
    rw [List.range_succ, List.map_append, List.sum_append, ih]
    have h0 := edge_mono (mn := mn) hs (Nat.zero_le n)
    have h1 := edge_mono (mn := mn) hs (Nat.le_succ n)
    simp only [Nat.succ_eq_add_one] at h1
    simp only [List.map_cons, List.map_nil, List.sum_cons, List.sum_nil, add_zero]
    by_cases a : Spec.edge mn step 0 ≤ x
    · by_cases b : x < Spec.edge mn step n
      · rw [if_pos ⟨a, b⟩, if_neg (by rintro ⟨c, _⟩; linarith), if_pos ⟨a, b.trans_le h1⟩, add_zero]
      · rw [if_neg (fun c => b c.2), zero_add]
        push Not at b
        by_cases c : x < Spec.edge mn step (n + 1)
        · rw [if_pos ⟨b, c⟩, if_pos ⟨a, c⟩]
        · rw [if_neg (fun d => c d.2), if_neg (fun d => c d.2)]
    · rw [if_neg (fun c => a c.1), if_neg (fun c => a (h0.trans c.1)), if_neg (fun c => a c.1), add_zero]

theorem sum_bins {mn step : ℝ} (hs : 0 < step) (v : Spec.Pt → ℝ) (N : ℕ) (pts : List Spec.Pt) :
    ((List.range N).map fun j => ((Spec.bin mn step pts j).map v).sum).sum =
      ((Spec.window mn step N pts).map v).sum := by
  induction pts with
  | nil => simp [Spec.bin, Spec.window]
  | cons p pts ih =>
    have e : (fun j => ((Spec.bin mn step (p :: pts) j).map v).sum) =
        fun j => (if Spec.edge mn step j ≤ p.x ∧ p.x < Spec.edge mn step (j + 1) then v p else 0) +
          ((Spec.bin mn step pts j).map v).sum := by
      funext j; exact binSum_cons mn step v p pts j
    rw [e, List.sum_map_add, ih, sum_one_bin hs]
    unfold Spec.window
    by_cases h : Spec.edge mn step 0 ≤ p.x ∧ p.x < Spec.edge mn step N
    · rw [if_pos h, List.filter_cons_of_pos (by simpa using h), List.map_cons, List.sum_cons]
    · rw [if_neg h, List.filter_cons_of_neg (by simpa using h), zero_add]

/-- Sum over the bins of intensity times normalisation (bins with undefined intensity contribute nothing). -/
noncomputable def Spec.total (ys : List Num) (w : ℕ → ℝ) : ℝ :=
  ((List.range ys.length).map fun j => (ys.getD j none).getD 0 * w j).sum

theorem total_ratio {N : ℕ} {f g : ℕ → ℝ} (v : ℝ) (hv : v ≠ 0) (h : ∀ j < N, g j = 0 → f j = 0) :
    Spec.total ((List.range N).map fun j => Spec.ratio (f j * v) (g j)) (fun j => g j / v) =
      ((List.range N).map f).sum := by
  unfold Spec.total
  rw [List.length_map, List.length_range]
  congr 1
  apply List.map_congr_left
  intro j hj
  have hj' : j < N := by simpa using hj
  rw [List.getD_eq_getElem _ _ (by simpa using hj')]
  simp only [List.getElem_map, List.getElem_range, Spec.ratio]
  by_cases h0 : g j = 0
  · rw [if_pos h0, h j hj' h0]; simp
  · rw [if_neg h0]; simp only [Option.getD_some]; field_simp

theorem bin_mem {mn step : ℝ} {pts : List Spec.Pt} {j : ℕ} {q : Spec.Pt} :
    q ∈ Spec.bin mn step pts j ↔ q ∈ pts ∧ Spec.edge mn step j ≤ q.x ∧ q.x < Spec.edge mn step (j + 1) := by
  unfold Spec.bin; simp [List.mem_filter]

theorem sum_pos_of {l : List Spec.Pt} {v : Spec.Pt → ℝ} (h : ∀ q ∈ l, 0 < v q) (hne : l ≠ []) :
    0 < (l.map v).sum := by
  cases l with
  | nil => exact absurd rfl hne
  | cons a l =>
    rw [List.map_cons, List.sum_cons]
    have h1 := h a (by simp)
    have h2 : 0 ≤ (l.map v).sum := by
      apply List.sum_nonneg
      intro x hx
      obtain ⟨q, hq, rfl⟩ := List.mem_map.1 hx
      exact (h q (by simp [hq])).le
    linarith

theorem monitor_zero_iff {mn step : ℝ} {pts : List Spec.Pt} (hn : ∀ q ∈ pts, 0 < q.n) (j : ℕ) :
    Spec.monitor mn step pts j = 0 ↔ Spec.bin mn step pts j = [] := by
  constructor
  · intro h
    by_contra hne
    have := sum_pos_of (v := (·.n)) (fun q hq => hn q (bin_mem.1 hq).1) hne
    unfold Spec.monitor at h
    linarith
  · intro h; unfold Spec.monitor; rw [h]; simp

theorem number_zero_iff {mn step : ℝ} {pts : List Spec.Pt} (j : ℕ) :
    Spec.number mn step pts j = 0 ↔ Spec.bin mn step pts j = [] := by
  unfold Spec.number; simp

/-- **C31** Grid and tolerance binning without normalisation: mean intensity times number of points, summed over the bins,
is the total of the counts inside the window. -/
theorem C31_counts {pts : List Spec.Pt} {norm col : Option (List Num)} {p : RebinParams} {mn mx step : ℝ} {N : ℕ}
    (hr : Spec.Range (pts.map (·.x)) p mn mx step) (hN : Spec.BinCount mn mx step N) (hy : ∀ q ∈ pts, 0 ≤ q.y) :
    (∀ r, (Spec.curve pts norm).rebinGrid p = .ok r →
      Spec.total r.y (Spec.number mn step pts) = ((Spec.window mn step N pts).map (·.y)).sum) ∧
    (Spec.Column col norm (Spec.monitors pts) → ∀ r, (Spec.curve pts norm).rebinTol p col = .ok r →
      Spec.total r.y (Spec.number mn step pts) = ((Spec.window mn step N pts).map (·.y)).sum) := by
  have key : Spec.total ((List.range N).map fun j =>
      Spec.ratio (Spec.counts mn step pts j) (Spec.number mn step pts j)) (Spec.number mn step pts) =
        ((Spec.window mn step N pts).map (·.y)).sum := by
    have := total_ratio (N := N) (f := Spec.counts mn step pts) (g := Spec.number mn step pts) 1 one_ne_zero (by
      intro j _ h0
      unfold Spec.counts; rw [(number_zero_iff j).1 h0]; simp)
    simp only [mul_one, div_one] at this
    rw [this, ← sum_bins hr.2.2.2.1]
    rfl
  refine ⟨fun r h => ?_, fun hc r h => ?_⟩
  · rw [C30_grid hr hN hy] at h; cases h; exact key
  · rw [C30_tol hr hN hy hc] at h; cases h; exact key

/-- **C31** With normalisation (positive monitors): intensity times accumulated monitor, summed over the bins, is the total
of the counts inside the window; the accumulated monitors add up to the monitor inside the window. -/
theorem C31_counts_renorm {pts : List Spec.Pt} {norm col : Option (List Num)} {p : RebinParams} {mn mx step v : ℝ} {N : ℕ}
    (hr : Spec.Range (pts.map (·.x)) p mn mx step) (hN : Spec.BinCount mn mx step N) (hy : ∀ q ∈ pts, 0 ≤ q.y)
    (hn : ∀ q ∈ pts, 0 < q.n) (hv : v ≠ 0) (hc : Spec.Column col norm (Spec.monitors pts)) :
    (∀ r, (Spec.curve pts norm).rebinGridRenorm p col v = .ok r →
      Spec.total r.y (fun j => Spec.monitor mn step pts j / v) = ((Spec.window mn step N pts).map (·.y)).sum) ∧
    (∀ r, (Spec.curve pts norm).rebinTolRenorm p col v = .ok r →
      Spec.total r.y (fun j => Spec.monitor mn step pts j / v) = ((Spec.window mn step N pts).map (·.y)).sum) ∧
    ((List.range N).map (Spec.monitor mn step pts)).sum = ((Spec.window mn step N pts).map (·.n)).sum := by
  have key := total_ratio (N := N) (f := Spec.counts mn step pts) (g := Spec.monitor mn step pts) v hv (by
      intro j _ h0
      unfold Spec.counts; rw [(monitor_zero_iff hn j).1 h0]; simp)
  have hsum : ((List.range N).map (Spec.counts mn step pts)).sum = ((Spec.window mn step N pts).map (·.y)).sum := by
    rw [← sum_bins hr.2.2.2.1]; rfl
  refine ⟨fun r h => ?_, fun r h => ?_, ?_⟩
  · rw [C30_grid_renorm hr hN hy hc] at h; cases h; exact key.trans hsum
  · rw [C30_tol_renorm hr hN hy hc] at h; cases h; exact key.trans hsum
  · rw [← sum_bins hr.2.2.2.1]; rfl

/-! ## C32 no point lost -/

/-- **C32** (part) A point of the requested range is in some bin whenever it lies below the last bin's right edge; no point
at or above the minimum is ever lost on the left, and when the range is a whole number of steps no point of
`[mn, mx]` is lost. Missing: ranges that are not a whole number of steps, where points near the maximum can be dropped, see
`C32_point_lost`. -/
theorem C32_covered_partial {mn mx step x : ℝ} {N : ℕ} (hs : 0 < step) (hN : Spec.BinCount mn mx step N)
    (h1 : mn ≤ x) (h2 : x ≤ mx) :
    (x < Spec.edge mn step N → ∃ j < N, Spec.edge mn step j ≤ x ∧ x < Spec.edge mn step (j + 1)) ∧
    ((∃ k : ℕ, mx = mn + k * step) → ∃ j < N, Spec.edge mn step j ≤ x ∧ x < Spec.edge mn step (j + 1)) := by
  have e0 : Spec.edge mn step 0 ≤ x := by unfold Spec.edge; push_cast; linarith
  have first : x < Spec.edge mn step N → ∃ j < N, Spec.edge mn step j ≤ x ∧ x < Spec.edge mn step (j + 1) := by
    intro h
    obtain ⟨j, ⟨a, b⟩, _⟩ := (C30_partition hs N).1 ⟨e0, h⟩
    exact ⟨j, a, b⟩
  refine ⟨first, ?_⟩
  rintro ⟨k, hk⟩
  apply first
  have hkN : k < N := (hN k).2 (by rw [hk]; linarith)
  have : (k : ℝ) + 1 ≤ N := by exact_mod_cast hkN
  unfold Spec.edge
  nlinarith

/-- **C32**, negation: two points at 0 and 0.9, default range, step 1. The point at 0.9 with its 100 counts is in no bin: the
result has the single bin of the first point. -/
theorem C32_point_lost :
    (Spec.curve [⟨0, 4, 1⟩, ⟨0.9, 100, 1⟩] none).rebinGrid { step := some 1 } =
      .ok { x := [some 0], y := [some 4], err := [some 2], norm := none } := by
  have hr : Spec.Range (([⟨0, 4, 1⟩, ⟨0.9, 100, 1⟩] : List Spec.Pt).map (·.x)) { step := some 1 } 0 0.9 1 := by
    refine ⟨Or.inr ⟨rfl, by simp, ?_⟩, Or.inr ⟨rfl, by simp, ?_⟩, rfl, one_pos, by norm_num⟩
    · intro x hx; simp at hx; rcases hx with rfl | rfl <;> norm_num
    · intro x hx; simp at hx; rcases hx with rfl | rfl <;> norm_num
  have hN : Spec.BinCount 0 0.9 1 1 := by
    intro j
    constructor
    · intro h; obtain rfl : j = 0 := by omega
      norm_num
    · intro h
      by_contra hj
      have : (1 : ℝ) ≤ j := by exact_mod_cast (show 1 ≤ j by omega)
      norm_num at h; linarith
  have hb : Spec.bin 0 1 ([⟨0, 4, 1⟩, ⟨0.9, 100, 1⟩] : List Spec.Pt) 0 = [⟨0, 4, 1⟩] := by
    unfold Spec.bin Spec.edge
    norm_num [List.filter_cons]
  rw [C30_grid hr hN (by intro q hq; simp at hq; rcases hq with rfl | rfl <;> norm_num)]
  simp only [List.range_one, List.map_cons, List.map_nil, Spec.counts, Spec.number, hb, Spec.ratio]
  have : √(4 : ℝ) = 2 := by rw [show (4 : ℝ) = 2 ^ 2 by norm_num]; exact Real.sqrt_sq (by norm_num)
  simp [this]

/-! ## C33 weighted means -/

theorem sum_bounds {l : List Spec.Pt} {v lo hi : ℝ} (hn : ∀ q ∈ l, 0 < q.n)
    (h : ∀ q ∈ l, lo ≤ q.y / q.n * v ∧ q.y / q.n * v ≤ hi) :
    lo * (l.map (·.n)).sum ≤ (l.map (·.y)).sum * v ∧ (l.map (·.y)).sum * v ≤ hi * (l.map (·.n)).sum := by
  induction l with
  | nil => simp
  | cons a l ih =>
    obtain ⟨i1, i2⟩ := ih (fun q hq => hn q (by simp [hq])) (fun q hq => h q (by simp [hq]))
    obtain ⟨b1, b2⟩ := h a (by simp)
    have ha := hn a (by simp)
    have e : a.y * v = a.y / a.n * v * a.n := by field_simp
    simp only [List.map_cons, List.sum_cons]
    constructor
    · have := mul_le_mul_of_nonneg_right b1 ha.le; nlinarith
    · have := mul_le_mul_of_nonneg_right b2 ha.le; nlinarith

/-- The description of a normalised bin shared by grid and tolerance binning. -/
def Spec.GoodBins (ys : List Num) (mn step v : ℝ) (N : ℕ) (pts : List Spec.Pt) : Prop :=
  ys.length = N ∧ ∀ j < N,
    (ys[j]? = some none ↔ Spec.bin mn step pts j = []) ∧
    ∀ y, ys[j]? = some (some y) → ∀ lo hi,
      (∀ q ∈ Spec.bin mn step pts j, lo ≤ q.y / q.n * v ∧ q.y / q.n * v ≤ hi) → lo ≤ y ∧ y ≤ hi

theorem good_bins {mn step v : ℝ} {N : ℕ} {pts : List Spec.Pt} (hn : ∀ q ∈ pts, 0 < q.n) :
    Spec.GoodBins ((List.range N).map fun j => Spec.ratio (Spec.counts mn step pts j * v) (Spec.monitor mn step pts j))
      mn step v N pts := by
  refine ⟨by simp, fun j hj => ⟨?_, ?_⟩⟩
  · rw [← monitor_zero_iff hn, List.getElem?_map, List.getElem?_range hj]
    simp only [Option.map_some, Option.some.injEq, Spec.ratio]
    split <;> simp [*]
  · intro y hy lo hi hb
    rw [List.getElem?_map, List.getElem?_range hj] at hy
    simp only [Option.map_some, Option.some.injEq, Spec.ratio] at hy
    split at hy
    · cases hy
    · rename_i h0
      have hne : Spec.bin mn step pts j ≠ [] := fun h => h0 ((monitor_zero_iff hn j).2 h)
      have hn' : ∀ q ∈ Spec.bin mn step pts j, 0 < q.n := fun q hq => hn q (bin_mem.1 hq).1
      have hpos : 0 < Spec.monitor mn step pts j := sum_pos_of (v := (·.n)) hn' hne
      obtain ⟨b1, b2⟩ := sum_bounds hn' hb
      cases hy
      constructor
      · rw [le_div_iff₀ hpos]; exact b1
      · rw [div_le_iff₀ hpos]; exact b2

/-- **C33** With positive monitors a normalised, rebinned intensity is undefined exactly for an empty bin, and otherwise lies
between the smallest and the largest individually normalised intensity of its bin. -/
theorem C33_weighted_mean {pts : List Spec.Pt} {norm col : Option (List Num)} {p : RebinParams} {mn mx step v : ℝ} {N : ℕ}
    (hr : Spec.Range (pts.map (·.x)) p mn mx step) (hN : Spec.BinCount mn mx step N) (hy : ∀ q ∈ pts, 0 ≤ q.y)
    (hn : ∀ q ∈ pts, 0 < q.n) (hc : Spec.Column col norm (Spec.monitors pts)) :
    (∀ r, (Spec.curve pts norm).rebinGridRenorm p col v = .ok r → Spec.GoodBins r.y mn step v N pts) ∧
    (∀ r, (Spec.curve pts norm).rebinTolRenorm p col v = .ok r → Spec.GoodBins r.y mn step v N pts) := by
  refine ⟨fun r h => ?_, fun r h => ?_⟩
  · rw [C30_grid_renorm hr hN hy hc] at h; cases h; exact good_bins hn
  · rw [C30_tol_renorm hr hN hy hc] at h; cases h; exact good_bins hn

/-- All counts and monitors multiplied by the same factor. -/
def Spec.scale (c : ℝ) (pts : List Spec.Pt) : List Spec.Pt := pts.map fun q => ⟨q.x, c * q.y, c * q.n⟩

theorem bin_scale (mn step c : ℝ) (pts : List Spec.Pt) (j : ℕ) :
    Spec.bin mn step (Spec.scale c pts) j = Spec.scale c (Spec.bin mn step pts j) := by
  unfold Spec.bin Spec.scale
  rw [List.filter_map]; rfl

theorem counts_scale (mn step c : ℝ) (pts : List Spec.Pt) (j : ℕ) :
    Spec.counts mn step (Spec.scale c pts) j = c * Spec.counts mn step pts j := by
  unfold Spec.counts
  rw [bin_scale]
  unfold Spec.scale
  rw [List.map_map, ← List.sum_map_mul_left]; rfl

theorem monitor_scale (mn step c : ℝ) (pts : List Spec.Pt) (j : ℕ) :
    Spec.monitor mn step (Spec.scale c pts) j = c * Spec.monitor mn step pts j := by
  unfold Spec.monitor
  rw [bin_scale]
  unfold Spec.scale
  rw [List.map_map, ← List.sum_map_mul_left]; rfl

theorem ratio_scale {c : ℝ} (hc : c ≠ 0) (a b : ℝ) : Spec.ratio (c * a) (c * b) = Spec.ratio a b := by
  unfold Spec.ratio
  by_cases h : b = 0
  · rw [if_pos h, if_pos (by rw [h, mul_zero])]
  · rw [if_neg h, if_neg (mul_ne_zero hc h), mul_div_mul_left _ _ hc]

theorem scale_x (c : ℝ) (pts : List Spec.Pt) : (Spec.scale c pts).map (·.x) = pts.map (·.x) := by
  unfold Spec.scale; rw [List.map_map]; rfl

/-- **C33** Counting `c` times longer (all counts and monitors multiplied by `c > 0`) changes no normalised intensity. -/
theorem C33_scale_invariant {pts : List Spec.Pt} {p : RebinParams} {mn mx step v c : ℝ} {N : ℕ}
    (hr : Spec.Range (pts.map (·.x)) p mn mx step) (hN : Spec.BinCount mn mx step N) (hy : ∀ q ∈ pts, 0 ≤ q.y)
    (hc : 0 < c) :
    (∃ r r', (Spec.curve pts none).rebinGridRenorm p (some (Spec.monitors pts)) v = .ok r ∧
      (Spec.curve (Spec.scale c pts) none).rebinGridRenorm p (some (Spec.monitors (Spec.scale c pts))) v = .ok r' ∧
      r'.x = r.x ∧ r'.y = r.y) ∧
    (∃ r r', (Spec.curve pts none).rebinTolRenorm p (some (Spec.monitors pts)) v = .ok r ∧
      (Spec.curve (Spec.scale c pts) none).rebinTolRenorm p (some (Spec.monitors (Spec.scale c pts))) v = .ok r' ∧
      r'.x = r.x ∧ r'.y = r.y) := by
  have hr' : Spec.Range ((Spec.scale c pts).map (·.x)) p mn mx step := by rw [scale_x]; exact hr
  have hy' : ∀ q ∈ Spec.scale c pts, 0 ≤ q.y := by
    intro q hq
    obtain ⟨q0, h0, rfl⟩ := List.mem_map.1 hq
    exact mul_nonneg hc.le (hy q0 h0)
  have ey : ∀ j, Spec.ratio (Spec.counts mn step (Spec.scale c pts) j * v) (Spec.monitor mn step (Spec.scale c pts) j) =
      Spec.ratio (Spec.counts mn step pts j * v) (Spec.monitor mn step pts j) := by
    intro j; rw [counts_scale, monitor_scale, mul_assoc, ratio_scale hc.ne']
  have ex : ∀ j, Spec.ratio (Spec.moment mn step (Spec.scale c pts) j) (Spec.monitor mn step (Spec.scale c pts) j) =
      Spec.ratio (Spec.moment mn step pts j) (Spec.monitor mn step pts j) := by
    intro j
    have : Spec.moment mn step (Spec.scale c pts) j = c * Spec.moment mn step pts j := by
      unfold Spec.moment
      rw [bin_scale]
      unfold Spec.scale
      rw [List.map_map, ← List.sum_map_mul_left]
      congr 1
      apply List.map_congr_left
      intro q _
      simp only [Function.comp]; ring
    rw [this, monitor_scale, ratio_scale hc.ne']
  refine ⟨⟨_, _, C30_grid_renorm hr hN hy (Or.inl rfl), C30_grid_renorm hr' hN hy' (Or.inl rfl), rfl, ?_⟩,
    ⟨_, _, C30_tol_renorm hr hN hy (Or.inl rfl), C30_tol_renorm hr' hN hy' (Or.inl rfl), ?_, ?_⟩⟩
  · simp only [ey]
  · simp only [ex]
  · simp only [ey]

/-- **C33** The normalised intensities and errors are proportional to the normalisation value. -/
theorem C33_proportional {pts : List Spec.Pt} {p : RebinParams} {mn mx step v k : ℝ} {N : ℕ}
    (hr : Spec.Range (pts.map (·.x)) p mn mx step) (hN : Spec.BinCount mn mx step N) (hy : ∀ q ∈ pts, 0 ≤ q.y) :
    (∃ r r', (Spec.curve pts none).rebinGridRenorm p (some (Spec.monitors pts)) v = .ok r ∧
      (Spec.curve pts none).rebinGridRenorm p (some (Spec.monitors pts)) (k * v) = .ok r' ∧
      r'.x = r.x ∧ r'.y = r.y.map (Option.map (k * ·)) ∧ r'.err = r.err.map (Option.map (k * ·))) ∧
    (∃ r r', (Spec.curve pts none).rebinTolRenorm p (some (Spec.monitors pts)) v = .ok r ∧
      (Spec.curve pts none).rebinTolRenorm p (some (Spec.monitors pts)) (k * v) = .ok r' ∧
      r'.x = r.x ∧ r'.y = r.y.map (Option.map (k * ·)) ∧ r'.err = r.err.map (Option.map (k * ·))) := by
  have scaled : ∀ (l : List ℕ) (f g : ℕ → ℝ), l.map (fun j => Spec.ratio (f j * (k * v)) (g j)) =
      (l.map fun j => Spec.ratio (f j * v) (g j)).map (Option.map (k * ·)) := by
    intro l f g
    rw [List.map_map]
    apply List.map_congr_left
    intro j _
    simp only [Function.comp, Spec.ratio]
    split
    · rfl
    · simp only [Option.map_some]; congr 1; ring
  exact ⟨⟨_, _, C30_grid_renorm hr hN hy (Or.inl rfl), C30_grid_renorm hr hN hy (Or.inl rfl), rfl, scaled .., scaled ..⟩,
    ⟨_, _, C30_tol_renorm hr hN hy (Or.inl rfl), C30_tol_renorm hr hN hy (Or.inl rfl), rfl, scaled .., scaled ..⟩⟩

theorem renorm_ok {pts : List Spec.Pt} {norm col : Option (List Num)} {v : ℝ} (hy : ∀ q ∈ pts, 0 ≤ q.y)
    (hc : Spec.Column col norm (Spec.monitors pts)) :
    (Spec.curve pts norm).renorm col v = .ok { (Spec.curve pts norm) with
      y := pts.map fun q => Spec.ratio (q.y * v) q.n, err := pts.map fun q => Spec.ratio (√q.y * v) q.n } := by
  unfold ScanData1D.renorm
  have hc' : normCol col (Spec.curve pts norm).norm = .ok (Spec.monitors pts) := normCol_ok hc
  rw [hc', py_bind_ok]
  unfold zipN
  rw [if_pos (by simp [Spec.curve, Spec.monitors]), py_bind_ok, if_pos (by simp [Spec.curve, Spec.monitors]), py_bind_ok]
  have one : ∀ (f : Spec.Pt → ℝ) (g : Spec.Pt → Num), (∀ q ∈ pts, g q = some (f q)) →
      (List.zipWith ndiv (pts.map g) (Spec.monitors pts)).map (nmul · (some v)) =
      pts.map fun q => Spec.ratio (f q * v) q.n := by
    intro f g hg
    unfold Spec.monitors
    rw [List.zipWith_map, List.zipWith_self, List.map_map]
    apply List.map_congr_left
    intro q hq
    simp only [Function.comp, hg q hq, ndiv, Spec.ratio]
    split
    · rfl
    · simp only [nmul]; congr 1; ring
  have e1 := one (·.y) (fun q => some q.y) (fun _ _ => rfl)
  have e2 := one (fun q => √q.y) (fun q => if q.y < 0 then none else some √q.y) (by
    intro q hq; rw [if_neg (not_lt.2 (hy q hq))])
  simp only [Spec.curve]
  rw [e1, e2]
  rfl

/-- **C33** Normalising without rebinning: point by point `y v / n` with error `√y v / n`, positions kept, undefined for a
vanishing monitor. -/
theorem C33_renorm {pts : List Spec.Pt} {norm col : Option (List Num)} {v : ℝ} (hy : ∀ q ∈ pts, 0 ≤ q.y)
    (hc : Spec.Column col norm (Spec.monitors pts)) :
    ∃ r, (Spec.curve pts norm).renorm col v = .ok r ∧ r.x = pts.map (fun q => some q.x) ∧
      r.y = pts.map (fun q => Spec.ratio (q.y * v) q.n) ∧ r.err = pts.map (fun q => Spec.ratio (√q.y * v) q.n) :=
  ⟨_, renorm_ok hy hc, rfl, rfl, rfl⟩

/-! ## C34 positions of tolerance binning -/

theorem moment_bounds {l : List Spec.Pt} {lo hi : ℝ} (hn : ∀ q ∈ l, 0 < q.n) (h : ∀ q ∈ l, lo ≤ q.x ∧ q.x ≤ hi) :
    lo * (l.map (·.n)).sum ≤ (l.map fun p => p.x * p.n).sum ∧
      (l.map fun p => p.x * p.n).sum ≤ hi * (l.map (·.n)).sum := by
  induction l with
  | nil => simp
  | cons a l ih =>
    obtain ⟨i1, i2⟩ := ih (fun q hq => hn q (by simp [hq])) (fun q hq => h q (by simp [hq]))
    obtain ⟨b1, b2⟩ := h a (by simp)
    have ha := hn a (by simp)
    simp only [List.map_cons, List.sum_cons]
    constructor
    · have := mul_le_mul_of_nonneg_right b1 ha.le; nlinarith
    · have := mul_le_mul_of_nonneg_right b2 ha.le; nlinarith

theorem moment_lt {l : List Spec.Pt} {hi : ℝ} (hn : ∀ q ∈ l, 0 < q.n) (h : ∀ q ∈ l, q.x < hi) (hne : l ≠ []) :
    (l.map fun p => p.x * p.n).sum < hi * (l.map (·.n)).sum := by
  have : 0 < (l.map fun p => (hi - p.x) * p.n).sum :=
    sum_pos_of (v := fun p => (hi - p.x) * p.n) (fun q hq => mul_pos (by linarith [h q hq]) (hn q hq)) hne
  have e : (l.map fun p => (hi - p.x) * p.n).sum = hi * (l.map (·.n)).sum - (l.map fun p => p.x * p.n).sum := by
    clear this hne h hn
    induction l with
    | nil => simp
    | cons a l ih => simp only [List.map_cons, List.sum_cons, ih]; ring
  linarith

/-- Positions reported for tolerance bins. -/
def Spec.GoodPositions (xs : List Num) (mn step : ℝ) (N : ℕ) (pts : List Spec.Pt) : Prop :=
  xs.length = N ∧ ∀ j < N,
    (xs[j]? = some none ↔ Spec.bin mn step pts j = []) ∧
    ∀ x, xs[j]? = some (some x) →
      (Spec.edge mn step j ≤ x ∧ x < Spec.edge mn step (j + 1)) ∧
      (∀ lo hi, (∀ q ∈ Spec.bin mn step pts j, lo ≤ q.x ∧ q.x ≤ hi) → lo ≤ x ∧ x ≤ hi)

theorem good_positions {mn step : ℝ} {N : ℕ} {pts : List Spec.Pt} (hn : ∀ q ∈ pts, 0 < q.n) :
    Spec.GoodPositions ((List.range N).map fun j => Spec.ratio (Spec.moment mn step pts j) (Spec.monitor mn step pts j))
      mn step N pts := by
  refine ⟨by simp, fun j hj => ⟨?_, ?_⟩⟩
  · rw [← monitor_zero_iff hn, List.getElem?_map, List.getElem?_range hj]
    simp only [Option.map_some, Option.some.injEq, Spec.ratio]
    split <;> simp [*]
  · intro x hx
    rw [List.getElem?_map, List.getElem?_range hj] at hx
    simp only [Option.map_some, Option.some.injEq, Spec.ratio] at hx
    split at hx
    · cases hx
    · rename_i h0
      have hne : Spec.bin mn step pts j ≠ [] := fun h => h0 ((monitor_zero_iff hn j).2 h)
      have hn' : ∀ q ∈ Spec.bin mn step pts j, 0 < q.n := fun q hq => hn q (bin_mem.1 hq).1
      have hpos : 0 < Spec.monitor mn step pts j := sum_pos_of (v := (·.n)) hn' hne
      cases hx
      refine ⟨⟨?_, ?_⟩, fun lo hi hb => ?_⟩
      · rw [le_div_iff₀ hpos]
        exact (moment_bounds (hi := Spec.edge mn step (j + 1)) hn'
          fun q hq => ⟨(bin_mem.1 hq).2.1, (bin_mem.1 hq).2.2.le⟩).1
      · rw [div_lt_iff₀ hpos]
        exact moment_lt hn' (fun q hq => (bin_mem.1 hq).2.2) hne
      · obtain ⟨b1, b2⟩ := moment_bounds hn' hb
        constructor
        · rw [le_div_iff₀ hpos]; exact b1
        · rw [div_le_iff₀ hpos]; exact b2

/-- **C34** With positive weights the position reported by tolerance binning is undefined exactly for an empty bin; otherwise
it lies inside its bin and between the smallest and largest position collected (so identical positions are reported
unchanged). -/
theorem C34_positions {pts : List Spec.Pt} {norm col : Option (List Num)} {p : RebinParams} {mn mx step v : ℝ} {N : ℕ}
    (hr : Spec.Range (pts.map (·.x)) p mn mx step) (hN : Spec.BinCount mn mx step N) (hy : ∀ q ∈ pts, 0 ≤ q.y)
    (hn : ∀ q ∈ pts, 0 < q.n) (hc : Spec.Column col norm (Spec.monitors pts)) :
    (∀ r, (Spec.curve pts norm).rebinTol p col = .ok r → Spec.GoodPositions r.x mn step N pts) ∧
    (∀ r, (Spec.curve pts norm).rebinTolRenorm p col v = .ok r → Spec.GoodPositions r.x mn step N pts) := by
  refine ⟨fun r h => ?_, fun r h => ?_⟩
  · rw [C30_tol hr hN hy hc] at h; cases h; exact good_positions hn
  · rw [C30_tol_renorm hr hN hy hc] at h; cases h; exact good_positions hn

/-! ## C35 order of the points -/

theorem bin_perm {mn step : ℝ} {l l' : List Spec.Pt} (h : l.Perm l') (j : ℕ) :
    (Spec.bin mn step l j).Perm (Spec.bin mn step l' j) := h.filter _

theorem sums_perm {mn step : ℝ} {l l' : List Spec.Pt} (h : l.Perm l') (j : ℕ) :
    Spec.counts mn step l j = Spec.counts mn step l' j ∧ Spec.monitor mn step l j = Spec.monitor mn step l' j ∧
      Spec.moment mn step l j = Spec.moment mn step l' j ∧ Spec.number mn step l j = Spec.number mn step l' j :=
  ⟨((bin_perm h j).map _).sum_eq, ((bin_perm h j).map _).sum_eq, ((bin_perm h j).map _).sum_eq, by
    unfold Spec.number; rw [(bin_perm h j).length_eq]⟩

theorem range_perm {l l' : List ℝ} (h : l.Perm l') {p : RebinParams} {mn mx step : ℝ} (hr : Spec.Range l p mn mx step) :
    Spec.Range l' p mn mx step := by
  obtain ⟨h1, h2, h3⟩ := hr
  refine ⟨?_, ?_, h3⟩
  · rcases h1 with h1 | ⟨a, b, c⟩
    · exact Or.inl h1
    · exact Or.inr ⟨a, h.mem_iff.1 b, fun x hx => c x (h.mem_iff.2 hx)⟩
  · rcases h2 with h2 | ⟨a, b, c⟩
    · exact Or.inl h2
    · exact Or.inr ⟨a, h.mem_iff.1 b, fun x hx => c x (h.mem_iff.2 hx)⟩

/-- **C35** Permuting the measured points (with their counts and monitors) leaves all four rebinned curves unchanged. -/
theorem C35_permutation {pts pts' : List Spec.Pt} {p : RebinParams} {mn mx step v : ℝ}
    (hr : Spec.Range (pts.map (·.x)) p mn mx step) (hy : ∀ q ∈ pts, 0 ≤ q.y) (h : pts.Perm pts') :
    (Spec.curve pts' none).rebinGrid p = (Spec.curve pts none).rebinGrid p ∧
    (Spec.curve pts' none).rebinGridRenorm p (some (Spec.monitors pts')) v =
      (Spec.curve pts none).rebinGridRenorm p (some (Spec.monitors pts)) v ∧
    (Spec.curve pts' none).rebinTol p (some (Spec.monitors pts')) =
      (Spec.curve pts none).rebinTol p (some (Spec.monitors pts)) ∧
    (Spec.curve pts' none).rebinTolRenorm p (some (Spec.monitors pts')) v =
      (Spec.curve pts none).rebinTolRenorm p (some (Spec.monitors pts)) v := by
  obtain ⟨N, hN, _⟩ := binCount_exists (mn := mn) (mx := mx) hr.2.2.2.1
  have hr' := range_perm (h.map (·.x)) hr
  have hy' : ∀ q ∈ pts', 0 ≤ q.y := fun q hq => hy q (h.mem_iff.2 hq)
  have e := fun j => sums_perm (mn := mn) (step := step) h j
  rw [C30_grid hr hN hy, C30_grid hr' hN hy', C30_grid_renorm hr hN hy (Or.inl rfl), C30_grid_renorm hr' hN hy' (Or.inl rfl),
    C30_tol hr hN hy (Or.inl rfl), C30_tol hr' hN hy' (Or.inl rfl), C30_tol_renorm hr hN hy (Or.inl rfl),
    C30_tol_renorm hr' hN hy' (Or.inl rfl)]
  simp only [fun j => (e j).1, fun j => (e j).2.1, fun j => (e j).2.2.1, fun j => (e j).2.2.2]
  exact ⟨trivial, trivial, trivial, trivial⟩

/-! ## A concrete data set meeting all hypotheses -/

/-- Four points, two of them in the same bin, default range, step 1. -/
def exPts : List Spec.Pt := [⟨0, 4, 2⟩, ⟨0.2, 5, 1⟩, ⟨1, 7, 2⟩, ⟨2, 9, 3⟩]

theorem exPts_range : Spec.Range (exPts.map (·.x)) { step := some 1 } 0 2 1 := by
  refine ⟨Or.inr ⟨rfl, by simp [exPts], ?_⟩, Or.inr ⟨rfl, by simp [exPts], ?_⟩, rfl, one_pos, by norm_num⟩
  · intro x hx; simp [exPts] at hx; rcases hx with rfl | rfl | rfl | rfl <;> norm_num
  · intro x hx; simp [exPts] at hx; rcases hx with rfl | rfl | rfl | rfl <;> norm_num

theorem exPts_count : Spec.BinCount 0 2 1 3 := by
  intro j
  constructor
  · intro h
    have : (j : ℝ) ≤ 2 := by exact_mod_cast (show j ≤ 2 by omega)
    linarith
  · intro h
    by_contra hj
    have : (3 : ℝ) ≤ j := by exact_mod_cast (show 3 ≤ j by omega)
    linarith

theorem exPts_pos : (∀ q ∈ exPts, 0 ≤ q.y) ∧ ∀ q ∈ exPts, 0 < q.n := by
  constructor <;> intro q hq <;> simp [exPts] at hq <;> rcases hq with rfl | rfl | rfl | rfl <;> norm_num

example : ∃ r, (Spec.curve exPts none).rebinTolRenorm { step := some 1 } (some (Spec.monitors exPts)) 10 = .ok r ∧
    Spec.GoodBins r.y 0 1 10 3 exPts ∧ Spec.GoodPositions r.x 0 1 3 exPts := by
  have h := C30_tol_renorm (v := 10) (norm := none) exPts_range exPts_count exPts_pos.1 (Or.inl rfl)
  exact ⟨_, h, (C33_weighted_mean exPts_range exPts_count exPts_pos.1 exPts_pos.2 (Or.inl rfl)).2 _ h,
    (C34_positions exPts_range exPts_count exPts_pos.1 exPts_pos.2 (Or.inl rfl)).2 _ h⟩

end Tavi
