import Verif.Props.RebinUse

/-! # C36: two-dimensional rebinning -/

namespace Tavi

open Classical

/-- A measured point of a 2D map: two positions, counts, monitor. -/
structure Spec.Pt2 where
  x : ℝ
  y : ℝ
  z : ℝ
  n : ℝ

/-- A grid request resolved for one axis. -/
structure Spec.Axis where
  mn : ℝ
  step : ℝ
  N : ℕ

/-- Position `t` lies in bin `i` of the axis. -/
def Spec.Axis.has (a : Spec.Axis) (i : ℕ) (t : ℝ) : Prop := Spec.edge a.mn a.step i ≤ t ∧ t < Spec.edge a.mn a.step (i + 1)

/-- The points of cell `(i, j)`. -/
noncomputable def Spec.cell (a b : Spec.Axis) (pts : List Spec.Pt2) (i j : ℕ) : List Spec.Pt2 :=
  pts.filter fun p => decide (a.has i p.x ∧ b.has j p.y)

/-- Sum of a quantity over cell `(i, j)`. -/
noncomputable def Spec.cellSum (a b : Spec.Axis) (pts : List Spec.Pt2) (v : Spec.Pt2 → ℝ) (i j : ℕ) : ℝ :=
  ((Spec.cell a b pts i j).map v).sum

/-- A flat 2D data set made of measured points. -/
noncomputable def Spec.map2D (pts : List Spec.Pt2) (norm : Option (List Num)) : ScanData2D :=
  { x := pts.map fun p => some p.x, y := pts.map fun p => some p.y, z := pts.map fun p => some p.z,
    err := pts.map fun p => if p.z < 0 then none else some (Real.sqrt p.z), norm := norm }

/-- A table given by its entries. -/
noncomputable def Spec.table (a b : Spec.Axis) (f : ℕ → ℕ → Num) : Grid :=
  (List.range a.N).map fun i => (List.range b.N).map fun j => f i j

theorem cellSum_nil (a b : Spec.Axis) (v : Spec.Pt2 → ℝ) (i j : ℕ) : Spec.cellSum a b [] v i j = 0 := by
  simp [Spec.cellSum, Spec.cell]

theorem cellSum_cons (a b : Spec.Axis) (v : Spec.Pt2 → ℝ) (p : Spec.Pt2) (pts : List Spec.Pt2) (i j : ℕ) :
    Spec.cellSum a b (p :: pts) v i j = (if a.has i p.x ∧ b.has j p.y then v p else 0) + Spec.cellSum a b pts v i j := by
  unfold Spec.cellSum Spec.cell
  by_cases h : a.has i p.x ∧ b.has j p.y
  · rw [List.filter_cons_of_pos (by simpa using h), if_pos h, List.map_cons, List.sum_cons]
  · rw [List.filter_cons_of_neg (by simpa using h), if_neg h, zero_add]

/-- A table of finite numbers. -/
noncomputable def arr2 (a b : Spec.Axis) (f : ℕ → ℕ → ℝ) : Grid := (List.range a.N).map fun i => arr b.N (f i)

theorem zeros2_arr (a b : Spec.Axis) : zeros2 a.N b.N = arr2 a b fun _ _ => 0 := by
  unfold zeros2 arr2
  rw [List.map_const', List.length_range, zeros_arr]

theorem bump2_arr (a b : Spec.Axis) (k l : ℕ) (f : ℕ → ℕ → ℝ) (v : ℝ) :
    bump2 (arr2 a b f) k l (some v) = arr2 a b (fun i j => if i = k ∧ j = l then f i j + v else f i j) := by
  unfold bump2 arr2
  apply List.ext_getElem
  · simp
  · intro m h1 h2
    simp only [List.length_map, List.length_range] at h2
    rw [List.getElem_modify]
    by_cases h : k = m
    · subst h; simp [bump_arr]
    · have : ¬ m = k := fun e => h e.symm
      simp [h, this]

theorem arr2_congr {a b : Spec.Axis} {f g : ℕ → ℕ → ℝ} (h : ∀ i < a.N, ∀ j < b.N, f i j = g i j) :
    arr2 a b f = arr2 a b g := by
  unfold arr2
  apply List.map_congr_left
  intro i hi
  exact arr_congr (h i (by simpa using hi))

theorem arr2_step {a b : Spec.Axis} {k l : ℕ} {p : Spec.Pt2} {pts : List Spec.Pt2} (v : Spec.Pt2 → ℝ) (f : ℕ → ℕ → ℝ)
    (hk : 0 < k) (hl : 0 < l) (h1 : ∀ i < a.N, (k = i + 1 ↔ a.has i p.x)) (h2 : ∀ j < b.N, (l = j + 1 ↔ b.has j p.y)) :
    arr2 a b (fun i j => (if i = k - 1 ∧ j = l - 1 then f i j + v p else f i j) + Spec.cellSum a b pts v i j) =
      arr2 a b (fun i j => f i j + Spec.cellSum a b (p :: pts) v i j) := by
  apply arr2_congr
  intro i hi j hj
  rw [cellSum_cons]
  by_cases e : k = i + 1 ∧ l = j + 1
  · rw [if_pos ⟨by omega, by omega⟩, if_pos ⟨(h1 i hi).1 e.1, (h2 j hj).1 e.2⟩]; ring
  · rw [if_neg (by omega), if_neg (fun c => e ⟨(h1 i hi).2 c.1, (h2 j hj).2 c.2⟩)]; ring

theorem arr2_skip {a b : Spec.Axis} {k l : ℕ} {p : Spec.Pt2} {pts : List Spec.Pt2} (v : Spec.Pt2 → ℝ) (f : ℕ → ℕ → ℝ)
    (hkl : ¬ (0 < k ∧ 0 < l)) (h1 : ∀ i < a.N, (k = i + 1 ↔ a.has i p.x)) (h2 : ∀ j < b.N, (l = j + 1 ↔ b.has j p.y)) :
    arr2 a b (fun i j => f i j + Spec.cellSum a b pts v i j) =
      arr2 a b (fun i j => f i j + Spec.cellSum a b (p :: pts) v i j) := by
  apply arr2_congr
  intro i hi j hj
  rw [cellSum_cons, if_neg, zero_add]
  rintro ⟨c1, c2⟩
  have := (h1 i hi).2 c1
  have := (h2 j hj).2 c2
  omega

theorem grid2Loop_ok {a b : Spec.Axis} (ha : 0 < a.step) (hb : 0 < b.step) (pts : List Spec.Pt2) (f g : ℕ → ℕ → ℝ) :
    grid2Loop (bds a.mn a.step a.N) (a.step / 100) (bds b.mn b.step b.N) (b.step / 100) (pts.map fun p => some p.x)
        (pts.map fun p => some p.y) (pts.map fun p => some p.z) (arr2 a b f, arr2 a b g) =
      .ok (arr2 a b (fun i j => f i j + Spec.cellSum a b pts (·.z) i j),
        arr2 a b (fun i j => g i j + Spec.cellSum a b pts (fun _ => 1) i j)) := by
  induction pts generalizing f g with
  | nil => simp only [cellSum_nil, add_zero]; rfl
  | cons p pts ih =>
    obtain ⟨k, hk, _, hi⟩ := argmax_ok (mn := a.mn) (x := p.x) ha a.N
    obtain ⟨l, hl, _, hj⟩ := argmax_ok (mn := b.mn) (x := p.y) hb b.N
    simp only [List.map_cons]
    unfold grid2Loop
    rw [List.head?_cons, need_some, py_bind_ok]
    unfold bds
    rw [hk, py_bind_ok, hl, py_bind_ok]
    by_cases h0 : 0 < k ∧ 0 < l
    · rw [if_pos h0]
      simp only [List.head?_cons, need_some, py_bind_ok, List.tail_cons]
      rw [bump2_arr, bump2_arr]
      have := ih (fun i j => if i = k - 1 ∧ j = l - 1 then f i j + p.z else f i j)
        (fun i j => if i = k - 1 ∧ j = l - 1 then g i j + 1 else g i j)
      unfold bds at this
      rw [this, arr2_step (fun p => p.z) f h0.1 h0.2 hi hj, arr2_step (fun _ => 1) g h0.1 h0.2 hi hj]
    · rw [if_neg h0]
      have := ih f g
      unfold bds at this
      rw [List.tail_cons, List.tail_cons, this, arr2_skip (fun p => p.z) f h0 hi hj, arr2_skip (fun _ => 1) g h0 hi hj]

theorem grid2RenormLoop_ok {a b : Spec.Axis} (ha : 0 < a.step) (hb : 0 < b.step) (pts : List Spec.Pt2)
    (f g : ℕ → ℕ → ℝ) :
    grid2RenormLoop (bds a.mn a.step a.N) (a.step / 100) (bds b.mn b.step b.N) (b.step / 100)
        (pts.map fun p => some p.x) (pts.map fun p => some p.y) (pts.map fun p => some p.z)
        (pts.map fun p => some p.n) (arr2 a b f, arr2 a b g) =
      .ok (arr2 a b (fun i j => f i j + Spec.cellSum a b pts (·.z) i j),
        arr2 a b (fun i j => g i j + Spec.cellSum a b pts (·.n) i j)) := by
  induction pts generalizing f g with
  | nil => simp only [cellSum_nil, add_zero]; rfl
  | cons p pts ih =>
    obtain ⟨k, hk, _, hi⟩ := argmax_ok (mn := a.mn) (x := p.x) ha a.N
    obtain ⟨l, hl, _, hj⟩ := argmax_ok (mn := b.mn) (x := p.y) hb b.N
    simp only [List.map_cons]
    unfold grid2RenormLoop
    rw [List.head?_cons, need_some, py_bind_ok]
    unfold bds
    rw [hk, py_bind_ok, hl, py_bind_ok]
    by_cases h0 : 0 < k ∧ 0 < l
    · rw [if_pos h0]
      simp only [List.head?_cons, need_some, py_bind_ok, List.tail_cons]
      rw [bump2_arr, bump2_arr]
      have := ih (fun i j => if i = k - 1 ∧ j = l - 1 then f i j + p.z else f i j)
        (fun i j => if i = k - 1 ∧ j = l - 1 then g i j + p.n else g i j)
      unfold bds at this
      rw [this, arr2_step (fun p => p.z) f h0.1 h0.2 hi hj, arr2_step (fun p => p.n) g h0.1 h0.2 hi hj]
    · rw [if_neg h0]
      have := ih f g
      unfold bds at this
      rw [List.tail_cons, List.tail_cons, List.tail_cons, this, arr2_skip (fun p => p.z) f h0 hi hj,
        arr2_skip (fun p => p.n) g h0 hi hj]

theorem zip2_arr (a b : Spec.Axis) (f g : ℕ → ℕ → ℝ) :
    zip2 ndiv (arr2 a b f) (arr2 a b g) = Spec.table a b fun i j => Spec.ratio (f i j) (g i j) := by
  unfold zip2 arr2 Spec.table
  rw [List.zipWith_map, List.zipWith_self]
  simp only [zip_arr]

theorem zip2_sqrt_arr (a b : Spec.Axis) (f g : ℕ → ℕ → ℝ) (hf : ∀ i j, 0 ≤ f i j) :
    zip2 ndiv (map2 nsqrt (arr2 a b f)) (arr2 a b g) = Spec.table a b fun i j => Spec.ratio √(f i j) (g i j) := by
  unfold zip2 map2 arr2 Spec.table
  rw [List.map_map, List.zipWith_map, List.zipWith_self]
  apply List.map_congr_left
  intro i _
  exact zip_sqrt_arr _ _ _ (hf i)

theorem map2_ratio (a b : Spec.Axis) (f g : ℕ → ℕ → ℝ) (v : ℝ) :
    map2 (nmul · (some v)) (Spec.table a b fun i j => Spec.ratio (f i j) (g i j)) =
      Spec.table a b fun i j => Spec.ratio (f i j * v) (g i j) := by
  unfold map2 Spec.table
  rw [List.map_map]
  apply List.map_congr_left
  intro i _
  exact map_ratio _ _ _ _

theorem cellSum_nonneg {a b : Spec.Axis} {pts : List Spec.Pt2} (h : ∀ p ∈ pts, 0 ≤ p.z) (i j : ℕ) :
    0 ≤ Spec.cellSum a b pts (·.z) i j := by
  unfold Spec.cellSum
  apply List.sum_nonneg
  intro x hx
  obtain ⟨p, hp, rfl⟩ := List.mem_map.1 hx
  exact h p (List.mem_filter.1 hp).1

/-- A request resolved for the positions `xs`: the axis `a` covers the range up to `mx`. -/
def Spec.Axis.For (a : Spec.Axis) (xs : List ℝ) (p : RebinParams) : Prop :=
  ∃ mx, Spec.Range xs p a.mn mx a.step ∧ Spec.BinCount a.mn mx a.step a.N

/-- Number of points in cell `(i, j)`. -/
noncomputable def Spec.cellNumber (a b : Spec.Axis) (pts : List Spec.Pt2) (i j : ℕ) : ℝ := (Spec.cell a b pts i j).length

theorem cellNumber_eq (a b : Spec.Axis) (pts : List Spec.Pt2) (i j : ℕ) :
    0 + Spec.cellSum a b pts (fun _ => 1) i j = Spec.cellNumber a b pts i j := by
  rw [zero_add]; unfold Spec.cellSum Spec.cellNumber; simp

/-- **C36** 2D grid rebinning, without and with normalisation: cell `(i, j)` is at `(mn_x + i step_x, mn_y + j step_y)` and
collects exactly the points in x-bin `i` and y-bin `j`. -/
theorem C36_cells {pts : List Spec.Pt2} {norm col : Option (List Num)} {px py : RebinParams} {a b : Spec.Axis} {v : ℝ}
    (ha : a.For (pts.map (·.x)) px) (hb : b.For (pts.map (·.y)) py) (hz : ∀ p ∈ pts, 0 ≤ p.z) :
    (Spec.map2D pts norm).rebinGrid px py = .ok {
      x := Spec.table a b fun i _ => some (a.mn + i * a.step)
      y := Spec.table a b fun _ j => some (b.mn + j * b.step)
      z := Spec.table a b fun i j => Spec.ratio (Spec.cellSum a b pts (·.z) i j) (Spec.cellNumber a b pts i j)
      err := Spec.table a b fun i j => Spec.ratio √(Spec.cellSum a b pts (·.z) i j) (Spec.cellNumber a b pts i j) } ∧
    (Spec.Column col norm (pts.map fun p => some p.n) → (Spec.map2D pts norm).rebinGridRenorm px py col v = .ok {
      x := Spec.table a b fun i _ => some (a.mn + i * a.step)
      y := Spec.table a b fun _ j => some (b.mn + j * b.step)
      z := Spec.table a b fun i j => Spec.ratio (Spec.cellSum a b pts (·.z) i j * v) (Spec.cellSum a b pts (·.n) i j)
      err := Spec.table a b fun i j =>
        Spec.ratio (√(Spec.cellSum a b pts (·.z) i j) * v) (Spec.cellSum a b pts (·.n) i j) }) := by
  obtain ⟨ma, hra, hna⟩ := ha
  obtain ⟨mb, hrb, hnb⟩ := hb
  have ex : (Spec.map2D pts norm).x = (pts.map (·.x)).map some := by unfold Spec.map2D; simp
  have ey : (Spec.map2D pts norm).y = (pts.map (·.y)).map some := by unfold Spec.map2D; simp
  have ez : (Spec.map2D pts norm).z = pts.map fun p => some p.z := rfl
  have ex' : (pts.map (·.x)).map some = pts.map fun p => some p.x := by simp
  have ey' : (pts.map (·.y)).map some = pts.map fun p => some p.y := by simp
  have sa := hra.2.2.2.1
  have sb := hrb.2.2.2.1
  constructor
  · unfold ScanData2D.rebinGrid
    rw [ex, ey, binRange_ok hra hna, py_bind_ok]
    dsimp only
    rw [boundary_ok, py_bind_ok, binRange_ok hrb hnb, py_bind_ok]
    dsimp only
    rw [boundary_ok, py_bind_ok, linspace_grid, py_bind_ok, linspace_grid, py_bind_ok]
    simp only [List.length_map, List.length_range]
    rw [zeros2_arr, ex', ey', ez]
    have := grid2Loop_ok sa sb pts (fun _ _ => 0) (fun _ _ => 0)
    unfold bds at this
    rw [this, py_bind_ok]
    simp only [cellNumber_eq]
    simp only [zero_add]
    rw [zip2_arr, zip2_sqrt_arr _ _ _ _ (cellSum_nonneg hz)]
    simp [Spec.table, Function.comp_def]
  · intro hc
    unfold ScanData2D.rebinGridRenorm
    have hc' : normCol col (Spec.map2D pts norm).norm = .ok (pts.map fun p => some p.n) := normCol_ok hc
    rw [hc', py_bind_ok, ex, ey, binRange_ok hra hna, py_bind_ok]
    dsimp only
    rw [boundary_ok, py_bind_ok, binRange_ok hrb hnb, py_bind_ok]
    dsimp only
    rw [boundary_ok, py_bind_ok, linspace_grid, py_bind_ok, linspace_grid, py_bind_ok]
    simp only [List.length_map, List.length_range]
    rw [zeros2_arr, ex', ey', ez]
    have := grid2RenormLoop_ok sa sb pts (fun _ _ => 0) (fun _ _ => 0)
    unfold bds at this
    rw [this, py_bind_ok]
    simp only [zero_add]
    rw [zip2_arr, zip2_sqrt_arr _ _ _ _ (cellSum_nonneg hz), map2_ratio, map2_ratio]
    simp [Spec.table, Function.comp_def]

/-- Sum over all cells. -/
noncomputable def Spec.cellTotal (a b : Spec.Axis) (f : ℕ → ℕ → ℝ) : ℝ :=
  ((List.range a.N).map fun i => ((List.range b.N).map fun j => f i j).sum).sum

theorem sum_one_axis {a : Spec.Axis} (ha : 0 < a.step) (x v : ℝ) :
    ((List.range a.N).map fun i => if a.has i x then v else 0).sum =
      if Spec.edge a.mn a.step 0 ≤ x ∧ x < Spec.edge a.mn a.step a.N then v else 0 := by
  rw [← sum_one_bin ha v a.N]
  congr 1
  apply List.map_congr_left
  intro i _
  unfold Spec.Axis.has
  congr

theorem sum_one_cell {a b : Spec.Axis} (ha : 0 < a.step) (hb : 0 < b.step) (x y v : ℝ) :
    Spec.cellTotal a b (fun i j => if a.has i x ∧ b.has j y then v else 0) =
      if (Spec.edge a.mn a.step 0 ≤ x ∧ x < Spec.edge a.mn a.step a.N) ∧
        (Spec.edge b.mn b.step 0 ≤ y ∧ y < Spec.edge b.mn b.step b.N) then v else 0 := by
  unfold Spec.cellTotal
  have e : ∀ i, ((List.range b.N).map fun j => if a.has i x ∧ b.has j y then v else 0).sum =
      if a.has i x then (if Spec.edge b.mn b.step 0 ≤ y ∧ y < Spec.edge b.mn b.step b.N then v else 0) else 0 := by
    intro i
    by_cases h : a.has i x
    · simp only [h, true_and, if_true]
      exact sum_one_axis hb y v
    · simp [h]
  simp only [e]
  rw [sum_one_axis ha]
  by_cases h1 : Spec.edge a.mn a.step 0 ≤ x ∧ x < Spec.edge a.mn a.step a.N
  · simp [h1]
  · rw [if_neg h1, if_neg (fun h => h1 h.1)]

/-- The points inside the rectangular window of a 2D binning. -/
noncomputable def Spec.window2 (a b : Spec.Axis) (pts : List Spec.Pt2) : List Spec.Pt2 :=
  pts.filter fun p => decide ((Spec.edge a.mn a.step 0 ≤ p.x ∧ p.x < Spec.edge a.mn a.step a.N) ∧
    (Spec.edge b.mn b.step 0 ≤ p.y ∧ p.y < Spec.edge b.mn b.step b.N))

/-- **C36** Every quantity (counts, monitor, number of points) summed over all cells equals its sum over the points inside
the rectangular window. -/
theorem C36_conserved {a b : Spec.Axis} (ha : 0 < a.step) (hb : 0 < b.step) (pts : List Spec.Pt2) (v : Spec.Pt2 → ℝ) :
    Spec.cellTotal a b (Spec.cellSum a b pts v) = ((Spec.window2 a b pts).map v).sum := by
  induction pts with
  | nil => simp [Spec.cellTotal, cellSum_nil, Spec.window2]
  | cons p pts ih =>
    have e : Spec.cellTotal a b (Spec.cellSum a b (p :: pts) v) =
        Spec.cellTotal a b (fun i j => if a.has i p.x ∧ b.has j p.y then v p else 0) +
          Spec.cellTotal a b (Spec.cellSum a b pts v) := by
      unfold Spec.cellTotal
      rw [← List.sum_map_add]
      congr 1
      apply List.map_congr_left
      intro i _
      rw [← List.sum_map_add]
      congr 1
      apply List.map_congr_left
      intro j _
      exact cellSum_cons _ _ _ _ _ _ _
    rw [e, ih, sum_one_cell ha hb]
    unfold Spec.window2
    by_cases h : (Spec.edge a.mn a.step 0 ≤ p.x ∧ p.x < Spec.edge a.mn a.step a.N) ∧
        (Spec.edge b.mn b.step 0 ≤ p.y ∧ p.y < Spec.edge b.mn b.step b.N)
    · rw [if_pos h, List.filter_cons_of_pos (by simpa using h), List.map_cons, List.sum_cons]
    · rw [if_neg h, List.filter_cons_of_neg (by simpa using h), zero_add]

/-- **C36** With positive monitors a cell is undefined exactly when it is empty. -/
theorem C36_empty_undefined {a b : Spec.Axis} {pts : List Spec.Pt2} {v : ℝ} (hn : ∀ p ∈ pts, 0 < p.n) (i j : ℕ) :
    (Spec.ratio (Spec.cellSum a b pts (·.z) i j * v) (Spec.cellSum a b pts (·.n) i j) = none ↔
      Spec.cell a b pts i j = []) ∧
    (Spec.ratio (Spec.cellSum a b pts (·.z) i j) (Spec.cellNumber a b pts i j) = none ↔ Spec.cell a b pts i j = []) := by
  have pos : Spec.cellSum a b pts (·.n) i j = 0 ↔ Spec.cell a b pts i j = [] := by
    constructor
    · intro h
      by_contra hne
      have : 0 < Spec.cellSum a b pts (·.n) i j := by
        unfold Spec.cellSum
        apply List.sum_pos
        · intro x hx
          obtain ⟨p, hp, rfl⟩ := List.mem_map.1 hx
          exact hn p (List.mem_filter.1 hp).1
        · simpa using hne
      linarith
    · intro h; unfold Spec.cellSum; rw [h]; simp
  have num : Spec.cellNumber a b pts i j = 0 ↔ Spec.cell a b pts i j = [] := by unfold Spec.cellNumber; simp
  constructor
  · rw [← pos]; unfold Spec.ratio
    split
    · simpa using ‹_›
    · simpa using ‹_›
  · rw [← num]; unfold Spec.ratio
    split
    · simpa using ‹_›
    · simpa using ‹_›

/-- A concrete 2D data set. -/
def exPts2 : List Spec.Pt2 := [⟨0, 0, 4, 1⟩, ⟨1, 0, 5, 1⟩, ⟨0, 2, 6, 2⟩, ⟨1, 1, 7, 2⟩]

example : ∃ r, (Spec.map2D exPts2 none).rebinGrid { step := some 1 } { min := some 0, max := some 2, step := some 1 } =
    .ok r := by
  refine ⟨_, (C36_cells (v := 0) (col := none) (a := ⟨0, 1, 2⟩) (b := ⟨0, 1, 3⟩) ⟨1, ?_, ?_⟩ ⟨2, ?_, exPts_count⟩ ?_).1⟩
  · refine ⟨Or.inr ⟨rfl, by simp [exPts2], ?_⟩, Or.inr ⟨rfl, by simp [exPts2], ?_⟩, rfl, one_pos, by norm_num⟩ <;>
    · intro x hx; simp [exPts2] at hx; rcases hx with rfl | rfl | rfl | rfl <;> norm_num
  · intro j
    constructor
    · intro h
      have h' : j < 2 := h
      have : (j : ℝ) ≤ 1 := by exact_mod_cast (show j ≤ 1 by omega)
      simp only; linarith
    · intro h
      show j < 2
      by_contra hj
      have : (2 : ℝ) ≤ j := by exact_mod_cast (show 2 ≤ j by omega)
      simp only at h; linarith
  · exact ⟨Or.inl rfl, Or.inl rfl, rfl, one_pos, by norm_num⟩
  · intro p hp; simp [exPts2] at hp; rcases hp with rfl | rfl | rfl | rfl <;> norm_num

end Tavi
