import Verif.Props.GroupUse
import Mathlib.Data.Fin.Tuple.Basic
import Mathlib.Tactic.FinCases
import Mathlib.Tactic.IntervalCases

/-! # C40 (combination in h, k, l, E) and C41 (2D map without rebinning) -/

namespace Tavi

open Classical Matrix

/-! ## C41 -/

theorem reshape_rows {scans : List Scan} {f : Scan → List Num} {n : ℕ} (hl : ∀ s ∈ scans, (f s).length = n) :
    reshape scans.length n (scans.flatMap f) = .ok (scans.map f) := by
  have len : (scans.flatMap f).length = scans.length * n := by
    induction scans with
    | nil => simp
    | cons s l ih =>
      rw [List.flatMap_cons, List.length_append, ih fun t ht => hl t (by simp [ht]), hl s (by simp), List.length_cons]
      ring
  unfold reshape
  rw [if_pos len]
  congr 1
  clear len
  induction scans with
  | nil => rfl
  | cons s l ih =>
    have hs := hl s (by simp)
    rw [List.length_cons, List.range_succ_eq_map, List.map_cons, List.map_cons, List.map_map]
    congr 1
    · simp [List.flatMap_cons, ← hs]
    · rw [← ih fun t ht => hl t (by simp [ht])]
      apply List.map_congr_left
      intro i _
      simp only [Function.comp, List.flatMap_cons]
      rw [show (i.succ) * n = (f s).length + i * n by rw [hs, Nat.succ_mul]; ring, List.drop_append]
      rw [List.drop_eq_nil_of_le (by omega), List.nil_append]
      simp

theorem zip_flatMap {scans : List Scan} {f g : Scan → List Num} (op : Num → Num → Num)
    (hl : ∀ s ∈ scans, (f s).length = (g s).length) :
    List.zipWith op (scans.flatMap f) (scans.flatMap g) = scans.flatMap fun s => List.zipWith op (f s) (g s) := by
  induction scans with
  | nil => rfl
  | cons s l ih =>
    rw [List.flatMap_cons, List.flatMap_cons, List.flatMap_cons, List.zipWith_append (hl s (by simp)),
      ih fun t ht => hl t (by simp [ht])]

theorem flatMap_length {scans : List Scan} {f : Scan → List Num} {n : ℕ} (hl : ∀ s ∈ scans, (f s).length = n) :
    (scans.flatMap f).length = scans.length * n := by
  induction scans with
  | nil => simp
  | cons s l ih =>
    rw [List.flatMap_cons, List.length_append, ih fun t ht => hl t (by simp [ht]), hl s (by simp), List.length_cons]
    ring

theorem flatCols_general {scans : List Scan} {fx fy fz : Scan → List Num} {x y z : Str} {n : ℕ}
    (hx : ∀ s ∈ scans, s.col x = .ok (fx s) ∧ (fx s).length = n) (hy : ∀ s ∈ scans, s.col y = .ok (fy s) ∧ (fy s).length = n)
    (hz : ∀ s ∈ scans, s.col z = .ok (fz s) ∧ (fz s).length = n) :
    flatCols scans x y z = .ok (scans.flatMap fx, scans.flatMap fy, scans.flatMap fz) := by
  unfold flatCols
  rw [groupCol_ok fun s hs => (hx s hs).1, py_bind_ok, mapM_ok (g := fun s => (fx s, fy s, fz s))]
  · simp only [py_bind_ok, List.map_map]; rfl
  · intro s hs
    obtain ⟨h1, l1⟩ := hx s hs
    obtain ⟨h2, l2⟩ := hy s hs
    obtain ⟨h3, l3⟩ := hz s hs
    rw [h1, h2, h3]
    simp only [py_bind_ok]
    rw [fillSlice_ok (by rw [l1, l2]), fillSlice_ok (by rw [l1, l3])]
    rfl

/-- **C41** Scans of equal length without rebinning: row `i` of every table is the corresponding column of scan `i`, in order;
with a normalisation, row `i` holds the renormalised counts of scan `i`. -/
theorem C41_rows_partial {scans : List Scan} (hne : scans ≠ []) {fx fy fz fn : Scan → List Num} {x y z : Str} {n : ℕ}
    (hx : ∀ s ∈ scans, s.col x = .ok (fx s) ∧ (fx s).length = n) (hy : ∀ s ∈ scans, s.col y = .ok (fy s) ∧ (fy s).length = n)
    (hz : ∀ s ∈ scans, s.col z = .ok (fz s) ∧ (fz s).length = n) (hax : ∀ s ∈ scans, s.defX = x ∨ s.defX = y) :
    (∀ ch0 v0, (∀ s ∈ scans, s.preset = .normal ch0 v0) → combine2D scans x y z none none = .ok {
      x := scans.map fx, y := scans.map fy, z := scans.map fz, err := scans.map fun s => (fz s).map nsqrt }) ∧
    (∀ v ch, (∀ s ∈ scans, s.col ch = .ok (fn s) ∧ (fn s).length = n) → combine2D scans x y z (some (v, ch)) none = .ok {
      x := scans.map fx, y := scans.map fy,
      z := scans.map fun s => (List.zipWith ndiv (fz s) (fn s)).map (nmul · (some v)),
      err := scans.map fun s => (List.zipWith ndiv ((fz s).map nsqrt) (fn s)).map (nmul · (some v)) }) := by
  have hlast : ∃ s ∈ scans, scans.getLast? = some s := ⟨scans.getLast hne, List.getLast_mem hne, List.getLast?_eq_some_getLast hne⟩
  obtain ⟨last, hmem, hlast⟩ := hlast
  have hm : 0 < scans.length := List.length_pos_iff.2 hne
  have hn : (scans.flatMap fx).length / scans.length = n := by
    rw [flatMap_length fun s hs => (hx s hs).2]; exact Nat.mul_div_cancel_left n hm
  have e1 : (scans.flatMap fz).map nsqrt = scans.flatMap fun s => (fz s).map nsqrt := List.map_flatMap
  constructor
  · intro ch0 v0 hp
    unfold combine2D combine2DRaw
    dsimp only
    rw [flatCols_general hx hy hz]
    simp only [py_bind_ok, hlast, need_some, hn]
    rw [if_pos (hax last hmem), defaultRenorm_ok hne hp]
    simp only [py_bind_ok, py_pure, ScanData2D.init, e1]
    rw [reshape_rows fun s hs => (hx s hs).2, reshape_rows fun s hs => (hy s hs).2, reshape_rows fun s hs => (hz s hs).2,
      reshape_rows fun s hs => by rw [List.length_map]; exact (hz s hs).2]
    rfl
  · intro v ch hc
    have lens : ∀ s ∈ scans, (fz s).length = (fn s).length := fun s hs => by rw [(hz s hs).2, (hc s hs).2]
    have lens' : ∀ s ∈ scans, ((fz s).map nsqrt).length = (fn s).length := fun s hs => by
      rw [List.length_map]; exact lens s hs
    have hren : (ScanData2D.init (scans.flatMap fx) (scans.flatMap fy) (scans.flatMap fz)).renorm (some (scans.flatMap fn)) v =
        .ok { x := scans.flatMap fx, y := scans.flatMap fy,
              z := scans.flatMap fun s => (List.zipWith ndiv (fz s) (fn s)).map (nmul · (some v)),
              err := scans.flatMap fun s => (List.zipWith ndiv ((fz s).map nsqrt) (fn s)).map (nmul · (some v)),
              norm := none } := by
      unfold ScanData2D.renorm ScanData2D.init normCol zipN
      simp only [py_bind_ok, e1]
      rw [if_pos (by rw [flatMap_length fun s hs => (hz s hs).2, flatMap_length fun s hs => (hc s hs).2]),
        if_pos (by rw [flatMap_length (n := n) (fun s hs => by rw [List.length_map]; exact (hz s hs).2),
          flatMap_length fun s hs => (hc s hs).2]), zip_flatMap _ lens, zip_flatMap _ lens']
      simp only [py_bind_ok, List.map_flatMap]
      rfl
    unfold combine2D combine2DRaw
    dsimp only
    rw [flatCols_general hx hy hz]
    simp only [py_bind_ok, hlast, need_some, hn]
    rw [if_pos (hax last hmem), groupCol_ok fun s hs => (hc s hs).1]
    simp only [py_bind_ok, hren]
    rw [reshape_rows fun s hs => (hx s hs).2, reshape_rows fun s hs => (hy s hs).2,
      reshape_rows (n := n) (fun s hs => by simp [(hz s hs).2, (hc s hs).2]),
      reshape_rows (n := n) (fun s hs => by simp [(hz s hs).2, (hc s hs).2])]
    rfl

/-- A scan with three columns, scanned along `s1`. -/
noncomputable def exScanOf (c : List Num) : Scan :=
  { data := [("s1".toList, c), ("s2".toList, c), ("detector".toList, c)], preset := .normal "mcu".toList 1 }

theorem exScanOf_col (c : List Num) :
    (exScanOf c).col "s1".toList = .ok c ∧ (exScanOf c).col "s2".toList = .ok c ∧
      (exScanOf c).col "detector".toList = .ok c := by
  unfold Scan.col
  simp [exScanOf, lookupKey]

/-- **C41 (negation)** Scans of unequal length are not refused when the total is divisible by their number: a one-point and a
three-point scan give two rows of two points, the first point of the second scan ending up in the row of the first. -/
theorem C41_rows_mixed : ∃ r, combine2D [exScanOf [some 1], exScanOf [some 2, some 3, some 4]] "s1".toList "s2".toList
    "detector".toList none none = .ok r ∧ r.z = [[some 1, some 2], [some 3, some 4]] := by
  refine ⟨⟨[[some 1, some 2], [some 3, some 4]], [[some 1, some 2], [some 3, some 4]],
    [[some 1, some 2], [some 3, some 4]], [[nsqrt (some 1), nsqrt (some 2)], [nsqrt (some 3), nsqrt (some 4)]]⟩, ?_, rfl⟩
  have hf : flatCols [exScanOf [some 1], exScanOf [some 2, some 3, some 4]] "s1".toList "s2".toList "detector".toList =
      .ok ([some 1, some 2, some 3, some 4], [some 1, some 2, some 3, some 4], [some 1, some 2, some 3, some 4]) := by
    unfold flatCols groupCol
    simp only [List.mapM_cons, List.mapM_nil, (exScanOf_col _).1, (exScanOf_col _).2.1, (exScanOf_col _).2.2, py_bind_ok,
      fillSlice_ok rfl]
    rfl
  unfold combine2D combine2DRaw
  dsimp only
  rw [hf]
  simp only [py_bind_ok, List.getLast?_cons_cons, List.getLast?_singleton, need_some]
  rw [if_pos (by left; rfl), defaultRenorm_ok (ch := "mcu".toList) (v := 1) (by simp) (by simp [exScanOf])]
  rfl

/-- **C41** Unequal lengths whose total is not divisible by the number of scans are refused. -/
theorem C41_not_divisible_refused {scans : List Scan} (hne : scans ≠ []) {x y z : Str} {cx cy cz : List Num}
    {ch0 : Str} {v0 : ℝ} (hp : ∀ s ∈ scans, s.preset = .normal ch0 v0) (hf : flatCols scans x y z = .ok (cx, cy, cz))
    (hd : ¬ scans.length ∣ cx.length) : combine2D scans x y z none none = .error .valueError := by
  have hlast : scans.getLast? = some (scans.getLast hne) := List.getLast?_eq_some_getLast hne
  unfold combine2D combine2DRaw
  dsimp only
  rw [hf]
  simp only [py_bind_ok, hlast, need_some]
  split
  · rw [defaultRenorm_ok hne hp]
    simp only [py_bind_ok, py_pure, ScanData2D.init]
    have : reshape scans.length (cx.length / scans.length) cx = .error .valueError := by
      unfold reshape
      rw [if_neg]
      intro h
      exact hd ⟨_, h⟩
    rw [this]; rfl
  · rfl

/-! ## C40 -/

/-- A measured point: momentum, energy, counts, monitor. -/
structure Spec.HPt where
  h : ℝ
  k : ℝ
  l : ℝ
  e : ℝ
  z : ℝ
  n : ℝ

/-- The coordinates of a point along the axes in the order in which the user listed them: the energy at place `k`, elsewhere
the coefficients `co` along the projection vectors. -/
noncomputable def Spec.userCoord (k : Fin 4) (co : V3) (e : ℝ) : Fin 4 → ℝ := Fin.insertNth (α := fun _ => ℝ) k e co

/-- The axes argument: projection vectors with `"en"` inserted at place `k`, then the counts column. -/
def Spec.userAxes (k : Fin 4) (vs : Fin 3 → V3) (z : Str) : List AxisItem :=
  List.ofFn (Fin.insertNth (α := fun _ => AxisItem) k (.name "en".toList) fun i => .vec (vs i)) ++ [.name z]

/-- Place of the user's axis `m` after the energy was moved to the end. -/
def newPos (k m : Fin 4) : ℕ := if m = k then 3 else if m < k then m else m - 1

theorem toPlot_four (a b c d : RebinArg) :
    toPlot [a, b, c, d] = .ok ((if isPair a then [] else [0]) ++ ((if isPair b then [] else [1]) ++
      ((if isPair c then [] else [2]) ++ (if isPair d then [] else [3])))) := by
  unfold toPlot
  have : (List.range 4) = [0, 1, 2, 3] := rfl
  rw [this]
  simp only [List.mapM_cons, List.mapM_nil, List.getElem?_cons_zero, List.getElem?_cons_succ, need_some, py_bind_ok, py_pure]
  simp only [List.filter_cons, List.filter_nil]
  cases isPair a <;> cases isPair b <;> cases isPair c <;> cases isPair d <;> rfl

theorem enIndex_ok (k : Fin 4) (vs : Fin 3 → V3) (z : Str) : enIndex (Spec.userAxes k vs z) = .ok k := by
  fin_cases k <;> rfl

set_option maxHeartbeats 800000 in
theorem reorder_ok {k : Fin 4} {vs : Fin 3 → V3} {z : Str} {g : Fin 4 → RebinArg} {i j : Fin 4} (hij : i < j)
    (hg : ∀ m, isPair (g m) = decide (m ≠ i ∧ m ≠ j)) :
    reorder (Spec.userAxes k vs z) (List.ofFn g) =
      .ok ([.vec (vs 0), .vec (vs 1), .vec (vs 2), .name "en".toList, .name z],
        [g (k.succAbove 0), g (k.succAbove 1), g (k.succAbove 2), g k], newPos k i, newPos k j) := by
  unfold reorder
  rw [enIndex_ok]
  have h0 := hg 0
  have h1 := hg 1
  have h2 := hg 2
  have h3 := hg 3
  have hl : List.ofFn g = [g 0, g 1, g 2, g 3] := by simp [List.ofFn_succ]
  rw [hl, toPlot_four]
  fin_cases k <;> fin_cases i <;> fin_cases j <;> first
    | (exfalso; revert hij; decide)
    | (simp [h0, h1, h2, h3, need, Spec.userAxes, List.ofFn_succ, Fin.insertNth, toPlot_four, newPos] <;>
        (and_intros <;> rfl))

/-- Coordinates in the order used by the code: three coefficients, then the energy. -/
def newCoord (co : V3) (e : ℝ) (i : ℕ) : ℝ := if i = 0 then co 0 else if i = 1 then co 1 else if i = 2 then co 2 else e

theorem newCoord_pos (k m : Fin 4) (co : V3) (e : ℝ) : newCoord co e (newPos k m) = Spec.userCoord k co e m := by
  fin_cases k <;> fin_cases m <;> rfl

theorem newPos_lt (k m : Fin 4) : newPos k m < 4 := by
  fin_cases k <;> fin_cases m <;> decide

theorem newPos_inj (k m m' : Fin 4) (h : newPos k m = newPos k m') : m = m' := by
  revert k m m'; decide

theorem newPos_surj (k : Fin 4) (n : ℕ) (h : n < 4) : ∃ m, newPos k m = n := by
  have : ∀ k n : Fin 4, ∃ m, newPos k m = n := by decide
  exact this k ⟨n, h⟩

/-- The grid in the new order, by position. -/
theorem newGrid_pos (k m : Fin 4) (g : Fin 4 → RebinArg) :
    [g (k.succAbove 0), g (k.succAbove 1), g (k.succAbove 2), g k][newPos k m]? = some (g m) := by
  fin_cases k <;> fin_cases m <;> rfl

/-- The columns of scan `s` used by the combination are those of the points. -/
def Spec.MeasuredH (s : Scan) (z ch : Str) (pts : List Spec.HPt) : Prop :=
  s.col "qh".toList = .ok (pts.map fun p => some p.h) ∧ s.col "qk".toList = .ok (pts.map fun p => some p.k) ∧
  s.col "ql".toList = .ok (pts.map fun p => some p.l) ∧ s.col "en".toList = .ok (pts.map fun p => some p.e) ∧
  s.col z = .ok (pts.map fun p => some p.z) ∧ s.col ch = .ok (pts.map fun p => some p.n)

theorem hkleRows_ok {scans : List Scan} {pts : Scan → List Spec.HPt} {z ch : Str}
    (hm : ∀ s ∈ scans, Spec.MeasuredH s z ch (pts s)) :
    hkleRows scans z ch = .ok [(scans.flatMap pts).map (fun p => some p.h), (scans.flatMap pts).map (fun p => some p.k),
      (scans.flatMap pts).map (fun p => some p.l), (scans.flatMap pts).map (fun p => some p.e),
      (scans.flatMap pts).map (fun p => some p.z), (scans.flatMap pts).map (fun p => some p.n)] := by
  unfold hkleRows
  rw [mapM_ok (g := fun s => [(pts s).map fun p => some p.h, (pts s).map fun p => some p.k, (pts s).map fun p => some p.l,
    (pts s).map fun p => some p.e, (pts s).map fun p => some p.z, (pts s).map fun p => some p.n])]
  · simp only [py_bind_ok, List.map_map, List.map_flatMap]; rfl
  · intro s hs
    obtain ⟨h1, h2, h3, h4, h5, h6⟩ := hm s hs
    rw [h1, h2, h3, h4, h5, h6]
    simp only [py_bind_ok, List.length_map]
    rw [fillSlice_ok (by simp), fillSlice_ok (by simp), fillSlice_ok (by simp), fillSlice_ok (by simp), fillSlice_ok (by simp)]
    rfl

theorem projRow_ok {vs : Fin 3 → V3} {pts : List Spec.HPt} {co : Spec.HPt → V3}
    (hdet : (colMat (vs 0) (vs 1) (vs 2)).det ≠ 0)
    (hco : ∀ p, co p 0 • vs 0 + co p 1 • vs 1 + co p 2 • vs 2 = ![p.h, p.k, p.l]) (i : Fin 3) :
    projRow (colMat (vs 0) (vs 1) (vs 2))⁻¹ i (pts.map fun p => some p.h) (pts.map fun p => some p.k)
      (pts.map fun p => some p.l) = pts.map fun p => some (co p i) := by
  have key : ∀ p, co p = (colMat (vs 0) (vs 1) (vs 2))⁻¹ *ᵥ ![p.h, p.k, p.l] := by
    intro p
    have : colMat (vs 0) (vs 1) (vs 2) *ᵥ co p = ![p.h, p.k, p.l] := by
      rw [← hco p]
      ext i
      fin_cases i <;> simp [colMat, Matrix.mulVec, dotProduct, Fin.sum_univ_three] <;> ring
    rw [← this, Matrix.mulVec_mulVec, Matrix.nonsing_inv_mul _ (isUnit_iff_ne_zero.2 hdet), Matrix.one_mulVec]
  unfold projRow
  rw [List.zip_map']
  rw [List.zipWith_map, List.zipWith_self]
  apply List.map_congr_left
  intro p _
  rw [key p]
  simp only [nmul, nadd, Matrix.mulVec, dotProduct, Fin.sum_univ_three]
  rfl

theorem inside_ok (pts : List Spec.HPt) (f : Spec.HPt → ℝ) (lo hi : ℝ) (st : Option ℝ) :
    inside ⟨some lo, some hi, st⟩ (pts.map fun p => some (f p)) =
      .ok (pts.map fun p => decide (lo < f p ∧ f p < hi)) := by
  unfold inside
  simp only [need_some, py_bind_ok, List.map_map]
  rfl

theorem fold_masks {α : Type} (pts : List α) (ms : List (α → Bool)) (m0 : α → Bool) :
    (ms.map fun m => pts.map m).foldl (fun m m' => List.zipWith (· && ·) m m') (pts.map m0) =
      pts.map fun p => m0 p && ms.all fun m => m p := by
  induction ms generalizing m0 with
  | nil => simp
  | cons m ms ih =>
    simp only [List.map_cons, List.foldl_cons]
    rw [List.zipWith_map, List.zipWith_self, ih]
    apply List.map_congr_left
    intro p _
    simp [Bool.and_assoc]

theorem applyMask_ok {α : Type} (pts : List α) (m : α → Bool) (f : α → Num) :
    applyMask (pts.map m) (pts.map f) = (pts.filter m).map f := by
  unfold applyMask
  rw [List.zip_map', List.filter_map, List.map_map]
  rfl

end Tavi
