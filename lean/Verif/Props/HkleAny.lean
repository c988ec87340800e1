import Verif.Props.Hkle

/-! # C41, continued: scans of any lengths -/

namespace Tavi

/-- `rows` are the numbers of `l`, in order, in `m` rows of `k`. -/
def Spec.Table (rows : Grid) (m k : ℕ) (l : List Num) : Prop :=
  rows.length = m ∧ (∀ r ∈ rows, r.length = k) ∧ rows.flatten = l

theorem chunks_flatten (k : ℕ) : ∀ (m : ℕ) (l : List Num), l.length = m * k →
    ((List.range m).map fun i => (l.drop (i * k)).take k).flatten = l
  | 0, l, h => by
    have : l = [] := List.length_eq_zero_iff.1 (by simpa using h)
    rw [this]; rfl
  | m + 1, l, h => by
    have hl : k ≤ l.length := by rw [h, Nat.succ_mul]; omega
    have ih := chunks_flatten k m (l.drop k) (by rw [List.length_drop, h, Nat.succ_mul]; omega)
    rw [List.range_succ_eq_map, List.map_cons, List.flatten_cons, List.map_map, Nat.zero_mul, List.drop_zero]
    conv_rhs => rw [← List.take_append_drop k l, ← ih]
    congr 2
    apply List.map_congr_left
    intro i _
    simp only [Function.comp]
    rw [List.drop_drop, Nat.succ_mul, Nat.add_comm]

theorem reshape_table {m k : ℕ} {l : List Num} (h : l.length = m * k) : ∃ r, reshape m k l = .ok r ∧ Spec.Table r m k l := by
  refine ⟨_, if_pos h, by simp, ?_, chunks_flatten k m l h⟩
  intro r hr
  obtain ⟨i, hi, rfl⟩ := List.mem_map.1 hr
  have hi := List.mem_range.1 hi
  rw [List.length_take, List.length_drop, h]
  have : (i + 1) * k ≤ m * k := Nat.mul_le_mul_right k hi
  rw [Nat.succ_mul] at this
  omega

theorem flatCols_any {scans : List Scan} {fx fy fz : Scan → List Num} {x y z : Str}
    (hx : ∀ s ∈ scans, s.col x = .ok (fx s)) (hy : ∀ s ∈ scans, s.col y = .ok (fy s) ∧ (fy s).length = (fx s).length)
    (hz : ∀ s ∈ scans, s.col z = .ok (fz s) ∧ (fz s).length = (fx s).length) :
    flatCols scans x y z = .ok (scans.flatMap fx, scans.flatMap fy, scans.flatMap fz) := by
  unfold flatCols
  rw [groupCol_ok hx, py_bind_ok, mapM_ok (g := fun s => (fx s, fy s, fz s))]
  · simp only [py_bind_ok, List.map_map]; rfl
  · intro s hs
    obtain ⟨h2, l2⟩ := hy s hs
    obtain ⟨h3, l3⟩ := hz s hs
    rw [hx s hs, h2, h3]
    simp only [py_bind_ok]
    rw [fillSlice_ok l2, fillSlice_ok l3]
    rfl

theorem flatMap_len_congr {scans : List Scan} {f g : Scan → List Num} (h : ∀ s ∈ scans, (g s).length = (f s).length) :
    (scans.flatMap g).length = (scans.flatMap f).length := by
  rw [List.length_flatMap, List.length_flatMap]
  congr 1
  exact List.map_congr_left h

/-- **C41** Scans of any lengths without rebinning: the points of all scans, in order, are distributed over as many rows of equal
length as there are scans, or refused when that does not come out even. The rows are the scans only if these have the same
number of points. -/
theorem C41_any_lengths {scans : List Scan} (hne : scans ≠ []) {fx fy fz : Scan → List Num} {x y z : Str}
    (hx : ∀ s ∈ scans, s.col x = .ok (fx s)) (hy : ∀ s ∈ scans, s.col y = .ok (fy s) ∧ (fy s).length = (fx s).length)
    (hz : ∀ s ∈ scans, s.col z = .ok (fz s) ∧ (fz s).length = (fx s).length) (hax : ∀ s ∈ scans, s.defX = x ∨ s.defX = y)
    {ch0 : Str} {v0 : ℝ} (hp : ∀ s ∈ scans, s.preset = .normal ch0 v0) :
    (∀ k, (scans.flatMap fx).length = scans.length * k → ∃ r, combine2D scans x y z none none = .ok r ∧
      Spec.Table r.x scans.length k (scans.flatMap fx) ∧ Spec.Table r.y scans.length k (scans.flatMap fy) ∧
      Spec.Table r.z scans.length k (scans.flatMap fz) ∧ Spec.Table r.err scans.length k ((scans.flatMap fz).map nsqrt) ∧
      (r.z = scans.map fz ↔ ∀ s ∈ scans, (fx s).length = k)) ∧
    (¬ scans.length ∣ (scans.flatMap fx).length → combine2D scans x y z none none = .error .valueError) := by
  have hf := flatCols_any hx hy hz
  refine ⟨fun k hk => ?_, fun hd => C41_not_divisible_refused hne hp hf hd⟩
  have hm : 0 < scans.length := List.length_pos_iff.2 hne
  have hdiv : (scans.flatMap fx).length / scans.length = k := by rw [hk, Nat.mul_div_cancel_left k hm]
  have ly := (flatMap_len_congr fun s hs => (hy s hs).2).trans hk
  have lz := (flatMap_len_congr fun s hs => (hz s hs).2).trans hk
  obtain ⟨rx, ex, tx⟩ := reshape_table hk
  obtain ⟨ry, ey, ty⟩ := reshape_table ly
  obtain ⟨rz, ez, tz⟩ := reshape_table lz
  obtain ⟨re, ee, te⟩ := reshape_table (l := (scans.flatMap fz).map nsqrt) (by rw [List.length_map]; exact lz)
  have hlast : scans.getLast? = some (scans.getLast hne) := List.getLast?_eq_some_getLast hne
  refine ⟨⟨rx, ry, rz, re⟩, ?_, tx, ty, tz, te, ?_, ?_⟩
  · unfold combine2D combine2DRaw
    dsimp only
    rw [hf]
    simp only [py_bind_ok, hlast, need_some, hdiv]
    rw [if_pos (hax _ (List.getLast_mem hne)), defaultRenorm_ok hne hp]
    simp only [py_bind_ok, py_pure, ScanData2D.init, ex, ey, ez, ee]
  · intro h s hs
    have h : rz = scans.map fz := h
    rw [← (hz s hs).2]
    exact tz.2.1 _ (by rw [h]; exact List.mem_map_of_mem hs)
  · intro h
    show rz = scans.map fz
    have e := reshape_rows (f := fz) (scans := scans) (n := k) fun s hs => by rw [(hz s hs).2, h s hs]
    rw [ez] at e
    exact Except.ok.inj e

/-- A one-point and a three-point scan: two rows of two, and neither is a scan. -/
example : ∃ r, combine2D [exScanOf [some 1], exScanOf [some 2, some 3, some 4]] "s1".toList "s2".toList "detector".toList none none = .ok r ∧
    Spec.Table r.z 2 2 [some 1, some 2, some 3, some 4] ∧ r.z ≠ [[some 1], [some 2, some 3, some 4]] := by
  let cs : Scan → List Num := fun s => (lookupKey "detector".toList s.data).getD []
  obtain ⟨r, h, _, _, hz, _, hi⟩ := (C41_any_lengths (scans := [exScanOf [some 1], exScanOf [some 2, some 3, some 4]]) (by simp)
    (fx := cs) (fy := cs) (fz := cs) (x := "s1".toList) (y := "s2".toList) (z := "detector".toList)
    (by intro s hs; simp at hs; rcases hs with rfl | rfl <;> exact (exScanOf_col _).1)
    (by intro s hs; simp at hs; rcases hs with rfl | rfl <;> exact ⟨(exScanOf_col _).2.1, rfl⟩)
    (by intro s hs; simp at hs; rcases hs with rfl | rfl <;> exact ⟨(exScanOf_col _).2.2, rfl⟩)
    (by intro s hs; simp at hs; rcases hs with rfl | rfl <;> exact .inl rfl) (ch0 := "mcu".toList) (v0 := 1)
    (by intro s hs; simp at hs; rcases hs with rfl | rfl <;> rfl)).1 2 rfl
  exact ⟨r, h, hz, fun e => absurd (hi.1 e _ (List.mem_cons_self ..)) (by decide)⟩

end Tavi
