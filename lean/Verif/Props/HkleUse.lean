import Verif.Props.Hkle

/-! # C40: the combination in (h, k, l, E) -/

namespace Tavi

open Classical Matrix

theorem newParams_pos (k m : Fin 4) (P : Fin 4 → RebinParams) :
    [P (k.succAbove 0), P (k.succAbove 1), P (k.succAbove 2), P k].getD (newPos k m) {} = P m := by
  fin_cases k <;> fin_cases m <;> rfl

theorem qe_pos {α : Type} (l : List α) (co : α → V3) (e : α → ℝ) (k m : Fin 4) :
    [l.map (fun p => some (co p 0)), l.map (fun p => some (co p 1)), l.map (fun p => some (co p 2)),
      l.map (fun p => some (e p))].getD (newPos k m) [] = l.map fun p => some (Spec.userCoord k (co p) (e p) m) := by
  fin_cases k <;> fin_cases m <;> rfl

/-- Value and channel of the normalisation: as requested, else the common preset. -/
def Spec.normalisation (normTo : Option (ℝ × Str)) (ch0 : Str) (v0 : ℝ) : ℝ × Str := normTo.getD (v0, ch0)

/-- A request: the user's four axes (energy at place `k`), integrated over `(lo m, hi m)` except for the places `i < j`
which are plotted on the grids `P i`, `P j`. -/
structure Spec.HkleRequest (g : Fin 4 → RebinArg) (i j : Fin 4) (lo hi : Fin 4 → ℝ) (P : Fin 4 → RebinParams) : Prop where
  order : i < j
  integrated : ∀ m, m ≠ i → m ≠ j → g m = .tup2 (some (lo m)) (some (hi m)) ∧ lo m < hi m
  plotted : ∀ m, m = i ∨ m = j → isPair (g m) = false ∧ formatRebin (g m) = .ok (P m)

/-- The points with both integrated coordinates strictly inside their intervals. -/
noncomputable def Spec.kept (k i j : Fin 4) (lo hi : Fin 4 → ℝ) (co : Spec.HPt → V3) (pts : List Spec.HPt) : List Spec.HPt :=
  pts.filter fun p => decide (∀ m, m ≠ i → m ≠ j → lo m < Spec.userCoord k (co p) p.e m ∧ Spec.userCoord k (co p) p.e m < hi m)

/-- **C40** The map of a group of scans in (h, k, l, E): the points kept are exactly those strictly inside both integration
intervals; coordinates are expansion coefficients of hkl in the projection vectors (`co`); the plotted axes are those at the
user's places `i` and `j`, in this order, wherever the energy was listed; cells then follow `C36_cells`. -/
theorem C40_hkle {scans : List Scan} (hne : scans ≠ []) {pts : Scan → List Spec.HPt} {z ch0 : Str} {v0 : ℝ}
    {normTo : Option (ℝ × Str)} (hm : ∀ s ∈ scans, Spec.MeasuredH s z (Spec.normalisation normTo ch0 v0).2 (pts s))
    (hp : ∀ s ∈ scans, s.preset = .normal ch0 v0) {vs : Fin 3 → V3} (hdet : (colMat (vs 0) (vs 1) (vs 2)).det ≠ 0)
    {co : Spec.HPt → V3} (hco : ∀ p, co p 0 • vs 0 + co p 1 • vs 1 + co p 2 • vs 2 = ![p.h, p.k, p.l])
    {k i j : Fin 4} {g : Fin 4 → RebinArg} {lo hi : Fin 4 → ℝ} {P : Fin 4 → RebinParams}
    (hr : Spec.HkleRequest g i j lo hi P) :
    let kept := Spec.kept k i j lo hi co (scans.flatMap pts)
    let plotted : List Spec.Pt2 := kept.map fun p =>
      ⟨Spec.userCoord k (co p) p.e i, Spec.userCoord k (co p) p.e j, p.z, p.n⟩
    combineHkle scans (List.ofFn g) (Spec.userAxes k vs z) normTo =
      (Spec.map2D plotted (some (plotted.map fun q => some q.n))).rebinGridRenorm (P i) (P j) none
        (Spec.normalisation normTo ch0 v0).1 := by
  intro kept plotted
  obtain ⟨hij, hint, hplot⟩ := hr
  let P' : Fin 4 → RebinParams := fun m => if m = i ∨ m = j then P m else ⟨some (lo m), some (hi m), none⟩
  have hP' : ∀ m, formatRebin (g m) = .ok (P' m) := by
    intro m
    by_cases h : m = i ∨ m = j
    · simp only [P', if_pos h]; exact (hplot m h).2
    · simp only [P', if_neg h]
      push Not at h
      obtain ⟨e, hlt⟩ := hint m h.1 h.2
      rw [e, C39_accepted_iff]
      exact ⟨.pair _ _, by simpa using hlt, by simp⟩
  have hpair : ∀ m, isPair (g m) = decide (m ≠ i ∧ m ≠ j) := by
    intro m
    by_cases h : m = i ∨ m = j
    · rw [(hplot m h).1]; symm; rw [decide_eq_false_iff_not]; tauto
    · have h' : m ≠ i ∧ m ≠ j := by tauto
      rw [(hint m h'.1 h'.2).1, decide_eq_true h']; rfl
  have hnorm : pickNorm scans normTo = .ok (Spec.normalisation normTo ch0 v0) := by
    cases normTo with
    | none => exact defaultRenorm_ok hne hp
    | some n => rfl
  have hinv : projInv [.vec (vs 0), .vec (vs 1), .vec (vs 2), .name "en".toList, .name z] =
      .ok (colMat (vs 0) (vs 1) (vs 2))⁻¹ := by
    show (if (colMat (vs 0) (vs 1) (vs 2)).det = 0 then _ else _) = _
    rw [if_neg hdet]
  have hlast : lastName [.vec (vs 0), .vec (vs 1), .vec (vs 2), .name "en".toList, .name z] = .ok z := rfl
  set all := scans.flatMap pts with hall
  have hparams : [g (k.succAbove 0), g (k.succAbove 1), g (k.succAbove 2), g k].mapM formatRebin =
      .ok [P' (k.succAbove 0), P' (k.succAbove 1), P' (k.succAbove 2), P' k] := by
    simp only [List.mapM_cons, List.mapM_nil, hP', py_bind_ok]; rfl
  let M : ℕ → Spec.HPt → Bool := fun n p => decide (∀ m, newPos k m = n →
    lo m < Spec.userCoord k (co p) p.e m ∧ Spec.userCoord k (co p) p.e m < hi m)
  have hmasks : (((List.range 4).filter fun n => decide (n ≠ newPos k i ∧ n ≠ newPos k j)).mapM fun n =>
      inside ([P' (k.succAbove 0), P' (k.succAbove 1), P' (k.succAbove 2), P' k].getD n {})
        ([all.map (fun p => some (co p 0)), all.map (fun p => some (co p 1)), all.map (fun p => some (co p 2)),
          all.map (fun p => some p.e)].getD n [])) =
      .ok (((List.range 4).filter fun n => decide (n ≠ newPos k i ∧ n ≠ newPos k j)).map fun n => all.map (M n)) := by
    apply mapM_ok
    intro n hn
    obtain ⟨h1, h2⟩ := List.mem_filter.1 hn
    obtain ⟨m, rfl⟩ := newPos_surj k n (by simpa using h1)
    have h3 := of_decide_eq_true h2
    have hmi : m ≠ i := fun e => h3.1 (by rw [e])
    have hmj : m ≠ j := fun e => h3.2 (by rw [e])
    rw [newParams_pos, qe_pos]
    have : P' m = ⟨some (lo m), some (hi m), none⟩ := if_neg (by tauto)
    rw [this, inside_ok]
    congr 1
    apply List.map_congr_left
    intro p _
    apply decide_eq_decide.2
    constructor
    · intro h m' hm'
      rw [newPos_inj k m' m hm']; exact h
    · intro h; exact h m rfl
  have hmask : ((((List.range 4).filter fun n => decide (n ≠ newPos k i ∧ n ≠ newPos k j)).map fun n => all.map (M n)).foldl
      (fun m m' => List.zipWith (· && ·) m m') ((all.map fun p => some p.e).map fun _ => true)) =
      all.map fun p => decide (∀ m, m ≠ i → m ≠ j →
        lo m < Spec.userCoord k (co p) p.e m ∧ Spec.userCoord k (co p) p.e m < hi m) := by
    have e := fold_masks all (((List.range 4).filter fun n => decide (n ≠ newPos k i ∧ n ≠ newPos k j)).map M) fun _ => true
    rw [List.map_map] at e
    rw [List.map_map]
    refine Eq.trans e ?_
    apply List.map_congr_left
    intro p _
    rw [Bool.true_and, Bool.eq_iff_iff, List.all_eq_true, decide_eq_true_iff]
    constructor
    · intro h m h1 h2
      have := h (M (newPos k m)) (List.mem_map.2 ⟨newPos k m, List.mem_filter.2 ⟨List.mem_range.2 (newPos_lt k m),
        decide_eq_true ⟨fun e => h1 (newPos_inj k _ _ e), fun e => h2 (newPos_inj k _ _ e)⟩⟩, rfl⟩)
      exact of_decide_eq_true this m rfl
    · intro h f hf
      obtain ⟨n, hn, rfl⟩ := List.mem_map.1 hf
      obtain ⟨_, h2⟩ := List.mem_filter.1 hn
      have h3 := of_decide_eq_true h2
      apply decide_eq_true
      intro m hmn
      exact h m (fun e => h3.1 (by rw [← hmn, e])) (fun e => h3.2 (by rw [← hmn, e]))
  have hi' : P' i = P i := if_pos (Or.inl rfl)
  have hj' : P' j = P j := if_pos (Or.inr rfl)
  have hinit : ScanData2D.init (kept.map fun p => some (Spec.userCoord k (co p) p.e i))
      (kept.map fun p => some (Spec.userCoord k (co p) p.e j)) (kept.map fun p => some p.z)
      (some (kept.map fun p => some p.n)) = Spec.map2D plotted (some (plotted.map fun q => some q.n)) := by
    rw [← map2D_init]
    simp only [plotted, List.map_map]
    rfl
  unfold combineHkle
  rw [reorder_ok hij hpair]
  simp only [py_bind_ok, hlast, groupCol_ok fun s hs => (hm s hs).2.2.2.2.1, hnorm, hkleRows_ok hm, hinv, hparams, List.getD_cons_zero, List.getD_cons_succ,
    projRow_ok hdet hco]
  rw [hmasks]
  simp only [py_bind_ok]
  rw [hmask, qe_pos, qe_pos, newParams_pos, newParams_pos, hi', hj', applyMask_ok, applyMask_ok, applyMask_ok, applyMask_ok]
  exact congrArg (fun d => ScanData2D.rebinGridRenorm d (P i) (P j) none (Spec.normalisation normTo ch0 v0).1) hinit

/-- **C40** Linearly dependent projection vectors are refused. -/
theorem C40_dependent_refused {scans : List Scan} {pts : Scan → List Spec.HPt} {z ch : Str} {v : ℝ}
    (hm : ∀ s ∈ scans, Spec.MeasuredH s z ch (pts s)) {vs : Fin 3 → V3} (hdet : (colMat (vs 0) (vs 1) (vs 2)).det = 0)
    {k i j : Fin 4} (hij : i < j) {g : Fin 4 → RebinArg} (hg : ∀ m, isPair (g m) = decide (m ≠ i ∧ m ≠ j)) :
    combineHkle scans (List.ofFn g) (Spec.userAxes k vs z) (some (v, ch)) = .error .valueError := by
  have hinv : projInv [.vec (vs 0), .vec (vs 1), .vec (vs 2), .name "en".toList, .name z] = .error .valueError := by
    show (if (colMat (vs 0) (vs 1) (vs 2)).det = 0 then _ else _) = _
    rw [if_pos hdet]
  have hlast : lastName [.vec (vs 0), .vec (vs 1), .vec (vs 2), .name "en".toList, .name z] = .ok z := rfl
  have hnorm : pickNorm scans (some (v, ch)) = .ok (v, ch) := rfl
  unfold combineHkle
  rw [reorder_ok hij hg]
  simp only [py_bind_ok, hlast, groupCol_ok fun s hs => (hm s hs).2.2.2.2.1, hnorm, hkleRows_ok hm, hinv, py_bind_err]

/-- The hypotheses of `C40_hkle` are met by every invertible projection: the coefficients exist. -/
theorem coefficients_exist {vs : Fin 3 → V3} (hdet : (colMat (vs 0) (vs 1) (vs 2)).det ≠ 0) :
    ∃ co : Spec.HPt → V3, ∀ p, co p 0 • vs 0 + co p 1 • vs 1 + co p 2 • vs 2 = ![p.h, p.k, p.l] := by
  have lin : ∀ w : V3, w 0 • vs 0 + w 1 • vs 1 + w 2 • vs 2 = colMat (vs 0) (vs 1) (vs 2) *ᵥ w := by
    intro w
    ext i
    fin_cases i <;> simp [colMat, Matrix.mulVec, dotProduct, Fin.sum_univ_three] <;> ring
  refine ⟨fun p => (colMat (vs 0) (vs 1) (vs 2))⁻¹ *ᵥ ![p.h, p.k, p.l], fun p => ?_⟩
  rw [lin, Matrix.mulVec_mulVec, Matrix.mul_nonsing_inv _ (isUnit_iff_ne_zero.2 hdet), Matrix.one_mulVec]

/-- A concrete request: energy listed second and plotted vertically against the first axis. -/
example : Spec.HkleRequest ![.num 0.1, .num 0.5, .tup2 (some (-1)) (some 1), .tup2 (some 0) (some 2)] 0 1 ![0, 0, -1, 0]
    ![0, 0, 1, 2] ![⟨none, none, some 0.1⟩, ⟨none, none, some 0.5⟩, {}, {}] := by
  refine ⟨by decide, fun m h0 h1 => ?_, fun m h => ?_⟩
  · fin_cases m
    · exact absurd rfl h0
    · exact absurd rfl h1
    · exact ⟨rfl, by norm_num⟩
    · exact ⟨rfl, by norm_num⟩
  · rcases h with rfl | rfl
    · exact ⟨rfl, (C39_accepted_iff _ _).2 ⟨.step _, by simp, by norm_num⟩⟩
    · exact ⟨rfl, (C39_accepted_iff _ _).2 ⟨.step _, by simp, by norm_num⟩⟩

end Tavi
