import Verif.Model.Convolution
import Verif.Props.Quadric

/-! # C73, C74: convolution of a model with the resolution function -/

namespace Tavi

open Matrix

namespace Spec

/-- Node `i` of the sampling grid relative to the centre: along each axis `n + 1` equidistant nodes from `-3` to `3`
standard deviations; `V` is the covariance matrix. -/
noncomputable def offset (V : Mat 4 4) (n : Pts) (i : ℕ × ℕ × ℕ) : V3 :=
  ![√(V 0 0) * (6 * i.1 / n.1 - 3), √(V 1 1) * (6 * i.2.1 / n.2.1 - 3), √(V 2 2) * (6 * i.2.2 / n.2.2 - 3)]

/-- The resolution matrix in momentum alone: the inverse of the momentum block of the covariance matrix. -/
noncomputable def qBlock (V : Mat 4 4) : Mat 3 3 := (V.submatrix Fin.castSucc Fin.castSucc)⁻¹

/-- Squared distance between the centre and band `b` at momentum offset `x`, in standard deviations. -/
noncomputable def dist2 {B : ℕ} (p : ResoParams) (disp : Fin B → V3 → ℝ) (x : V3) (b : Fin B) : ℝ :=
  qform p.mat ![x 0, x 1, x 2, disp b (p.q + x) - p.en]

/-- The nodes closer than three standard deviations. -/
noncomputable def nodes (V : Mat 4 4) (n : Pts) : Finset (ℕ × ℕ × ℕ) :=
  (Finset.range (n.1 + 1) ×ˢ Finset.range (n.2.1 + 1) ×ˢ Finset.range (n.2.2 + 1)).filter
    fun i => qform (qBlock V) (offset V n i) < 9

/-- The sum over the nodes, and over the bands, of intensity times the Gaussian; nodes where every band is at a squared
distance of at least 125 are left out. -/
noncomputable def gaussSum {B : ℕ} (p : ResoParams) (disp inten : Fin B → V3 → ℝ) (n : Pts) : ℝ :=
  ∑ i ∈ nodes p.mat⁻¹ n, if ∃ b, dist2 p disp (offset p.mat⁻¹ n i) b < 125 then
    ∑ b, inten b (p.q + offset p.mat⁻¹ n i) * Real.exp (-dist2 p disp (offset p.mat⁻¹ n i) b / 2) else 0

/-- Volume of a cell of the grid. -/
noncomputable def cellVolume (V : Mat 4 4) (n : Pts) : ℝ :=
  (6 * √(V 0 0) / n.1) * (6 * √(V 1 1) / n.2.1) * (6 * √(V 2 2) / n.2.2)

/-- Nothing of interest on the coarse grid: all bands below, or all above, the window of three standard deviations in
energy, or all further than a squared distance of 125. -/
def Nothing {B : ℕ} (p : ResoParams) (disp : Fin B → V3 → ℝ) : Prop :=
  (∀ i ∈ nodes p.mat⁻¹ (10, 10, 10), ∀ b, disp b (p.q + offset p.mat⁻¹ (10, 10, 10) i) < p.en - 3 * √(p.mat⁻¹ 3 3)) ∨
  (∀ i ∈ nodes p.mat⁻¹ (10, 10, 10), ∀ b, p.en + 3 * √(p.mat⁻¹ 3 3) < disp b (p.q + offset p.mat⁻¹ (10, 10, 10) i)) ∨
  (∀ i ∈ nodes p.mat⁻¹ (10, 10, 10), ∀ b, 125 < dist2 p disp (offset p.mat⁻¹ (10, 10, 10) i) b)

/-- The coarse grid. -/
abbrev ten : Pts := (10, 10, 10)

/-- The node on the line through `i` along axis `ax` with coordinate `k`. -/
def onLine (ax : Fin 3) (i : ℕ × ℕ × ℕ) (k : ℕ) : ℕ × ℕ × ℕ :=
  match ax with
  | 0 => (k, i.2.1, i.2.2)
  | 1 => (i.1, k, i.2.2)
  | 2 => (i.1, i.2.1, k)

/-- The places on a line of the coarse grid where both neighbouring nodes are inside the ellipsoid. -/
noncomputable def gaps (V : Mat 4 4) (ax : Fin 3) (i : ℕ × ℕ × ℕ) : Finset ℕ :=
  (Finset.range 10).filter fun k => onLine ax i k ∈ nodes V ten ∧ onLine ax i (k + 1) ∈ nodes V ten

/-- The mean change of energy of band `b` from one node to the next on a line of the coarse grid. -/
noncomputable def meanStep {B : ℕ} (p : ResoParams) (disp : Fin B → V3 → ℝ) (ax : Fin 3) (b : Fin B) (i : ℕ × ℕ × ℕ) : ℝ :=
  (∑ k ∈ gaps p.mat⁻¹ ax i, |disp b (p.q + offset p.mat⁻¹ ten (onLine ax i (k + 1)))
    - disp b (p.q + offset p.mat⁻¹ ten (onLine ax i k))|) / (gaps p.mat⁻¹ ax i).card

/-- `s` is the largest mean change of energy along lines in direction `ax`; zero when there is none. -/
def IsMaxStep {B : ℕ} (p : ResoParams) (disp : Fin B → V3 → ℝ) (ax : Fin 3) (s : ℝ) : Prop :=
  (∀ b i, (gaps p.mat⁻¹ ax i).Nonempty → meanStep p disp ax b i ≤ s) ∧
  ((s = 0 ∧ ∀ (_ : Fin B) i, ¬ (gaps p.mat⁻¹ ax i).Nonempty) ∨
    ∃ b i, (gaps p.mat⁻¹ ax i).Nonempty ∧ s = meanStep p disp ax b i)

/-- Number of grid intervals for a mean change of energy `s` when changes up to `r` are tolerated. -/
noncomputable def intervals (s r : ℝ) (maxStep : ℕ) : ℕ := if r < s then min ⌊10 * s / r⌋₊ maxStep else 10

/-- A resolution matrix as the code can treat it: symmetric, positive definite, no width above `10⁴`. -/
structure GoodReso (M : Mat 4 4) : Prop where
  spd : SPD M
  small : ∀ i, M⁻¹ i i ≤ 1e8

end Spec

open Spec

/-! ## Evaluation -/

theorem weightOf_eq (v : Fin 4 → ℝ) (m : Mat 4 4) : weightOf v m = qform m v := by
  simp only [weightOf, qform, List.foldl_cons, List.foldl_nil, Fin.sum_univ_four]
  ring

theorem bandWeight_eq {B : ℕ} (p : ResoParams) (disp : Fin B → V3 → ℝ) (x : V3) (b : Fin B) :
    bandWeight p disp x b = dist2 p disp x b := by
  rw [bandWeight, weightOf_eq, dist2, add_comm x]

theorem rSq_eq (m : Mat 3 3) (v : V3) : rSq m v = qform m v := (qform_eq m v).symm

theorem lineAt_eq {n i : ℕ} (h : i < n + 1) : lineAt 3 n i = 6 * i / n - 3 := by
  unfold lineAt linspaceN
  rw [List.getD_eq_getElem?_getD, List.getElem?_map, List.getElem?_range h]
  simp only [Option.map_some, Option.getD_some]
  push_cast
  ring

theorem nodeAt_eq {V : Mat 4 4} {n : Pts} {i : ℕ × ℕ × ℕ} (h1 : i.1 < n.1 + 1) (h2 : i.2.1 < n.2.1 + 1)
    (h3 : i.2.2 < n.2.2 + 1) : nodeAt (√(V 0 0), √(V 1 1), √(V 2 2)) 3 n i = offset V n i := by
  unfold nodeAt offset
  rw [lineAt_eq h1, lineAt_eq h2, lineAt_eq h3]
  simp only [mul_comm]

theorem mem_meshIdx {n : Pts} {i : ℕ × ℕ × ℕ} : i ∈ meshIdx n ↔ i.1 < n.1 + 1 ∧ i.2.1 < n.2.1 + 1 ∧ i.2.2 < n.2.2 + 1 := by
  obtain ⟨a, b, c⟩ := i
  simp only [meshIdx, List.mem_flatMap, List.mem_range, List.mem_map, Prod.mk.injEq]
  constructor
  · rintro ⟨i, hi, j, hj, k, hk, rfl, rfl, rfl⟩; exact ⟨hi, hj, hk⟩
  · rintro ⟨hi, hj, hk⟩; exact ⟨a, hi, b, hj, c, hk, rfl, rfl, rfl⟩

theorem meshIdx_nodup (n : Pts) : (meshIdx n).Nodup := by
  unfold meshIdx
  rw [List.nodup_flatMap]
  refine ⟨fun i _ => ?_, ?_⟩
  · rw [List.nodup_flatMap]
    refine ⟨fun j _ => ?_, ?_⟩
    · refine (List.nodup_range).map fun a b h => ?_
      simpa using h
    · refine (List.nodup_range (n := n.2.1 + 1)).imp fun {a b} hab => ?_
      simp only [Function.onFun, List.Disjoint, List.mem_map, List.mem_range]
      rintro x ⟨k, _, rfl⟩ ⟨k', _, hk⟩
      simp only [Prod.mk.injEq] at hk
      exact hab hk.2.1.symm
  · refine (List.nodup_range (n := n.1 + 1)).imp fun {a b} hab => ?_
    simp only [Function.onFun, List.Disjoint, List.mem_flatMap, List.mem_map, List.mem_range]
    rintro x ⟨j, _, k, _, rfl⟩ ⟨j', _, k', _, hk⟩
    simp only [Prod.mk.injEq] at hk
    exact hab hk.1.symm

/-- The matrix left when energy is projected out. -/
theorem qBlock_eq {M : Mat 4 4} (h : SPD M) : qBlock M⁻¹ = schur M 3 := by
  have e : (Fin.castSucc : Fin 3 → Fin 4) = (3 : Fin 4).succAbove := by
    funext a; fin_cases a <;> rfl
  unfold qBlock
  rw [e, ← schur_inv_eq h, nonsing_inv_nonsing_inv _ (schur_spd h 3).unit]

theorem qBlock_spd {M : Mat 4 4} (h : SPD M) : SPD (qBlock M⁻¹) := by rw [qBlock_eq h]; exact schur_spd h 3

/-- The triple of widths along the momentum axes. -/
noncomputable abbrev sigQ (M : Mat 4 4) : ℝ × ℝ × ℝ := (√(M⁻¹ 0 0), √(M⁻¹ 1 1), √(M⁻¹ 2 2))

/-- The kept points are the nodes, each once. -/
theorem generatePts_perm (M : Mat 4 4) (n : Pts) :
    (generatePts (sigQ M) (qBlock M⁻¹) 3 n).Perm ((nodes M⁻¹ n).toList.map (offset M⁻¹ n)) := by
  unfold generatePts
  have e : ((meshIdx n).filter (inMask (sigQ M) (qBlock M⁻¹) 3 n)).map (nodeAt (sigQ M) 3 n)
      = ((meshIdx n).filter (inMask (sigQ M) (qBlock M⁻¹) 3 n)).map (offset M⁻¹ n) := by
    refine List.map_congr_left fun i hi => ?_
    obtain ⟨h1, h2, h3⟩ := mem_meshIdx.1 (List.mem_of_mem_filter hi)
    exact nodeAt_eq h1 h2 h3
  rw [e]
  refine List.Perm.map _ ?_
  refine (List.perm_ext_iff_of_nodup ((meshIdx_nodup n).filter _) (Finset.nodup_toList _)).2 fun i => ?_
  rw [List.mem_filter, mem_meshIdx, Finset.mem_toList, nodes, Finset.mem_filter, Finset.mem_product, Finset.mem_product,
    Finset.mem_range, Finset.mem_range, Finset.mem_range]
  refine and_congr_right fun ⟨h1, h2, h3⟩ => ?_
  rw [inMask, decide_eq_true_iff, rSq_eq, nodeAt_eq h1 h2 h3]
  norm_num

theorem sum_generatePts (M : Mat 4 4) (n : Pts) (f : V3 → ℝ) :
    ((generatePts (sigQ M) (qBlock M⁻¹) 3 n).map f).sum = ∑ i ∈ nodes M⁻¹ n, f (offset M⁻¹ n i) := by
  rw [((generatePts_perm M n).map f).sum_eq, List.map_map, Finset.sum_map_toList]
  rfl

theorem mem_generatePts (M : Mat 4 4) (n : Pts) (v : V3) :
    v ∈ generatePts (sigQ M) (qBlock M⁻¹) 3 n ↔ ∃ i ∈ nodes M⁻¹ n, offset M⁻¹ n i = v := by
  rw [(generatePts_perm M n).mem_iff, List.mem_map]
  simp only [Finset.mem_toList]

theorem pointTerm_eq {B : ℕ} (p : ResoParams) (disp inten : Fin B → V3 → ℝ) (x : V3) :
    pointTerm p disp inten x = if ∃ b, dist2 p disp x b < 125 then
      ∑ b, inten b (p.q + x) * Real.exp (-dist2 p disp x b / 2) else 0 := by
  unfold pointTerm
  have e5 : (5 : ℝ) ^ 3 = 125 := by norm_num
  simp only [List.any_eq_true, List.mem_finRange, true_and, decide_eq_true_iff, bandWeight_eq, e5, add_comm x]
  refine if_congr Iff.rfl ?_ rfl
  rw [← List.sum_ofFn, List.ofFn_eq_map]

/-- The volume factor. -/
theorem elemVols_ok {S : Mat 3 3} (h : SPD S) : elemVols (eigvalsh S) 3 = .ok (6 ^ 3 / √S.det) := by
  have e : lowerSym S = S := by
    ext i j
    unfold lowerSym
    split_ifs
    · rfl
    · exact h.symm j i
  have hp : ∀ i, 0 < eigvalsh S i := by
    intro i
    have : (lowerSym S).PosDef := by rw [e]; exact (spd_iff S).1 h
    exact this.eigenvalues_pos i
  have hd : S.det = eigvalsh S 0 * eigvalsh S 1 * eigvalsh S 2 := by
    have := (lowerSym_hermitian S).det_eq_prod_eigenvalues
    rw [Fin.prod_univ_three] at this
    calc S.det = (lowerSym S).det := by rw [e]
      _ = _ := by simpa [eigvalsh] using this
  have r0 := Real.sqrt_pos.2 (hp 0)
  have r1 := Real.sqrt_pos.2 (hp 1)
  have r2 := Real.sqrt_pos.2 (hp 2)
  unfold elemVols
  rw [pySqrt_ok (hp 0).le, py_bind_ok, pySqrt_ok (hp 1).le, py_bind_ok, pySqrt_ok (hp 2).le, py_bind_ok,
    pyDiv_ok r0.ne', py_bind_ok, pyDiv_ok r1.ne', py_bind_ok, pyDiv_ok r2.ne', py_bind_ok, hd,
    Real.sqrt_mul (mul_pos (hp 0) (hp 1)).le, Real.sqrt_mul (hp 0).le]
  refine congrArg Except.ok ?_
  field_simp
  norm_num

theorem foldl_max_lt {l : List ℝ} {x c : ℝ} : l.foldl max x < c ↔ ∀ y ∈ x :: l, y < c := by
  induction l generalizing x with
  | nil => simp
  | cons y l ih => rw [List.foldl_cons, ih]; simp [and_assoc]

theorem lt_foldl_min {l : List ℝ} {x c : ℝ} : c < l.foldl min x ↔ ∀ y ∈ x :: l, c < y := by
  induction l generalizing x with
  | nil => simp
  | cons y l ih => rw [List.foldl_cons, ih]; simp [and_assoc]

theorem amax_ok {l : List ℝ} (h : l ≠ []) : ∃ x, amax l = .ok x ∧ ∀ c, x < c ↔ ∀ y ∈ l, y < c := by
  cases l with
  | nil => exact absurd rfl h
  | cons a l => exact ⟨_, rfl, fun _ => foldl_max_lt⟩

theorem amin_ok {l : List ℝ} (h : l ≠ []) : ∃ x, amin l = .ok x ∧ ∀ c, c < x ↔ ∀ y ∈ l, c < y := by
  cases l with
  | nil => exact absurd rfl h
  | cons a l => exact ⟨_, rfl, fun _ => lt_foldl_min⟩

theorem mem_allVals {B : ℕ} {pts : List V3} {f : Fin B → V3 → ℝ} {y : ℝ} :
    y ∈ allVals pts f ↔ ∃ b, ∃ v ∈ pts, f b v = y := by
  simp [allVals]

theorem centre_mem (M : Mat 4 4) {n : Pts} {i : ℕ × ℕ × ℕ} (h1 : 0 < i.1) (h2 : 0 < i.2.1) (h3 : 0 < i.2.2)
    (e1 : n.1 = 2 * i.1) (e2 : n.2.1 = 2 * i.2.1) (e3 : n.2.2 = 2 * i.2.2) :
    i ∈ nodes M⁻¹ n ∧ offset M⁻¹ n i = 0 := by
  have h1' : (0 : ℝ) < i.1 := by exact_mod_cast h1
  have h2' : (0 : ℝ) < i.2.1 := by exact_mod_cast h2
  have h3' : (0 : ℝ) < i.2.2 := by exact_mod_cast h3
  have e : offset M⁻¹ n i = 0 := by
    unfold offset
    rw [e1, e2, e3]
    push_cast
    have : ∀ x : ℝ, 0 < x → 6 * x / (2 * x) - 3 = 0 := fun x hx => by field_simp; ring
    rw [this _ h1', this _ h2', this _ h3']
    simp
  refine ⟨?_, e⟩
  rw [nodes, Finset.mem_filter, e]
  refine ⟨?_, ?_⟩
  · simp only [Finset.mem_product, Finset.mem_range]; omega
  · simp [qform]

theorem skipped_ok {B : ℕ} (hB : 0 < B) (p : ResoParams) (disp : Fin B → V3 → ℝ) :
    ∃ s, skipped p disp (generatePts (sigQ p.mat) (qBlock p.mat⁻¹) 3 (10, 10, 10)) √(p.mat⁻¹ 3 3) = .ok s ∧
      (s = true ↔ Nothing p disp) := by
  have hc := (centre_mem p.mat (n := (10, 10, 10)) (i := (5, 5, 5)) (by norm_num) (by norm_num) (by norm_num) rfl rfl rfl)
  have hm : offset p.mat⁻¹ (10, 10, 10) (5, 5, 5) ∈ generatePts (sigQ p.mat) (qBlock p.mat⁻¹) 3 (10, 10, 10) :=
    (mem_generatePts _ _ _).2 ⟨_, hc.1, rfl⟩
  have hne : ∀ f : Fin B → V3 → ℝ, allVals (generatePts (sigQ p.mat) (qBlock p.mat⁻¹) 3 (10, 10, 10)) f ≠ [] :=
    fun f hf => by
      have : f ⟨0, hB⟩ (offset p.mat⁻¹ (10, 10, 10) (5, 5, 5)) ∈
        allVals (generatePts (sigQ p.mat) (qBlock p.mat⁻¹) 3 (10, 10, 10)) f := mem_allVals.2 ⟨_, _, hm, rfl⟩
      rw [hf] at this
      simp at this
  obtain ⟨hi, a1, a2⟩ := amax_ok (hne fun b v => disp b (v + p.q))
  obtain ⟨lo, b1, b2⟩ := amin_ok (hne fun b v => disp b (v + p.q))
  obtain ⟨w, c1, c2⟩ := amin_ok (hne fun b v => bandWeight p disp v b)
  have key : ∀ (f : Fin B → V3 → ℝ) (P : ℝ → Prop),
      (∀ y ∈ allVals (generatePts (sigQ p.mat) (qBlock p.mat⁻¹) 3 (10, 10, 10)) f, P y) ↔
        ∀ i ∈ nodes p.mat⁻¹ (10, 10, 10), ∀ b, P (f b (offset p.mat⁻¹ (10, 10, 10) i)) := by
    intro f P
    constructor
    · intro h i hi b
      exact h _ (mem_allVals.2 ⟨b, _, (mem_generatePts _ _ _).2 ⟨i, hi, rfl⟩, rfl⟩)
    · rintro h y hy
      obtain ⟨b, v, hv, rfl⟩ := mem_allVals.1 hy
      obtain ⟨i, hi, rfl⟩ := (mem_generatePts _ _ _).1 hv
      exact h i hi b
  refine ⟨decide (hi < p.en - 3 * √(p.mat⁻¹ 3 3)) || decide (lo > p.en + 3 * √(p.mat⁻¹ 3 3)) || decide (w > 5 ^ 3),
    ?_, ?_⟩
  · unfold skipped
    rw [a1, py_bind_ok, b1, py_bind_ok, c1, py_bind_ok]
    rfl
  · have e5 : (5 : ℝ) ^ 3 = 125 := by norm_num
    simp only [Bool.or_eq_true, decide_eq_true_iff, gt_iff_lt]
    rw [a2, b2, c2, key _ (· < _), key _ (_ < ·), key _ (_ < ·), Nothing, or_assoc]
    simp only [bandWeight_eq, e5, add_comm _ p.q]

theorem refine_bounds {step enRez : ℝ} (h : 0 < enRez) (maxStep : ℕ) :
    min 10 maxStep ≤ refine step enRez maxStep 10 ∧ refine step enRez maxStep 10 ≤ max 10 maxStep := by
  unfold refine
  split_ifs with hs
  · have h1 : (1 : ℝ) < step / enRez := by rw [one_lt_div h]; exact hs
    have h2 : ((min 10 maxStep : ℕ) : ℝ) ≤ min (((10 : ℕ) : ℝ) * (step / enRez)) (maxStep : ℝ) := by
      rw [Nat.cast_min]
      refine min_le_min ?_ le_rfl
      have : (0 : ℝ) ≤ ((10 : ℕ) : ℝ) := by positivity
      nlinarith
    have h3 : min (((10 : ℕ) : ℝ) * (step / enRez)) (maxStep : ℝ) ≤ maxStep := min_le_right _ _
    have h4 : ((min 10 maxStep : ℕ) : ℤ) ≤ ⌊min (((10 : ℕ) : ℝ) * (step / enRez)) (maxStep : ℝ)⌋ := by
      rw [Int.le_floor]; exact_mod_cast h2
    have h5 : ⌊min (((10 : ℕ) : ℝ) * (step / enRez)) (maxStep : ℝ)⌋ ≤ (maxStep : ℤ) := by
      have := Int.floor_le_floor h3
      simpa using this
    omega
  · omega

/-- The factor in front of the sum. -/
noncomputable def frontFactor (p : ResoParams) : ℝ := p.r0 * √p.mat.det / (2 * Real.pi) ^ 2

theorem secondRound_ok {B : ℕ} {p : ResoParams} (hg : GoodReso p.mat) (disp inten : Fin B → V3 → ℝ) {n : Pts}
    (h1 : 0 < n.1) (h2 : 0 < n.2.1) (h3 : 0 < n.2.2) (vols : ℝ) :
    secondRound p disp inten (sigQ p.mat) (qBlock p.mat⁻¹) vols n
      = .ok (frontFactor p * gaussSum p disp inten n * (vols / (n.1 * n.2.1 * n.2.2))) := by
  have hn : ((n.1 * n.2.1 * n.2.2 : ℕ) : ℝ) ≠ 0 := by
    have : 0 < n.1 * n.2.1 * n.2.2 := by positivity
    exact_mod_cast this.ne'
  unfold secondRound
  rw [pyDiv_ok hn, py_bind_ok, pySqrt_ok hg.spd.det_pos.le, py_bind_ok, sum_generatePts]
  refine congrArg Except.ok ?_
  simp only [pointTerm_eq]
  unfold frontFactor gaussSum
  push_cast
  ring

theorem setGap {α : Type} (f : ℕ → α) (m : ℕ) (g : α → α → Option ℝ) :
    List.zipWith g ((List.range (m + 1)).map f) ((List.range (m + 1)).map f).tail
      = (List.range m).map fun k => g (f k) (f (k + 1)) := by
  refine List.ext_getElem ?_ fun k h1 h2 => ?_
  · simp
  · simp

theorem lineStep_map (m : ℕ) (P : ℕ → Prop) [DecidablePred P] (g : ℕ → ℝ) :
    lineStep ((List.range (m + 1)).map fun k => if P k then some (g k) else none)
      = if ((Finset.range m).filter fun k => P k ∧ P (k + 1)).Nonempty then
          some ((∑ k ∈ (Finset.range m).filter fun k => P k ∧ P (k + 1), |g (k + 1) - g k|) /
            ((Finset.range m).filter fun k => P k ∧ P (k + 1)).card)
        else none := by
  have e1 : (List.zipWith absDiff ((List.range (m + 1)).map fun k => if P k then some (g k) else none)
      ((List.range (m + 1)).map fun k => if P k then some (g k) else none).tail).filterMap id
      = ((List.range m).filter fun k => decide (P k ∧ P (k + 1))).map fun k => |g (k + 1) - g k| := by
    rw [setGap, List.filterMap_map]
    induction List.range m with
    | nil => rfl
    | cons k l ih =>
      have hk : (id ∘ fun k => absDiff (if P k then some (g k) else none) (if P (k + 1) then some (g (k + 1)) else none)) k
          = if P k ∧ P (k + 1) then some |g (k + 1) - g k| else none := by
        by_cases h1 : P k <;> by_cases h2 : P (k + 1) <;> simp [h1, h2, absDiff]
      rw [List.filterMap_cons, hk, List.filter_cons, ih]
      by_cases h : P k ∧ P (k + 1)
      · rw [if_pos h, if_pos (decide_eq_true h)]; rfl
      · rw [if_neg h, if_neg (by simpa using h)]
  have e2 : ((List.range m).filter fun k => decide (P k ∧ P (k + 1))).toFinset
      = (Finset.range m).filter fun k => P k ∧ P (k + 1) := by
    ext k; simp
  have hnd : ((List.range m).filter fun k => decide (P k ∧ P (k + 1))).Nodup := List.nodup_range.filter _
  have e3 : (((List.range m).filter fun k => decide (P k ∧ P (k + 1))).map fun k => |g (k + 1) - g k|).sum
      = ∑ k ∈ (Finset.range m).filter fun k => P k ∧ P (k + 1), |g (k + 1) - g k| := by
    rw [← e2, List.sum_toFinset _ hnd]
  have e4 : (((List.range m).filter fun k => decide (P k ∧ P (k + 1))).map fun k => |g (k + 1) - g k|).length
      = ((Finset.range m).filter fun k => P k ∧ P (k + 1)).card := by
    rw [← e2, List.toFinset_card_of_nodup hnd, List.length_map]
  unfold lineStep
  rw [e1]
  rw [← e3, ← e4]
  cases hl : ((List.range m).filter fun k => decide (P k ∧ P (k + 1))).map fun k => |g (k + 1) - g k| with
  | nil =>
    rw [if_neg]
    rw [Finset.not_nonempty_iff_eq_empty, ← Finset.card_eq_zero, ← e4, hl]; rfl
  | cons d ds =>
    rw [if_pos]
    rw [← Finset.card_pos, ← e4, hl]; simp

theorem le_foldl_max {l : List ℝ} {x y : ℝ} (h : y ∈ x :: l) : y ≤ l.foldl max x := by
  induction l generalizing x y with
  | nil => simp at h; simp [h]
  | cons z l ih =>
    rw [List.foldl_cons]
    simp only [List.mem_cons] at h
    rcases h with rfl | rfl | h
    · exact (le_max_left y z).trans (ih (x := max y z) List.mem_cons_self)
    · exact (le_max_right x y).trans (ih (x := max x y) List.mem_cons_self)
    · exact ih (List.mem_cons_of_mem _ h)

theorem foldl_max_mem {l : List ℝ} {x : ℝ} : l.foldl max x ∈ x :: l := by
  induction l generalizing x with
  | nil => simp
  | cons z l ih =>
    rw [List.foldl_cons]
    have := ih (x := max x z)
    simp only [List.mem_cons] at this ⊢
    rcases this with h | h
    · rw [h]; rcases max_choice x z with h' | h' <;> rw [h'] <;> simp
    · exact Or.inr (Or.inr h)

theorem getMaxStep_spec (lines : List (List (Option ℝ))) :
    (∀ l ∈ lines, ∀ d, lineStep l = some d → d ≤ getMaxStep lines) ∧
    ((getMaxStep lines = 0 ∧ ∀ l ∈ lines, lineStep l = none) ∨ ∃ l ∈ lines, lineStep l = some (getMaxStep lines)) := by
  unfold getMaxStep
  cases h : lines.filterMap lineStep with
  | nil =>
    rw [List.filterMap_eq_nil_iff] at h
    refine ⟨fun l hl d hd => ?_, Or.inl ⟨rfl, h⟩⟩
    rw [h l hl] at hd
    cases hd
  | cons d ds =>
    refine ⟨fun l hl x hx => ?_, Or.inr ?_⟩
    · refine le_foldl_max ?_
      rw [← h]; exact List.mem_filterMap.2 ⟨l, hl, hx⟩
    · have := foldl_max_mem (l := ds) (x := d)
      rw [← h] at this
      exact List.mem_filterMap.1 this

/-- The lines of the dispersion array along an axis. -/
noncomputable def linesAx {B : ℕ} (p : ResoParams) (disp : Fin B → V3 → ℝ) (ax : Fin 3) : List (List (Option ℝ)) :=
  match ax with
  | 0 => lines1 (10, 10, 10) (dispArr (sigQ p.mat) (qBlock p.mat⁻¹) 3 (10, 10, 10) p.q disp)
  | 1 => lines2 (10, 10, 10) (dispArr (sigQ p.mat) (qBlock p.mat⁻¹) 3 (10, 10, 10) p.q disp)
  | 2 => lines3 (10, 10, 10) (dispArr (sigQ p.mat) (qBlock p.mat⁻¹) 3 (10, 10, 10) p.q disp)

theorem mem_linesAx {B : ℕ} (p : ResoParams) (disp : Fin B → V3 → ℝ) (ax : Fin 3) (l : List (Option ℝ)) :
    l ∈ linesAx p disp ax ↔ ∃ b i, i ∈ meshIdx ten ∧ l = (List.range 11).map fun k =>
      dispArr (sigQ p.mat) (qBlock p.mat⁻¹) 3 (10, 10, 10) p.q disp b (onLine ax i k) := by
  fin_cases ax
  · simp only [linesAx, lines1, List.mem_flatMap, List.mem_map, List.mem_range, List.mem_finRange, true_and, mem_meshIdx]
    constructor
    · rintro ⟨b, j, hj, k, hk, rfl⟩; exact ⟨b, (0, j, k), ⟨by norm_num, hj, hk⟩, rfl⟩
    · rintro ⟨b, ⟨i, j, k⟩, ⟨_, hj, hk⟩, rfl⟩; exact ⟨b, j, hj, k, hk, rfl⟩
  · simp only [linesAx, lines2, List.mem_flatMap, List.mem_map, List.mem_range, List.mem_finRange, true_and, mem_meshIdx]
    constructor
    · rintro ⟨b, j, hj, k, hk, rfl⟩; exact ⟨b, (j, 0, k), ⟨hj, by norm_num, hk⟩, rfl⟩
    · rintro ⟨b, ⟨i, j, k⟩, ⟨hi, _, hk⟩, rfl⟩; exact ⟨b, i, hi, k, hk, rfl⟩
  · simp only [linesAx, lines3, List.mem_flatMap, List.mem_map, List.mem_range, List.mem_finRange, true_and, mem_meshIdx]
    constructor
    · rintro ⟨b, j, hj, k, hk, rfl⟩; exact ⟨b, (j, k, 0), ⟨hj, hk, by norm_num⟩, rfl⟩
    · rintro ⟨b, ⟨i, j, k⟩, ⟨hi, hj, _⟩, rfl⟩; exact ⟨b, i, hi, j, hj, rfl⟩

theorem onLine_mem {ax : Fin 3} {i : ℕ × ℕ × ℕ} (h : i ∈ meshIdx ten) {k : ℕ} (hk : k < 11) : onLine ax i k ∈ meshIdx ten := by
  rw [mem_meshIdx] at h ⊢
  obtain ⟨h1, h2, h3⟩ := h
  fin_cases ax
  · exact ⟨hk, h2, h3⟩
  · exact ⟨h1, hk, h3⟩
  · exact ⟨h1, h2, hk⟩

theorem mask_iff (M : Mat 4 4) {n : Pts} {i : ℕ × ℕ × ℕ} (h : i ∈ meshIdx n) :
    inMask (sigQ M) (qBlock M⁻¹) 3 n i = true ↔ i ∈ nodes M⁻¹ n := by
  obtain ⟨h1, h2, h3⟩ := mem_meshIdx.1 h
  rw [inMask, decide_eq_true_iff, rSq_eq, nodeAt_eq h1 h2 h3, nodes, Finset.mem_filter, Finset.mem_product,
    Finset.mem_product, Finset.mem_range, Finset.mem_range, Finset.mem_range]
  norm_num [h1, h2, h3]

theorem lineStep_ax {B : ℕ} (p : ResoParams) (disp : Fin B → V3 → ℝ) (ax : Fin 3) (b : Fin B) {i : ℕ × ℕ × ℕ}
    (hi : i ∈ meshIdx ten) :
    lineStep ((List.range 11).map fun k =>
      dispArr (sigQ p.mat) (qBlock p.mat⁻¹) 3 (10, 10, 10) p.q disp b (onLine ax i k))
      = if (gaps p.mat⁻¹ ax i).Nonempty then some (meanStep p disp ax b i) else none := by
  classical
  have e : ((List.range 11).map fun k =>
      dispArr (sigQ p.mat) (qBlock p.mat⁻¹) 3 (10, 10, 10) p.q disp b (onLine ax i k))
      = (List.range (10 + 1)).map fun k => if onLine ax i k ∈ nodes p.mat⁻¹ ten then
          some (disp b (p.q + offset p.mat⁻¹ ten (onLine ax i k))) else none := by
    refine List.map_congr_left fun k hk => ?_
    have hm := onLine_mem (ax := ax) hi (List.mem_range.1 hk)
    obtain ⟨h1, h2, h3⟩ := mem_meshIdx.1 hm
    unfold dispArr
    rw [nodeAt_eq h1 h2 h3, add_comm]
    exact if_congr (mask_iff p.mat hm) rfl rfl
  rw [e, lineStep_map 10 (fun k => onLine ax i k ∈ nodes p.mat⁻¹ ten)]
  rfl

theorem gaps_out (V : Mat 4 4) (ax : Fin 3) {i : ℕ × ℕ × ℕ} (h : (gaps V ax i).Nonempty) :
    ∃ j ∈ meshIdx ten, onLine ax j = onLine ax i := by
  obtain ⟨k, hk⟩ := h
  rw [gaps, Finset.mem_filter] at hk
  obtain ⟨_, h1, _⟩ := hk
  have hm : onLine ax i k ∈ meshIdx ten := by
    rw [nodes, Finset.mem_filter, Finset.mem_product, Finset.mem_product, Finset.mem_range, Finset.mem_range,
      Finset.mem_range] at h1
    rw [mem_meshIdx]; exact h1.1
  refine ⟨_, hm, ?_⟩
  funext m
  fin_cases ax <;> rfl

theorem isMaxStep {B : ℕ} (p : ResoParams) (disp : Fin B → V3 → ℝ) (ax : Fin 3) :
    IsMaxStep p disp ax (getMaxStep (linesAx p disp ax)) := by
  obtain ⟨h1, h2⟩ := getMaxStep_spec (linesAx p disp ax)
  have hcongr : ∀ i j, onLine ax j = onLine ax i → gaps p.mat⁻¹ ax j = gaps p.mat⁻¹ ax i ∧
      ∀ b, meanStep p disp ax b j = meanStep p disp ax b i := by
    intro i j h
    have : gaps p.mat⁻¹ ax j = gaps p.mat⁻¹ ax i := by unfold gaps; rw [h]
    exact ⟨this, fun b => by unfold meanStep; rw [this, h]⟩
  refine ⟨fun b i hi => ?_, ?_⟩
  · obtain ⟨j, hj, e⟩ := gaps_out _ _ hi
    obtain ⟨g1, g2⟩ := hcongr i j e
    rw [← g1] at hi
    rw [← g2]
    refine h1 _ ((mem_linesAx p disp ax _).2 ⟨b, j, hj, rfl⟩) _ ?_
    rw [lineStep_ax p disp ax b hj, if_pos hi]
  · rcases h2 with ⟨h2, h3⟩ | ⟨l, hl, h2⟩
    · refine Or.inl ⟨h2, fun b i hi => ?_⟩
      obtain ⟨j, hj, e⟩ := gaps_out _ _ hi
      obtain ⟨g1, g2⟩ := hcongr i j e
      rw [← g1] at hi
      have := h3 _ ((mem_linesAx p disp ax _).2 ⟨b, j, hj, rfl⟩)
      rw [lineStep_ax p disp ax b hj, if_pos hi] at this
      cases this
    · obtain ⟨b, i, hi, rfl⟩ := (mem_linesAx p disp ax _).1 hl
      rw [lineStep_ax p disp ax b hi] at h2
      by_cases hg : (gaps p.mat⁻¹ ax i).Nonempty
      · rw [if_pos hg] at h2
        exact Or.inr ⟨b, i, hg, (Option.some.inj h2).symm⟩
      · rw [if_neg hg] at h2; cases h2

theorem refine_eq {s r : ℝ} (_hr : 0 < r) (maxStep : ℕ) : refine s r maxStep 10 = intervals s r maxStep := by
  unfold refine intervals
  refine if_congr Iff.rfl ?_ rfl
  by_cases h : 0 ≤ min (((10 : ℕ) : ℝ) * (s / r)) (maxStep : ℝ)
  · have e : ⌊min (((10 : ℕ) : ℝ) * (s / r)) (maxStep : ℝ)⌋.toNat = ⌊min (((10 : ℕ) : ℝ) * (s / r)) (maxStep : ℝ)⌋₊ := rfl
    rw [e]
    have e2 : ((10 : ℕ) : ℝ) * (s / r) = 10 * s / r := by push_cast; ring
    rw [e2]
    rcases le_total (10 * s / r) maxStep with h1 | h1
    · rw [min_eq_left h1, min_eq_left (Nat.floor_le_of_le h1)]
    · rw [min_eq_right h1, Nat.floor_natCast, min_eq_right]
      exact Nat.le_floor h1
  · have h1 : ((10 : ℕ) : ℝ) * (s / r) < 0 := by
      by_contra hc
      exact h (le_min (not_lt.1 hc) (Nat.cast_nonneg _))
    rw [min_eq_left (h1.le.trans (Nat.cast_nonneg _))]
    have e2 : ((10 : ℕ) : ℝ) * (s / r) = 10 * s / r := by push_cast; ring
    rw [e2] at h1 ⊢
    rw [Nat.floor_of_nonpos h1.le, Nat.zero_min]
    exact Int.toNat_of_nonpos (Int.floor_nonpos h1.le)

/-- C73: what the convolution returns, for every resolution matrix without widths above `10⁴`, every dispersion and every
intensity. Unless nothing of interest is on the coarse grid, in which case it returns zero, it is the prefactor `r0` times
the normalisation `√det M / (2π)²` times the sum over the nodes inside three standard deviations, and over the bands, of
intensity times Gaussian, times a volume, which is `6³ / √det` of the momentum block over the number of cells. The number
of intervals along an axis is ten, or, when a band changes by more than `rez` standard deviations from node to node on the
average of some line along that axis, larger in proportion, up to `max_step`. -/
theorem C73_sum {B : ℕ} (hB : 0 < B) {p : ResoParams} (hg : GoodReso p.mat) (disp : Fin B → V3 → ℝ) {rez : ℝ}
    (hr : 0 < rez) {maxStep : ℕ} (hm : 0 < maxStep) :
    (Nothing p disp → ∀ inten, convolution (some p) disp inten rez maxStep = .ok 0) ∧
    ∃ s : Fin 3 → ℝ, (∀ ax, IsMaxStep p disp ax (s ax)) ∧ ∃ n : Pts,
      n = (intervals (s 0) (rez / √(p.mat 3 3)) maxStep, intervals (s 1) (rez / √(p.mat 3 3)) maxStep,
        intervals (s 2) (rez / √(p.mat 3 3)) maxStep) ∧
      (∀ k ∈ [n.1, n.2.1, n.2.2], min 10 maxStep ≤ k ∧ k ≤ max 10 maxStep) ∧
      (¬ Nothing p disp → ∀ inten, convolution (some p) disp inten rez maxStep
        = .ok (p.r0 * √p.mat.det / (2 * Real.pi) ^ 2 * gaussSum p disp inten n *
            (6 ^ 3 / √(qBlock p.mat⁻¹).det / (n.1 * n.2.1 * n.2.2)))) := by
  obtain ⟨s1, s2, -⟩ := C25_convolution_sigmas hg.spd hg.small
  obtain ⟨z1, z2, z3⟩ := convProj_ok hg.spd hg.small 3
  rw [z1, py_bind_ok] at s2
  have hd := hg.spd.diag_pos 3
  have hsd := Real.sqrt_pos.2 hd
  have c1 : cohSigma p.mat 3 = .ok (1 / √(p.mat 3 3)) := by
    unfold cohSigma invSqrtAbs
    rw [abs_of_pos hd, pySqrt_ok hd.le, py_bind_ok, pyDiv_ok hsd.ne']
  obtain ⟨s, k1, k2⟩ := skipped_ok hB p disp
  have hq := qBlock_eq hg.spd
  have hv := elemVols_ok (qBlock_spd hg.spd)
  rw [← hq] at z1 s2
  set n : Pts := refinedPts p disp (sigQ p.mat) (qBlock p.mat⁻¹) (1 / √(p.mat 3 3) * rez) maxStep with hn
  have hpos : 0 < rez / √(p.mat 3 3) := by positivity
  have hrez : 1 / √(p.mat 3 3) * rez = rez / √(p.mat 3 3) := by ring
  have b1 := refine_bounds (step := getMaxStep (linesAx p disp 0)) hpos maxStep
  have b2 := refine_bounds (step := getMaxStep (linesAx p disp 1)) hpos maxStep
  have b3 := refine_bounds (step := getMaxStep (linesAx p disp 2)) hpos maxStep
  rw [refine_eq hpos] at b1 b2 b3
  have en : n = (intervals (getMaxStep (linesAx p disp 0)) (rez / √(p.mat 3 3)) maxStep,
      intervals (getMaxStep (linesAx p disp 1)) (rez / √(p.mat 3 3)) maxStep,
      intervals (getMaxStep (linesAx p disp 2)) (rez / √(p.mat 3 3)) maxStep) := by
    rw [hn, hrez, ← refine_eq hpos, ← refine_eq hpos, ← refine_eq hpos]
    rfl
  have e : ∀ inten, convolution (some p) disp inten rez maxStep
      = cond s (pure 0) (secondRound p disp inten (sigQ p.mat) (qBlock p.mat⁻¹) (6 ^ 3 / √(qBlock p.mat⁻¹).det) n) := by
    intro inten
    unfold convolution
    rw [need_some, py_bind_ok, z1, py_bind_ok, s2, py_bind_ok, s1, py_bind_ok, c1, py_bind_ok, hv, py_bind_ok, k1,
      py_bind_ok]
  have hmin : 0 < min 10 maxStep := by omega
  refine ⟨fun h inten => ?_, fun ax => getMaxStep (linesAx p disp ax), isMaxStep p disp, n, en, ?_, fun h inten => ?_⟩
  · rw [e, k2.2 h]; rfl
  · intro k hk
    rw [en] at hk
    simp only [List.mem_cons, List.not_mem_nil, or_false] at hk
    rcases hk with rfl | rfl | rfl
    · exact b1
    · exact b2
    · exact b3
  · have hs : s = false := by
      cases s
      · rfl
      · exact absurd (k2.1 rfl) h
    have p1 : 0 < n.1 := by rw [en]; exact lt_of_lt_of_le hmin b1.1
    have p2 : 0 < n.2.1 := by rw [en]; exact lt_of_lt_of_le hmin b2.1
    have p3 : 0 < n.2.2 := by rw [en]; exact lt_of_lt_of_le hmin b3.1
    rw [e, hs, cond_false, secondRound_ok hg disp inten p1 p2 p3]
    rfl

/-- C73: without resolution parameters there is no number. -/
theorem C73_none {B : ℕ} (disp inten : Fin B → V3 → ℝ) (rez : ℝ) (maxStep : ℕ) :
    convolution none disp inten rez maxStep = .error .nonFinite := rfl

/-! ## The volume of a cell -/

theorem det_qBlock {M : Mat 4 4} (h : SPD M) : (qBlock M⁻¹).det = ((M⁻¹.submatrix Fin.castSucc Fin.castSucc).det)⁻¹ := by
  have h1 : SPD (M⁻¹.submatrix Fin.castSucc Fin.castSucc : Mat 3 3) := h.inv.sub (Fin.castSucc_injective 3)
  unfold qBlock
  rw [det_nonsing_inv, Ring.inverse_eq_inv']

/-- Hadamard's inequality for the momentum block. -/
theorem det_block_le {V : Mat 4 4} (h : SPD V) :
    (V.submatrix Fin.castSucc Fin.castSucc : Mat 3 3).det ≤ V 0 0 * V 1 1 * V 2 2 := by
  have e : (V.submatrix Fin.castSucc Fin.castSucc : Mat 3 3).det
      = V 0 0 * V 1 1 * V 2 2 + 2 * (V 0 1 * V 1 2 * V 0 2) - V 0 0 * V 1 2 ^ 2 - V 1 1 * V 0 2 ^ 2 - V 2 2 * V 0 1 ^ 2 := by
    rw [det_fin_three]
    simp only [submatrix_apply, show (Fin.castSucc (0 : Fin 3) : Fin 4) = 0 from rfl,
      show (Fin.castSucc (1 : Fin 3) : Fin 4) = 1 from rfl, show (Fin.castSucc (2 : Fin 3) : Fin 4) = 2 from rfl]
    rw [h.symm 1 0, h.symm 2 0, h.symm 2 1]
    ring
  have h2 := h.diag_pos 2
  have hq : 0 ≤ qform V ![-V 1 2, V 0 2, 0, 0] := by
    by_cases hz : (![-V 1 2, V 0 2, 0, 0] : Fin 4 → ℝ) = 0
    · rw [hz]; simp [qform]
    · exact (h.pos _ hz).le
  have eq : qform V ![-V 1 2, V 0 2, 0, 0] = V 0 0 * V 1 2 ^ 2 + V 1 1 * V 0 2 ^ 2 - 2 * (V 0 1 * V 1 2 * V 0 2) := by
    simp only [qform, Fin.sum_univ_four, cons_val_zero, cons_val_one, cons_val]
    rw [h.symm 1 0]
    ring
  rw [e]
  have := mul_nonneg h2.le (sq_nonneg (V 0 1))
  linarith

/-- The volume by which the sum is multiplied. -/
theorem volume_eq {M : Mat 4 4} (h : SPD M) (n : Pts) : 6 ^ 3 / √(qBlock M⁻¹).det / (n.1 * n.2.1 * n.2.2)
    = 6 ^ 3 * √(M⁻¹.submatrix Fin.castSucc Fin.castSucc : Mat 3 3).det / (n.1 * n.2.1 * n.2.2) := by
  rw [det_qBlock h, Real.sqrt_inv, div_inv_eq_mul]

theorem cellVolume_eq {M : Mat 4 4} (h : SPD M) (n : Pts) :
    cellVolume M⁻¹ n = 6 ^ 3 * √(M⁻¹ 0 0 * M⁻¹ 1 1 * M⁻¹ 2 2) / (n.1 * n.2.1 * n.2.2) := by
  have h0 := h.inv.diag_pos 0
  have h1 := h.inv.diag_pos 1
  unfold cellVolume
  rw [Real.sqrt_mul (mul_pos h0 h1).le, Real.sqrt_mul h0.le]
  ring

/-- C73: the volume used never exceeds the volume of a cell of the grid. -/
theorem C73_volume_le {M : Mat 4 4} (h : SPD M) (n : Pts) :
    6 ^ 3 / √(qBlock M⁻¹).det / (n.1 * n.2.1 * n.2.2) ≤ cellVolume M⁻¹ n := by
  rw [volume_eq h, cellVolume_eq h]
  have := Real.sqrt_le_sqrt (det_block_le h.inv)
  gcongr

/-- C73 in full would say this without the hypothesis `hd`: the convolution is the Riemann sum of intensity times the
normalised Gaussian over the nodes. It holds when the three momentum directions are not correlated. What is missing is
the general case, where it is false: `C73_volume_wrong`. -/
theorem C73_riemann_partial {B : ℕ} (hB : 0 < B) {p : ResoParams} (hg : GoodReso p.mat)
    (hd : p.mat⁻¹ 0 1 = 0 ∧ p.mat⁻¹ 0 2 = 0 ∧ p.mat⁻¹ 1 2 = 0) (disp : Fin B → V3 → ℝ) {rez : ℝ}
    (hr : 0 < rez) {maxStep : ℕ} (hm : 0 < maxStep) (hn : ¬ Nothing p disp) :
    ∃ n : Pts, (∀ k ∈ [n.1, n.2.1, n.2.2], min 10 maxStep ≤ k ∧ k ≤ max 10 maxStep) ∧
      ∀ inten, convolution (some p) disp inten rez maxStep
        = .ok (p.r0 * √p.mat.det / (2 * Real.pi) ^ 2 * (gaussSum p disp inten n * cellVolume p.mat⁻¹ n)) := by
  obtain ⟨-, s, -, n, -, hb, h⟩ := C73_sum hB hg disp hr hm
  refine ⟨n, hb, fun inten => ?_⟩
  obtain ⟨d1, d2, d3⟩ := hd
  have hs := hg.spd.inv.symm
  have e : (p.mat⁻¹.submatrix Fin.castSucc Fin.castSucc : Mat 3 3).det = p.mat⁻¹ 0 0 * p.mat⁻¹ 1 1 * p.mat⁻¹ 2 2 := by
    rw [det_fin_three]
    simp only [submatrix_apply, show (Fin.castSucc (0 : Fin 3) : Fin 4) = 0 from rfl,
      show (Fin.castSucc (1 : Fin 3) : Fin 4) = 1 from rfl, show (Fin.castSucc (2 : Fin 3) : Fin 4) = 2 from rfl]
    rw [hs 1 0, hs 2 0, hs 2 1, d1, d2, d3]
    ring
  rw [h hn, volume_eq hg.spd, cellVolume_eq hg.spd, e, mul_assoc]

theorem gaussSum_nonneg {B : ℕ} (p : ResoParams) (disp : Fin B → V3 → ℝ) {inten : Fin B → V3 → ℝ}
    (h : ∀ b x, 0 ≤ inten b x) (n : Pts) : 0 ≤ gaussSum p disp inten n := by
  unfold gaussSum
  refine Finset.sum_nonneg fun i _ => ?_
  split_ifs
  · exact Finset.sum_nonneg fun b _ => mul_nonneg (h _ _) (Real.exp_pos _).le
  · exact le_rfl

namespace Demo

/-- A resolution matrix with correlated momentum directions. -/
def corrMat : Mat 4 4 := !![2, 1, 0, 0; 1, 2, 0, 0; 0, 0, 1, 0; 0, 0, 0, 1]

/-- Its inverse. -/
noncomputable def corrInv : Mat 4 4 := !![2 / 3, -1 / 3, 0, 0; -1 / 3, 2 / 3, 0, 0; 0, 0, 1, 0; 0, 0, 0, 1]

theorem corrMat_inv : corrMat⁻¹ = corrInv := by
  refine inv_eq_right_inv ?_
  ext i j
  fin_cases i <;> fin_cases j <;> simp [corrMat, corrInv, Matrix.mul_apply, Fin.sum_univ_four] <;> norm_num

theorem corrMat_good : GoodReso corrMat := by
  refine ⟨⟨fun i j => ?_, fun x hx => ?_⟩, fun i => ?_⟩
  · fin_cases i <;> fin_cases j <;> rfl
  · have e : qform corrMat x = (x 0 + x 1) ^ 2 + x 0 ^ 2 + x 1 ^ 2 + x 2 ^ 2 + x 3 ^ 2 := by
      simp [qform, corrMat, Fin.sum_univ_four]
      ring
    rw [e]
    by_contra hc
    refine hx (funext fun i => ?_)
    have h0 : x 0 ^ 2 = 0 := by nlinarith [sq_nonneg (x 0 + x 1), sq_nonneg (x 0), sq_nonneg (x 1), sq_nonneg (x 2), sq_nonneg (x 3)]
    have h1 : x 1 ^ 2 = 0 := by nlinarith [sq_nonneg (x 0 + x 1), sq_nonneg (x 0), sq_nonneg (x 1), sq_nonneg (x 2), sq_nonneg (x 3)]
    have h2 : x 2 ^ 2 = 0 := by nlinarith [sq_nonneg (x 0 + x 1), sq_nonneg (x 0), sq_nonneg (x 1), sq_nonneg (x 2), sq_nonneg (x 3)]
    have h3 : x 3 ^ 2 = 0 := by nlinarith [sq_nonneg (x 0 + x 1), sq_nonneg (x 0), sq_nonneg (x 1), sq_nonneg (x 2), sq_nonneg (x 3)]
    fin_cases i
    · simpa using h0
    · simpa using h1
    · simpa using h2
    · simpa using h3
  · rw [corrMat_inv]
    fin_cases i <;> simp [corrInv] <;> norm_num

/-- Resolution parameters with that matrix. -/
def corrParams : ResoParams := ⟨0, 0, 1, corrMat⟩

/-- One flat band at the energy of the measurement. -/
def flat : Fin 1 → V3 → ℝ := fun _ _ => 0

/-- Intensity one. -/
def ones : Fin 1 → V3 → ℝ := fun _ _ => 1

theorem flat_something : ¬ Nothing corrParams flat := by
  have hc := (centre_mem corrMat (n := (10, 10, 10)) (i := (5, 5, 5)) (by norm_num) (by norm_num) (by norm_num) rfl rfl rfl)
  have h0 : dist2 corrParams flat 0 0 = 0 := by simp [dist2, qform, corrParams, flat, Fin.sum_univ_four]
  have h3 : 0 ≤ √(corrMat⁻¹ 3 3) := Real.sqrt_nonneg _
  rintro (h | h | h)
  · have := h _ hc.1 0
    simp only [corrParams, flat] at this
    linarith
  · have := h _ hc.1 0
    simp only [corrParams, flat] at this
    linarith
  · have := h _ hc.1 0
    rw [show corrParams.mat = corrMat from rfl, hc.2, h0] at this
    norm_num at this

theorem flat_step {s : ℝ} {ax : Fin 3} (h : IsMaxStep corrParams flat ax s) : s = 0 := by
  obtain ⟨-, ⟨h, -⟩ | ⟨b, i, -, h⟩⟩ := h
  · exact h
  · rw [h]; simp [meanStep, flat]

end Demo

open Demo in
/-- C73: with correlated momentum directions the volume by which the sum is multiplied is not the volume of a cell, so the
result is not the Riemann sum it stands for. Here one flat band at the measured energy, intensity one: the returned value
is smaller than prefactor times normalisation times sum times cell volume. -/
theorem C73_volume_wrong : ∃ (p : ResoParams) (disp inten : Fin 1 → V3 → ℝ) (r : ℝ), GoodReso p.mat ∧ ¬ Nothing p disp ∧
    convolution (some p) disp inten (1 / 5) 100 = .ok r ∧ (∀ ax s, IsMaxStep p disp ax s → s = 0) ∧
    0 < r ∧ r < p.r0 * √p.mat.det / (2 * Real.pi) ^ 2 * (gaussSum p disp inten (10, 10, 10) * cellVolume p.mat⁻¹ (10, 10, 10)) := by
  obtain ⟨-, s, hs, n, hn, -, h⟩ := C73_sum (B := 1) one_pos corrMat_good (p := corrParams) flat (rez := 1 / 5) (by norm_num)
    (maxStep := 100) (by norm_num)
  have h33 : (0 : ℝ) < √(corrMat 3 3) := Real.sqrt_pos.2 (corrMat_good.spd.diag_pos 3)
  have hten : n = (10, 10, 10) := by
    have hp : ¬ (1 / 5 / √(corrParams.mat 3 3) < 0) := not_lt.2 (by positivity)
    rw [hn, flat_step (hs 0), flat_step (hs 1), flat_step (hs 2)]
    unfold intervals
    rw [if_neg hp]
  have hsum : 0 < gaussSum corrParams flat ones (10, 10, 10) := by
    have hc := (centre_mem corrMat (n := (10, 10, 10)) (i := (5, 5, 5)) (by norm_num) (by norm_num) (by norm_num) rfl rfl rfl)
    have h0 : ∀ b, dist2 corrParams flat 0 b = 0 := fun b => by
      simp [dist2, qform, corrParams, flat, Fin.sum_univ_four]
    unfold gaussSum
    refine Finset.sum_pos' (fun i _ => ?_) ⟨(5, 5, 5), hc.1, ?_⟩
    · split_ifs
      · exact Finset.sum_nonneg fun b _ => mul_nonneg (by simp [ones]) (Real.exp_pos _).le
      · exact le_rfl
    · rw [show corrParams.mat = corrMat from rfl, hc.2, if_pos ⟨0, by rw [h0]; norm_num⟩]
      exact Finset.sum_pos (fun b _ => mul_pos (by simp [ones]) (Real.exp_pos _)) ⟨0, Finset.mem_univ _⟩
  have hdet : 0 < √corrMat.det := Real.sqrt_pos.2 corrMat_good.spd.det_pos
  have hblock : (corrMat⁻¹.submatrix Fin.castSucc Fin.castSucc : Mat 3 3).det = 1 / 3 := by
    rw [corrMat_inv, det_fin_three]
    simp [corrInv]
    norm_num
  have hvol : (0 : ℝ) < 6 ^ 3 / √(qBlock corrMat⁻¹).det / (10 * 10 * 10) ∧
      6 ^ 3 / √(qBlock corrMat⁻¹).det / (10 * 10 * 10) < cellVolume corrMat⁻¹ (10, 10, 10) := by
    have e1 := volume_eq corrMat_good.spd (10, 10, 10)
    have e2 := cellVolume_eq corrMat_good.spd (10, 10, 10)
    rw [hblock] at e1
    have e3 : corrMat⁻¹ 0 0 * corrMat⁻¹ 1 1 * corrMat⁻¹ 2 2 = 4 / 9 := by
      rw [corrMat_inv]; simp [corrInv]; norm_num
    rw [e3] at e2
    push_cast at e1 e2
    rw [e1, e2]
    have h1 : (0 : ℝ) < √(1 / 3) := Real.sqrt_pos.2 (by norm_num)
    have h2 : √(1 / 3 : ℝ) < √(4 / 9) := Real.sqrt_lt_sqrt (by norm_num) (by norm_num)
    constructor
    · positivity
    · gcongr
  refine ⟨corrParams, flat, ones, _, corrMat_good, flat_something, h flat_something ones, fun ax s => flat_step, ?_⟩
  rw [hten]
  have e : ∀ x : ℝ, corrParams.r0 * √corrParams.mat.det / (2 * Real.pi) ^ 2 * gaussSum corrParams flat ones (10, 10, 10) * x
      = (√corrMat.det / (2 * Real.pi) ^ 2 * gaussSum corrParams flat ones (10, 10, 10)) * x := fun x => by
    simp only [corrParams, one_mul]
  have hpos : 0 < √corrMat.det / (2 * Real.pi) ^ 2 * gaussSum corrParams flat ones (10, 10, 10) := by
    have := Real.pi_pos
    positivity
  rw [← mul_assoc, e, e]
  push_cast
  exact ⟨mul_pos hpos hvol.1, mul_lt_mul_of_pos_left hvol.2 hpos⟩

/-! ## Consequences -/

/-- C73: the result is linear in the intensity and in the prefactor. -/
theorem C73_linear {B : ℕ} (hB : 0 < B) {p : ResoParams} (hg : GoodReso p.mat) (disp : Fin B → V3 → ℝ) {rez : ℝ}
    (hr : 0 < rez) {maxStep : ℕ} (hm : 0 < maxStep) (f g : Fin B → V3 → ℝ) (a c : ℝ) :
    ∃ x y : ℝ, convolution (some p) disp f rez maxStep = .ok x ∧ convolution (some p) disp g rez maxStep = .ok y ∧
      convolution (some p) disp (fun b v => a * f b v + c * g b v) rez maxStep = .ok (a * x + c * y) := by
  obtain ⟨h0, s, -, n, -, -, h⟩ := C73_sum hB hg disp hr hm
  by_cases hn : Nothing p disp
  · exact ⟨0, 0, h0 hn _, h0 hn _, by rw [h0 hn]; simp⟩
  · refine ⟨_, _, h hn f, h hn g, ?_⟩
    rw [h hn]
    have e : gaussSum p disp (fun b v => a * f b v + c * g b v) n = a * gaussSum p disp f n + c * gaussSum p disp g n := by
      unfold gaussSum
      rw [Finset.mul_sum, Finset.mul_sum, ← Finset.sum_add_distrib]
      refine Finset.sum_congr rfl fun i _ => ?_
      split_ifs
      · rw [Finset.mul_sum, Finset.mul_sum, ← Finset.sum_add_distrib]
        exact Finset.sum_congr rfl fun b _ => by ring
      · ring
    rw [e]
    refine congrArg Except.ok ?_
    ring

/-- C73: with a positive prefactor, intensities that are nowhere negative never give a negative result. -/
theorem C73_nonneg {B : ℕ} (hB : 0 < B) {p : ResoParams} (hg : GoodReso p.mat) (h0 : 0 ≤ p.r0) (disp : Fin B → V3 → ℝ)
    {rez : ℝ} (hr : 0 < rez) {maxStep : ℕ} (hm : 0 < maxStep) {inten : Fin B → V3 → ℝ} (hi : ∀ b x, 0 ≤ inten b x) {r : ℝ}
    (h : convolution (some p) disp inten rez maxStep = .ok r) : 0 ≤ r := by
  obtain ⟨hz, s, -, n, -, -, hc⟩ := C73_sum hB hg disp hr hm
  by_cases hn : Nothing p disp
  · rw [hz hn] at h; exact (Except.ok.inj h).le
  · rw [hc hn] at h
    rw [← Except.ok.inj h]
    have := gaussSum_nonneg p disp hi n
    positivity

/-- Everything in an energy window of `k` standard deviations is within the ellipsoid: no point off by more than `k` standard
deviations in energy is at a squared distance of less than `k²`. -/
theorem energy_le_dist {B : ℕ} {p : ResoParams} (h : SPD p.mat) (disp : Fin B → V3 → ℝ) (x : V3) (b : Fin B) :
    (disp b (p.q + x) - p.en) ^ 2 ≤ dist2 p disp x b * p.mat⁻¹ 3 3 := by
  set v : Fin 4 → ℝ := ![x 0, x 1, x 2, disp b (p.q + x) - p.en] with hv
  have h3 : v 3 = disp b (p.q + x) - p.en := rfl
  set y := p.mat⁻¹ *ᵥ Pi.single 3 1 with hy
  have hy3 : y 3 = p.mat⁻¹ 3 3 := by rw [hy, mulVec_single_one]; rfl
  have hMy : p.mat *ᵥ y = Pi.single 3 1 := by rw [hy, mulVec_mulVec, mul_nonsing_inv _ h.unit, one_mulVec]
  have hT : p.matᵀ = p.mat := by ext i j; exact h.symm j i
  have hV := h.inv.diag_pos 3
  set t := v 3 / p.mat⁻¹ 3 3 with ht
  have hq : 0 ≤ qform p.mat (v - t • y) := by
    by_cases hz : v - t • y = 0
    · rw [hz]; simp [qform]
    · exact (h.pos _ hz).le
  have e : qform p.mat (v - t • y) = qform p.mat v - 2 * t * v 3 + t ^ 2 * p.mat⁻¹ 3 3 := by
    have e1 : v ⬝ᵥ (p.mat *ᵥ y) = v 3 := by rw [hMy, dotProduct_single, mul_one]
    have e2 : y ⬝ᵥ (p.mat *ᵥ v) = v 3 := by
      rw [dotProduct_mulVec, ← mulVec_transpose, hT, hMy, single_dotProduct, one_mul]
    have e3 : y ⬝ᵥ (p.mat *ᵥ y) = p.mat⁻¹ 3 3 := by rw [hMy, dotProduct_single, mul_one, hy3]
    rw [qform_eq, qform_eq, mulVec_sub, mulVec_smul, sub_dotProduct, dotProduct_sub, dotProduct_sub, smul_dotProduct,
      smul_dotProduct, dotProduct_smul, dotProduct_smul, e1, e2, e3]
    simp only [smul_eq_mul]
    ring
  rw [e] at hq
  have h4 : 2 * t * v 3 - t ^ 2 * p.mat⁻¹ 3 3 = v 3 ^ 2 / p.mat⁻¹ 3 3 := by rw [ht]; field_simp; ring
  have h5 : v 3 ^ 2 / p.mat⁻¹ 3 3 ≤ qform p.mat v := by linarith
  rw [div_le_iff₀ hV] at h5
  rw [← h3]
  exact h5

/-- C74: when the convolution is skipped, no band on the coarse grid is closer than three standard deviations, so that none
of the Gaussians left out exceeds `exp(-9/2)`. -/
theorem C74_skipped {B : ℕ} {p : ResoParams} (hg : GoodReso p.mat) {disp : Fin B → V3 → ℝ} (hn : Nothing p disp)
    {i : ℕ × ℕ × ℕ} (hi : i ∈ nodes p.mat⁻¹ (10, 10, 10)) (b : Fin B) :
    9 < dist2 p disp (offset p.mat⁻¹ (10, 10, 10) i) b ∧
    Real.exp (-dist2 p disp (offset p.mat⁻¹ (10, 10, 10) i) b / 2) < Real.exp (-9 / 2) := by
  have hV := hg.spd.inv.diag_pos 3
  have hs := Real.sqrt_pos.2 hV
  have hss := Real.sq_sqrt hV.le
  have key : 9 < dist2 p disp (offset p.mat⁻¹ (10, 10, 10) i) b := by
    have h2 := energy_le_dist hg.spd disp (offset p.mat⁻¹ (10, 10, 10) i) b
    rcases hn with h | h | h
    · have := h i hi b
      nlinarith
    · have := h i hi b
      nlinarith
    · have := h i hi b
      linarith
  refine ⟨key, Real.exp_lt_exp.2 (by linarith)⟩

/-- C74: leaving out the nodes where every band is far away changes the sum by at most `exp(-125/2)` of the sum of the
absolute intensities. -/
theorem C74_truncation {B : ℕ} (p : ResoParams) (disp inten : Fin B → V3 → ℝ) (n : Pts) :
    |(∑ i ∈ nodes p.mat⁻¹ n, ∑ b, inten b (p.q + offset p.mat⁻¹ n i) *
        Real.exp (-dist2 p disp (offset p.mat⁻¹ n i) b / 2)) - gaussSum p disp inten n|
      ≤ Real.exp (-125 / 2) * ∑ i ∈ nodes p.mat⁻¹ n, ∑ b, |inten b (p.q + offset p.mat⁻¹ n i)| := by
  unfold gaussSum
  rw [← Finset.sum_sub_distrib, Finset.mul_sum]
  refine (Finset.abs_sum_le_sum_abs _ _).trans (Finset.sum_le_sum fun i _ => ?_)
  split_ifs with h
  · rw [sub_self, abs_zero]
    exact mul_nonneg (Real.exp_pos _).le (Finset.sum_nonneg fun b _ => abs_nonneg _)
  · rw [sub_zero, Finset.mul_sum]
    refine (Finset.abs_sum_le_sum_abs _ _).trans (Finset.sum_le_sum fun b _ => ?_)
    have : 125 ≤ dist2 p disp (offset p.mat⁻¹ n i) b := not_lt.1 fun hlt => h ⟨b, hlt⟩
    rw [abs_mul, abs_of_pos (Real.exp_pos _), mul_comm]
    exact mul_le_mul_of_nonneg_right (Real.exp_le_exp.2 (by linarith)) (abs_nonneg _)

theorem isMaxStep_unique {B : ℕ} {p : ResoParams} {disp : Fin B → V3 → ℝ} {ax : Fin 3} {s t : ℝ}
    (h : IsMaxStep p disp ax s) (k : IsMaxStep p disp ax t) : s = t := by
  obtain ⟨h1, h2⟩ := h
  obtain ⟨k1, k2⟩ := k
  rcases h2 with ⟨h2, h3⟩ | ⟨b, i, hi, h2⟩
  · rcases k2 with ⟨k2, -⟩ | ⟨b, i, hi, -⟩
    · rw [h2, k2]
    · exact absurd hi (h3 b i)
  · rcases k2 with ⟨-, k3⟩ | ⟨b', i', hi', k2⟩
    · exact absurd hi (k3 b i)
    · refine le_antisymm ?_ ?_
      · rw [h2]; exact k1 b i hi
      · rw [k2]; exact h1 b' i' hi'

/-- C74: moving the measurement and the model together does not change the result. -/
theorem C74_shift {B : ℕ} (hB : 0 < B) {p : ResoParams} (hg : GoodReso p.mat) (disp inten : Fin B → V3 → ℝ) {rez : ℝ}
    (hr : 0 < rez) {maxStep : ℕ} (hm : 0 < maxStep) (d : V3) (e : ℝ) :
    convolution (some { p with q := p.q + d, en := p.en + e }) (fun b v => disp b (v - d) + e) (fun b v => inten b (v - d))
      rez maxStep = convolution (some p) disp inten rez maxStep := by
  set p' : ResoParams := { p with q := p.q + d, en := p.en + e } with hp'
  set disp' : Fin B → V3 → ℝ := fun b v => disp b (v - d) + e with hdisp'
  have hshift : ∀ x : V3, p'.q + x - d = p.q + x := fun x => by rw [hp']; ext a; simp; ring
  have hd : ∀ x b, dist2 p' disp' x b = dist2 p disp x b := fun x b => by
    simp only [dist2, hdisp', hshift]
    rw [show p'.en = p.en + e from rfl, add_sub_add_right_eq_sub]
  have hN : Nothing p' disp' ↔ Nothing p disp := by
    unfold Nothing
    simp only [hd, show p'.mat = p.mat from rfl, show p'.en = p.en + e from rfl]
    refine or_congr ?_ (or_congr ?_ Iff.rfl)
    · refine forall₃_congr fun i _ b => ?_
      simp only [hdisp', hshift]
      constructor <;> intro h <;> linarith
    · refine forall₃_congr fun i _ b => ?_
      simp only [hdisp', hshift]
      constructor <;> intro h <;> linarith
  have hS : ∀ ax s, IsMaxStep p' disp' ax s ↔ IsMaxStep p disp ax s := by
    intro ax s
    have hm : ∀ b i, meanStep p' disp' ax b i = meanStep p disp ax b i := fun b i => by
      unfold meanStep
      simp only [hdisp', hshift, add_sub_add_right_eq_sub]
      rfl
    unfold IsMaxStep
    simp only [hm]
    rfl
  have hG : ∀ n, gaussSum p' disp' (fun b v => inten b (v - d)) n = gaussSum p disp inten n := fun n => by
    unfold gaussSum
    simp only [hd, hshift]
    rfl
  obtain ⟨a0, s, hs, n, hn, -, ha⟩ := C73_sum hB hg disp hr hm
  obtain ⟨b0, s', hs', n', hn', -, hb⟩ := C73_sum hB (p := p') hg disp' hr hm
  have es : s' = s := funext fun ax => isMaxStep_unique ((hS ax _).1 (hs' ax)) (hs ax)
  have en : n' = n := by rw [hn, hn', es]
  by_cases h : Nothing p disp
  · rw [a0 h, b0 (hN.2 h)]
  · rw [ha h, hb (fun h' => h (hN.1 h')), en, hG]

namespace Demo

theorem one_good : GoodReso (1 : Mat 4 4) := by
  refine ⟨⟨fun i j => ?_, fun x hx => ?_⟩, fun i => ?_⟩
  · by_cases h : i = j
    · rw [h]
    · rw [one_apply_ne h, one_apply_ne fun h' => h h'.symm]
  · rw [qform_eq, one_mulVec]
    exact lt_of_le_of_ne (Finset.sum_nonneg fun i _ => mul_self_nonneg (x i)) fun h => hx (dotProduct_self_eq_zero.1 h.symm)
  · rw [inv_one, one_apply_eq]; norm_num

/-- A case that meets the hypotheses of `C73_riemann_partial`: the unit matrix and a flat band. -/
theorem C73_riemann_case : ∃ n : Pts, ∀ inten, convolution (some ⟨0, 0, 1, 1⟩) flat inten (1 / 5) 100
    = .ok (1 * √(1 : Mat 4 4).det / (2 * Real.pi) ^ 2 * (gaussSum ⟨0, 0, 1, 1⟩ flat inten n * cellVolume (1 : Mat 4 4)⁻¹ n)) := by
  have hn : ¬ Nothing (⟨0, 0, 1, 1⟩ : ResoParams) flat := by
    have hc := (centre_mem (1 : Mat 4 4) (n := (10, 10, 10)) (i := (5, 5, 5)) (by norm_num) (by norm_num) (by norm_num)
      rfl rfl rfl)
    have h0 : dist2 (⟨0, 0, 1, 1⟩ : ResoParams) flat 0 0 = 0 := by simp [dist2, qform, flat, Fin.sum_univ_four]
    have h3 : 0 ≤ √((1 : Mat 4 4)⁻¹ 3 3) := Real.sqrt_nonneg _
    rintro (h | h | h)
    · have := h _ hc.1 0
      simp only [flat] at this
      linarith
    · have := h _ hc.1 0
      simp only [flat] at this
      linarith
    · have := h _ hc.1 0
      rw [hc.2, h0] at this
      norm_num at this
  obtain ⟨n, -, h⟩ := C73_riemann_partial (B := 1) one_pos (p := ⟨0, 0, 1, 1⟩) one_good
    (by simp [inv_one]) flat (rez := 1 / 5) (by norm_num) (maxStep := 100) (by norm_num) hn
  exact ⟨n, h⟩

end Demo

end Tavi
