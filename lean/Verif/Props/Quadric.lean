import Verif.Model.Resolution
import Verif.Lemmas.Numpy
import Mathlib.Analysis.Matrix.Order

/-! # C25, C26: widths and projections of resolution ellipsoids -/

namespace Tavi

open Matrix

namespace Spec

/-- The quadratic form of a matrix. -/
def qform {n : ℕ} (M : Mat n n) (x : Fin n → ℝ) : ℝ := ∑ i, ∑ j, x i * M i j * x j

/-- Symmetric and positive definite. -/
structure SPD {n : ℕ} (M : Mat n n) : Prop where
  symm : ∀ i j, M i j = M j i
  pos : ∀ x, x ≠ 0 → 0 < qform M x

/-- The axes that are left when the axes at the positions `l` are projected out one after another (each position counts
among the axes still present). -/
def keptAxes (n : ℕ) (l : List ℕ) : List (Fin n) := l.foldl (fun ks i => ks.eraseIdx i) (List.finRange n)

/-- Every position exists when its turn comes. -/
def Valid : ℕ → List ℕ → Prop
  | _, [] => True
  | n, i :: l => i < n ∧ Valid (n - 1) l

end Spec

open Spec

theorem qform_eq {n : ℕ} (M : Mat n n) (x : Fin n → ℝ) : qform M x = x ⬝ᵥ (M *ᵥ x) := by
  unfold qform
  simp only [dotProduct, mulVec, Finset.mul_sum, mul_assoc]

theorem spd_iff {n : ℕ} (M : Mat n n) : SPD M ↔ M.PosDef := by
  rw [posDef_iff_dotProduct_mulVec]
  constructor
  · rintro ⟨h1, h2⟩
    refine ⟨?_, fun x hx => ?_⟩
    · ext i j; simp [h1 j i]
    · have := h2 x hx
      rw [qform_eq] at this
      simpa using this
  · rintro ⟨h1, h2⟩
    refine ⟨fun i j => ?_, fun x hx => ?_⟩
    · have := congrFun (congrFun h1 j) i
      simpa using this
    · have := h2 hx
      rw [qform_eq]
      simpa using this

theorem Spec.SPD.det_pos {n : ℕ} {M : Mat n n} (h : SPD M) : 0 < M.det := ((spd_iff M).1 h).det_pos

theorem Spec.SPD.unit {n : ℕ} {M : Mat n n} (h : SPD M) : IsUnit M.det := h.det_pos.ne'.isUnit

theorem Spec.SPD.inv {n : ℕ} {M : Mat n n} (h : SPD M) : SPD M⁻¹ := (spd_iff _).2 ((spd_iff M).1 h).inv

theorem Spec.SPD.sub {n m : ℕ} {M : Mat n n} (h : SPD M) {e : Fin m → Fin n} (he : Function.Injective e) :
    SPD (M.submatrix e e) := (spd_iff _).2 (((spd_iff M).1 h).submatrix he)

theorem Spec.SPD.diag_pos {n : ℕ} {M : Mat n n} (h : SPD M) (i : Fin n) : 0 < M i i := ((spd_iff M).1 h).diag_pos

/-- The diagonal entry times the diagonal entry of the inverse is at least one. -/
theorem Spec.SPD.one_le {n : ℕ} {M : Mat n n} (h : SPD M) (i : Fin n) : 1 ≤ M i i * M⁻¹ i i := by
  have hN := h.inv.diag_pos i
  have hM := h.diag_pos i
  have hs : (M⁻¹ *ᵥ Pi.single i 1) = M⁻¹.col i := by simp
  set e : Fin n → ℝ := Pi.single i 1 with he
  set y := M⁻¹ *ᵥ e with hy
  have hMy : M *ᵥ y = e := by rw [hy, mulVec_mulVec, mul_nonsing_inv _ h.unit, one_mulVec]
  have hei : ∀ v : Fin n → ℝ, e ⬝ᵥ v = v i := fun v => by rw [he, single_dotProduct, one_mul]
  have hMe : (M *ᵥ e) i = M i i := by rw [he, mulVec_single_one]; rfl
  have hyi : y i = M⁻¹ i i := by rw [hy, he, mulVec_single_one]; rfl
  have hyM : y ⬝ᵥ (M *ᵥ e) = 1 := by
    have : y ⬝ᵥ (M *ᵥ e) = e ⬝ᵥ (M *ᵥ y) := by
      have hT : Mᵀ = M := by ext a b; exact h.symm b a
      rw [dotProduct_mulVec, ← mulVec_transpose, hT, hMy, dotProduct_comm]
    rw [this, hMy, hei]; simp [he]
  have key : 0 ≤ qform M (e - (M⁻¹ i i)⁻¹ • y) := by
    by_cases hz : e - (M⁻¹ i i)⁻¹ • y = 0
    · rw [hz]; simp [qform]
    · exact (h.pos _ hz).le
  rw [qform_eq, mulVec_sub, mulVec_smul, hMy, sub_dotProduct, dotProduct_sub, dotProduct_sub, hei, hMe, dotProduct_smul,
    smul_dotProduct, smul_dotProduct, dotProduct_smul, hyM, hei] at key
  have e1 : e i = 1 := by simp [he]
  have e2 : y ⬝ᵥ e = M⁻¹ i i := by rw [dotProduct_comm, hei, hyi]
  rw [e1, e2] at key
  simp only [smul_eq_mul, mul_one] at key
  have : (M⁻¹ i i)⁻¹ ≤ M i i := by
    have e3 : (M⁻¹ i i)⁻¹ * ((M⁻¹ i i)⁻¹ * M⁻¹ i i) = (M⁻¹ i i)⁻¹ := by field_simp
    linarith
  calc (1 : ℝ) = (M⁻¹ i i)⁻¹ * M⁻¹ i i := by field_simp
    _ ≤ _ := by gcongr

/-- The Schur complement. -/
noncomputable def schur {n : ℕ} (M : Mat (n + 1) (n + 1)) (i : Fin (n + 1)) : Mat n n := fun a b =>
  M (i.succAbove a) (i.succAbove b) - M (i.succAbove a) i * M i (i.succAbove b) / M i i

theorem quadricProjAt_ok {n : ℕ} {M : Mat (n + 1) (n + 1)} (hs : ∀ a b, M a b = M b a) {i : Fin (n + 1)}
    (hp : 1e-8 ≤ M i i) : quadricProjAt M i = .ok (schur M i) := by
  have h0 : (0 : ℝ) < 1e-8 := by norm_num
  have h1 : 0 < M i i := lt_of_lt_of_le h0 hp
  unfold quadricProjAt
  rw [if_neg (by rw [abs_of_pos h1]; exact not_lt.2 hp), pySqrt_ok h1.le]
  simp only [py_bind_ok, py_pure, Except.ok.injEq]
  ext a b
  simp only [submatrix_apply, Matrix.sub_apply, vecMulVec_apply, schur]
  congr 1
  have : √(M i i) * √(M i i) = M i i := Real.mul_self_sqrt h1.le
  rw [div_mul_div_comm, this, hs (i.succAbove a) i, hs (i.succAbove b) i]
  ring

/-- Projecting is the same as taking the block of the inverse. -/
theorem schur_inv {n : ℕ} {M : Mat (n + 1) (n + 1)} (h : SPD M) (i : Fin (n + 1)) :
    schur M i * M⁻¹.submatrix i.succAbove i.succAbove = 1 := by
  have hii := (h.diag_pos i).ne'
  have hMN : M * M⁻¹ = 1 := mul_nonsing_inv _ h.unit
  ext a b
  have s1 := congrFun (congrFun hMN (i.succAbove a)) (i.succAbove b)
  have s2 := congrFun (congrFun hMN i) (i.succAbove b)
  rw [mul_apply, Fin.sum_univ_succAbove _ i] at s1 s2
  rw [one_apply_ne (Fin.succAbove_ne i b).symm] at s2
  have e1 : (1 : Mat (n + 1) (n + 1)) (i.succAbove a) (i.succAbove b) = (1 : Mat n n) a b := by
    by_cases hab : a = b
    · subst hab; simp
    · rw [one_apply_ne hab, one_apply_ne fun hh => hab (Fin.succAbove_right_injective hh)]
  rw [e1] at s1
  rw [mul_apply]
  simp only [schur, submatrix_apply, sub_mul]
  rw [Finset.sum_sub_distrib]
  have s3 : ∑ x, M (i.succAbove a) i * M i (i.succAbove x) / M i i * M⁻¹ (i.succAbove x) (i.succAbove b)
      = M (i.succAbove a) i / M i i * ∑ x, M i (i.succAbove x) * M⁻¹ (i.succAbove x) (i.succAbove b) := by
    rw [Finset.mul_sum]; exact Finset.sum_congr rfl fun x _ => by ring
  rw [s3]
  have s4 : ∑ x, M i (i.succAbove x) * M⁻¹ (i.succAbove x) (i.succAbove b) = -(M i i * M⁻¹ i (i.succAbove b)) := by
    linarith
  rw [s4, ← s1]
  field_simp
  ring

theorem schur_inv_eq {n : ℕ} {M : Mat (n + 1) (n + 1)} (h : SPD M) (i : Fin (n + 1)) :
    (schur M i)⁻¹ = M⁻¹.submatrix i.succAbove i.succAbove := inv_eq_right_inv (schur_inv h i)

theorem schur_spd {n : ℕ} {M : Mat (n + 1) (n + 1)} (h : SPD M) (i : Fin (n + 1)) : SPD (schur M i) := by
  have h1 : SPD (M⁻¹.submatrix i.succAbove i.succAbove) := h.inv.sub Fin.succAbove_right_injective
  have h2 : (M⁻¹.submatrix i.succAbove i.succAbove)⁻¹ = schur M i := inv_eq_left_inv (schur_inv h i)
  rw [← h2]; exact h1.inv

/-- What is known about an intermediate result: labels of the remaining axes and the corresponding block of the inverse. -/
structure Stage {N : ℕ} (V : Mat N N) (q : Quad) (ks : List (Fin N)) : Prop where
  len : q.n = ks.length
  spd : SPD q.m
  inv : ∀ a b : Fin q.n, q.m⁻¹ a b = V (ks[a.val]'(len ▸ a.2)) (ks[b.val]'(len ▸ b.2))

theorem eraseIdx_succAbove {α : Type*} {n : ℕ} (ks : List α) (i : Fin (n + 1)) (a : Fin n)
    (h1 : a.val < (ks.eraseIdx i.val).length) (h2 : (i.succAbove a).val < ks.length) :
    (ks.eraseIdx i.val)[a.val] = ks[(i.succAbove a).val] := by
  rw [List.getElem_eraseIdx]
  by_cases hlt : a.val < i.val
  · rw [dif_pos hlt]
    congr 1
    rw [Fin.succAbove_of_castSucc_lt _ _ (by simpa [Fin.lt_def] using hlt)]; rfl
  · rw [dif_neg hlt]
    congr 1
    rw [Fin.succAbove_of_le_castSucc _ _ (by simpa [Fin.le_def] using hlt)]; rfl

theorem stage_step {N : ℕ} {V : Mat N N} (hV : ∀ i, V i i ≤ 1e8) {q : Quad} {ks : List (Fin N)} (h : Stage V q ks)
    {i : ℕ} (hi : i < q.n) : ∃ r, quadricProj q i = .ok r ∧ r.n = q.n - 1 ∧ Stage V r (ks.eraseIdx i) := by
  obtain ⟨n, m⟩ := q
  cases n with
  | zero => exact absurd hi (Nat.not_lt_zero _)
  | succ n =>
    have hi' : i < n + 1 := hi
    have hp : (1e-8 : ℝ) ≤ m ⟨i, hi'⟩ ⟨i, hi'⟩ := by
      have h1 := h.spd.one_le ⟨i, hi'⟩
      have h2 := h.inv ⟨i, hi'⟩ ⟨i, hi'⟩
      have h3 := hV (ks[i]'(by rw [← h.len]; exact hi))
      have h4 := h.spd.diag_pos ⟨i, hi'⟩
      dsimp only at h1 h2 h4
      rw [h2] at h1
      have h5 : m ⟨i, hi'⟩ ⟨i, hi'⟩ * V (ks[i]'(by rw [← h.len]; exact hi)) (ks[i]'(by rw [← h.len]; exact hi))
          ≤ m ⟨i, hi'⟩ ⟨i, hi'⟩ * 1e8 := by gcongr
      have h6 : (1 : ℝ) ≤ m ⟨i, hi'⟩ ⟨i, hi'⟩ * 1e8 := h1.trans h5
      norm_num at h6 ⊢
      linarith
    have hle : i < ks.length := by rw [← h.len]; exact hi
    have hlen : n = (ks.eraseIdx i).length := by
      have := h.len
      dsimp only at this
      rw [List.length_eraseIdx_of_lt hle]; omega
    refine ⟨⟨n, schur m ⟨i, hi'⟩⟩, ?_, rfl, ⟨hlen, schur_spd h.spd _, fun a b => ?_⟩⟩
    · unfold quadricProj
      dsimp only
      rw [dif_pos hi', quadricProjAt_ok h.spd.symm hp]
      rfl
    · have h7 := schur_inv_eq h.spd ⟨i, hi'⟩
      dsimp only at h7 a b ⊢
      rw [h7, submatrix_apply, h.inv]
      congr 1
      · exact (eraseIdx_succAbove ks ⟨i, hi'⟩ a _ _).symm
      · exact (eraseIdx_succAbove ks ⟨i, hi'⟩ b _ _).symm

theorem stage_fold {N : ℕ} {V : Mat N N} (hV : ∀ i, V i i ≤ 1e8) (l : List ℕ) : ∀ {q : Quad} {ks : List (Fin N)},
    Stage V q ks → Valid q.n l → ∃ r, l.foldlM quadricProj q = .ok r ∧
      Stage V r (l.foldl (fun ks i => ks.eraseIdx i) ks) := by
  induction l with
  | nil => exact fun {q ks} h _ => ⟨q, rfl, h⟩
  | cons i l ih =>
    intro q ks h hv
    obtain ⟨r, hr, hn, hs⟩ := stage_step hV h hv.1
    obtain ⟨r', hr', hs'⟩ := ih hs (by rw [hn]; exact hv.2)
    exact ⟨r', by rw [List.foldlM_cons, hr, py_bind_ok, hr'], hs'⟩

theorem stage_start {N : ℕ} {M : Mat N N} (h : SPD M) : Stage M⁻¹ ⟨N, M⟩ (List.finRange N) :=
  ⟨by simp, h, fun a b => by simp⟩

/-- C26 (proved for ellipsoids whose variances stay below 1e8): projecting axes out one after another always succeeds and
gives the ellipsoid whose inverse is the block of the inverse belonging to the axes that are left. Missing from the full
statement: matrices with a pivot below 1e-8, where the code drops the axis without projecting
(`C26_small_pivot_differs`). -/
theorem C26_block_of_inverse_partial {n : ℕ} {M : Mat n n} (h : SPD M) (hV : ∀ i, M⁻¹ i i ≤ 1e8) {l : List ℕ}
    (hl : Valid n l) : ∃ r : Quad, l.foldlM quadricProj ⟨n, M⟩ = .ok r ∧ SPD r.m ∧
      ∃ hlen : r.n = (keptAxes n l).length, ∀ a b : Fin r.n,
        r.m⁻¹ a b = M⁻¹ ((keptAxes n l)[a.val]'(hlen ▸ a.2)) ((keptAxes n l)[b.val]'(hlen ▸ b.2)) := by
  obtain ⟨r, hr, hs⟩ := stage_fold hV l (stage_start h) hl
  exact ⟨r, hr, hs.spd, hs.len, hs.inv⟩

theorem stage_unique {N : ℕ} {V : Mat N N} {q r : Quad} {ks : List (Fin N)} (h : Stage V q ks) (k : Stage V r ks) :
    q = r := by
  obtain ⟨n, m⟩ := q
  obtain ⟨n', m'⟩ := r
  have hn : n = n' := h.len.trans k.len.symm
  subst hn
  congr 1
  have : m⁻¹ = m'⁻¹ := by ext a b; rw [h.inv, k.inv]
  rw [← nonsing_inv_nonsing_inv m h.spd.unit, ← nonsing_inv_nonsing_inv m' k.spd.unit, this]

theorem kept_sublist (n : ℕ) (l : List ℕ) : (keptAxes n l).Sublist (List.finRange n) := by
  have : ∀ (l : List ℕ) (ks : List (Fin n)), (l.foldl (fun ks i => ks.eraseIdx i) ks).Sublist ks := by
    intro l
    induction l with
    | nil => exact fun ks => List.Sublist.refl _
    | cons i l ih => exact fun ks => (ih _).trans (List.eraseIdx_sublist _ _)
  exact this l _

theorem kept_ext {n : ℕ} {l l' : List ℕ} (h : ∀ x, x ∈ keptAxes n l ↔ x ∈ keptAxes n l') : keptAxes n l = keptAxes n l' := by
  have hs : ∀ l, (keptAxes n l).Pairwise (· < ·) := fun l => (List.pairwise_lt_finRange n).sublist (kept_sublist n l)
  have hn : ∀ l, (keptAxes n l).Nodup := fun l => (hs l).imp fun hab => hab.ne
  exact ((List.perm_ext_iff_of_nodup (hn l) (hn l')).2 h).eq_of_pairwise (fun a b _ _ hab hba => absurd hba hab.not_gt)
    (hs l) (hs l')

/-- C26 (same restriction): the order in which axes are projected out does not matter. Two sequences of projections that
leave the same axes give the same matrix. -/
theorem C26_order_partial {n : ℕ} {M : Mat n n} (h : SPD M) (hV : ∀ i, M⁻¹ i i ≤ 1e8) {l l' : List ℕ}
    (hl : Valid n l) (hl' : Valid n l') (hk : ∀ x, x ∈ keptAxes n l ↔ x ∈ keptAxes n l') :
    l.foldlM quadricProj ⟨n, M⟩ = l'.foldlM quadricProj ⟨n, M⟩ := by
  obtain ⟨r, hr, hs⟩ := stage_fold hV l (stage_start h) hl
  obtain ⟨r', hr', hs'⟩ := stage_fold hV l' (stage_start h) hl'
  have : l.foldl (fun ks i => ks.eraseIdx i) (List.finRange n) = l'.foldl (fun ks i => ks.eraseIdx i) (List.finRange n) :=
    kept_ext hk
  rw [← this] at hs'
  rw [hr, hr', stage_unique hs hs']

/-- Two ways to project a four dimensional ellipsoid on axes 0 and 3: first axis 2 then axis 1, or first axis 1 and then
the axis that has moved to position 1. -/
example : Valid 4 [2, 1] ∧ Valid 4 [1, 1] ∧ keptAxes 4 [2, 1] = [0, 3] ∧ keptAxes 4 [1, 1] = [0, 3] := by
  refine ⟨⟨by decide, by decide, trivial⟩, ⟨by decide, by decide, trivial⟩, by decide, by decide⟩

theorem qform_insert {n : ℕ} (M : Mat (n + 1) (n + 1)) (hs : ∀ a b, M a b = M b a) (i : Fin (n + 1)) (t : ℝ) (z : Fin n → ℝ) :
    qform M (i.insertNth t z) = M i i * t ^ 2 + 2 * t * (∑ a, M i (i.succAbove a) * z a)
      + ∑ a, ∑ b, z a * M (i.succAbove a) (i.succAbove b) * z b := by
  unfold qform
  rw [Fin.sum_univ_succAbove _ i, Fin.sum_univ_succAbove _ i]
  simp only [Fin.insertNth_apply_same, Fin.insertNth_apply_succAbove]
  have : ∀ a, ∑ j, z a * M (i.succAbove a) j * i.insertNth (α := fun _ => ℝ) t z j
      = z a * M (i.succAbove a) i * t + ∑ b, z a * M (i.succAbove a) (i.succAbove b) * z b := fun a => by
    rw [Fin.sum_univ_succAbove _ i]; simp
  rw [Finset.sum_congr rfl fun a _ => this a, Finset.sum_add_distrib]
  have e1 : ∑ a, z a * M (i.succAbove a) i * t = t * ∑ a, M i (i.succAbove a) * z a := by
    rw [Finset.mul_sum]; exact Finset.sum_congr rfl fun a _ => by rw [hs (i.succAbove a) i]; ring
  have e2 : ∑ a, t * M i (i.succAbove a) * z a = t * ∑ a, M i (i.succAbove a) * z a := by
    rw [Finset.mul_sum]; exact Finset.sum_congr rfl fun a _ => by ring
  rw [e1, e2]; ring

theorem qform_schur {n : ℕ} (M : Mat (n + 1) (n + 1)) (hs : ∀ a b, M a b = M b a) (i : Fin (n + 1)) (z : Fin n → ℝ) :
    qform (schur M i) z = ∑ a, ∑ b, z a * M (i.succAbove a) (i.succAbove b) * z b
      - (∑ a, M i (i.succAbove a) * z a) ^ 2 / M i i := by
  unfold qform schur
  rw [pow_two, Finset.sum_mul_sum, Finset.sum_div, ← Finset.sum_sub_distrib]
  refine Finset.sum_congr rfl fun a _ => ?_
  rw [Finset.sum_div, ← Finset.sum_sub_distrib]
  refine Finset.sum_congr rfl fun b _ => ?_
  rw [hs (i.succAbove a) i]; ring

/-- C26: one projection is the shadow of the ellipsoid: its quadratic form is the minimum of the original form over the
coordinate that is projected out. -/
theorem C26_shadow {n : ℕ} {M : Mat (n + 1) (n + 1)} (h : SPD M) {i : Fin (n + 1)} (hp : 1e-8 ≤ M i i) :
    ∃ S, quadricProjAt M i = .ok S ∧ ∀ z : Fin n → ℝ,
      (∀ t : ℝ, qform S z ≤ qform M (i.insertNth (α := fun _ => ℝ) t z)) ∧
      ∃ t : ℝ, qform M (i.insertNth (α := fun _ => ℝ) t z) = qform S z := by
  refine ⟨schur M i, quadricProjAt_ok h.symm hp, fun z => ⟨fun t => ?_, ?_⟩⟩
  · rw [qform_insert M h.symm, qform_schur M h.symm]
    have hM := h.diag_pos i
    set s := ∑ a, M i (i.succAbove a) * z a
    have : M i i * t ^ 2 + 2 * t * s + s ^ 2 / M i i = (M i i * t + s) ^ 2 / M i i := by field_simp; ring
    have h2 : 0 ≤ (M i i * t + s) ^ 2 / M i i := by positivity
    linarith
  · refine ⟨-(∑ a, M i (i.succAbove a) * z a) / M i i, ?_⟩
    rw [qform_insert M h.symm, qform_schur M h.symm]
    have hM := (h.diag_pos i).ne'
    set s := ∑ a, M i (i.succAbove a) * z a
    field_simp
    ring

/-- C26: the projection used by the convolution code is the same function. -/
theorem C26_convolution_same {n : ℕ} (M : Mat (n + 1) (n + 1)) (i : Fin (n + 1)) : convProj M i = quadricProjAt M i := rfl

/-- C26 fails below the threshold: a symmetric positive definite matrix whose projection is not the block of the inverse,
so the drawn shadow is smaller than the ellipsoid. -/
theorem C26_small_pivot_differs : ∃ (M : Mat 2 2) (S : Mat 1 1), SPD M ∧ quadricProjAt M 0 = .ok S ∧
    S 0 0 = 1 ∧ S⁻¹ 0 0 ≠ M⁻¹ 1 1 := by
  refine ⟨!![1e-10, 9e-6; 9e-6, 1], !![1], ⟨fun i j => ?_, fun x hx => ?_⟩, ?_, ?_, ?_⟩
  · fin_cases i <;> fin_cases j <;> simp
  · have hx' : x 0 ≠ 0 ∨ x 1 ≠ 0 := by
      by_contra hc
      push Not at hc
      exact hx (by ext i; fin_cases i <;> simp [hc.1, hc.2])
    simp only [qform, Fin.sum_univ_two, of_apply, cons_val', cons_val_zero, cons_val_one, cons_val_fin_one]
    have e : x 0 * 1e-10 * x 0 + x 0 * 9e-6 * x 1 + (x 1 * 9e-6 * x 0 + x 1 * 1 * x 1)
        = (x 1 + 9e-6 * x 0) ^ 2 + 1.9e-11 * x 0 ^ 2 := by ring
    rw [e]
    rcases hx' with h0 | h1
    · have : 0 < x 0 ^ 2 := by positivity
      have : 0 ≤ (x 1 + 9e-6 * x 0) ^ 2 := by positivity
      nlinarith
    · by_cases h0 : x 0 = 0
      · rw [h0]; have : 0 < x 1 ^ 2 := by positivity
        nlinarith
      · have : 0 < x 0 ^ 2 := by positivity
        have : 0 ≤ (x 1 + 9e-6 * x 0) ^ 2 := by positivity
        nlinarith
  · unfold quadricProjAt
    rw [if_pos (by simp; norm_num)]
    congr 1
    ext a b
    fin_cases a; fin_cases b
    simp
  · simp
  · rw [inv_def, inv_def]
    simp [det_fin_two, adjugate_fin_two]
    norm_num

/-- C25: on a symmetric positive definite matrix (variances below 1e8, so that no pivot is below the threshold) both widths
are defined, the incoherent width is `sig2fwhm` times the square root of the diagonal entry of the inverse, and the coherent
width never exceeds it. -/
theorem C25_widths {M : Mat 4 4} (h : SPD M) (hV : ∀ i, M⁻¹ i i ≤ 1e8) (axis : Fin 4) :
    ∃ c w, cohFwhm M axis = .ok c ∧ incohFwhm M axis = .ok w ∧
      c = sig2fwhm / √(M axis axis) ∧ w = sig2fwhm * √(M⁻¹ axis axis) ∧ 0 < c ∧ c ≤ w := by
  have hs0 : 0 < sig2fwhm := by
    unfold sig2fwhm
    have : 0 < Real.log 2 := Real.log_pos (by norm_num)
    positivity
  have hd := h.diag_pos axis
  have hi := h.inv.diag_pos axis
  have h1 := h.one_le axis
  refine ⟨_, sig2fwhm * √(M⁻¹ axis axis), ?_, ?_, rfl, rfl, by positivity, ?_⟩
  · unfold cohFwhm
    rw [pySqrt_ok hd.le]
    simp only [py_bind_ok]
    exact pyDiv_ok (Real.sqrt_pos.2 hd).ne'
  · have hfold : ∃ r, [3, 2, 1, 0].foldlM (fun (r : Quad) (i : ℕ) => if i = axis.val then pure r else quadricProj r i)
        (⟨4, M⟩ : Quad) = .ok r ∧ Stage M⁻¹ r [axis] := by
      have aux : ∀ l : List ℕ, Valid 4 l → keptAxes 4 l = [axis] →
          ([3, 2, 1, 0].foldlM (fun (r : Quad) (i : ℕ) => if i = axis.val then pure r else quadricProj r i)
            (⟨4, M⟩ : Quad) = l.foldlM quadricProj ⟨4, M⟩) →
          ∃ r, [3, 2, 1, 0].foldlM (fun (r : Quad) (i : ℕ) => if i = axis.val then pure r else quadricProj r i)
            (⟨4, M⟩ : Quad) = .ok r ∧ Stage M⁻¹ r [axis] := fun l hv hk he => by
        obtain ⟨r, hr, hst⟩ := stage_fold hV l (stage_start h) hv
        exact ⟨r, he.trans hr, hk ▸ hst⟩
      fin_cases axis
      · exact aux [3, 2, 1] ⟨by decide, by decide, by decide, trivial⟩ (by decide) (by simp [List.foldlM_cons])
      · exact aux [3, 2, 0] ⟨by decide, by decide, by decide, trivial⟩ (by decide) (by simp [List.foldlM_cons])
      · exact aux [3, 1, 0] ⟨by decide, by decide, by decide, trivial⟩ (by decide) (by simp [List.foldlM_cons])
      · exact aux [2, 1, 0] ⟨by decide, by decide, by decide, trivial⟩ (by decide) (by simp [List.foldlM_cons])
    obtain ⟨⟨n, m⟩, hr, hst⟩ := hfold
    have hn : n = 1 := hst.len
    subst hn
    have h00 : m 0 0 = (M⁻¹ axis axis)⁻¹ := by
      have e1 := hst.inv 0 0
      have e2 : m⁻¹ 0 0 = (m 0 0)⁻¹ := by
        rw [inv_def, det_fin_one, adjugate_fin_one]; simp
      dsimp only at e1
      rw [e2] at e1
      have e3 : (m 0 0)⁻¹ = M⁻¹ axis axis := by rw [e1]; rfl
      rw [← e3, inv_inv]
    unfold incohFwhm
    rw [hr]
    simp only [py_bind_ok, Quad.entry00]
    rw [h00, abs_of_pos (by positivity), pySqrt_ok (by positivity)]
    simp only [py_bind_ok]
    rw [pyDiv_ok (Real.sqrt_pos.2 (by positivity)).ne', Real.sqrt_inv, div_inv_eq_mul]
  · rw [div_le_iff₀ (Real.sqrt_pos.2 hd), mul_assoc, ← Real.sqrt_mul hi.le]
    have : (1 : ℝ) ≤ √(M⁻¹ axis axis * M axis axis) := by
      rw [Real.one_le_sqrt]; linarith
    nlinarith

theorem pivot_ok {n : ℕ} {M : Mat n n} (h : SPD M) (hV : ∀ i, M⁻¹ i i ≤ 1e8) (i : Fin n) : (1e-8 : ℝ) ≤ M i i := by
  have h1 := h.one_le i
  have h4 := h.diag_pos i
  have h5 : M i i * M⁻¹ i i ≤ M i i * 1e8 := by have := hV i; gcongr
  have h6 : (1 : ℝ) ≤ M i i * 1e8 := h1.trans h5
  norm_num at h6 ⊢
  linarith

theorem convProj_ok {n : ℕ} {M : Mat (n + 1) (n + 1)} (h : SPD M) (hV : ∀ i, M⁻¹ i i ≤ 1e8) (i : Fin (n + 1)) :
    convProj M i = .ok (schur M i) ∧ SPD (schur M i) ∧ ∀ j, (schur M i)⁻¹ j j ≤ 1e8 := by
  refine ⟨quadricProjAt_ok h.symm (pivot_ok h hV i), schur_spd h i, fun j => ?_⟩
  rw [schur_inv_eq h i]; exact hV _

theorem invSqrtAbs_one {m : Mat 1 1} {x : ℝ} (hx : 0 < x) (h : m⁻¹ 0 0 = x) : invSqrtAbs (m 0 0) = .ok √x := by
  have e2 : m⁻¹ 0 0 = (m 0 0)⁻¹ := by rw [inv_def, det_fin_one, adjugate_fin_one]; simp
  have e : m 0 0 = x⁻¹ := by rw [← h, e2, inv_inv]
  unfold invSqrtAbs
  rw [e, abs_of_pos (by positivity), pySqrt_ok (by positivity)]
  simp only [py_bind_ok]
  rw [pyDiv_ok (Real.sqrt_pos.2 (by positivity)).ne', Real.sqrt_inv, one_div, inv_inv]

/-- C25: the standard deviations used by the convolution code are the square roots of the variances, i.e. of the diagonal
of the inverse matrix: in energy from the full matrix, in the three momentum directions from the matrix that is left when
energy has been projected out. -/
theorem C25_convolution_sigmas {M : Mat 4 4} (h : SPD M) (hV : ∀ i, M⁻¹ i i ≤ 1e8) :
    incohSigmaEn M = .ok √(M⁻¹ 3 3) ∧
    (convProj M 3 >>= incohSigmaQs) = .ok (√(M⁻¹ 0 0), √(M⁻¹ 1 1), √(M⁻¹ 2 2)) ∧
    ∀ i, ∃ c, cohSigma M i = .ok c ∧ 0 < c ∧ c ≤ √(M⁻¹ i i) := by
  refine ⟨?_, ?_, fun i => ?_⟩
  · obtain ⟨a1, a2, a3⟩ := convProj_ok h hV 2
    obtain ⟨b1, b2, b3⟩ := convProj_ok a2 a3 1
    obtain ⟨c1, c2, c3⟩ := convProj_ok b2 b3 0
    unfold incohSigmaEn
    rw [a1, py_bind_ok, b1, py_bind_ok, c1, py_bind_ok]
    refine invSqrtAbs_one (h.inv.diag_pos 3) ?_
    rw [schur_inv_eq b2, submatrix_apply, schur_inv_eq a2, submatrix_apply, schur_inv_eq h, submatrix_apply]
    rfl
  · obtain ⟨z1, z2, z3⟩ := convProj_ok h hV 3
    obtain ⟨a1, a2, a3⟩ := convProj_ok z2 z3 2
    obtain ⟨b1, b2, b3⟩ := convProj_ok a2 a3 1
    obtain ⟨c1, c2, c3⟩ := convProj_ok a2 a3 0
    obtain ⟨d1, d2, d3⟩ := convProj_ok z2 z3 1
    obtain ⟨e1, e2, e3⟩ := convProj_ok d2 d3 0
    rw [z1, py_bind_ok]
    unfold incohSigmaQs
    rw [a1, py_bind_ok, b1, py_bind_ok, c1, py_bind_ok, d1, py_bind_ok, e1, py_bind_ok]
    rw [invSqrtAbs_one (h.inv.diag_pos 0) (by
        rw [schur_inv_eq a2, submatrix_apply, schur_inv_eq z2, submatrix_apply, schur_inv_eq h, submatrix_apply]; rfl),
      py_bind_ok, invSqrtAbs_one (h.inv.diag_pos 1) (by
        rw [schur_inv_eq a2, submatrix_apply, schur_inv_eq z2, submatrix_apply, schur_inv_eq h, submatrix_apply]; rfl),
      py_bind_ok, invSqrtAbs_one (h.inv.diag_pos 2) (by
        rw [schur_inv_eq d2, submatrix_apply, schur_inv_eq z2, submatrix_apply, schur_inv_eq h, submatrix_apply]; rfl),
      py_bind_ok]
    rfl
  · have hd := h.diag_pos i
    have hi := h.inv.diag_pos i
    refine ⟨1 / √(M i i), ?_, by positivity, ?_⟩
    · unfold cohSigma invSqrtAbs
      rw [abs_of_pos hd, pySqrt_ok hd.le]
      simp only [py_bind_ok]
      exact pyDiv_ok (Real.sqrt_pos.2 hd).ne'
    · rw [div_le_iff₀ (Real.sqrt_pos.2 hd), ← Real.sqrt_mul hi.le, Real.one_le_sqrt]
      linarith [h.one_le i]

/-- The hypotheses of `C25_widths` hold for a sheared matrix with different widths. -/
example : ∃ M : Mat 4 4, SPD M ∧ (∀ i, M⁻¹ i i ≤ 1e8) ∧ M 0 3 ≠ 0 := by
  have hinv : (!![2, 0, 0, 1; 0, 3, 0, 0; 0, 0, 4, 0; 1, 0, 0, 1] : Mat 4 4)⁻¹
      = !![1, 0, 0, -1; 0, 1/3, 0, 0; 0, 0, 1/4, 0; -1, 0, 0, 2] := by
    apply inv_eq_left_inv
    ext i j
    fin_cases i <;> fin_cases j <;> simp [mul_apply, Fin.sum_univ_four] <;> norm_num
  refine ⟨!![2, 0, 0, 1; 0, 3, 0, 0; 0, 0, 4, 0; 1, 0, 0, 1], ⟨fun i j => ?_, fun x hx => ?_⟩, fun i => ?_, by simp⟩
  · fin_cases i <;> fin_cases j <;> simp
  · simp only [qform, Fin.sum_univ_four]
    simp
    have e : x 0 * 2 * x 0 + x 0 * x 3 + x 1 * 3 * x 1 + x 2 * 4 * x 2 + (x 3 * x 0 + x 3 * x 3)
        = x 0 ^ 2 + 3 * x 1 ^ 2 + 4 * x 2 ^ 2 + (x 0 + x 3) ^ 2 := by ring
    rw [e]
    by_contra hc
    apply hx
    have p0 := sq_nonneg (x 0); have p1 := sq_nonneg (x 1); have p2 := sq_nonneg (x 2); have p3 := sq_nonneg (x 0 + x 3)
    have q0 : x 0 = 0 := pow_eq_zero_iff (two_ne_zero) |>.1 (by linarith)
    have q1 : x 1 = 0 := pow_eq_zero_iff (two_ne_zero) |>.1 (by linarith)
    have q2 : x 2 = 0 := pow_eq_zero_iff (two_ne_zero) |>.1 (by linarith)
    have q3 : x 0 + x 3 = 0 := pow_eq_zero_iff (two_ne_zero) |>.1 (by linarith)
    ext i
    fin_cases i
    · exact q0
    · exact q1
    · exact q2
    · show x 3 = 0
      linarith
  · rw [hinv]; fin_cases i <;> simp <;> norm_num

end Tavi
