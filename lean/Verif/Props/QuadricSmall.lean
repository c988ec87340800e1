import Verif.Props.Quadric

/-! # C25, C26, continued: every symmetric positive definite matrix, whatever its pivots -/

namespace Tavi

open Matrix Spec

theorem schur_le {n : ℕ} {M : Mat (n + 1) (n + 1)} (h : SPD M) (i : Fin (n + 1)) (z : Fin n → ℝ) (t : ℝ) :
    qform (schur M i) z ≤ qform M (i.insertNth (α := fun _ => ℝ) t z) := by
  rw [qform_insert M h.symm, qform_schur M h.symm]
  have hM := h.diag_pos i
  set s := ∑ a, M i (i.succAbove a) * z a
  have : M i i * t ^ 2 + 2 * t * s + s ^ 2 / M i i = (M i i * t + s) ^ 2 / M i i := by field_simp; ring
  have h2 : 0 ≤ (M i i * t + s) ^ 2 / M i i := by positivity
  linarith

theorem schur_attained {n : ℕ} {M : Mat (n + 1) (n + 1)} (h : SPD M) (i : Fin (n + 1)) (z : Fin n → ℝ) :
    ∃ t : ℝ, qform M (i.insertNth (α := fun _ => ℝ) t z) = qform (schur M i) z := by
  refine ⟨-(∑ a, M i (i.succAbove a) * z a) / M i i, ?_⟩
  rw [qform_insert M h.symm, qform_schur M h.symm]
  have hM := (h.diag_pos i).ne'
  set s := ∑ a, M i (i.succAbove a) * z a
  field_simp
  ring

theorem schur_mono {n : ℕ} {P M : Mat (n + 1) (n + 1)} (hP : SPD P) (h : SPD M) (hle : ∀ x, qform P x ≤ qform M x)
    (i : Fin (n + 1)) (z : Fin n → ℝ) : qform (schur P i) z ≤ qform (schur M i) z := by
  obtain ⟨t, ht⟩ := schur_attained h i z
  rw [← ht]
  exact (schur_le hP i z t).trans (hle _)

theorem qform_sub {n : ℕ} {M : Mat (n + 1) (n + 1)} (hs : ∀ a b, M a b = M b a) (i : Fin (n + 1)) (z : Fin n → ℝ) :
    qform (M.submatrix i.succAbove i.succAbove) z = qform M (i.insertNth (α := fun _ => ℝ) 0 z) := by
  rw [qform_insert M hs]
  simp [qform]

theorem schur_diag_le {n : ℕ} {M : Mat (n + 1) (n + 1)} (h : SPD M) (i : Fin (n + 1)) (a : Fin n) :
    schur M i a a ≤ M (i.succAbove a) (i.succAbove a) := by
  unfold schur
  have hM := h.diag_pos i
  rw [h.symm (i.succAbove a) i]
  have : 0 ≤ M i (i.succAbove a) * M i (i.succAbove a) / M i i := div_nonneg (mul_self_nonneg _) hM.le
  linarith

theorem quadricProjAt_small {n : ℕ} {M : Mat (n + 1) (n + 1)} (h : SPD M) {i : Fin (n + 1)} (hp : M i i < 1e-8) :
    quadricProjAt M i = .ok (M.submatrix i.succAbove i.succAbove) := by
  unfold quadricProjAt
  rw [if_pos (by rw [abs_of_pos (h.diag_pos i)]; exact hp)]

theorem quadricProjAt_any {n : ℕ} {M : Mat (n + 1) (n + 1)} (h : SPD M) (i : Fin (n + 1)) :
    ∃ S, quadricProjAt M i = .ok S ∧ SPD S ∧ (∀ z, qform (schur M i) z ≤ qform S z) ∧
      ∀ a, S a a ≤ M (i.succAbove a) (i.succAbove a) := by
  rcases lt_or_ge (M i i) 1e-8 with hp | hp
  · exact ⟨_, quadricProjAt_small h hp, h.sub Fin.succAbove_right_injective,
      fun z => by rw [qform_sub h.symm]; exact schur_le h i z 0, fun a => le_rfl⟩
  · exact ⟨_, quadricProjAt_ok h.symm hp, schur_spd h i, fun z => le_rfl, schur_diag_le h i⟩

/-- If one ellipsoid lies within another, then its variances are not larger. -/
theorem inv_diag_anti {n : ℕ} {A B : Mat n n} (hA : SPD A) (hB : SPD B) (hle : ∀ x, qform A x ≤ qform B x) (i : Fin n) :
    B⁻¹ i i ≤ A⁻¹ i i := by
  set e : Fin n → ℝ := Pi.single i 1 with he
  have hei : ∀ v : Fin n → ℝ, v ⬝ᵥ e = v i := fun v => by rw [he, dotProduct_single, mul_one]
  set u := A⁻¹ *ᵥ e with hu
  set v := B⁻¹ *ᵥ e with hv
  have hAu : A *ᵥ u = e := by rw [hu, mulVec_mulVec, mul_nonsing_inv _ hA.unit, one_mulVec]
  have hBv : B *ᵥ v = e := by rw [hv, mulVec_mulVec, mul_nonsing_inv _ hB.unit, one_mulVec]
  have hui : u i = A⁻¹ i i := by rw [hu, he, mulVec_single_one]; rfl
  have hvi : v i = B⁻¹ i i := by rw [hv, he, mulVec_single_one]; rfl
  have hT : Aᵀ = A := by ext a b; exact hA.symm b a
  have huA : u ⬝ᵥ (A *ᵥ v) = v i := by rw [dotProduct_mulVec, ← mulVec_transpose, hT, hAu, dotProduct_comm, hei]
  have h1 : qform A v ≤ B⁻¹ i i := by
    have := hle v
    rwa [qform_eq B, hBv, hei, hvi] at this
  have h2 : 0 ≤ qform A (u - v) := by
    by_cases hz : u - v = 0
    · rw [hz]; simp [qform]
    · exact (hA.pos _ hz).le
  rw [qform_eq, mulVec_sub, sub_dotProduct, dotProduct_sub, dotProduct_sub, huA, hAu, hei, hei, ← qform_eq] at h2
  linarith

theorem stage_schur {N n : ℕ} {V : Mat N N} {m : Mat (n + 1) (n + 1)} {ks : List (Fin N)} (h : Stage V ⟨n + 1, m⟩ ks)
    (i : Fin (n + 1)) : Stage V ⟨n, schur m i⟩ (ks.eraseIdx i) := by
  have hle : i.val < ks.length := by rw [← h.len]; exact i.2
  refine ⟨?_, schur_spd h.spd _, fun a b => ?_⟩
  · have := h.len
    dsimp only at this
    rw [List.length_eraseIdx_of_lt hle]; dsimp only; omega
  · have h7 := schur_inv_eq h.spd i
    dsimp only at h7 a b ⊢
    rw [h7, submatrix_apply, h.inv]
    congr 1
    · exact (eraseIdx_succAbove ks i a _ _).symm
    · exact (eraseIdx_succAbove ks i b _ _).symm

/-- What is known about an intermediate result whatever the pivots were: it lies within the true projection, and its diagonal
entries are not above those of the matrix. -/
structure Inner {N : ℕ} (M : Mat N N) (q : Quad) (ks : List (Fin N)) : Prop where
  len : q.n = ks.length
  spd : SPD q.m
  within : ∃ p : Mat q.n q.n, Stage M⁻¹ ⟨q.n, p⟩ ks ∧ ∀ x, qform p x ≤ qform q.m x
  diag : ∀ a : Fin q.n, q.m a a ≤ M (ks[a.val]'(len ▸ a.2)) (ks[a.val]'(len ▸ a.2))

theorem inner_at {N n : ℕ} {M : Mat N N} {m : Mat (n + 1) (n + 1)} {ks : List (Fin N)} (h : Inner M ⟨n + 1, m⟩ ks)
    (i : Fin (n + 1)) : ∃ S, quadricProjAt m i = .ok S ∧ Inner M ⟨n, S⟩ (ks.eraseIdx i) := by
  obtain ⟨S, hS, sS, lS, dS⟩ := quadricProjAt_any h.spd i
  obtain ⟨p, hp, hl⟩ := h.within
  have st := stage_schur hp i
  refine ⟨S, hS, st.len, sS, ⟨_, st, fun x => (schur_mono hp.spd h.spd hl _ x).trans (lS x)⟩, fun a => ?_⟩
  refine (dS a).trans ((h.diag _).trans (le_of_eq ?_))
  congr 1
  · exact (eraseIdx_succAbove ks i a _ _).symm
  · exact (eraseIdx_succAbove ks i a _ _).symm

theorem inner_step {N : ℕ} {M : Mat N N} {q : Quad} {ks : List (Fin N)} (h : Inner M q ks) {i : ℕ} (hi : i < q.n) :
    ∃ r, quadricProj q i = .ok r ∧ r.n = q.n - 1 ∧ Inner M r (ks.eraseIdx i) := by
  obtain ⟨n, m⟩ := q
  cases n with
  | zero => exact absurd hi (Nat.not_lt_zero _)
  | succ n =>
    have hi' : i < n + 1 := hi
    obtain ⟨S, hS, sS⟩ := inner_at h ⟨i, hi'⟩
    refine ⟨⟨n, S⟩, ?_, rfl, sS⟩
    unfold quadricProj
    dsimp only
    rw [dif_pos hi', hS]
    rfl

theorem inner_one {N : ℕ} {M : Mat N N} {m : Mat 1 1} {k : Fin N} (h : Inner M ⟨1, m⟩ [k]) :
    0 < m 0 0 ∧ m 0 0 ≤ M k k ∧ (m 0 0)⁻¹ ≤ M⁻¹ k k := by
  refine ⟨h.spd.diag_pos 0, h.diag 0, ?_⟩
  obtain ⟨p, hp, hle⟩ := h.within
  have h1 := inv_diag_anti hp.spd h.spd hle 0
  have h2 := hp.inv 0 0
  dsimp only at h1 h2
  rw [h2] at h1
  have e2 : m⁻¹ 0 0 = (m 0 0)⁻¹ := by rw [inv_def, det_fin_one, adjugate_fin_one]; simp
  rw [e2] at h1
  exact h1

theorem inner_fold {N : ℕ} {M : Mat N N} (l : List ℕ) : ∀ {q : Quad} {ks : List (Fin N)}, Inner M q ks → Valid q.n l →
    ∃ r, l.foldlM quadricProj q = .ok r ∧ Inner M r (l.foldl (fun ks i => ks.eraseIdx i) ks) := by
  induction l with
  | nil => exact fun {q ks} h _ => ⟨q, rfl, h⟩
  | cons i l ih =>
    intro q ks h hv
    obtain ⟨r, hr, hn, hs⟩ := inner_step h hv.1
    obtain ⟨r', hr', hs'⟩ := ih hs (by rw [hn]; exact hv.2)
    exact ⟨r', by rw [List.foldlM_cons, hr, py_bind_ok, hr'], hs'⟩

theorem inner_start {N : ℕ} {M : Mat N N} (h : SPD M) : Inner M ⟨N, M⟩ (List.finRange N) :=
  ⟨by simp, h, ⟨M, stage_start h, fun x => le_rfl⟩, fun a => by simp⟩

/-- **C26** For every symmetric positive definite matrix, whatever its pivots: projecting axes out one after another always
succeeds, and the ellipsoid it gives lies within the true projection, the one whose inverse is the block of the inverse. So no
variance comes out too large. -/
theorem C26_within {n : ℕ} {M : Mat n n} (h : SPD M) {l : List ℕ} (hl : Valid n l) :
    ∃ r : Quad, l.foldlM quadricProj ⟨n, M⟩ = .ok r ∧ SPD r.m ∧ ∃ hlen : r.n = (keptAxes n l).length,
      ∃ p : Mat r.n r.n, SPD p ∧
        (∀ a b : Fin r.n, p⁻¹ a b = M⁻¹ ((keptAxes n l)[a.val]'(hlen ▸ a.2)) ((keptAxes n l)[b.val]'(hlen ▸ b.2))) ∧
        (∀ x, qform p x ≤ qform r.m x) ∧
        ∀ a : Fin r.n, r.m⁻¹ a a ≤ M⁻¹ ((keptAxes n l)[a.val]'(hlen ▸ a.2)) ((keptAxes n l)[a.val]'(hlen ▸ a.2)) := by
  obtain ⟨r, hr, hs⟩ := inner_fold l (inner_start h) hl
  obtain ⟨p, hp, hle⟩ := hs.within
  exact ⟨r, hr, hs.spd, hs.len, p, hp.spd, hp.inv, hle, fun a => by
    have := inv_diag_anti hp.spd hs.spd hle a
    have e := hp.inv a a
    dsimp only at e
    rwa [e] at this⟩

/-- **C26** Below the threshold in general: an axis with a pivot below `1e-8` is cut, not projected out. The result is the
projection exactly if the axis is not coupled to any of the others. -/
theorem C26_small_pivot {n : ℕ} {M : Mat (n + 1) (n + 1)} (h : SPD M) {i : Fin (n + 1)} (hp : M i i < 1e-8) :
    ∃ S, quadricProjAt M i = .ok S ∧ (∀ z, qform S z = qform M (i.insertNth (α := fun _ => ℝ) 0 z)) ∧
      (S⁻¹ = M⁻¹.submatrix i.succAbove i.succAbove ↔ ∀ a, M i (i.succAbove a) = 0) ∧
      ((∀ z t, qform S z ≤ qform M (i.insertNth (α := fun _ => ℝ) t z)) ↔ ∀ a, M i (i.succAbove a) = 0) := by
  have hS : SPD (M.submatrix i.succAbove i.succAbove) := h.sub Fin.succAbove_right_injective
  have hd := h.diag_pos i
  have key : M.submatrix i.succAbove i.succAbove = schur M i → ∀ a, M i (i.succAbove a) = 0 := fun e a => by
    have := congrFun (congrFun e a) a
    simp only [submatrix_apply, schur] at this
    rw [h.symm (i.succAbove a) i] at this
    have h0 : M i (i.succAbove a) * M i (i.succAbove a) / M i i = 0 := by linarith
    rcases div_eq_zero_iff.1 h0 with h1 | h1
    · exact mul_self_eq_zero.1 h1
    · exact absurd h1 hd.ne'
  have back : (∀ a, M i (i.succAbove a) = 0) → M.submatrix i.succAbove i.succAbove = schur M i := fun e => by
    ext a b
    simp [schur, e b]
  refine ⟨_, quadricProjAt_small h hp, qform_sub h.symm i, ⟨fun e => key ?_, fun e => ?_⟩, fun e a => ?_, fun e z t => ?_⟩
  · rw [← schur_inv_eq h] at e
    rw [← nonsing_inv_nonsing_inv _ hS.unit, e, nonsing_inv_nonsing_inv _ (schur_spd h i).unit]
  · rw [back e, schur_inv_eq h]
  · obtain ⟨t, ht⟩ := schur_attained h i (Pi.single a 1)
    have h1 := e (Pi.single a 1) t
    rw [ht, qform_sub h.symm, qform_insert M h.symm, qform_schur M h.symm] at h1
    have h2 : ∑ b, M i (i.succAbove b) * (Pi.single a 1 : Fin n → ℝ) b = M i (i.succAbove a) := by
      rw [Finset.sum_eq_single a] <;> simp +contextual
    rw [h2] at h1
    have h3 : M i (i.succAbove a) ^ 2 / M i i ≤ 0 := by linarith
    have h4 : M i (i.succAbove a) ^ 2 ≤ 0 := by
      by_contra hc
      exact absurd h3 (not_le.2 (div_pos (not_le.1 hc) hd))
    exact pow_eq_zero_iff (two_ne_zero) |>.1 (le_antisymm h4 (sq_nonneg _))
  · rw [back e]; exact schur_le h i z t

/-- **C25** For every symmetric positive definite matrix, whatever its pivots, both widths of every axis are defined, the
coherent one is not larger than the incoherent one, and that is not larger than the true width. -/
theorem C25_widths_any {M : Mat 4 4} (h : SPD M) (axis : Fin 4) :
    ∃ c w, cohFwhm M axis = .ok c ∧ incohFwhm M axis = .ok w ∧ c = sig2fwhm / √(M axis axis) ∧ 0 < c ∧ c ≤ w ∧
      w ≤ sig2fwhm * √(M⁻¹ axis axis) := by
  have hs0 : 0 < sig2fwhm := by
    unfold sig2fwhm
    have : 0 < Real.log 2 := Real.log_pos (by norm_num)
    positivity
  have hd := h.diag_pos axis
  have hi := h.inv.diag_pos axis
  have hfold : ∃ r, [3, 2, 1, 0].foldlM (fun (r : Quad) (i : ℕ) => if i = axis.val then pure r else quadricProj r i)
      (⟨4, M⟩ : Quad) = .ok r ∧ Inner M r [axis] := by
    have aux : ∀ l : List ℕ, Valid 4 l → keptAxes 4 l = [axis] →
        ([3, 2, 1, 0].foldlM (fun (r : Quad) (i : ℕ) => if i = axis.val then pure r else quadricProj r i)
          (⟨4, M⟩ : Quad) = l.foldlM quadricProj ⟨4, M⟩) →
        ∃ r, [3, 2, 1, 0].foldlM (fun (r : Quad) (i : ℕ) => if i = axis.val then pure r else quadricProj r i)
          (⟨4, M⟩ : Quad) = .ok r ∧ Inner M r [axis] := fun l hv hk he => by
      obtain ⟨r, hr, hst⟩ := inner_fold l (inner_start h) hv
      exact ⟨r, he.trans hr, hk ▸ hst⟩
    fin_cases axis
    · exact aux [3, 2, 1] ⟨by decide, by decide, by decide, trivial⟩ (by decide) (by simp [List.foldlM_cons])
    · exact aux [3, 2, 0] ⟨by decide, by decide, by decide, trivial⟩ (by decide) (by simp [List.foldlM_cons])
    · exact aux [3, 1, 0] ⟨by decide, by decide, by decide, trivial⟩ (by decide) (by simp [List.foldlM_cons])
    · exact aux [2, 1, 0] ⟨by decide, by decide, by decide, trivial⟩ (by decide) (by simp [List.foldlM_cons])
  obtain ⟨⟨n, m⟩, hr, hst⟩ := hfold
  have hn : n = 1 := hst.len
  subst hn
  obtain ⟨hm, hu, hlow⟩ := inner_one hst
  refine ⟨sig2fwhm / √(M axis axis), sig2fwhm / √(m 0 0), ?_, ?_, rfl, by positivity, ?_, ?_⟩
  · unfold cohFwhm
    rw [pySqrt_ok hd.le]
    simp only [py_bind_ok]
    exact pyDiv_ok (Real.sqrt_pos.2 hd).ne'
  · unfold incohFwhm
    rw [hr]
    simp only [py_bind_ok, Quad.entry00]
    rw [abs_of_pos hm, pySqrt_ok hm.le]
    simp only [py_bind_ok]
    exact pyDiv_ok (Real.sqrt_pos.2 hm).ne'
  · have := Real.sqrt_le_sqrt hu
    have h0 := Real.sqrt_pos.2 hm
    gcongr
  · rw [div_eq_mul_inv, ← Real.sqrt_inv]
    have := Real.sqrt_le_sqrt hlow
    gcongr

theorem inner_sigma {N : ℕ} {M : Mat N N} {m : Mat 1 1} {k : Fin N} (h : Inner M ⟨1, m⟩ [k]) :
    ∃ w, invSqrtAbs (m 0 0) = .ok w ∧ 1 / √(M k k) ≤ w ∧ w ≤ √(M⁻¹ k k) := by
  obtain ⟨hm, hu, hl⟩ := inner_one h
  refine ⟨1 / √(m 0 0), ?_, ?_, ?_⟩
  · unfold invSqrtAbs
    rw [abs_of_pos hm, pySqrt_ok hm.le]
    simp only [py_bind_ok]
    exact pyDiv_ok (Real.sqrt_pos.2 hm).ne'
  · have := Real.sqrt_le_sqrt hu
    have h0 := Real.sqrt_pos.2 hm
    gcongr
  · rw [one_div, ← Real.sqrt_inv]
    exact Real.sqrt_le_sqrt hl

/-- **C25** The standard deviations used by the convolution code, whatever the pivots: always defined, never below the coherent
one of their axis and never above the square root of the variance. -/
theorem C25_convolution_any {M : Mat 4 4} (h : SPD M) : ∃ wE w0 w1 w2, incohSigmaEn M = .ok wE ∧
    (convProj M 3 >>= incohSigmaQs) = .ok (w0, w1, w2) ∧
    (∀ p ∈ [((3 : Fin 4), wE), (0, w0), (1, w1), (2, w2)], ∃ c, cohSigma M p.1 = .ok c ∧ 0 < c ∧ c ≤ p.2 ∧
      p.2 ≤ √(M⁻¹ p.1 p.1)) := by
  have hc : ∀ i, cohSigma M i = .ok (1 / √(M i i)) := fun i => by
    have hd := h.diag_pos i
    unfold cohSigma invSqrtAbs
    rw [abs_of_pos hd, pySqrt_ok hd.le]
    simp only [py_bind_ok]
    exact pyDiv_ok (Real.sqrt_pos.2 hd).ne'
  have hs : Inner M ⟨4, M⟩ [0, 1, 2, 3] := inner_start h
  obtain ⟨A, a1, a2⟩ := inner_at hs 2
  obtain ⟨B, b1, b2⟩ := inner_at a2 1
  obtain ⟨C, c1, c2⟩ := inner_at b2 0
  obtain ⟨wE, e1, e2, e3⟩ := inner_sigma (k := 3) c2
  obtain ⟨Z, z1, z2⟩ := inner_at hs 3
  obtain ⟨D, d1, d2⟩ := inner_at z2 2
  obtain ⟨F, f1, f2⟩ := inner_at d2 1
  obtain ⟨w0, g1, g2, g3⟩ := inner_sigma (k := 0) f2
  obtain ⟨G, k1, k2⟩ := inner_at d2 0
  obtain ⟨w1, l1, l2, l3⟩ := inner_sigma (k := 1) k2
  obtain ⟨H, m1, m2⟩ := inner_at z2 1
  obtain ⟨K, n1, n2⟩ := inner_at m2 0
  obtain ⟨w2, o1, o2, o3⟩ := inner_sigma (k := 2) n2
  refine ⟨wE, w0, w1, w2, ?_, ?_, fun p hp => ⟨_, hc _, ?_⟩⟩
  · unfold incohSigmaEn
    simp only [C26_convolution_same]
    rw [a1, py_bind_ok, b1, py_bind_ok, c1, py_bind_ok]
    exact e1
  · simp only [C26_convolution_same]
    rw [z1, py_bind_ok]
    unfold incohSigmaQs
    simp only [C26_convolution_same]
    rw [d1, py_bind_ok, f1, py_bind_ok, k1, py_bind_ok, m1, py_bind_ok, n1, py_bind_ok, g1, py_bind_ok, l1, py_bind_ok, o1,
      py_bind_ok]
    rfl
  · have hd := h.diag_pos p.1
    simp only [List.mem_cons, List.not_mem_nil, or_false] at hp
    rcases hp with rfl | rfl | rfl | rfl
    exacts [⟨by positivity, e2, e3⟩, ⟨by positivity, g2, g3⟩, ⟨by positivity, l2, l3⟩, ⟨by positivity, o2, o3⟩]

/-- The matrix of the failing case meets the hypotheses: its first pivot is far below the threshold, and the axes are coupled. -/
example : ∃ M : Mat 2 2, SPD M ∧ M 0 0 < 1e-8 ∧ M 0 1 ≠ 0 ∧ ∃ S, quadricProjAt M 0 = .ok S ∧
    S⁻¹ ≠ M⁻¹.submatrix (Fin.succAbove 0) (Fin.succAbove 0) := by
  have hs : SPD (!![1e-10, 9e-6; 9e-6, 1] : Mat 2 2) := by
    refine ⟨fun i j => ?_, fun x hx => ?_⟩
    · fin_cases i <;> fin_cases j <;> simp
    · have hx' : x 0 ≠ 0 ∨ x 1 ≠ 0 := by
        by_contra hc
        push Not at hc
        exact hx (by ext i; fin_cases i <;> simp [hc.1, hc.2])
      simp only [qform, Fin.sum_univ_two, of_apply, cons_val', cons_val_zero, cons_val_one, cons_val_fin_one]
      have e : x 0 * 1e-10 * x 0 + x 0 * 9e-6 * x 1 + (x 1 * 9e-6 * x 0 + x 1 * 1 * x 1)
          = (x 1 + 9e-6 * x 0) ^ 2 + 1.9e-11 * x 0 ^ 2 := by ring
      rw [e]
      by_cases h0 : x 0 = 0
      · have h1 : x 1 ≠ 0 := by simpa [h0] using hx'
        rw [h0]; have : 0 < x 1 ^ 2 := by positivity
        nlinarith
      · have : 0 < x 0 ^ 2 := by positivity
        have : 0 ≤ (x 1 + 9e-6 * x 0) ^ 2 := by positivity
        nlinarith
  have hp : (!![1e-10, 9e-6; 9e-6, 1] : Mat 2 2) 0 0 < 1e-8 := by simp; norm_num
  obtain ⟨S, h1, _, h3, _⟩ := C26_small_pivot hs hp
  refine ⟨_, hs, hp, by simp; norm_num, S, h1, fun e => ?_⟩
  have := h3.1 e 0
  simp at this
  norm_num at this

end Tavi
