import Verif.Props.MirrorDemo

/-!
# C111 for the ellipsoids: all widths of the mirror image and of the reversed spectrometer are the same

The widths are compared as they are computed, so no bound on the size of the ellipsoid is needed.
-/

namespace Tavi

open Matrix Spec

/-- Two matrices that differ by the signs of some of the axes. -/
def SignRel {n : ℕ} (s : Fin n → ℝ) (m m' : Mat n n) : Prop := (∀ i, s i * s i = 1) ∧ ∀ i j, m' i j = s i * s j * m i j

theorem SignRel.swap {n : ℕ} {s : Fin n → ℝ} {m m' : Mat n n} (h : SignRel s m m') : SignRel s m' m :=
  ⟨h.1, fun i j => by
    rw [h.2]
    linear_combination (-(s j * s j) * m i j) * h.1 i - m i j * h.1 j⟩

/-- The same for arrays of any size. -/
def QuadSigns (r r' : Quad) : Prop := ∃ (n : ℕ) (m m' : Mat n n) (s : Fin n → ℝ), r = ⟨n, m⟩ ∧ r' = ⟨n, m'⟩ ∧ SignRel s m m'

theorem projAt_signs {n : ℕ} {s : Fin (n + 1) → ℝ} {m m' : Mat (n + 1) (n + 1)} (h : SignRel s m m') (i : Fin (n + 1)) {r : Mat n n}
    (hr : quadricProjAt m i = .ok r) : ∃ r', quadricProjAt m' i = .ok r' ∧ SignRel (s ∘ i.succAbove) r r' := by
  have hii : m' i i = m i i := by rw [h.2, h.1, one_mul]
  unfold quadricProjAt at hr ⊢
  rw [hii]
  split at hr
  · rename_i hlt
    rw [if_pos hlt]
    cases hr
    exact ⟨_, rfl, fun j => h.1 _, fun j k => h.2 _ _⟩
  · rename_i hlt
    rw [if_neg hlt]
    obtain ⟨q, hq, hr⟩ := py_bind_eq_ok.1 hr
    rw [hq, py_bind_ok]
    cases hr
    refine ⟨_, rfl, fun j => h.1 _, fun j k => ?_⟩
    simp only [submatrix_apply, Matrix.sub_apply, vecMulVec_apply, Function.comp_apply]
    rw [h.2, h.2, h.2, h.2, h.2]
    have hi := h.1 i
    generalize i.succAbove j = a
    generalize i.succAbove k = b
    have : s i * s a * m i a + s a * s i * m a i = s i * s a * (m i a + m a i) := by ring
    have e2 : s i * s b * m i b + s b * s i * m b i = s i * s b * (m i b + m b i) := by ring
    rw [this, e2]
    linear_combination (-(s a * s b * (0.5 * (m i a + m a i) / q) * (0.5 * (m i b + m b i) / q))) * hi

theorem proj_signs {r r' a : Quad} {i : ℕ} (h : QuadSigns r r') (ha : quadricProj r i = .ok a) :
    ∃ a', quadricProj r' i = .ok a' ∧ QuadSigns a a' := by
  obtain ⟨n, m, m', s, rfl, rfl, hs⟩ := h
  match n, m, m', s, hs, ha with
  | 0, _, _, _, _, ha => cases ha
  | n + 1, m, m', s, hs, ha =>
    unfold quadricProj at ha ⊢
    dsimp only at ha ⊢
    split at ha
    · rename_i hi
      obtain ⟨q, hq, ha⟩ := py_bind_eq_ok.1 ha
      cases ha
      obtain ⟨q', hq', hs'⟩ := projAt_signs hs _ hq
      rw [dif_pos hi, hq', py_bind_ok]
      exact ⟨_, rfl, _, _, _, _, rfl, rfl, hs'⟩
    · cases ha

theorem fold_signs (k : ℕ) : ∀ (l : List ℕ) {r r' a : Quad}, QuadSigns r r' →
    l.foldlM (fun (r : Quad) (i : ℕ) => if i = k then pure r else quadricProj r i) r = .ok a →
    ∃ a', l.foldlM (fun (r : Quad) (i : ℕ) => if i = k then pure r else quadricProj r i) r' = .ok a' ∧ QuadSigns a a'
  | [], r, r', a, h, ha => by
    cases ha
    exact ⟨r', rfl, h⟩
  | i :: l, r, r', a, h, ha => by
    rw [List.foldlM_cons] at ha ⊢
    obtain ⟨b, hb, ha⟩ := py_bind_eq_ok.1 ha
    by_cases hk : i = k
    · rw [if_pos hk] at hb ⊢
      cases hb
      exact fold_signs k l h ha
    · rw [if_neg hk] at hb ⊢
      obtain ⟨b', hb', h'⟩ := proj_signs h hb
      rw [hb', py_bind_ok]
      exact fold_signs k l h' ha

theorem incoh_signs {s : Fin 4 → ℝ} {m m' : Mat 4 4} (h : SignRel s m m') {i : Fin 4} {w : ℝ} (hw : incohFwhm m i = .ok w) :
    incohFwhm m' i = .ok w := by
  unfold incohFwhm at hw ⊢
  obtain ⟨q, hq, hw⟩ := py_bind_eq_ok.1 hw
  obtain ⟨q', hq', hs⟩ := fold_signs i.val _ ⟨4, m, m', s, rfl, rfl, h⟩ hq
  rw [hq', py_bind_ok]
  obtain ⟨n, a, a', s', rfl, rfl, hs⟩ := hs
  have : (⟨n, a'⟩ : Quad).entry00 = (⟨n, a⟩ : Quad).entry00 := by
    match n, a, a', s', hs with
    | 0, _, _, _, _ => rfl
    | n + 1, a, a', s', hs => rw [Quad.entry00, Quad.entry00, hs.2, hs.1, one_mul]
  rw [this]
  exact hw

theorem coh_signs {s : Fin 4 → ℝ} {m m' : Mat 4 4} (h : SignRel s m m') (i : Fin 4) : cohFwhm m' i = cohFwhm m i := by
  unfold cohFwhm
  rw [h.2, h.1, one_mul]

theorem signs_of_forms {m m' : Mat 4 4} (hm : ∀ i j, m i j = m j i) (hm' : ∀ i j, m' i j = m' j i) {s : Fin 4 → ℝ}
    (hs : ∀ i, s i * s i = 1) (h : ∀ x : Fin 4 → ℝ, qform m' (fun i => s i * x i) = qform m x) : SignRel s m m' := by
  have key : (Matrix.of fun i j => s i * s j * m' i j) = m := by
    refine qform_inj (fun i j => ?_) hm fun x => ?_
    · simp only [of_apply]; rw [hm' i j]; ring
    · rw [← h x]
      unfold qform
      refine Finset.sum_congr rfl fun i _ => Finset.sum_congr rfl fun j _ => ?_
      simp only [of_apply]; ring
  exact SignRel.swap ⟨hs, fun i j => by rw [← key]; rfl⟩

/-- Specification: the four widths of two ellipsoids are the same, those at fixed other components and those summed over the others. -/
def Spec.SameWidths (e e' : Ellipsoid) : Prop :=
  (∀ i, cohFwhm e'.mat i = cohFwhm e.mat i) ∧ ∀ i w, incohFwhm e'.mat i = .ok w ↔ incohFwhm e.mat i = .ok w

theorem resoAt_ok {t : Tas} {p : V3 × ℝ × ℝ} {e : Ellipsoid} (h : t.resoAt none p = .ok e) : ∃ b m r0,
    t.sample.bMat = .ok b ∧ CooperNathans.calculateAt t p.1 p.2.1 p.2.2 = .ok (m, r0) ∧ e.mat = m ∧ e.r0 = r0 ∧
    e.q = norm3 (b *ᵥ p.1) * 2 * Real.pi ∧ e.hkl = p.1 ∧ e.en = p.2.1 - p.2.2 := by
  unfold Tas.resoAt at h
  obtain ⟨⟨m, r0⟩, hc, h⟩ := py_bind_eq_ok.1 h
  dsimp only at h
  unfold mkEllipsoid at h
  obtain ⟨b, hb, h⟩ := py_bind_eq_ok.1 h
  obtain ⟨r, hr, h⟩ := py_bind_eq_ok.1 h
  rw [frameOf] at hr
  cases hr
  cases h
  exact ⟨b, m, r0, hb, hc, rfl, rfl, rfl, rfl, rfl⟩

/-- **C111** The ellipsoid of the mirror image, in the axes along and across `Q`, stands at the same position, has the same prefactor and
all its widths are the same. -/
theorem C111_mirror_widths {t t' : Tas} (hm : Spec.MirrorImage t t') {p : V3 × ℝ × ℝ} {e e' : Ellipsoid} (h : t.resoAt none p = .ok e)
    (h' : t'.resoAt none p = .ok e') : e'.hkl = e.hkl ∧ e'.en = e.en ∧ e'.q = e.q ∧ e'.r0 = e.r0 ∧ Spec.SameWidths e e' := by
  obtain ⟨b, m, r0, hb, hc, rfl, rfl, hq, hh, hen⟩ := resoAt_ok h
  obtain ⟨b', m', r0', hb', hc', rfl, rfl, hq', hh', hen'⟩ := resoAt_ok h'
  have hbb : b' = b := by
    rw [hm.same] at hb'
    exact Except.ok.inj (hb'.symm.trans hb)
  obtain ⟨hf, hr⟩ := C111_mirror hm hc hc'
  have hs : SignRel ![1, -1, 1, 1] e.mat e'.mat := by
    refine signs_of_forms (C24_positive hc).1.symm (C24_positive hc').1.symm (fun i => by fin_cases i <;> simp) fun x => ?_
    have e1 : (fun i => (![1, -1, 1, 1] : Fin 4 → ℝ) i * x i) = ![x 0, -x 1, x 2, x 3] := by
      funext i; fin_cases i <;> simp
    have e2 : x = ![x 0, x 1, x 2, x 3] := by funext i; fin_cases i <;> rfl
    rw [e1, hf, ← e2]
  refine ⟨by rw [hh, hh'], by rw [hen, hen'], by rw [hq, hq', hbb], hr, fun i => coh_signs hs i, fun i w => ⟨?_, ?_⟩⟩
  · exact incoh_signs hs.swap
  · exact incoh_signs hs

/-- **C111** The ellipsoid of the reversed spectrometer at the opposite energy transfer has the same prefactor and the same widths. -/
theorem C111_reversed_widths {t : Tas} {hkl : V3} {ei ef : ℝ} {e e' : Ellipsoid} (he : t.getEiEf none none (ei - ef) = .ok (ei, ef))
    (h : t.resoAt none (hkl, ei, ef) = .ok e) (h' : (Spec.reversed t).resoAt none (hkl, ef, ei) = .ok e') :
    e'.hkl = e.hkl ∧ e'.en = -e.en ∧ e'.q = e.q ∧ e'.r0 = e.r0 ∧ Spec.SameWidths e e' := by
  obtain ⟨b, m, r0, hb, hc, rfl, rfl, hq, hh, hen⟩ := resoAt_ok h
  obtain ⟨b', m', r0', hb', hc', rfl, rfl, hq', hh', hen'⟩ := resoAt_ok h'
  have hbb : b' = b := Except.ok.inj (hb'.symm.trans hb)
  obtain ⟨hf, hr⟩ := C111_reversed he hc hc'
  have hs : SignRel ![1, -1, 1, -1] e.mat e'.mat := by
    refine signs_of_forms (C24_positive hc).1.symm (C24_positive hc').1.symm (fun i => by fin_cases i <;> simp) fun x => ?_
    have e1 : (fun i => (![1, -1, 1, -1] : Fin 4 → ℝ) i * x i) = ![x 0, -x 1, x 2, -x 3] := by
      funext i; fin_cases i <;> simp
    have e2 : x = ![x 0, x 1, x 2, x 3] := by funext i; fin_cases i <;> rfl
    rw [e1, hf, ← e2]
  refine ⟨by rw [hh, hh'], by rw [hen, hen']; ring, by rw [hq, hq', hbb], hr, fun i => coh_signs hs i, fun i w => ⟨?_, ?_⟩⟩
  · exact incoh_signs hs.swap
  · exact incoh_signs hs

namespace Demo

/-- The three ellipsoids of the demo spectrometer at (1,0,0) exist. -/
example : ∃ e e' e'', (tas "Y,-Z,X" "-").resoAt none (![1, 0, 0], ksq2eng * (2 * Real.pi) ^ 2, ksq2eng * (2 * Real.pi) ^ 2) = .ok e ∧
    mirrored.resoAt none (![1, 0, 0], ksq2eng * (2 * Real.pi) ^ 2, ksq2eng * (2 * Real.pi) ^ 2) = .ok e' ∧
    (Spec.reversed (tas "Y,-Z,X" "-")).resoAt none (![1, 0, 0], ksq2eng * (2 * Real.pi) ^ 2, ksq2eng * (2 * Real.pi) ^ 2) = .ok e'' ∧
    Spec.SameWidths e e' ∧ Spec.SameWidths e e'' := by
  obtain ⟨M, r0, M', r0', M'', r0'', h, h', h'', _⟩ := mirror_case
  obtain ⟨b, hb, -⟩ := cube_b
  have key : ∀ {t : Tas} {m : Mat 4 4} {r : ℝ} {x : ℝ}, t.sample.bMat = .ok b →
      CooperNathans.calculateAt t ![1, 0, 0] x x = .ok (m, r) → ∃ e, t.resoAt none (![1, 0, 0], x, x) = .ok e := by
    intro t m r x ht hm
    unfold Tas.resoAt
    rw [hm, py_bind_ok]
    unfold mkEllipsoid
    dsimp only
    rw [ht, py_bind_ok]
    exact ⟨_, rfl⟩
  obtain ⟨e, k⟩ := key (t := tas "Y,-Z,X" "-") hb h
  obtain ⟨e', k'⟩ := key (t := mirrored) hb h'
  obtain ⟨e'', k''⟩ := key (t := Spec.reversed (tas "Y,-Z,X" "-")) hb h''
  exact ⟨e, e', e'', k, k', k'', (C111_mirror_widths mirrored_image k k').2.2.2.2,
    (C111_reversed_widths (by rw [sub_self]; exact energies _ _) k k'').2.2.2.2⟩

end Demo

end Tavi
