import Verif.Props.Cooper
import Mathlib.Data.List.OfFn

/-! # C27: the resolution ellipsoid in projection axes -/

namespace Tavi

open Matrix Spec

namespace Spec

/-- The hkl displacement of `x 0` along the first axis, `x 1` along the second, and so on. -/
noncomputable def hklOf (ax : Fin 4 → AxisItem) (x : Fin 4 → ℝ) : V3 :=
  ∑ i, match ax i with
    | .vec p => x i • p
    | .name _ => 0

/-- The energy displacement: the coordinate on the axis called `"en"`. -/
noncomputable def enOf (ax : Fin 4 → AxisItem) (x : Fin 4 → ℝ) : ℝ :=
  ∑ i, match ax i with
    | .vec _ => 0
    | .name s => if s = "en".toList then x i else 0

/-- Coordinates of a laboratory vector along `q`, along vertical × `q`, and vertically. -/
noncomputable def localCoords (q d : V3) : V3 :=
  ![d ⬝ᵥ ((len q)⁻¹ • q), d ⬝ᵥ cross ![0, 1, 0] ((len q)⁻¹ • q), d ⬝ᵥ ![0, 1, 0]]

/-- The reciprocal-space vector with Miller indices `p`. -/
def inSpace (ra rb rc p : V3) : V3 := p 0 • ra + p 1 • rb + p 2 • rc

end Spec

theorem ofFn4 {α : Type} (ax : Fin 4 → α) : List.ofFn ax = [ax 0, ax 1, ax 2, ax 3] := by
  simp [List.ofFn_succ, List.ofFn_zero]

theorem axes_shape {ax : Fin 4 → AxisItem} {p1 p2 p3 : V3} {n : ℕ} (h : threeVecs (List.ofFn ax) = .ok (p1, p2, p3))
    (hn : enIndex (List.ofFn ax) = .ok n) :
    (n = 0 ∧ ax = ![.name "en".toList, .vec p1, .vec p2, .vec p3]) ∨
    (n = 1 ∧ ax = ![.vec p1, .name "en".toList, .vec p2, .vec p3]) ∨
    (n = 2 ∧ ax = ![.vec p1, .vec p2, .name "en".toList, .vec p3]) ∨
    (n = 3 ∧ ax = ![.vec p1, .vec p2, .vec p3, .name "en".toList]) := by
  rw [ofFn4] at h hn
  have e : ax = ![ax 0, ax 1, ax 2, ax 3] := by ext i; fin_cases i <;> rfl
  rw [e]
  generalize ax 0 = a at *
  generalize ax 1 = b at *
  generalize ax 2 = c at *
  generalize ax 3 = d at *
  clear e
  unfold threeVecs at h
  unfold enIndex at hn
  rcases a with a | a <;> rcases b with b | b <;> rcases c with c | c <;> rcases d with d | d <;>
    simp at h
  all_goals
    obtain ⟨rfl, rfl, rfl⟩ := h
    simp only [List.findIdx_cons, List.findIdx_nil] at hn
    split at hn
    · rename_i hlt
      first
        | (by_cases hs : a = ['e', 'n'] <;> simp_all; try omega)
        | (by_cases hs : b = ['e', 'n'] <;> simp_all; try omega)
        | (by_cases hs : c = ['e', 'n'] <;> simp_all; try omega)
        | (by_cases hs : d = ['e', 'n'] <;> simp_all; try omega)
    · cases hn

/-- Undo `roll`: the coordinates of the three vector axes in order, then the energy. -/
theorem qform_roll (M : Mat 4 4) (x : Fin 4 → ℝ) :
    qform (roll M 0) x = qform M ![x 1, x 2, x 3, x 0] ∧ qform (roll M 1) x = qform M ![x 0, x 2, x 3, x 1] ∧
    qform (roll M 2) x = qform M ![x 0, x 1, x 3, x 2] ∧ qform (roll M 3) x = qform M ![x 0, x 1, x 2, x 3] := by
  refine ⟨?_, ?_, ?_, ?_⟩ <;> simp [qform, roll, rollIdx, Fin.sum_univ_four] <;> ring

theorem qform_conj {n : ℕ} (M e : Mat n n) (x : Fin n → ℝ) : qform (eᵀ * M * e) x = qform M (e *ᵥ x) := by
  rw [qform_eq, qform_eq, Matrix.mul_assoc, ← mulVec_mulVec, ← mulVec_mulVec, dotProduct_mulVec, vecMul_transpose]

theorem embed4_mulVec (m : M3) (a b c d : ℝ) : embed4 m *ᵥ ![a, b, c, d] =
    ![(m *ᵥ ![a, b, c]) 0, (m *ᵥ ![a, b, c]) 1, (m *ᵥ ![a, b, c]) 2, d] := by
  ext i
  fin_cases i <;> simp [embed4, mulVec, dotProduct, Fin.sum_univ_succ]

theorem labToLocal_coords {psi n : ℝ} (hn : 0 < n) (d : V3) :
    labToLocal psi *ᵥ d = localCoords ![n * Real.sin psi, 0, n * Real.cos psi] d := by
  have hl : len ![n * Real.sin psi, 0, n * Real.cos psi] = n := by
    unfold len
    rw [show (![n * Real.sin psi, 0, n * Real.cos psi] : V3) 0 ^ 2 + (![n * Real.sin psi, 0, n * Real.cos psi] : V3) 1 ^ 2
      + (![n * Real.sin psi, 0, n * Real.cos psi] : V3) 2 ^ 2 = n ^ 2 by
        simp; linear_combination n ^ 2 * Real.sin_sq_add_cos_sq psi]
    exact Real.sqrt_sq hn.le
  unfold localCoords
  rw [hl]
  have e0 : n⁻¹ * (n * Real.sin psi) = Real.sin psi := by field_simp
  have e2 : n⁻¹ * (n * Real.cos psi) = Real.cos psi := by field_simp
  simp only [dot3]
  apply ext3 <;> simp [labToLocal, mulVec3, cross, e0, e2] <;> ring

/-- The pieces of a successful construction in projection axes. -/
theorem mkEllipsoid_cases {t : Tas} {hkl : V3} {en r0 : ℝ} {axes : List AxisItem} {m : Mat 4 4} {e : Ellipsoid}
    (h : mkEllipsoid t hkl en (some axes) m r0 = .ok e) :
    ∃ conv, hklToLocal t hkl en = .ok conv ∧ e.hkl = hkl ∧ e.en = en ∧ e.r0 = r0 ∧ e.axes = some axes ∧
      (∃ b, t.sample.bMat = .ok b) ∧
      ((axes = hklAxes ∧ projHkl t hkl conv m = .ok (e.mat, e.angles, e.qVec)) ∨
       (axes ≠ hklAxes ∧ projCustom t hkl axes conv m = .ok (e.mat, e.angles, e.qVec))) := by
  unfold mkEllipsoid at h
  obtain ⟨b, hb, h⟩ := py_bind_eq_ok.1 h
  obtain ⟨r, hr, h⟩ := py_bind_eq_ok.1 h
  have h := Except.ok.inj h
  unfold frameOf at hr
  dsimp only at hr
  unfold projectToFrame at hr
  obtain ⟨conv, hc, hr⟩ := py_bind_eq_ok.1 hr
  subst h
  refine ⟨conv, hc, rfl, rfl, rfl, rfl, ⟨b, hb⟩, ?_⟩
  split at hr <;> rename_i hax
  · obtain ⟨r', hr', hr⟩ := py_bind_eq_ok.1 hr
    have hr := Except.ok.inj hr
    subst hr
    exact Or.inl ⟨hax, hr'⟩
  · obtain ⟨r', hr', hr⟩ := py_bind_eq_ok.1 hr
    have hr := Except.ok.inj hr
    subst hr
    exact Or.inr ⟨hax, hr'⟩

theorem projCustom_cases {t : Tas} {hkl : V3} {axes : List AxisItem} {conv : M3} {m M : Mat 4 4} {an : Fin 3 → ℝ} {q : V3}
    (h : projCustom t hkl axes conv m = .ok (M, an, q)) :
    ∃ p1 p2 p3 ra rb rc n wi a12 a23 a31, threeVecs axes = .ok (p1, p2, p3) ∧
      reciprocalSpaceVectors t.sample.latt = .ok (ra, rb, rc) ∧ enIndex axes = .ok n ∧
      1e-8 ≤ inSpace ra rb rc p1 ⬝ᵥ cross (inSpace ra rb rc p2) (inSpace ra rb rc p3) ∧
      matWInv p1 p2 p3 = .ok wi ∧ q = wi *ᵥ hkl ∧
      angleVec (inSpace ra rb rc p1) (inSpace ra rb rc p2) = .ok a12 ∧
      angleVec (inSpace ra rb rc p2) (inSpace ra rb rc p3) = .ok a23 ∧
      angleVec (inSpace ra rb rc p3) (inSpace ra rb rc p1) = .ok a31 ∧ an = ![a12, a23, a31] ∧
      M = roll ((embed4 (conv * colMat p1 p2 p3))ᵀ * m * embed4 (conv * colMat p1 p2 p3)) n := by
  unfold projCustom at h
  obtain ⟨⟨p1, p2, p3⟩, hp, h⟩ := py_bind_eq_ok.1 h
  obtain ⟨⟨ra, rb, rc⟩, hr, h⟩ := py_bind_eq_ok.1 h
  dsimp only at h
  split at h
  · cases h
  rename_i hv
  split at h
  · cases h
  obtain ⟨wi, hwi, h⟩ := py_bind_eq_ok.1 h
  obtain ⟨a12, h12, h⟩ := py_bind_eq_ok.1 h
  obtain ⟨a23, h23, h⟩ := py_bind_eq_ok.1 h
  obtain ⟨a31, h31, h⟩ := py_bind_eq_ok.1 h
  obtain ⟨n, hn, h⟩ := py_bind_eq_ok.1 h
  have h := Except.ok.inj h
  obtain ⟨e1, h⟩ := Prod.mk.inj h
  obtain ⟨e2, e3⟩ := Prod.mk.inj h
  exact ⟨p1, p2, p3, ra, rb, rc, n, wi, a12, a23, a31, hp, hr, hn, not_lt.1 hv, hwi, e3.symm, h12, h23, h31, e2.symm, e1.symm⟩

theorem hklAxes_ofFn {ax : Fin 4 → AxisItem} (h : List.ofFn ax = hklAxes) :
    ax = ![.vec ![1, 0, 0], .vec ![0, 1, 0], .vec ![0, 0, 1], .name "en".toList] := by
  rw [ofFn4] at h
  unfold hklAxes at h
  simp only [List.cons.injEq, and_true] at h
  obtain ⟨h0, h1, h2, h3⟩ := h
  ext i
  fin_cases i
  · exact h0
  · exact h1
  · exact h2
  · exact h3

theorem hklToLocal_cases {t : Tas} {hkl : V3} {en : ℝ} {conv : M3} (h : hklToLocal t hkl en = .ok conv) :
    ∃ a R c ub psi, t.motorAngles hkl en = .ok a ∧ t.goni.rMat a = .ok R ∧ t.sample.ubConf = some c ∧ c.ubMat = some ub ∧
      t.getPsi hkl en = .ok psi ∧ conv = labToLocal (deg2rad psi) * ((2 * Real.pi) • (R * ub)) := by
  unfold hklToLocal at h
  obtain ⟨a, ha, h⟩ := py_bind_eq_ok.1 h
  obtain ⟨R, hR, h⟩ := py_bind_eq_ok.1 h
  obtain ⟨c, hc, h⟩ := py_bind_eq_ok.1 h
  obtain ⟨ub, hub, h⟩ := py_bind_eq_ok.1 h
  obtain ⟨psi, hpsi, h⟩ := py_bind_eq_ok.1 h
  exact ⟨a, R, c, ub, psi, ha, hR, need_eq_ok.1 hc, need_eq_ok.1 hub, hpsi, (Except.ok.inj h).symm⟩

/-- **C27** The matrix in projection axes gives every displacement the value that the local-frame matrix gives to the same
physical displacement: the hkl displacement turned into the laboratory by the sample rotation and UB and resolved along Q,
across it and vertically, and the energy displacement, wherever the energy axis is placed. -/
theorem C27_same_form {t : Tas} {hkl : V3} {en r0 : ℝ} {ax : Fin 4 → AxisItem} {m : Mat 4 4} {e : Ellipsoid}
    (h : mkEllipsoid t hkl en (some (List.ofFn ax)) m r0 = .ok e) :
    ∃ a R c ub ei ef q, t.motorAngles hkl en = .ok a ∧ t.goni.rMat a = .ok R ∧ t.sample.ubConf = some c ∧
      c.ubMat = some ub ∧ t.getEiEf none none en = .ok (ei, ef) ∧ qLab ei ef a.twoTheta = .ok q ∧ q ≠ 0 ∧
      ∀ x, qform e.mat x = qform m
        ![localCoords q ((2 * Real.pi) • (R *ᵥ (ub *ᵥ hklOf ax x))) 0, localCoords q ((2 * Real.pi) • (R *ᵥ (ub *ᵥ hklOf ax x))) 1,
          localCoords q ((2 * Real.pi) • (R *ᵥ (ub *ᵥ hklOf ax x))) 2, enOf ax x] := by
  obtain ⟨conv, hconv, -, -, -, -, ⟨b, hb⟩, hcase⟩ := mkEllipsoid_cases h
  obtain ⟨a, R, c, ub, psi, ha, hR, hc, hub, hpsi, rfl⟩ := hklToLocal_cases hconv
  obtain ⟨htt, -⟩ := motorAngles_twoTheta ha
  obtain ⟨-, -, ei, ef, -, -, -, he, -⟩ := motorAngles_cases ha
  obtain ⟨ki, kf, -, -, -, -, hq, -, hlab, q1, q2, -⟩ := C13_q_lab hb he htt hpsi
  rw [q1, q2] at hlab
  refine ⟨a, R, c, ub, ei, ef, _, ha, hR, hc, hub, he, hlab, ?_, ?_⟩
  · intro h0
    have s0 := congrFun h0 0
    have s2 := congrFun h0 2
    simp [hq.ne'] at s0 s2
    have := Real.sin_sq_add_cos_sq (deg2rad psi)
    rw [s0, s2] at this
    norm_num at this
  have key : ∀ y : V3, (labToLocal (deg2rad psi) * ((2 * Real.pi) • (R * ub))) *ᵥ y =
      localCoords ![qNormFromHkl hkl b * Real.sin (deg2rad psi), 0, qNormFromHkl hkl b * Real.cos (deg2rad psi)]
        ((2 * Real.pi) • (R *ᵥ (ub *ᵥ y))) := by
    intro y
    rw [← mulVec_mulVec, labToLocal_coords hq, smul_mulVec, ← mulVec_mulVec]
  rcases hcase with ⟨hax, hp⟩ | ⟨-, hp⟩
  · have hax := hklAxes_ofFn hax
    unfold projHkl at hp
    obtain ⟨P, -, hp⟩ := py_bind_eq_ok.1 hp
    have hp := Except.ok.inj hp
    have hm := congrArg Prod.fst hp
    dsimp only at hm
    intro x
    rw [← hm, qform_conj, show x = ![x 0, x 1, x 2, x 3] by ext i; fin_cases i <;> rfl, embed4_mulVec, key, hax]
    have e1 : hklOf ![.vec ![1, 0, 0], .vec ![0, 1, 0], .vec ![0, 0, 1], .name "en".toList] ![x 0, x 1, x 2, x 3]
        = ![x 0, x 1, x 2] := by
      apply ext3 <;> simp [hklOf, Fin.sum_univ_four]
    have e2 : enOf ![.vec ![1, 0, 0], .vec ![0, 1, 0], .vec ![0, 0, 1], .name "en".toList] ![x 0, x 1, x 2, x 3] = x 3 := by
      simp [enOf, Fin.sum_univ_four]
    rw [e1, e2]
  · obtain ⟨p1, p2, p3, ra, rb, rc, n, wi, a12, a23, a31, h3, -, hn, -, -, -, -, -, -, -, hM⟩ := projCustom_cases hp
    intro x
    obtain ⟨r0, r1, r2, r3⟩ := qform_roll ((embed4 (labToLocal (deg2rad psi) * ((2 * Real.pi) • (R * ub)) * colMat p1 p2 p3))ᵀ
      * m * embed4 (labToLocal (deg2rad psi) * ((2 * Real.pi) • (R * ub)) * colMat p1 p2 p3)) x
    rcases axes_shape h3 hn with ⟨rfl, rfl⟩ | ⟨rfl, rfl⟩ | ⟨rfl, rfl⟩ | ⟨rfl, rfl⟩
    · rw [hM, r0, qform_conj, embed4_mulVec, ← mulVec_mulVec, key, colMat_mulVec]
      simp [hklOf, enOf, Fin.sum_univ_four]
    · rw [hM, r1, qform_conj, embed4_mulVec, ← mulVec_mulVec, key, colMat_mulVec]
      simp [hklOf, enOf, Fin.sum_univ_four]
    · rw [hM, r2, qform_conj, embed4_mulVec, ← mulVec_mulVec, key, colMat_mulVec]
      simp [hklOf, enOf, Fin.sum_univ_four]
    · rw [hM, r3, qform_conj, embed4_mulVec, ← mulVec_mulVec, key, colMat_mulVec]
      simp [hklOf, enOf, Fin.sum_univ_four]

theorem matWInv_solves {p1 p2 p3 : V3} {wi : M3} (h : matWInv p1 p2 p3 = .ok wi) (v : V3) :
    (wi *ᵥ v) 0 • p1 + (wi *ᵥ v) 1 • p2 + (wi *ᵥ v) 2 • p3 = v := by
  unfold matWInv at h
  dsimp only at h
  split at h
  · cases h
  rename_i hd
  have h := Except.ok.inj h
  rw [← h]
  have hd' : p1 ⬝ᵥ cross p2 p3 =
      p1 0 * (p2 1 * p3 2 - p2 2 * p3 1) + p1 1 * (p2 2 * p3 0 - p2 0 * p3 2) + p1 2 * (p2 0 * p3 1 - p2 1 * p3 0) := by
    rw [dot3]; simp [cross]
  generalize p1 ⬝ᵥ cross p2 p3 = d at hd hd'
  apply ext3 <;> simp [mulVec3, cross, colMat] <;> field_simp <;> rw [hd'] <;> ring

/-- **C27** The reported centre `(Q coordinates and energy)` has, along the projection axes, exactly the hkl and the energy
of the position; a drawn ellipse is centred on the two coordinates of its axes, or on 0 when no origin is asked for. -/
theorem C27_coordinates {t : Tas} {hkl : V3} {en r0 : ℝ} {ax : Fin 4 → AxisItem} {m : Mat 4 4} {e : Ellipsoid}
    (h : mkEllipsoid t hkl en (some (List.ofFn ax)) m r0 = .ok e) :
    e.hkl = hkl ∧ e.en = en ∧ e.r0 = r0 ∧ ∃ x : Fin 4 → ℝ, hklOf ax x = hkl ∧ enOf ax x = en ∧
      ∀ i j proj el, (getEllipse e i j proj true = .ok el → el.cx = x i ∧ el.cy = x j) ∧
        (getEllipse e i j proj false = .ok el → el.cx = 0 ∧ el.cy = 0) := by
  obtain ⟨conv, hconv, h1, h2, h3, h4, -, hcase⟩ := mkEllipsoid_cases h
  refine ⟨h1, h2, h3, ?_⟩
  have aux : ∃ (n : ℕ) (x : Fin 4 → ℝ), enIndex (List.ofFn ax) = .ok n ∧ hklOf ax x = hkl ∧ enOf ax x = en ∧
      insertEn e.qVec n en = [x 0, x 1, x 2, x 3] := by
    rcases hcase with ⟨hax, hp⟩ | ⟨-, hp⟩
    · have hax' := hklAxes_ofFn hax
      unfold projHkl at hp
      obtain ⟨P, -, hp⟩ := py_bind_eq_ok.1 hp
      have hq : hkl = e.qVec := congrArg (fun r => r.2.2) (Except.ok.inj hp)
      refine ⟨3, ![hkl 0, hkl 1, hkl 2, en], ?_, ?_, ?_, ?_⟩
      · rw [hax]; unfold enIndex hklAxes; simp [List.findIdx_cons]
      · rw [hax']; apply ext3 <;> simp [hklOf, Fin.sum_univ_four]
      · rw [hax']; simp [enOf, Fin.sum_univ_four]
      · rw [← hq]; simp [insertEn]
    · obtain ⟨p1, p2, p3, ra, rb, rc, n, wi, a12, a23, a31, h3, -, hn, -, hw, hq, -, -, -, -, -⟩ := projCustom_cases hp
      have hs := matWInv_solves hw hkl
      rw [← hq] at hs
      rcases axes_shape h3 hn with ⟨rfl, rfl⟩ | ⟨rfl, rfl⟩ | ⟨rfl, rfl⟩ | ⟨rfl, rfl⟩
      · refine ⟨0, ![en, e.qVec 0, e.qVec 1, e.qVec 2], hn, ?_, ?_, ?_⟩
        · rw [← hs]; simp [hklOf, Fin.sum_univ_four]
        · simp [enOf, Fin.sum_univ_four]
        · simp [insertEn]
      · refine ⟨1, ![e.qVec 0, en, e.qVec 1, e.qVec 2], hn, ?_, ?_, ?_⟩
        · rw [← hs]; simp [hklOf, Fin.sum_univ_four]
        · simp [enOf, Fin.sum_univ_four]
        · simp [insertEn]
      · refine ⟨2, ![e.qVec 0, e.qVec 1, en, e.qVec 2], hn, ?_, ?_, ?_⟩
        · rw [← hs]; simp [hklOf, Fin.sum_univ_four]
        · simp [enOf, Fin.sum_univ_four]
        · simp [insertEn]
      · refine ⟨3, ![e.qVec 0, e.qVec 1, e.qVec 2, en], hn, ?_, ?_, ?_⟩
        · rw [← hs]; simp [hklOf, Fin.sum_univ_four]
        · simp [enOf, Fin.sum_univ_four]
        · simp [insertEn]
  obtain ⟨n, x, hn, hx1, hx2, hx⟩ := aux
  refine ⟨x, hx1, hx2, fun i j proj el => ⟨fun hel => ?_, fun hel => ?_⟩⟩
  · unfold getEllipse at hel
    rw [h4, h2] at hel
    obtain ⟨n', hn', hel⟩ := py_bind_eq_ok.1 hel
    have hn' : enIndex (List.ofFn ax) = .ok n' := hn'
    rw [hn] at hn'
    obtain rfl := Except.ok.inj hn'
    dsimp only at hel
    rw [hx] at hel
    unfold centreAt at hel
    simp only [if_true] at hel
    obtain ⟨cx, hcx, hel⟩ := py_bind_eq_ok.1 hel
    obtain ⟨cy, hcy, hel⟩ := py_bind_eq_ok.1 hel
    obtain ⟨M, -, hel⟩ := py_bind_eq_ok.1 hel
    have hel := Except.ok.inj hel
    subst hel
    have hcx := need_eq_ok.1 hcx
    have hcy := need_eq_ok.1 hcy
    constructor
    · fin_cases i <;> simpa [eq_comm] using hcx
    · fin_cases j <;> simpa [eq_comm] using hcy
  · unfold getEllipse at hel
    obtain ⟨n', hn', hel⟩ := py_bind_eq_ok.1 hel
    unfold centreAt at hel
    simp only [Bool.false_eq_true, if_false, py_bind_ok] at hel
    obtain ⟨M, -, hel⟩ := py_bind_eq_ok.1 hel
    have hel := Except.ok.inj hel
    subst hel
    exact ⟨rfl, rfl⟩

theorem angleVec_spec {u v : V3} {t : ℝ} (h : angleVec u v = .ok t) : u ≠ 0 ∧ v ≠ 0 ∧ IsAngleDeg u v t := by
  unfold angleVec at h
  obtain ⟨x, hx, h'⟩ := py_bind_eq_ok.1 h
  obtain ⟨y, hy, h''⟩ := py_bind_eq_ok.1 h'
  obtain ⟨z, hz, hlast⟩ := py_bind_eq_ok.1 h''
  clear h h' h''
  obtain ⟨hu, rfl⟩ := pyDiv_eq_ok.1 hx
  obtain ⟨hv, rfl⟩ := pyDiv_eq_ok.1 hy
  have hu : u ≠ 0 := fun h0 => hu (norm3_eq_zero.2 h0)
  have hv : v ≠ 0 := fun h0 => hv (norm3_eq_zero.2 h0)
  obtain ⟨h0, h1, h2⟩ := clip_cos hu hv
  rw [pyArccos_ok h1 h2] at hz
  have hz := Except.ok.inj hz
  have h := Except.ok.inj hlast
  have hs := angle_deg_spec hu hv
  rw [h0, hz] at hs
  have : rad2deg z = t := by rw [← h]; unfold rad2deg; ring
  rw [this] at hs
  exact ⟨hu, hv, hs⟩

theorem round2_close (x : ℝ) : |round2 x - x| ≤ 0.005 := by
  unfold round2
  have h := abs_sub_round (x * 100)
  rw [abs_le] at h ⊢
  constructor <;> linarith [h.1, h.2]

/-- What the three stored angles are. -/
theorem angles_spec {t : Tas} {hkl : V3} {en r0 : ℝ} {ax : Fin 4 → AxisItem} {m : Mat 4 4} {e : Ellipsoid}
    (hcell : PossibleCell t.sample.latt) (h : mkEllipsoid t hkl en (some (List.ofFn ax)) m r0 = .ok e) :
    ∃ ra rb rc p1 p2 p3, reciprocalSpaceVectors t.sample.latt = .ok (ra, rb, rc) ∧
      (ax = ![.name "en".toList, .vec p1, .vec p2, .vec p3] ∨ ax = ![.vec p1, .name "en".toList, .vec p2, .vec p3] ∨
       ax = ![.vec p1, .vec p2, .name "en".toList, .vec p3] ∨ ax = ![.vec p1, .vec p2, .vec p3, .name "en".toList]) ∧
      IsAngleDeg (inSpace ra rb rc p1) (inSpace ra rb rc p2) (e.angles 0) ∧
      IsAngleDeg (inSpace ra rb rc p2) (inSpace ra rb rc p3) (e.angles 1) ∧
      IsAngleDeg (inSpace ra rb rc p3) (inSpace ra rb rc p1) (e.angles 2) := by
  obtain ⟨conv, hconv, h1, h2, h3, h4, -, hcase⟩ := mkEllipsoid_cases h
  rcases hcase with ⟨hax, hp⟩ | ⟨-, hp⟩
  · have hax := hklAxes_ofFn hax
    obtain ⟨ra, rb, rc, P, hr, hP, -, -, -, i1, i2, i3⟩ := C03_reciprocal_params hcell
    unfold projHkl at hp
    rw [hP, py_bind_ok] at hp
    have hq : ![P.gamma, P.alpha, P.beta] = e.angles := congrArg (fun r => r.2.1) (Except.ok.inj hp)
    have s1 : inSpace ra rb rc ![1, 0, 0] = ra := by simp [inSpace]
    have s2 : inSpace ra rb rc ![0, 1, 0] = rb := by simp [inSpace]
    have s3 : inSpace ra rb rc ![0, 0, 1] = rc := by simp [inSpace]
    refine ⟨ra, rb, rc, _, _, _, hr, Or.inr (Or.inr (Or.inr hax)), ?_, ?_, ?_⟩
    · rw [s1, s2, ← hq]; exact i3
    · rw [s2, s3, ← hq]; exact i1
    · rw [s1, s3, ← hq]; exact isAngleDeg_comm i2
  · obtain ⟨p1, p2, p3, ra, rb, rc, n, wi, a12, a23, a31, h3, hr, hn, -, -, -, j1, j2, j3, han, -⟩ := projCustom_cases hp
    refine ⟨ra, rb, rc, p1, p2, p3, hr, ?_, ?_, ?_, ?_⟩
    · rcases axes_shape h3 hn with ⟨-, h⟩ | ⟨-, h⟩ | ⟨-, h⟩ | ⟨-, h⟩ <;> tauto
    · rw [han]; exact (angleVec_spec j1).2.2
    · rw [han]; exact (angleVec_spec j2).2.2
    · rw [han]; exact (angleVec_spec j3).2.2

theorem getEllipse_angle {e : Ellipsoid} {i j : Fin 4} {proj origin : Bool} {el : Ellipse}
    (h : getEllipse e i j proj origin = .ok el) : el.angle = pairAngle e.angles i j := by
  unfold getEllipse at h
  obtain ⟨n, -, h⟩ := py_bind_eq_ok.1 h
  obtain ⟨cx, -, h⟩ := py_bind_eq_ok.1 h
  obtain ⟨cy, -, h⟩ := py_bind_eq_ok.1 h
  obtain ⟨M, -, h⟩ := py_bind_eq_ok.1 h
  rw [← Except.ok.inj h]

/-- **C27** With the energy axis last, the angle drawn between two momentum axes is the angle between them in reciprocal
space (rounded to 0.01 degrees), and the energy axis is drawn at 90 degrees. Missing: the same with the energy axis
elsewhere, which `C27_angle_energy_first` shows to be false. -/
theorem C27_angle_partial {t : Tas} {hkl : V3} {en r0 : ℝ} {ax : Fin 4 → AxisItem} {m : Mat 4 4} {e : Ellipsoid}
    (hcell : PossibleCell t.sample.latt) (h : mkEllipsoid t hkl en (some (List.ofFn ax)) m r0 = .ok e)
    (hen : ax 3 = .name "en".toList) {i j : Fin 4} (hij : i ≠ j) {proj origin : Bool} {el : Ellipse}
    (hel : getEllipse e i j proj origin = .ok el) :
    ∃ ra rb rc, reciprocalSpaceVectors t.sample.latt = .ok (ra, rb, rc) ∧
      (∀ u v, ax i = .vec u → ax j = .vec v →
        ∃ th, IsAngleDeg (inSpace ra rb rc u) (inSpace ra rb rc v) th ∧ |el.angle - th| ≤ 0.005) ∧
      (i = 3 ∨ j = 3 → el.angle = 90) := by
  obtain ⟨ra, rb, rc, p1, p2, p3, hr, hax, a1, a2, a3⟩ := angles_spec hcell h
  have hel := getEllipse_angle hel
  have hax : ax = ![.vec p1, .vec p2, .vec p3, .name "en".toList] := by
    rcases hax with rfl | rfl | rfl | rfl
    · simp at hen
    · simp at hen
    · simp at hen
    · rfl
  refine ⟨ra, rb, rc, hr, ?_, ?_⟩
  · intro u v hu hv
    subst hax
    have k0 : |pairAngle e.angles 0 1 - e.angles 0| ≤ 0.005 := by simpa [pairAngle] using round2_close _
    have k1 : |pairAngle e.angles 1 2 - e.angles 1| ≤ 0.005 := by simpa [pairAngle] using round2_close _
    have k2 : |pairAngle e.angles 0 2 - e.angles 2| ≤ 0.005 := by simpa [pairAngle] using round2_close _
    have k3 : |pairAngle e.angles 1 0 - e.angles 0| ≤ 0.005 := by simpa [pairAngle] using round2_close _
    have k4 : |pairAngle e.angles 2 1 - e.angles 1| ≤ 0.005 := by simpa [pairAngle] using round2_close _
    have k5 : |pairAngle e.angles 2 0 - e.angles 2| ≤ 0.005 := by simpa [pairAngle] using round2_close _
    fin_cases i <;> fin_cases j <;> simp at hu hv hij <;> subst hu <;> subst hv <;> rw [hel]
    · exact ⟨_, a1, k0⟩
    · exact ⟨_, isAngleDeg_comm a3, k2⟩
    · exact ⟨_, isAngleDeg_comm a1, k3⟩
    · exact ⟨_, a2, k1⟩
    · exact ⟨_, a3, k5⟩
    · exact ⟨_, isAngleDeg_comm a2, k4⟩
  · intro h3
    rw [hel]
    fin_cases i <;> fin_cases j <;> simp [pairAngle] at h3 hij ⊢

/-- **C27 fails** when the energy axis is first: between the momentum axes 1 and 2 the drawn angle is the one between the axes 2
and 3, and the energy axis is drawn at the angle between the momentum axes 1 and 2 instead of 90 degrees. -/
theorem C27_angle_energy_first {t : Tas} {hkl : V3} {en r0 : ℝ} {p1 p2 p3 : V3} {m : Mat 4 4} {e : Ellipsoid}
    (hcell : PossibleCell t.sample.latt)
    (h : mkEllipsoid t hkl en (some (List.ofFn ![.name "en".toList, .vec p1, .vec p2, .vec p3])) m r0 = .ok e) :
    ∃ ra rb rc th12 th23, reciprocalSpaceVectors t.sample.latt = .ok (ra, rb, rc) ∧
      IsAngleDeg (inSpace ra rb rc p1) (inSpace ra rb rc p2) th12 ∧
      IsAngleDeg (inSpace ra rb rc p2) (inSpace ra rb rc p3) th23 ∧
      ∀ proj origin el, (getEllipse e 1 2 proj origin = .ok el → |el.angle - th23| ≤ 0.005) ∧
        (getEllipse e 0 1 proj origin = .ok el → |el.angle - th12| ≤ 0.005) := by
  obtain ⟨ra, rb, rc, q1, q2, q3, hr, hax, a1, a2, a3⟩ := angles_spec hcell h
  have hax : q1 = p1 ∧ q2 = p2 ∧ q3 = p3 := by
    rcases hax with hax | hax | hax | hax
    · have e1 := congrFun hax 1
      have e2 := congrFun hax 2
      have e3 := congrFun hax 3
      simp at e1 e2 e3
      exact ⟨e1.symm, e2.symm, e3.symm⟩
    all_goals
      have e1 := congrFun hax 0
      simp at e1
  obtain ⟨rfl, rfl, rfl⟩ := hax
  refine ⟨ra, rb, rc, _, _, hr, a1, a2, fun proj origin el => ⟨fun hel => ?_, fun hel => ?_⟩⟩
  · rw [getEllipse_angle hel]; simpa [pairAngle] using round2_close _
  · rw [getEllipse_angle hel]; simpa [pairAngle] using round2_close _

/-! ## C66: the 2D ellipse -/

theorem cut_fold (m : Mat 4 4) {i j : Fin 4} (hij : i ≠ j) :
    [3, 2, 1, 0].foldlM (fun (r : Quad) (k : ℕ) =>
      if k = i.val ∨ k = j.val then (pure r : Py Quad) else if false = true then quadricProj r k else r.delete k) (⟨4, m⟩ : Quad)
    = .ok ⟨2, m.submatrix ![min i j, max i j] ![min i j, max i j]⟩ := by
  fin_cases i <;> fin_cases j <;> simp at hij <;>
    simp [List.foldlM_cons, Quad.delete, py_pure, py_bind_ok, submatrix_submatrix] <;>
    (congr 1; ext a b; fin_cases a <;> fin_cases b <;> rfl)

/-- **C66** For two axes in increasing order the cut through the ellipsoid is the matrix restricted to these axes, in the
requested order. Missing: axes in decreasing order, for which `C66_order_ignored` shows it to be false. -/
theorem C66_cut_partial {e : Ellipsoid} {i j : Fin 4} (hij : i < j) {origin : Bool} {el : Ellipse}
    (h : getEllipse e i j false origin = .ok el) : el.mat = ⟨2, e.mat.submatrix ![i, j] ![i, j]⟩ := by
  unfold getEllipse at h
  obtain ⟨n, -, h⟩ := py_bind_eq_ok.1 h
  obtain ⟨cx, -, h⟩ := py_bind_eq_ok.1 h
  obtain ⟨cy, -, h⟩ := py_bind_eq_ok.1 h
  rw [cut_fold _ hij.ne, py_bind_ok] at h
  rw [← Except.ok.inj h, min_eq_left hij.le, max_eq_right hij.le]

/-- **C66 fails** for axes in decreasing order: the centre is swapped but the matrix is not. -/
theorem C66_order_ignored {e : Ellipsoid} {i j : Fin 4} (hij : i < j) {origin : Bool} {el el' : Ellipse}
    (h : getEllipse e i j false origin = .ok el) (h' : getEllipse e j i false origin = .ok el') :
    el'.mat = el.mat ∧ el'.cx = el.cy ∧ el'.cy = el.cx := by
  unfold getEllipse at h h'
  obtain ⟨n, hn, h⟩ := py_bind_eq_ok.1 h
  obtain ⟨cx, hcx, h⟩ := py_bind_eq_ok.1 h
  obtain ⟨cy, hcy, h⟩ := py_bind_eq_ok.1 h
  obtain ⟨n', hn', h'⟩ := py_bind_eq_ok.1 h'
  obtain ⟨cx', hcx', h'⟩ := py_bind_eq_ok.1 h'
  obtain ⟨cy', hcy', h'⟩ := py_bind_eq_ok.1 h'
  rw [cut_fold _ hij.ne, py_bind_ok] at h
  rw [cut_fold _ hij.ne', py_bind_ok] at h'
  rw [hn] at hn'
  have hnn := Except.ok.inj hn'
  rw [← hnn] at hcx' hcy'
  rw [hcx] at hcy'
  rw [hcy] at hcx'
  rw [← Except.ok.inj h, ← Except.ok.inj h', min_comm, max_comm]
  exact ⟨rfl, (Except.ok.inj hcx').symm, (Except.ok.inj hcy').symm⟩

theorem proj_skip {i j : Fin 4} (hij : i < j) (r : Quad) :
    [3, 2, 1, 0].foldlM (fun (r : Quad) (k : ℕ) =>
      if k = i.val ∨ k = j.val then (pure r : Py Quad) else if true = true then quadricProj r k else r.delete k) r
    = ([3, 2, 1, 0].filter fun k => decide (k ≠ i.val ∧ k ≠ j.val)).foldlM quadricProj r := by
  fin_cases i <;> fin_cases j <;> simp at hij <;> simp [List.foldlM_cons, py_pure, py_bind_ok]

/-- **C66** For two axes in increasing order the projected ellipse has, as the covariance, the block of these two axes of the
covariance of the ellipsoid, in the requested order. Same limits as `C26_block_of_inverse_partial` and `C66_cut_partial`. -/
theorem C66_projection_partial {e : Ellipsoid} (hm : SPD e.mat) (hV : ∀ i, e.mat⁻¹ i i ≤ 1e8) {i j : Fin 4} (hij : i < j)
    {origin : Bool} {el : Ellipse} (h : getEllipse e i j true origin = .ok el) :
    ∃ S : Mat 2 2, el.mat = ⟨2, S⟩ ∧ SPD S ∧ S⁻¹ = (e.mat⁻¹).submatrix ![i, j] ![i, j] := by
  unfold getEllipse at h
  obtain ⟨n, -, h⟩ := py_bind_eq_ok.1 h
  obtain ⟨cx, -, h⟩ := py_bind_eq_ok.1 h
  obtain ⟨cy, -, h⟩ := py_bind_eq_ok.1 h
  rw [proj_skip hij] at h
  have aux : ∀ l : List ℕ, ([3, 2, 1, 0].filter fun k => decide (k ≠ i.val ∧ k ≠ j.val)) = l → Valid 4 l → keptAxes 4 l = [i, j] →
      ∃ S : Mat 2 2, el.mat = ⟨2, S⟩ ∧ SPD S ∧ S⁻¹ = (e.mat⁻¹).submatrix ![i, j] ![i, j] := by
    intro l hl hv hk
    obtain ⟨⟨n, m⟩, hr, hst⟩ := stage_fold hV l (stage_start hm) hv
    have hst : Stage e.mat⁻¹ ⟨n, m⟩ [i, j] := hk ▸ hst
    have hn : n = 2 := hst.len
    subst hn
    rw [hl, hr, py_bind_ok] at h
    refine ⟨m, by rw [← Except.ok.inj h], hst.spd, ?_⟩
    ext a b
    rw [hst.inv a b]
    fin_cases a <;> fin_cases b <;> rfl
  fin_cases i <;> fin_cases j <;> simp at hij
  · exact aux [3, 2] (by decide) ⟨by decide, by decide, trivial⟩ (by decide)
  · exact aux [3, 1] (by decide) ⟨by decide, by decide, trivial⟩ (by decide)
  · exact aux [2, 1] (by decide) ⟨by decide, by decide, trivial⟩ (by decide)
  · exact aux [3, 0] (by decide) ⟨by decide, by decide, trivial⟩ (by decide)
  · exact aux [2, 0] (by decide) ⟨by decide, by decide, trivial⟩ (by decide)
  · exact aux [1, 0] (by decide) ⟨by decide, by decide, trivial⟩ (by decide)

/-! ## C67: the drawn contour -/

theorem ellipseFwhm_sq {ev f : ℝ} (h0 : 0 < ev) (h : ellipseFwhm ev = .ok f) : (f / 2) ^ 2 * ev = 2 * Real.log 2 := by
  unfold ellipseFwhm at h
  rw [pySqrt_ok (abs_nonneg _), py_bind_ok, abs_of_pos h0] at h
  obtain ⟨x, hx, h'⟩ := py_bind_eq_ok.1 h
  obtain ⟨hne, rfl⟩ := pyDiv_eq_ok.1 hx
  have hf := Except.ok.inj h'
  have hs := Real.sq_sqrt h0.le
  have hl : sig2fwhm ^ 2 = 8 * Real.log 2 := by
    unfold sig2fwhm
    have : (0 : ℝ) ≤ 2 * Real.log 2 := by have := Real.log_pos (show (1 : ℝ) < 2 by norm_num); linarith
    rw [mul_pow, Real.sq_sqrt this]; ring
  rw [← hf]
  field_simp
  rw [hl, hs]
  ring

/-- **C67** When `ev` and `vecs` are eigenvalues and orthonormal eigenvectors of a positive definite 2×2 matrix, the requested
number of points is drawn and every point lies on the contour where the Gaussian `exp (-(1/2) x·M·x)` about the centre has
half its height. -/
theorem C67_half_height {M vecs : Mat 2 2} {ev : Fin 2 → ℝ} (hM : SPD M) (heig : M * vecs = vecs * diagonal ev)
    (horth : vecsᵀ * vecs = 1) (cx cy : ℝ) (n : ℕ) :
    ∃ pts, ellipsePoints ev vecs cx cy n = .ok pts ∧ pts.length = n ∧
      ∀ p ∈ pts, Real.exp (-(1 / 2) * qform M ![p.1 - cx, p.2 - cy]) = 1 / 2 := by
  have hdiag : vecsᵀ * M * vecs = diagonal ev := by rw [Matrix.mul_assoc, heig, ← Matrix.mul_assoc, horth, Matrix.one_mul]
  have hpos : ∀ i, 0 < ev i := by
    intro i
    have hinj : Function.Injective vecs.mulVec := by
      intro a b hab
      have : vecsᵀ *ᵥ (vecs *ᵥ a) = vecsᵀ *ᵥ (vecs *ᵥ b) := congrArg _ hab
      rwa [mulVec_mulVec, mulVec_mulVec, horth, one_mulVec, one_mulVec] at this
    have h1 := ((spd_iff M).1 hM).conjTranspose_mul_mul_same hinj
    rw [conjTranspose_eq_transpose_of_trivial, hdiag] at h1
    simpa using h1.diag_pos (i := i)
  have ok : ∀ i, ∃ f, ellipseFwhm (ev i) = .ok f := by
    intro i
    unfold ellipseFwhm
    rw [pySqrt_ok (abs_nonneg _), py_bind_ok, abs_of_pos (hpos i), pyDiv_ok (Real.sqrt_pos.2 (hpos i)).ne']
    exact ⟨_, rfl⟩
  obtain ⟨f0, hf0⟩ := ok 0
  obtain ⟨f1, hf1⟩ := ok 1
  have s0 := ellipseFwhm_sq (hpos 0) hf0
  have s1 := ellipseFwhm_sq (hpos 1) hf1
  refine ⟨_, by unfold ellipsePoints; rw [hf0, py_bind_ok, hf1, py_bind_ok]; rfl, by simp [linspaceN], ?_⟩
  intro p hp
  rw [List.mem_map] at hp
  obtain ⟨phi, -, rfl⟩ := hp
  dsimp only
  have e : (![(vecs *ᵥ ![f0 / 2 * Real.cos phi, f1 / 2 * Real.sin phi]) 0 + cx - cx,
      (vecs *ᵥ ![f0 / 2 * Real.cos phi, f1 / 2 * Real.sin phi]) 1 + cy - cy] : Fin 2 → ℝ)
      = vecs *ᵥ ![f0 / 2 * Real.cos phi, f1 / 2 * Real.sin phi] := by
    ext i; fin_cases i <;> simp
  rw [e, ← qform_conj, hdiag]
  have q : qform (diagonal ev) ![f0 / 2 * Real.cos phi, f1 / 2 * Real.sin phi] = 2 * Real.log 2 := by
    simp [qform, Fin.sum_univ_two, diagonal]
    linear_combination Real.cos phi ^ 2 * s0 + Real.sin phi ^ 2 * s1 + 2 * Real.log 2 * Real.sin_sq_add_cos_sq phi
  rw [q, show -(1 / 2) * (2 * Real.log 2) = -Real.log 2 by ring, Real.exp_neg, Real.exp_log (by norm_num)]
  norm_num

/-- **C67** The points go around the contour once, at equal steps of the angle: along the eigenvectors, in units of the standard
deviations, the `i`-th of `n` points is at the angle `2π i / (n - 1)` on the circle of radius `√(2 ln 2)`. -/
theorem C67_around {vecs : Mat 2 2} {ev : Fin 2 → ℝ} (hpos : ∀ k, 0 < ev k) (horth : vecsᵀ * vecs = 1) (cx cy : ℝ) (n : ℕ)
    (pts : List (ℝ × ℝ)) (h : ellipsePoints ev vecs cx cy n = .ok pts) (i : ℕ) (p : ℝ × ℝ) (hp : pts[i]? = some p) :
    (vecsᵀ *ᵥ ![p.1 - cx, p.2 - cy]) 0 * √(ev 0) = √(2 * Real.log 2) * Real.cos (i * (2 * Real.pi / ((n : ℝ) - 1))) ∧
    (vecsᵀ *ᵥ ![p.1 - cx, p.2 - cy]) 1 * √(ev 1) = √(2 * Real.log 2) * Real.sin (i * (2 * Real.pi / ((n : ℝ) - 1))) := by
  have ok : ∀ k, ellipseFwhm (ev k) = .ok (1 / √(ev k) * sig2fwhm) := fun k => by
    unfold ellipseFwhm
    rw [pySqrt_ok (abs_nonneg _), py_bind_ok, abs_of_pos (hpos k), pyDiv_ok (Real.sqrt_pos.2 (hpos k)).ne']
    rfl
  unfold ellipsePoints at h
  rw [ok 0, py_bind_ok, ok 1, py_bind_ok] at h
  obtain rfl := Except.ok.inj h
  rw [List.getElem?_map, linspaceN, List.getElem?_map] at hp
  obtain ⟨phi, hphi, rfl⟩ := Option.map_eq_some_iff.1 hp
  obtain ⟨m, hm, rfl⟩ := Option.map_eq_some_iff.1 hphi
  obtain ⟨hlt, rfl⟩ := List.getElem?_eq_some_iff.1 hm
  rw [List.getElem_range]
  have hphi : (0 : ℝ) + i * ((2 * Real.pi - 0) / ((n : ℝ) - 1)) = i * (2 * Real.pi / ((n : ℝ) - 1)) := by rw [zero_add, sub_zero]
  rw [hphi]
  generalize (i : ℝ) * (2 * Real.pi / ((n : ℝ) - 1)) = phi
  dsimp only
  set len : Fin 2 → ℝ := ![1 / √(ev 0) * sig2fwhm / 2 * Real.cos phi, 1 / √(ev 1) * sig2fwhm / 2 * Real.sin phi] with hlen
  have e : (![(vecs *ᵥ len) 0 + cx - cx, (vecs *ᵥ len) 1 + cy - cy] : Fin 2 → ℝ) = vecs *ᵥ len := by
    ext k; fin_cases k <;> simp
  rw [e, mulVec_mulVec, horth, one_mulVec, hlen]
  have h0 := (Real.sqrt_pos.2 (hpos 0)).ne'
  have h1 := (Real.sqrt_pos.2 (hpos 1)).ne'
  simp only [cons_val_zero, cons_val_one, sig2fwhm]
  constructor <;> field_simp

example : ∃ pts, ellipsePoints ![4, 1] 1 3 5 8 = .ok pts ∧ pts.length = 8 ∧
    ∀ p ∈ pts, Real.exp (-(1 / 2) * qform (diagonal ![4, 1]) ![p.1 - 3, p.2 - 5]) = 1 / 2 := by
  refine C67_half_height ((spd_iff _).2 (PosDef.diagonal fun i => ?_)) (by simp) (by simp) 3 5 8
  fin_cases i <;> simp

/-- The second of five points is above the centre. -/
example (pts : List (ℝ × ℝ)) (h : ellipsePoints ![4, 1] 1 3 5 5 = .ok pts) (p : ℝ × ℝ) (hp : pts[1]? = some p) :
    p = (3, 5 + √(2 * Real.log 2)) := by
  obtain ⟨h0, h1⟩ := C67_around (by intro k; fin_cases k <;> simp) (by simp) 3 5 5 pts h 1 p hp
  have e : ((1 : ℕ) : ℝ) * (2 * Real.pi / (((5 : ℕ) : ℝ) - 1)) = Real.pi / 2 := by push_cast; ring
  rw [e, Real.cos_pi_div_two] at h0
  rw [e, Real.sin_pi_div_two] at h1
  simp at h0
  rw [mul_one] at h1
  rw [transpose_one, one_mulVec, show (![4, 1] : Fin 2 → ℝ) 1 = 1 from rfl, Real.sqrt_one, mul_one,
    show (![p.1 - 3, p.2 - 5] : Fin 2 → ℝ) 1 = p.2 - 5 from rfl] at h1
  exact Prod.ext (by dsimp only; linarith) (by dsimp only; linarith)

end Tavi
