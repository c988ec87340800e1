import Verif.Props.Frame
import Verif.Props.QuadricSmall
import Verif.Props.Convolution

/-! # C66, C73, continued: projected ellipses whatever the pivots, and the factor by which convolutions come out too small -/

namespace Tavi

open Matrix Spec

/-- **C66** For every symmetric positive definite resolution matrix, whatever its pivots: the projected ellipse of two axes in
increasing order lies within the true shadow, and its variances are not larger than those of the ellipsoid. -/
theorem C66_projection_within {e : Ellipsoid} (hm : SPD e.mat) {i j : Fin 4} (hij : i < j)
    {origin : Bool} {el : Ellipse} (h : getEllipse e i j true origin = .ok el) :
    ∃ S : Mat 2 2, el.mat = ⟨2, S⟩ ∧ SPD S ∧
      (∀ x, qform ((e.mat⁻¹).submatrix ![i, j] ![i, j])⁻¹ x ≤ qform S x) ∧
      S⁻¹ 0 0 ≤ e.mat⁻¹ i i ∧ S⁻¹ 1 1 ≤ e.mat⁻¹ j j := by
  unfold getEllipse at h
  obtain ⟨n, -, h⟩ := py_bind_eq_ok.1 h
  obtain ⟨cx, -, h⟩ := py_bind_eq_ok.1 h
  obtain ⟨cy, -, h⟩ := py_bind_eq_ok.1 h
  rw [proj_skip hij] at h
  have aux : ∀ l : List ℕ, ([3, 2, 1, 0].filter fun k => decide (k ≠ i.val ∧ k ≠ j.val)) = l → Valid 4 l → keptAxes 4 l = [i, j] →
      ∃ S : Mat 2 2, el.mat = ⟨2, S⟩ ∧ SPD S ∧
        (∀ x, qform ((e.mat⁻¹).submatrix ![i, j] ![i, j])⁻¹ x ≤ qform S x) ∧
        S⁻¹ 0 0 ≤ e.mat⁻¹ i i ∧ S⁻¹ 1 1 ≤ e.mat⁻¹ j j := by
    intro l hl hv hk
    obtain ⟨⟨n, m⟩, hr, hst⟩ := inner_fold l (inner_start hm) hv
    have hst : Inner e.mat ⟨n, m⟩ [i, j] := hk ▸ hst
    have hn : n = 2 := hst.len
    subst hn
    rw [hl, hr, py_bind_ok] at h
    obtain ⟨p, hp, hle⟩ := hst.within
    have ep : p⁻¹ = (e.mat⁻¹).submatrix ![i, j] ![i, j] := by
      ext a b
      rw [hp.inv a b]
      fin_cases a <;> fin_cases b <;> rfl
    have e2 : ((e.mat⁻¹).submatrix ![i, j] ![i, j])⁻¹ = p := by rw [← ep, nonsing_inv_nonsing_inv _ hp.spd.unit]
    refine ⟨m, by rw [← Except.ok.inj h], hst.spd, fun x => ?_, ?_, ?_⟩
    · rw [e2]; exact hle x
    · have := inv_diag_anti hp.spd hst.spd hle 0
      dsimp only at this
      rw [ep] at this
      exact this
    · have := inv_diag_anti hp.spd hst.spd hle 1
      dsimp only at this
      rw [ep] at this
      exact this
  fin_cases i <;> fin_cases j <;> simp at hij
  · exact aux [3, 2] (by decide) ⟨by decide, by decide, trivial⟩ (by decide)
  · exact aux [3, 1] (by decide) ⟨by decide, by decide, trivial⟩ (by decide)
  · exact aux [2, 1] (by decide) ⟨by decide, by decide, trivial⟩ (by decide)
  · exact aux [3, 0] (by decide) ⟨by decide, by decide, trivial⟩ (by decide)
  · exact aux [2, 0] (by decide) ⟨by decide, by decide, trivial⟩ (by decide)
  · exact aux [1, 0] (by decide) ⟨by decide, by decide, trivial⟩ (by decide)

/-- **C66** With two axes in either order, cut or projected: the ellipse of `(j, i)` has the centre of the ellipse of `(i, j)`
with the two coordinates exchanged, but the same matrix. -/
theorem C66_swapped {e : Ellipsoid} {i j : Fin 4} {proj origin : Bool} {el el' : Ellipse}
    (h : getEllipse e i j proj origin = .ok el) (h' : getEllipse e j i proj origin = .ok el') :
    el'.mat = el.mat ∧ el'.cx = el.cy ∧ el'.cy = el.cx := by
  unfold getEllipse at h h'
  obtain ⟨n, hn, h⟩ := py_bind_eq_ok.1 h
  obtain ⟨cx, hcx, h⟩ := py_bind_eq_ok.1 h
  obtain ⟨cy, hcy, h⟩ := py_bind_eq_ok.1 h
  obtain ⟨M, hM, h⟩ := py_bind_eq_ok.1 h
  obtain ⟨n', hn', h'⟩ := py_bind_eq_ok.1 h'
  obtain ⟨cx', hcx', h'⟩ := py_bind_eq_ok.1 h'
  obtain ⟨cy', hcy', h'⟩ := py_bind_eq_ok.1 h'
  obtain ⟨M', hM', h'⟩ := py_bind_eq_ok.1 h'
  simp only [or_comm (b := _ = i.val)] at hM'
  rw [hM] at hM'
  rw [hn] at hn'
  have hnn := Except.ok.inj hn'
  rw [← hnn] at hcx' hcy'
  rw [hcx] at hcy'
  rw [hcy] at hcx'
  rw [← Except.ok.inj h, ← Except.ok.inj h']
  exact ⟨(Except.ok.inj hM').symm, (Except.ok.inj hcx').symm, (Except.ok.inj hcy').symm⟩

/-- **C66** For axes in decreasing order the cut is the one asked for exactly if the two diagonal entries are equal. -/
theorem C66_decreasing_iff {e : Ellipsoid} (hs : ∀ a b, e.mat a b = e.mat b a) {i j : Fin 4} (hij : i < j) {origin : Bool}
    {el : Ellipse} (h : getEllipse e j i false origin = .ok el) :
    el.mat = ⟨2, e.mat.submatrix ![j, i] ![j, i]⟩ ↔ e.mat i i = e.mat j j := by
  unfold getEllipse at h
  obtain ⟨n, -, h⟩ := py_bind_eq_ok.1 h
  obtain ⟨cx, -, h⟩ := py_bind_eq_ok.1 h
  obtain ⟨cy, -, h⟩ := py_bind_eq_ok.1 h
  rw [cut_fold _ hij.ne', py_bind_ok] at h
  rw [← Except.ok.inj h, min_eq_right hij.le, max_eq_left hij.le]
  dsimp only
  constructor
  · intro he
    have he : e.mat.submatrix ![i, j] ![i, j] = e.mat.submatrix ![j, i] ![j, i] := by
      injection he with h1 h2
    exact congrFun (congrFun he 0) 0
  · intro he
    congr 1
    ext a b
    fin_cases a <;> fin_cases b
    · exact he
    · exact hs _ _
    · exact hs _ _
    · exact he.symm

/-- The momentum axes among the requested ones, in their order. -/
def Spec.momenta (ax : Fin 4 → AxisItem) : List V3 := (List.ofFn ax).filterMap fun a => match a with
  | .vec v => some v
  | .name _ => none

/-- **C27** The drawn angle for every placement of the energy axis: between the axes at places `i` and `j` among the first three the
drawn angle is the one between the `i`th and the `j`th momentum axis, and every axis at the last place is drawn at 90 degrees. -/
theorem C27_angle_table {t : Tas} {hkl : V3} {en r0 : ℝ} {ax : Fin 4 → AxisItem} {m : Mat 4 4} {e : Ellipsoid}
    (hcell : PossibleCell t.sample.latt) (h : mkEllipsoid t hkl en (some (List.ofFn ax)) m r0 = .ok e) {i j : Fin 4} (hij : i ≠ j)
    {proj origin : Bool} {el : Ellipse} (hel : getEllipse e i j proj origin = .ok el) :
    ∃ ra rb rc, ∃ q : Fin 3 → V3, reciprocalSpaceVectors t.sample.latt = .ok (ra, rb, rc) ∧ momenta ax = List.ofFn q ∧
      (∀ a b : Fin 3, i = a.castSucc → j = b.castSucc →
        ∃ th, IsAngleDeg (inSpace ra rb rc (q a)) (inSpace ra rb rc (q b)) th ∧ |el.angle - th| ≤ 0.005) ∧
      (i = 3 ∨ j = 3 → el.angle = 90) := by
  obtain ⟨ra, rb, rc, p1, p2, p3, hr, hax, a1, a2, a3⟩ := angles_spec hcell h
  have hel := getEllipse_angle hel
  refine ⟨ra, rb, rc, ![p1, p2, p3], hr, ?_, ?_, ?_⟩
  · rcases hax with rfl | rfl | rfl | rfl <;> simp [momenta, List.ofFn_succ]
  · intro a b hi hj
    subst hi hj
    have k0 : |pairAngle e.angles 0 1 - e.angles 0| ≤ 0.005 := by simpa [pairAngle] using round2_close _
    have k1 : |pairAngle e.angles 1 2 - e.angles 1| ≤ 0.005 := by simpa [pairAngle] using round2_close _
    have k2 : |pairAngle e.angles 0 2 - e.angles 2| ≤ 0.005 := by simpa [pairAngle] using round2_close _
    have k3 : |pairAngle e.angles 1 0 - e.angles 0| ≤ 0.005 := by simpa [pairAngle] using round2_close _
    have k4 : |pairAngle e.angles 2 1 - e.angles 1| ≤ 0.005 := by simpa [pairAngle] using round2_close _
    have k5 : |pairAngle e.angles 2 0 - e.angles 2| ≤ 0.005 := by simpa [pairAngle] using round2_close _
    rw [hel]
    fin_cases a <;> fin_cases b <;> simp at hij
    · exact ⟨_, a1, k0⟩
    · exact ⟨_, isAngleDeg_comm a3, k2⟩
    · exact ⟨_, isAngleDeg_comm a1, k3⟩
    · exact ⟨_, a2, k1⟩
    · exact ⟨_, a3, k5⟩
    · exact ⟨_, isAngleDeg_comm a2, k4⟩
  · intro h3
    rw [hel]
    fin_cases i <;> fin_cases j <;> simp [pairAngle] at h3 hij ⊢

/-! ## The factor of the convolution -/

/-- The determinant of the correlations of the three momentum directions. -/
noncomputable def Spec.correlation (V : Mat 4 4) : ℝ :=
  1 + 2 * (V 0 1 * V 1 2 * V 0 2) / (V 0 0 * V 1 1 * V 2 2) - V 1 2 ^ 2 / (V 1 1 * V 2 2) - V 0 2 ^ 2 / (V 0 0 * V 2 2)
    - V 0 1 ^ 2 / (V 0 0 * V 1 1)

theorem det_block_eq {V : Mat 4 4} (h : SPD V) :
    (V.submatrix Fin.castSucc Fin.castSucc : Mat 3 3).det = V 0 0 * V 1 1 * V 2 2 * correlation V := by
  have h0 := (h.diag_pos 0).ne'
  have h1 := (h.diag_pos 1).ne'
  have h2 := (h.diag_pos 2).ne'
  rw [det_fin_three]
  simp only [submatrix_apply, show (Fin.castSucc (0 : Fin 3) : Fin 4) = 0 from rfl,
    show (Fin.castSucc (1 : Fin 3) : Fin 4) = 1 from rfl, show (Fin.castSucc (2 : Fin 3) : Fin 4) = 2 from rfl]
  rw [h.symm 1 0, h.symm 2 0, h.symm 2 1]
  unfold correlation
  field_simp
  ring

theorem correlation_bounds {V : Mat 4 4} (h : SPD V) : 0 < correlation V ∧ correlation V ≤ 1 ∧
    (correlation V = 1 ↔ V 0 1 = 0 ∧ V 0 2 = 0 ∧ V 1 2 = 0) := by
  have h0 := h.diag_pos 0
  have h1 := h.diag_pos 1
  have h2 := h.diag_pos 2
  have hP : 0 < V 0 0 * V 1 1 * V 2 2 := by positivity
  have hd : 0 < (V.submatrix Fin.castSucc Fin.castSucc : Mat 3 3).det := (h.sub (Fin.castSucc_injective 3)).det_pos
  have hle := det_block_le h
  rw [det_block_eq h] at hd hle
  refine ⟨pos_of_mul_pos_right hd hP.le, by nlinarith, fun e => ?_, fun ⟨a, b, c⟩ => by simp [correlation, a, b, c]⟩
  have eq : qform V ![-V 1 2, V 0 2, 0, 0] = V 0 0 * V 1 2 ^ 2 + V 1 1 * V 0 2 ^ 2 - 2 * (V 0 1 * V 1 2 * V 0 2) := by
    simp only [qform, Fin.sum_univ_four, cons_val_zero, cons_val_one, cons_val]
    rw [h.symm 1 0]
    ring
  have es : V 0 0 * V 1 1 * V 2 2 * correlation V = V 0 0 * V 1 1 * V 2 2 - qform V ![-V 1 2, V 0 2, 0, 0] - V 2 2 * V 0 1 ^ 2 := by
    rw [eq]
    unfold correlation
    field_simp
    ring
  rw [e, mul_one] at es
  have hz : (![-V 1 2, V 0 2, 0, 0] : Fin 4 → ℝ) = 0 := by
    by_contra hz
    have := h.pos _ hz
    have := mul_nonneg h2.le (sq_nonneg (V 0 1))
    linarith
  have z0 := congrFun hz 0
  have z1 := congrFun hz 1
  simp at z0 z1
  rw [hz] at es
  have e0 : qform V 0 = 0 := by simp [qform]
  rw [e0] at es
  have : V 2 2 * V 0 1 ^ 2 = 0 := by linarith
  have : V 0 1 = 0 := by
    rcases mul_eq_zero.1 this with h | h
    · exact absurd h h2.ne'
    · exact pow_eq_zero_iff two_ne_zero |>.1 h
  exact ⟨this, z1, z0⟩

/-- **C73** In general the convolution is the Riemann sum times the square root of the determinant of the correlations of the
three momentum directions. The factor is at most one, and it is one exactly if they are not correlated. -/
theorem C73_factor {B : ℕ} (hB : 0 < B) {p : ResoParams} (hg : GoodReso p.mat) (disp : Fin B → V3 → ℝ) {rez : ℝ}
    (hr : 0 < rez) {maxStep : ℕ} (hm : 0 < maxStep) (hn : ¬ Nothing p disp) :
    (∃ n : Pts, (∀ k ∈ [n.1, n.2.1, n.2.2], min 10 maxStep ≤ k ∧ k ≤ max 10 maxStep) ∧
      ∀ inten, convolution (some p) disp inten rez maxStep
        = .ok (√(correlation p.mat⁻¹) *
          (p.r0 * √p.mat.det / (2 * Real.pi) ^ 2 * (gaussSum p disp inten n * cellVolume p.mat⁻¹ n)))) ∧
    0 < √(correlation p.mat⁻¹) ∧ √(correlation p.mat⁻¹) ≤ 1 ∧
    (√(correlation p.mat⁻¹) = 1 ↔ p.mat⁻¹ 0 1 = 0 ∧ p.mat⁻¹ 0 2 = 0 ∧ p.mat⁻¹ 1 2 = 0) := by
  obtain ⟨-, s, -, n, -, hb, h⟩ := C73_sum hB hg disp hr hm
  obtain ⟨c0, c1, c2⟩ := correlation_bounds hg.spd.inv
  refine ⟨⟨n, hb, fun inten => ?_⟩, Real.sqrt_pos.2 c0, Real.sqrt_le_one.2 c1, by rw [Real.sqrt_eq_one, c2]⟩
  have h0 := hg.spd.inv.diag_pos 0
  have h1 := hg.spd.inv.diag_pos 1
  have h2 := hg.spd.inv.diag_pos 2
  rw [h hn, volume_eq hg.spd, cellVolume_eq hg.spd, det_block_eq hg.spd.inv, Real.sqrt_mul (by positivity)]
  congr 1
  ring

open Demo in
/-- With the correlated matrix of `C73_volume_wrong` the factor is `√(3/4)`. -/
example : ∃ n : Pts, convolution (some corrParams) flat ones (1 / 5) 100
    = .ok (√(3 / 4) * (√corrMat.det / (2 * Real.pi) ^ 2 * (gaussSum corrParams flat ones n * cellVolume corrMat⁻¹ n))) := by
  obtain ⟨⟨n, -, h⟩, -⟩ := C73_factor (B := 1) one_pos (p := corrParams) corrMat_good flat (rez := 1 / 5) (by norm_num)
    (maxStep := 100) (by norm_num) flat_something
  refine ⟨n, (h ones).trans ?_⟩
  have e : correlation corrParams.mat⁻¹ = 3 / 4 := by
    rw [show corrParams.mat = corrMat from rfl, corrMat_inv]
    simp [correlation, corrInv]
    norm_num
  rw [e, show corrParams.r0 = 1 from rfl, one_mul]
  rfl

end Tavi
