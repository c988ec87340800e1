import Verif.Props.Energy

/-!
# Which accepted lattice parameters are those of a cell (C22)
-/

namespace Tavi

open Matrix Real
open Spec (PossibleCell metric)

/-! ## The words of the property -/

/-- There are three vectors that are not in a plane, with these lengths and with these angles between them. -/
def Spec.Spanned (L : Latt) : Prop :=
  ∃ u v w : V3, (Matrix.of ![u, v, w]).det ≠ 0 ∧ u ⬝ᵥ u = L.a ^ 2 ∧ v ⬝ᵥ v = L.b ^ 2 ∧ w ⬝ᵥ w = L.c ^ 2 ∧
    v ⬝ᵥ w = L.b * L.c * Real.cos (L.alpha * π / 180) ∧ u ⬝ᵥ w = L.a * L.c * Real.cos (L.beta * π / 180) ∧
    u ⬝ᵥ v = L.a * L.b * Real.cos (L.gamma * π / 180)

/-- Each angle is less than the sum of the others, and the three of them are less than a full turn. -/
def Spec.Triangle (L : Latt) : Prop :=
  L.alpha < L.beta + L.gamma ∧ L.beta < L.alpha + L.gamma ∧ L.gamma < L.alpha + L.beta ∧ L.alpha + L.beta + L.gamma < 360

/-! ## Geometry -/

theorem det_metric (L : Latt) : (metric L).det = (L.a * L.b * L.c) ^ 2 *
    (1 - Real.cos (L.alpha * π / 180) ^ 2 - Real.cos (L.beta * π / 180) ^ 2 - Real.cos (L.gamma * π / 180) ^ 2
      + 2 * Real.cos (L.alpha * π / 180) * Real.cos (L.beta * π / 180) * Real.cos (L.gamma * π / 180)) := by
  unfold metric
  rw [Matrix.det_fin_three]
  simp
  ring

theorem volume_factors (x y z : ℝ) : 1 - Real.cos x ^ 2 - Real.cos y ^ 2 - Real.cos z ^ 2 + 2 * Real.cos x * Real.cos y * Real.cos z =
    (Real.cos (x - y) - Real.cos z) * (Real.cos z - Real.cos (x + y)) := by
  rw [Real.cos_sub, Real.cos_add]
  have h1 := Real.sin_sq_add_cos_sq x
  have h2 := Real.sin_sq_add_cos_sq y
  linear_combination (-(Real.sin y ^ 2)) * h1 - (1 - Real.cos x ^ 2) * h2

theorem cos_lt_iff {x y : ℝ} (hx0 : 0 ≤ x) (hx : x ≤ π) (hy0 : 0 ≤ y) (hy : y ≤ π) : Real.cos x < Real.cos y ↔ y < x :=
  ⟨fun h => by
    by_contra hc
    exact absurd (Real.cos_le_cos_of_nonneg_of_le_pi hx0 hy (not_lt.1 hc)) (not_le.2 h),
   fun h => Real.cos_lt_cos_of_nonneg_of_le_pi hy0 hx h⟩

theorem volume_pos_iff {x y z : ℝ} (hx0 : 0 ≤ x) (hx : x ≤ π) (hy0 : 0 ≤ y) (hy : y ≤ π) (hz0 : 0 ≤ z) (hz : z ≤ π) :
    0 < 1 - Real.cos x ^ 2 - Real.cos y ^ 2 - Real.cos z ^ 2 + 2 * Real.cos x * Real.cos y * Real.cos z ↔
      x < y + z ∧ y < x + z ∧ z < x + y ∧ x + y + z < 2 * π := by
  rw [volume_factors, mul_pos_iff]
  have e1 : Real.cos (x - y) = Real.cos |x - y| := (Real.cos_abs _).symm
  have habs : |x - y| ≤ π := abs_le.2 ⟨by linarith, by linarith⟩
  have f1 : 0 < Real.cos (x - y) - Real.cos z ↔ |x - y| < z := by
    rw [sub_pos, e1]
    exact cos_lt_iff hz0 hz (abs_nonneg _) habs
  have f2 : 0 < Real.cos z - Real.cos (x + y) ↔ z < x + y ∧ z < 2 * π - (x + y) := by
    rw [sub_pos]
    rcases le_total (x + y) π with h | h
    · rw [cos_lt_iff (by linarith) h hz0 hz]
      constructor
      · intro k
        exact ⟨k, by linarith⟩
      · exact fun k => k.1
    · rw [← Real.cos_two_pi_sub, cos_lt_iff (by linarith) (by linarith) hz0 hz]
      constructor
      · intro k
        exact ⟨by linarith, k⟩
      · exact fun k => k.2
  have hno : ¬ (Real.cos (x - y) - Real.cos z < 0 ∧ Real.cos z - Real.cos (x + y) < 0) := by
    rintro ⟨k1, k2⟩
    have : 0 ≤ Real.sin x * Real.sin y :=
      mul_nonneg (Real.sin_nonneg_of_nonneg_of_le_pi hx0 hx) (Real.sin_nonneg_of_nonneg_of_le_pi hy0 hy)
    rw [Real.cos_sub] at k1
    rw [Real.cos_add] at k2
    linarith
  rw [f1, f2, abs_lt]
  constructor
  · rintro (⟨⟨k1, k2⟩, k3, k4⟩ | k)
    · exact ⟨by linarith, by linarith, k3, by linarith⟩
    · exact absurd k hno
  · rintro ⟨k1, k2, k3, k4⟩
    exact .inl ⟨⟨by linarith, by linarith⟩, k3, by linarith⟩

/-! ## The property -/

section
variable {L : Latt}

/-- **C22**: of the parameters that are accepted, those describe a possible cell whose angles satisfy the inequalities of a
spherical triangle. -/
theorem C22_triangle (h : Spec.Acceptable L) : PossibleCell L ↔ Spec.Triangle L := by
  obtain ⟨ha, hb, hc, ⟨hx0, hx⟩, ⟨hy0, hy⟩, hz0, hz⟩ := h
  have hpi := Real.pi_pos
  have r0 : ∀ t : ℝ, 0 ≤ t → 0 ≤ t * π / 180 := fun t ht => by positivity
  have r1 : ∀ t : ℝ, t ≤ 180 → t * π / 180 ≤ π := fun t ht => by nlinarith
  have lt_iff : ∀ s t : ℝ, s * π / 180 < t * π / 180 ↔ s < t := fun s t => by
    rw [div_lt_div_iff_of_pos_right (by norm_num), mul_lt_mul_iff_left₀ hpi]
  have k := volume_pos_iff (r0 _ hx0) (r1 _ hx) (r0 _ hy0) (r1 _ hy) (r0 _ hz0) (r1 _ hz)
  have c1 : L.alpha * π / 180 < L.beta * π / 180 + L.gamma * π / 180 ↔ L.alpha < L.beta + L.gamma := by
    rw [← lt_iff L.alpha (L.beta + L.gamma), add_mul, add_div]
  have c2 : L.beta * π / 180 < L.alpha * π / 180 + L.gamma * π / 180 ↔ L.beta < L.alpha + L.gamma := by
    rw [← lt_iff L.beta (L.alpha + L.gamma), add_mul, add_div]
  have c3 : L.gamma * π / 180 < L.alpha * π / 180 + L.beta * π / 180 ↔ L.gamma < L.alpha + L.beta := by
    rw [← lt_iff L.gamma (L.alpha + L.beta), add_mul, add_div]
  have c4 : L.alpha * π / 180 + L.beta * π / 180 + L.gamma * π / 180 < 2 * π ↔ L.alpha + L.beta + L.gamma < 360 := by
    rw [← lt_iff (L.alpha + L.beta + L.gamma) 360, add_mul, add_div, add_mul, add_div, show (360 : ℝ) * π / 180 = 2 * π by ring]
  rw [c1, c2, c3, c4] at k
  constructor
  · exact fun p => k.1 p.volume_pos
  · intro t
    obtain ⟨t1, t2, t3, t4⟩ := t
    exact ⟨ha, hb, hc, by linarith, by linarith, by linarith, by linarith, by linarith, by linarith, k.2 ⟨t1, t2, t3, t4⟩⟩

/-- **C22**: possible cells are those that three vectors span. -/
theorem C22_spanned (h : Spec.Acceptable L) : PossibleCell L ↔ Spec.Spanned L := by
  constructor
  · intro p
    have T := trig p
    have hm := d_mul_dT T
    refine ⟨dClosed T 0, dClosed T 1, dClosed T 2, ?_, ?_⟩
    · have e : Matrix.of ![dClosed T 0, dClosed T 1, dClosed T 2] = dClosed T := by
        ext i j
        fin_cases i <;> rfl
      rw [e]
      intro h0
      have := congrArg Matrix.det (d_mul_r T)
      rw [Matrix.det_mul, h0, zero_mul, Matrix.det_one] at this
      exact zero_ne_one this
    · have g : ∀ i j, dClosed T i ⬝ᵥ dClosed T j = metric L i j := fun i j => by
        rw [← hm, Matrix.mul_apply]
        rfl
      rw [g, g, g, g, g, g]
      refine ⟨?_, ?_, ?_, ?_, ?_, ?_⟩ <;> simp [metric]
  · rintro ⟨u, v, w, hd, h1, h2, h3, h4, h5, h6⟩
    have e : Matrix.of ![u, v, w] * (Matrix.of ![u, v, w])ᵀ = metric L := by
      have q : ∀ i j, (Matrix.of ![u, v, w] * (Matrix.of ![u, v, w])ᵀ) i j = (![u, v, w] i) ⬝ᵥ (![u, v, w] j) := fun i j => by
        rw [Matrix.mul_apply]
        rfl
      ext i j
      rw [q]
      fin_cases i <;> fin_cases j <;>
        simp [metric, h1, h2, h3, h4, h5, h6, dotProduct_comm v u, dotProduct_comm w u, dotProduct_comm w v]
    have hdet := congrArg Matrix.det e
    rw [Matrix.det_mul, Matrix.det_transpose, det_metric] at hdet
    have hpos : 0 < (Matrix.of ![u, v, w]).det * (Matrix.of ![u, v, w]).det := mul_self_pos.2 hd
    rw [hdet] at hpos
    have hv := (pos_iff_pos_of_mul_pos hpos).1 (lt_of_le_of_ne (sq_nonneg (L.a * L.b * L.c)) fun h0 => by rw [← h0, zero_mul] at hpos; exact lt_irrefl _ hpos)
    obtain ⟨ha, hb, hc, ⟨hx0, hx⟩, ⟨hy0, hy⟩, hz0, hz⟩ := id h
    have hpi := Real.pi_pos
    refine (C22_triangle h).2 ?_
    have r0 : ∀ t : ℝ, 0 ≤ t → 0 ≤ t * π / 180 := fun t ht => by positivity
    have r1 : ∀ t : ℝ, t ≤ 180 → t * π / 180 ≤ π := fun t ht => by nlinarith
    obtain ⟨k1, k2, k3, k4⟩ := (volume_pos_iff (r0 _ hx0) (r1 _ hx) (r0 _ hy0) (r1 _ hy) (r0 _ hz0) (r1 _ hz)).1 hv
    exact ⟨by nlinarith, by nlinarith, by nlinarith, by nlinarith⟩

/-- **C22**: an accepted cell has a B matrix exactly if it is possible; otherwise nothing but infinities and nan come out. -/
theorem C22_defined_iff (h : Spec.Acceptable L) (s : Sample) (hs : s.latt = L) :
    (PossibleCell L → ∃ B, s.bMat = .ok B ∧ B.det ≠ 0) ∧ (¬ PossibleCell L → s.bMat = .error .nonFinite) := by
  constructor
  · intro p
    obtain ⟨B, hB, hg⟩ := C02_gram p
    refine ⟨B, by rw [← hB, ← hs]; rfl, fun h0 => ?_⟩
    have hd := congrArg Matrix.det hg
    rw [Matrix.det_mul, Matrix.det_transpose, h0, zero_mul] at hd
    have hm : (metric L).det ≠ 0 := by
      rw [det_metric]
      have := p.volume_pos
      have := p.a_pos
      have := p.b_pos
      have := p.c_pos
      positivity
    have := Matrix.det_nonsing_inv_mul_det (metric L) (isUnit_iff_ne_zero.2 hm)
    rw [← hd, zero_mul] at this
    exact zero_ne_one this
  · intro hn
    have hvol : ¬ 0 < 1 - Real.cos (deg2rad L.alpha) ^ 2 - Real.cos (deg2rad L.beta) ^ 2 - Real.cos (deg2rad L.gamma) ^ 2
        + 2 * Real.cos (deg2rad L.alpha) * Real.cos (deg2rad L.beta) * Real.cos (deg2rad L.gamma) := by
      intro hv
      apply hn
      rw [C22_triangle h]
      obtain ⟨ha, hb, hc, ⟨hx0, hx⟩, ⟨hy0, hy⟩, hz0, hz⟩ := id h
      have hpi := Real.pi_pos
      have r0 : ∀ t : ℝ, 0 ≤ t → 0 ≤ deg2rad t := fun t ht => by unfold deg2rad; positivity
      have r1 : ∀ t : ℝ, t ≤ 180 → deg2rad t ≤ π := fun t ht => by unfold deg2rad; nlinarith
      obtain ⟨k1, k2, k3, k4⟩ := (volume_pos_iff (r0 _ hx0) (r1 _ hx) (r0 _ hy0) (r1 _ hy) (r0 _ hz0) (r1 _ hz)).1 hv
      unfold deg2rad at k1 k2 k3 k4
      exact ⟨by nlinarith, by nlinarith, by nlinarith, by nlinarith⟩
    unfold Sample.bMat bMatFromLattice reciprocalLattParams vAbg
    rw [hs]
    dsimp only
    rcases lt_or_eq_of_le (not_lt.1 hvol) with hlt | heq
    · unfold pySqrt
      rw [if_pos hlt]
      rfl
    · rw [heq]
      have e : pySqrt 0 = .ok 0 := by
        unfold pySqrt
        rw [if_neg (lt_irrefl _), Real.sqrt_zero]
      rw [e, py_bind_ok]
      have e2 : ∀ x y : ℝ, pyDiv2 x y 0 = .error .nonFinite := fun x y => by
        unfold pyDiv2 pyDiv
        by_cases hy : y = 0
        · rw [if_pos hy]
          rfl
        · rw [if_neg hy, py_bind_ok, if_pos rfl]
      rw [e2]
      rfl

end

/-! ## Concrete cases -/

/-- Three equal angles of 119° make a cell, three of 121° are accepted and do not. -/
example : PossibleCell ⟨1, 1, 1, 119, 119, 119⟩ ∧ Spec.Acceptable ⟨1, 1, 1, 121, 121, 121⟩ ∧
    ¬ PossibleCell ⟨1, 1, 1, 121, 121, 121⟩ := by
  have a1 : Spec.Acceptable ⟨1, 1, 1, 119, 119, 119⟩ := by norm_num [Spec.Acceptable]
  have a2 : Spec.Acceptable ⟨1, 1, 1, 121, 121, 121⟩ := by norm_num [Spec.Acceptable]
  refine ⟨(C22_triangle a1).2 (by norm_num [Spec.Triangle]), a2, fun h => ?_⟩
  have := (C22_triangle a2).1 h
  norm_num [Spec.Triangle] at this

end Tavi
