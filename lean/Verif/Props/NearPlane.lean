import Verif.Props.RoundTrip

/-!
# C09, continued: reflections close to the plane, or close to its normal

Within its thresholds of `1e-5` the code takes axes for perpendicular that are not quite, and the matrix it decomposes into motor
positions is not a rotation (`C12_near_plane_fails`). Here: how far the reflection reached by the motor positions is from the one
asked for.
-/

namespace Tavi

open Matrix Real
open Spec (IsRot IsOrth PossibleCell IsAngleDeg len)

theorem norm3_add_le (u v : V3) : norm3 (u + v) ≤ norm3 u + norm3 v := by
  apply le_of_sq_le_sq3 (add_nonneg (norm3_nonneg _) (norm3_nonneg _))
  have h := abs_dot_le u v
  have h' := le_abs_self (u ⬝ᵥ v)
  have e : (u + v) ⬝ᵥ (u + v) = u ⬝ᵥ u + 2 * (u ⬝ᵥ v) + v ⬝ᵥ v := by
    rw [dot3, dot3, dot3, dot3]; simp; ring
  rw [norm3_sq, e, add_sq, norm3_sq, norm3_sq]
  nlinarith

/-- Two vectors of the plane that are close point in close directions: in terms of the first or the second length. -/
theorem chord {x y x' y' N N' : ℝ} (hN : 0 < N) (hN' : 0 < N') (h : N ^ 2 = x ^ 2 + y ^ 2) (h' : N' ^ 2 = x' ^ 2 + y' ^ 2) :
    ((x' / N' - x / N) ^ 2 + (y' / N' - y / N) ^ 2) * N' ^ 2 ≤ 4 * ((x' - x) ^ 2 + (y' - y) ^ 2) := by
  set c := (x * x' + y * y') / (N * N') with hc
  have hcN : x * x' + y * y' = c * (N * N') := by rw [hc]; field_simp
  have hc1 : c ^ 2 ≤ 1 := by
    have : (x * x' + y * y') ^ 2 ≤ N ^ 2 * N' ^ 2 := by
      rw [h, h']; nlinarith [sq_nonneg (x * y' - y * x')]
    rw [hcN] at this
    have hp : 0 < N ^ 2 * N' ^ 2 := by positivity
    have : c ^ 2 * (N ^ 2 * N' ^ 2) ≤ 1 * (N ^ 2 * N' ^ 2) := by linarith [this, show (c * (N * N')) ^ 2 = c ^ 2 * (N ^ 2 * N' ^ 2) by ring]
    exact le_of_mul_le_mul_right this hp
  have hcl : -1 ≤ c := by nlinarith
  have hcu : c ≤ 1 := by nlinarith
  have e1 : (x' / N' - x / N) ^ 2 + (y' / N' - y / N) ^ 2 = 2 - 2 * c := by
    have a1 : (x / N) ^ 2 + (y / N) ^ 2 = 1 := by rw [div_pow, div_pow, ← add_div, ← h]; field_simp
    have a2 : (x' / N') ^ 2 + (y' / N') ^ 2 = 1 := by rw [div_pow, div_pow, ← add_div, ← h']; field_simp
    have a3 : x / N * (x' / N') + y / N * (y' / N') = c := by rw [hc]; field_simp
    linear_combination a1 + a2 - 2 * a3
  have e2 : (x' - x) ^ 2 + (y' - y) ^ 2 = N ^ 2 + N' ^ 2 - 2 * (c * (N * N')) := by
    linear_combination -h - h' - 2 * hcN
  rw [e1, e2]
  by_cases h0 : 0 ≤ c
  · nlinarith [sq_nonneg (N - N' * c), mul_nonneg (mul_nonneg (sq_nonneg N') (sub_nonneg.2 hcu)) h0,
      mul_nonneg (sq_nonneg N') (sub_nonneg.2 hcu)]
  · have : 0 ≤ -c * (N * N') := by have := not_le.1 h0; have := mul_pos hN hN'; nlinarith
    nlinarith [mul_nonneg (sq_nonneg N') (show (0:ℝ) ≤ 1 + c by linarith), sq_nonneg N]

/-- What a matrix differs from a rotation when one of its axes is not quite perpendicular to another. -/
structure Skew (S R : M3) (e w : V3) (δ s κ : ℝ) : Prop where
  rot : IsRot S
  ee : e ⬝ᵥ e = 1
  ww : w ⬝ᵥ w = 1
  ew : e ⬝ᵥ w = 0
  s0 : 0 < s
  sd : s ^ 2 + δ ^ 2 = 1
  κ0 : 0 < κ
  img : ∀ v, R *ᵥ v = S *ᵥ (v + (w ⬝ᵥ v) • ((1 / s - 1) • w - (δ / s) • e))
  row : ∀ j, R 1 j = κ * S 1 j

/-- The length of the first column of the matrix. -/
theorem Skew.len {S R : M3} {e w : V3} {δ s κ : ℝ} (h : Skew S R e w δ s κ) :
    s ^ 2 * (R 0 0 ^ 2 + R 1 0 ^ 2 + R 2 0 ^ 2) = s ^ 2 - 2 * s * δ * e 0 * w 0 + 2 * w 0 ^ 2 * δ ^ 2 := by
  obtain ⟨hS, he, hw, hew, hs, hsd, hκ, himg, hrow⟩ := h
  have hs0 := hs.ne'
  set u : V3 := (1 / s - 1) • w - (δ / s) • e with hu
  have huu : u ⬝ᵥ u = 2 * (1 - s) / s ^ 2 := by
    have : u ⬝ᵥ u = (1 / s - 1) ^ 2 * (w ⬝ᵥ w) - 2 * (1 / s - 1) * (δ / s) * (e ⬝ᵥ w) + (δ / s) ^ 2 * (e ⬝ᵥ e) := by
      rw [hu, dot3, dot3, dot3, dot3]; simp; ring
    rw [this, hw, hew, he]
    field_simp
    linear_combination hsd
  have hx : ∀ M : M3, M *ᵥ ![1, 0, 0] = ![M 0 0, M 1 0, M 2 0] := by
    intro M; apply ext3 <;> simp [mulVec3]
  have hwx : w ⬝ᵥ ![1, 0, 0] = w 0 := by rw [dot3]; simp
  have himg0 := himg ![1, 0, 0]
  rw [hwx] at himg0
  have h2 : (R *ᵥ ![1, 0, 0]) ⬝ᵥ (R *ᵥ ![1, 0, 0]) = 1 + 2 * w 0 * u 0 + w 0 ^ 2 * (2 * (1 - s) / s ^ 2) := by
    rw [himg0, dot_mulVec_orth hS.1, ← huu, dot3, dot3]; simp; ring
  have hu0 : u 0 = (1 / s - 1) * w 0 - δ / s * e 0 := by rw [hu]; simp
  have h3 : R 0 0 ^ 2 + R 1 0 ^ 2 + R 2 0 ^ 2 = 1 + 2 * w 0 * u 0 + w 0 ^ 2 * (2 * (1 - s) / s ^ 2) := by
    rw [← h2, hx, dot3]; simp; ring
  rw [h3, hu0]; field_simp; linear_combination (-2 * w 0 ^ 2) * hsd

/-- The columns of the matrix and of the rotation. -/
theorem Skew.col {S R : M3} {e w : V3} {δ s κ : ℝ} (h : Skew S R e w δ s κ) :
    (R 0 0 - S 0 0) ^ 2 + (R 1 0 - S 1 0) ^ 2 + (R 2 0 - S 2 0) ^ 2 = w 0 ^ 2 * (2 * (1 - s) / s ^ 2) ∧
      s ^ 2 ≤ (1 + |δ|) * s ^ 2 * (R 0 0 ^ 2 + R 1 0 ^ 2 + R 2 0 ^ 2) := by
  have h4 := h.len
  obtain ⟨hS, he, hw, hew, hs, hsd, hκ, himg, hrow⟩ := h
  have hs0 := hs.ne'
  set u : V3 := (1 / s - 1) • w - (δ / s) • e with hu
  have huu : u ⬝ᵥ u = 2 * (1 - s) / s ^ 2 := by
    have : u ⬝ᵥ u = (1 / s - 1) ^ 2 * (w ⬝ᵥ w) - 2 * (1 / s - 1) * (δ / s) * (e ⬝ᵥ w) + (δ / s) ^ 2 * (e ⬝ᵥ e) := by
      rw [hu, dot3, dot3, dot3, dot3]; simp; ring
    rw [this, hw, hew, he]
    field_simp
    linear_combination hsd
  have hx : ∀ M : M3, M *ᵥ ![1, 0, 0] = ![M 0 0, M 1 0, M 2 0] := by
    intro M; apply ext3 <;> simp [mulVec3]
  have hwx : w ⬝ᵥ ![1, 0, 0] = w 0 := by rw [dot3]; simp
  have himg0 := himg ![1, 0, 0]
  rw [hwx] at himg0
  constructor
  · have hd : R *ᵥ ![1, 0, 0] - S *ᵥ ![1, 0, 0] = S *ᵥ (w 0 • u) := by
      rw [himg0, Matrix.mulVec_add, add_sub_cancel_left]
    have h2 : (R *ᵥ ![1, 0, 0] - S *ᵥ ![1, 0, 0]) ⬝ᵥ (R *ᵥ ![1, 0, 0] - S *ᵥ ![1, 0, 0]) = w 0 ^ 2 * (2 * (1 - s) / s ^ 2) := by
      rw [hd, dot_mulVec_orth hS.1, smul_dotProduct, dotProduct_smul, huu, smul_eq_mul, smul_eq_mul]; ring
    rw [← h2, hx, hx, dot3]
    simp; ring
  · have hb : e 0 ^ 2 + w 0 ^ 2 ≤ 1 := by
      -- Bessel
      set x : V3 := ![1, 0, 0] with hxd
      have x0 : x 0 = 1 := rfl
      have x1 : x 1 = 0 := rfl
      have x2 : x 2 = 0 := rfl
      have hc : (x - e 0 • e - w 0 • w) ⬝ᵥ (x - e 0 • e - w 0 • w) =
          1 - 2 * e 0 ^ 2 - 2 * w 0 ^ 2 + e 0 ^ 2 * (e ⬝ᵥ e) + w 0 ^ 2 * (w ⬝ᵥ w) + 2 * e 0 * w 0 * (e ⬝ᵥ w) := by
        rw [dot3, dot3, dot3, dot3]
        simp only [Pi.sub_apply, Pi.smul_apply, smul_eq_mul, x0, x1, x2]; ring
      have := dot_self_nonneg3 (x - e 0 • e - w 0 • w)
      rw [hc, he, hw, hew] at this
      linarith
    have key : ∀ a : ℝ, a ^ 2 = e 0 ^ 2 → |δ| * (1 - 2 * w 0 ^ 2) + s * (2 * w 0 * a) ≤ 1 := by
      intro a ha
      have hA := sq_abs δ
      have c1 : (|δ| * (1 - 2 * w 0 ^ 2) + s * (2 * w 0 * a)) ^ 2 ≤ 1 := by
        have i1 : (1 - 2 * w 0 ^ 2) ^ 2 + (2 * w 0 * a) ^ 2 ≤ 1 := by
          have : (2 * w 0 * a) ^ 2 = 4 * w 0 ^ 2 * e 0 ^ 2 := by rw [mul_pow, ha]; ring
          rw [this]; nlinarith [sq_nonneg (w 0)]
        have i2 : (|δ| * (1 - 2 * w 0 ^ 2) + s * (2 * w 0 * a)) ^ 2 ≤
            (|δ| ^ 2 + s ^ 2) * ((1 - 2 * w 0 ^ 2) ^ 2 + (2 * w 0 * a) ^ 2) := by
          nlinarith [sq_nonneg (|δ| * (2 * w 0 * a) - s * (1 - 2 * w 0 ^ 2))]
        rw [hA, show δ ^ 2 + s ^ 2 = 1 by linarith, one_mul] at i2
        linarith
      nlinarith
    rw [mul_assoc, h4]
    have hA := sq_abs δ
    have fin : 1 - |δ| ≤ s ^ 2 - 2 * s * δ * e 0 * w 0 + 2 * w 0 ^ 2 * δ ^ 2 := by
      rcases abs_cases δ with ⟨ha, hp⟩ | ⟨ha, hp⟩
      · have k := mul_nonneg hp (sub_nonneg.2 (key (e 0) rfl))
        rw [ha] at k ⊢
        linarith [k, hsd]
      · have k := mul_nonneg (show (0:ℝ) ≤ -δ by linarith) (sub_nonneg.2 (key (-e 0) (neg_sq _)))
        rw [ha] at k ⊢
        linarith [k, hsd]
    have := mul_le_mul_of_nonneg_left fin (show (0:ℝ) ≤ 1 + |δ| by positivity)
    linarith [this, hA, show (1 + |δ|) * (1 - |δ|) = 1 - |δ| ^ 2 by ring]

/-- The rotation rebuilt from the angles of a matrix. -/
noncomputable def rebuilt (R : M3) : M3 :=
  let d := √(R 0 0 ^ 2 + R 2 0 ^ 2)
  let N := √(d ^ 2 + R 1 0 ^ 2)
  let m := √(R 1 1 ^ 2 + R 1 2 ^ 2)
  let cw := R 0 0 / d
  let sw := -R 2 0 / d
  let cl := d / N
  let sl := R 1 0 / N
  let cu := R 1 1 / m
  let su := -R 1 2 / m
  !![cw * cl, -cw * sl * cu + sw * su, cw * sl * su + sw * cu;
     sl, cl * cu, -cl * su;
     -sw * cl, sw * sl * cu + cw * su, -sw * sl * su + cw * cu]

/-- A rotation is rebuilt from its angles. -/
theorem rebuilt_rot {S : M3} (hS : IsRot S) (hg : 0 < S 0 0 ^ 2 + S 2 0 ^ 2) : rebuilt S = S := by
  unfold rebuilt
  set d := √(S 0 0 ^ 2 + S 2 0 ^ 2) with hd
  have hd0 : 0 < d := Real.sqrt_pos.2 hg
  have hdd : d ^ 2 = S 0 0 ^ 2 + S 2 0 ^ 2 := Real.sq_sqrt hg.le
  have c0 := (orth_cols hS.1).1
  have r1 := (orth_rows hS.1).2.1
  have n2 : √(d ^ 2 + S 1 0 ^ 2) = 1 := by
    rw [show d ^ 2 + S 1 0 ^ 2 = 1 by linarith]; exact Real.sqrt_one
  have n3 : √(S 1 1 ^ 2 + S 1 2 ^ 2) = d := by
    rw [hd]; congr 1; linarith
  dsimp only
  rw [n2, n3]
  obtain ⟨f01, f02, f21, f22, f00, f11, f10, f20, f12⟩ := rot_cofactor hS
  have hdd' : d ^ 2 = 1 - S 1 0 ^ 2 := by linarith
  have hdne := hd0.ne'
  ext i j
  fin_cases i <;> fin_cases j <;> simp <;> field_simp
  · rw [hdd']; linear_combination (-1 : ℝ) * f01 + S 1 0 * f22
  · rw [hdd']; linear_combination (-1 : ℝ) * f02 - S 1 0 * f21
  · rw [hdd']; linear_combination (-1 : ℝ) * f21 - S 1 0 * f02
  · rw [hdd']; linear_combination (-1 : ℝ) * f22 + S 1 0 * f01

/-- The first two rotations applied to a vector. -/
def yzAct (cw sw cl sl : ℝ) (w : V3) : V3 :=
  ![cw * (cl * w 0 - sl * w 1) + sw * w 2, sl * w 0 + cl * w 1, -sw * (cl * w 0 - sl * w 1) + cw * w 2]

theorem yzAct_sub {cw sw cl sl cw' sw' cl' sl' A B : ℝ} {w : V3} (hw : w ⬝ᵥ w = 1) (h : cl ^ 2 + sl ^ 2 = 1)
    (h' : cw' ^ 2 + sw' ^ 2 = 1) (hA0 : 0 ≤ A) (hB0 : 0 ≤ B) (hA : (cl' - cl) ^ 2 + (sl' - sl) ^ 2 ≤ A ^ 2)
    (hB : (cw' - cw) ^ 2 + (sw' - sw) ^ 2 ≤ B ^ 2) :
    norm3 (yzAct cw' sw' cl' sl' w - yzAct cw sw cl sl w) ≤ A + B := by
  have hw' : w 0 ^ 2 + w 1 ^ 2 + w 2 ^ 2 = 1 := by rw [dot3] at hw; linarith
  have split : yzAct cw' sw' cl' sl' w - yzAct cw sw cl sl w =
      (yzAct cw' sw' cl' sl' w - yzAct cw' sw' cl sl w) + (yzAct cw' sw' cl sl w - yzAct cw sw cl sl w) := by
    abel
  rw [split]
  refine le_trans (norm3_add_le _ _) (add_le_add ?_ ?_)
  · apply le_of_sq_le_sq3 hA0
    have e : norm3 (yzAct cw' sw' cl' sl' w - yzAct cw' sw' cl sl w) ^ 2 =
        ((cl' - cl) ^ 2 + (sl' - sl) ^ 2) * (w 0 ^ 2 + w 1 ^ 2) := by
      rw [norm3_sq, dot3]; simp [yzAct]
      linear_combination (((cl' - cl) * w 0 - (sl' - sl) * w 1) ^ 2) * h'
    rw [e]
    have : 0 ≤ (cl' - cl) ^ 2 + (sl' - sl) ^ 2 := by positivity
    nlinarith [sq_nonneg (w 2)]
  · apply le_of_sq_le_sq3 hB0
    have e : norm3 (yzAct cw' sw' cl sl w - yzAct cw sw cl sl w) ^ 2 =
        ((cw' - cw) ^ 2 + (sw' - sw) ^ 2) * ((cl * w 0 - sl * w 1) ^ 2 + w 2 ^ 2) := by
      rw [norm3_sq, dot3]; simp [yzAct]; ring
    rw [e]
    have : 0 ≤ (cw' - cw) ^ 2 + (sw' - sw) ^ 2 := by positivity
    have h2 : (cl * w 0 - sl * w 1) ^ 2 + w 2 ^ 2 ≤ 1 := by
      have : (cl * w 0 - sl * w 1) ^ 2 + (sl * w 0 + cl * w 1) ^ 2 = w 0 ^ 2 + w 1 ^ 2 := by
        linear_combination (w 0 ^ 2 + w 1 ^ 2) * h
      nlinarith [sq_nonneg (sl * w 0 + cl * w 1)]
    nlinarith

/-- The third rotation applied to a vector. -/
noncomputable def xAct (R : M3) (e : V3) : V3 :=
  let m := √(R 1 1 ^ 2 + R 1 2 ^ 2)
  ![e 0, R 1 1 / m * e 1 - -R 1 2 / m * e 2, -R 1 2 / m * e 1 + R 1 1 / m * e 2]

theorem rebuilt_act (R : M3) (e : V3) :
    rebuilt R *ᵥ e = yzAct (R 0 0 / √(R 0 0 ^ 2 + R 2 0 ^ 2)) (-R 2 0 / √(R 0 0 ^ 2 + R 2 0 ^ 2))
      (√(R 0 0 ^ 2 + R 2 0 ^ 2) / √(√(R 0 0 ^ 2 + R 2 0 ^ 2) ^ 2 + R 1 0 ^ 2))
      (R 1 0 / √(√(R 0 0 ^ 2 + R 2 0 ^ 2) ^ 2 + R 1 0 ^ 2)) (xAct R e) := by
  apply ext3 <;> simp [mulVec3, rebuilt, yzAct, xAct] <;> ring

theorem xAct_scale {S R : M3} {κ : ℝ} (hκ : 0 < κ) (hrow : ∀ j, R 1 j = κ * S 1 j) (e : V3) : xAct R e = xAct S e := by
  have hm : √(R 1 1 ^ 2 + R 1 2 ^ 2) = κ * √(S 1 1 ^ 2 + S 1 2 ^ 2) := by
    rw [hrow, hrow, show (κ * S 1 1) ^ 2 + (κ * S 1 2) ^ 2 = κ ^ 2 * (S 1 1 ^ 2 + S 1 2 ^ 2) by ring,
      Real.sqrt_mul (by positivity), Real.sqrt_sq hκ.le]
  have h1 : R 1 1 / √(R 1 1 ^ 2 + R 1 2 ^ 2) = S 1 1 / √(S 1 1 ^ 2 + S 1 2 ^ 2) := by
    rw [hm, hrow, mul_div_mul_left _ _ hκ.ne']
  have h2 : -R 1 2 / √(R 1 1 ^ 2 + R 1 2 ^ 2) = -S 1 2 / √(S 1 1 ^ 2 + S 1 2 ^ 2) := by
    rw [hm, hrow, ← mul_neg, mul_div_mul_left _ _ hκ.ne']
  unfold xAct
  dsimp only
  rw [h1, h2]

theorem xAct_unit {S : M3} (h : 0 < S 1 1 ^ 2 + S 1 2 ^ 2) {e : V3} (he : e ⬝ᵥ e = 1) : xAct S e ⬝ᵥ xAct S e = 1 := by
  have hm := Real.sqrt_pos.2 h
  have hmm := Real.sq_sqrt h.le
  rw [← he, dot3, dot3]
  simp [xAct]
  set m := √(S 1 1 ^ 2 + S 1 2 ^ 2)
  have : (S 1 1 / m) ^ 2 + (S 1 2 / m) ^ 2 = 1 := by
    rw [div_pow, div_pow, ← add_div, ← hmm]; field_simp
  have e2 : -S 1 2 / m = -(S 1 2 / m) := neg_div _ _
  rw [e2]
  linear_combination (e 1 ^ 2 + e 2 ^ 2) * this

/-- The first column bounds the difference of the rotations. -/
theorem rebuilt_close {S R : M3} {e : V3} {κ E d : ℝ} (hS : IsRot S) (he : e ⬝ᵥ e = 1) (hκ : 0 < κ)
    (hrow : ∀ j, R 1 j = κ * S 1 j) (hg : 0 < R 0 0 ^ 2 + R 2 0 ^ 2) (hSp : 0 < S 0 0 ^ 2 + S 2 0 ^ 2) (hE0 : 0 ≤ E)
    (hd : d = √(R 0 0 ^ 2 + R 2 0 ^ 2))
    (hcolE : (R 0 0 - S 0 0) ^ 2 + (R 1 0 - S 1 0) ^ 2 + (R 2 0 - S 2 0) ^ 2 ≤ E ^ 2) :
    norm3 (rebuilt R *ᵥ e - S *ᵥ e) ≤ 2 * E + 2 * E / d := by
  have hd0 : 0 < d := by rw [hd]; exact Real.sqrt_pos.2 hg
  have hdd : d ^ 2 = R 0 0 ^ 2 + R 2 0 ^ 2 := by rw [hd]; exact Real.sq_sqrt hg.le
  have hNp : 0 < d ^ 2 + R 1 0 ^ 2 := by positivity
  have c0 := (orth_cols hS.1).1
  have r1 := (orth_rows hS.1).2.1
  have hSm : 0 < S 1 1 ^ 2 + S 1 2 ^ 2 := by linarith
  rw [rebuilt_act, xAct_scale hκ hrow]
  conv_lhs => rw [← rebuilt_rot hS hSp]
  rw [rebuilt_act S, rebuilt_rot hS hSp, ← hd]
  set N := √(d ^ 2 + R 1 0 ^ 2) with hN
  have hN0 : 0 < N := Real.sqrt_pos.2 hNp
  have hNN : N ^ 2 = d ^ 2 + R 1 0 ^ 2 := Real.sq_sqrt hNp.le
  set dS := √(S 0 0 ^ 2 + S 2 0 ^ 2) with hdS
  have hdS0 : 0 < dS := Real.sqrt_pos.2 hSp
  have hdSS : dS ^ 2 = S 0 0 ^ 2 + S 2 0 ^ 2 := Real.sq_sqrt hSp.le
  have hNS : √(dS ^ 2 + S 1 0 ^ 2) = 1 := by
    rw [show dS ^ 2 + S 1 0 ^ 2 = 1 by linarith]; exact Real.sqrt_one
  rw [hNS, div_one, div_one]
  have cl := chord hN0 one_pos hNN (x' := dS) (y' := S 1 0) (by rw [one_pow, hdSS]; linarith)
  have cw := chord hdS0 hd0 (x := S 0 0) (y := -S 2 0) (x' := R 0 0) (y' := -R 2 0) (by rw [hdSS]; ring) (by rw [hdd]; ring)
  have hCS : R 0 0 * S 0 0 + R 2 0 * S 2 0 ≤ d * dS := by
    apply le_of_sq_le_sq3 (by positivity)
    rw [mul_pow, hdd, hdSS]
    nlinarith [sq_nonneg (R 0 0 * S 2 0 - R 2 0 * S 0 0)]
  have hdif : (dS - d) ^ 2 ≤ (R 0 0 - S 0 0) ^ 2 + (R 2 0 - S 2 0) ^ 2 := by linarith
  apply yzAct_sub (xAct_unit hSm he)
  · rw [hdSS]; linarith
  · rw [div_pow, div_pow, ← add_div, hdd, neg_sq]; exact div_self hg.ne'
  · positivity
  · positivity
  · rw [div_one, div_one, one_pow, mul_one] at cl
    linarith
  · rw [div_pow, le_div_iff₀ (by positivity)]
    linarith [sq_nonneg (R 1 0 - S 1 0)]

theorem skew_num {s δ w0 : ℝ} (hs : 0 < s) (hsd : s ^ 2 + δ ^ 2 = 1) (hδ : |δ| ≤ 1 / 2) (hw : w0 ^ 2 ≤ 1) :
    w0 ^ 2 * (2 * (1 - s) / s ^ 2) ≤ (1.2 * |δ|) ^ 2 := by
  have hA := sq_abs δ
  have hδ0 := abs_nonneg δ
  have hs75 : 3 / 4 ≤ s ^ 2 := by nlinarith
  have hs86 : 0.86 ≤ s := by nlinarith
  have hs1 : s ≤ 1 := by nlinarith [sq_nonneg δ]
  have hp : 0 ≤ 1 - s := by linarith
  have h1 : 2 * (1 - s) / s ^ 2 ≤ (1.2 * |δ|) ^ 2 := by
    rw [div_le_iff₀ (by positivity), mul_pow, hA]
    have e1 : δ ^ 2 = (1 - s) * (1 + s) := by linarith
    rw [e1]
    have h0 : (1.86 : ℝ) * (3 / 4) ≤ (1 + s) * s ^ 2 := mul_le_mul (by linarith) hs75 (by norm_num) (by linarith)
    have : 2 ≤ 1.2 ^ 2 * ((1 + s) * s ^ 2) := by linarith
    have := mul_le_mul_of_nonneg_left this hp
    linarith
  have h2 : 0 ≤ 2 * (1 - s) / s ^ 2 := by positivity
  have := mul_le_mul_of_nonneg_right hw h2
  linarith

theorem eight_tenths {N δ : ℝ} (hN : 0 < N) (hδ : δ ≤ 1 / 2) (h : 1 ≤ (1 + δ) * N ^ 2) : 0.8 ≤ N := by
  by_contra hc
  have h1 : N ^ 2 ≤ 0.64 := by nlinarith [not_le.1 hc]
  have h2 : (1 + δ) * N ^ 2 ≤ 1.5 * 0.64 := mul_le_mul (by linarith) h1 (sq_nonneg N) (by norm_num)
  norm_num at h2
  linarith

theorem sq_sum_zero {x y : ℝ} (h : x ^ 2 + y ^ 2 = 0) : x = 0 ∧ y = 0 :=
  ⟨pow_eq_zero_iff two_ne_zero |>.1 (le_antisymm (by linarith [sq_nonneg y]) (sq_nonneg x)),
   pow_eq_zero_iff two_ne_zero |>.1 (le_antisymm (by linarith [sq_nonneg x]) (sq_nonneg y))⟩

theorem unit_coord {w : V3} (hw : w ⬝ᵥ w = 1) : w 0 ^ 2 ≤ 1 := by
  rw [dot3] at hw; linarith [mul_self_nonneg (w 1), mul_self_nonneg (w 2), sq (w 0)]

/-- What the rotation rebuilt from the angles makes of the exact axis, against what it should be. -/
theorem Skew.bound {S R R' : M3} {e w : V3} {δ s κ : ℝ} (h : Skew S R e w δ s κ) (hR' : IsOrth R')
    (hreb : 0 < R 1 1 ^ 2 + R 1 2 ^ 2 → R' = rebuilt R) (hg : 0 < R 0 0 ^ 2 + R 2 0 ^ 2) :
    norm3 (R' *ᵥ e - S *ᵥ e) * (√(R 0 0 ^ 2 + R 2 0 ^ 2) / √(√(R 0 0 ^ 2 + R 2 0 ^ 2) ^ 2 + R 1 0 ^ 2)) ≤ 6 * |δ| := by
  obtain ⟨hcol, hN2⟩ := h.col
  obtain ⟨hS, he, hw, hew, hs, hsd, hκ, himg, hrow⟩ := h
  have hne : norm3 e = 1 := by unfold norm3; rw [he, Real.sqrt_one]
  have hD2 : norm3 (R' *ᵥ e - S *ᵥ e) ≤ 2 := by
    rw [sub_eq_add_neg]
    refine le_trans (norm3_add_le _ _) ?_
    rw [norm3_neg, norm3_mulVec_orth hR', norm3_mulVec_orth hS.1, hne]; norm_num
  set D := norm3 (R' *ᵥ e - S *ᵥ e) with hD
  have hD0 : 0 ≤ D := norm3_nonneg _
  set d := √(R 0 0 ^ 2 + R 2 0 ^ 2) with hd
  have hd0 : 0 < d := Real.sqrt_pos.2 hg
  have hdd : d ^ 2 = R 0 0 ^ 2 + R 2 0 ^ 2 := Real.sq_sqrt hg.le
  have hNp : 0 < d ^ 2 + R 1 0 ^ 2 := by positivity
  set N := √(d ^ 2 + R 1 0 ^ 2) with hN
  have hN0 : 0 < N := Real.sqrt_pos.2 hNp
  have hNN : N ^ 2 = d ^ 2 + R 1 0 ^ 2 := Real.sq_sqrt hNp.le
  have hdN : d ≤ N := le_of_sq_le_sq3 hN0.le (by rw [hNN]; linarith [sq_nonneg (R 1 0)])
  have hq1 : d / N ≤ 1 := (div_le_one hN0).2 hdN
  have hq0 : 0 ≤ d / N := by positivity
  have hδ0 := abs_nonneg δ
  by_cases hbig : 1 / 2 < |δ|
  · have := mul_le_mul hD2 hq1 hq0 (by norm_num : (0:ℝ) ≤ 2)
    linarith
  have hδ := not_lt.1 hbig
  have hA := sq_abs δ
  -- the first column is off by little
  set E := 1.2 * |δ| with hE
  have hE0 : 0 ≤ E := by positivity
  have hw0 : w 0 ^ 2 ≤ 1 := unit_coord hw
  have hcolE : (R 0 0 - S 0 0) ^ 2 + (R 1 0 - S 1 0) ^ 2 + (R 2 0 - S 2 0) ^ 2 ≤ E ^ 2 := by
    rw [hcol, hE]; exact skew_num hs hsd hδ hw0
  -- and not much shorter than 1
  have hN8 : 0.8 ≤ N := by
    have hs2 : 0 < s ^ 2 := by positivity
    have : 1 ≤ (1 + |δ|) * (R 0 0 ^ 2 + R 1 0 ^ 2 + R 2 0 ^ 2) := by
      by_contra hc
      have := mul_lt_mul_of_pos_left (not_le.1 hc) hs2
      linarith [hN2, show s ^ 2 * ((1 + |δ|) * (R 0 0 ^ 2 + R 1 0 ^ 2 + R 2 0 ^ 2)) =
        (1 + |δ|) * s ^ 2 * (R 0 0 ^ 2 + R 1 0 ^ 2 + R 2 0 ^ 2) by ring]
    have hNe : N ^ 2 = R 0 0 ^ 2 + R 1 0 ^ 2 + R 2 0 ^ 2 := by rw [hNN, hdd]; ring
    rw [← hNe] at this
    exact eight_tenths hN0 hδ this
  have hNi : 1 / N ≤ 1.25 := by rw [div_le_iff₀ hN0]; linarith
  have hqd : d / N = d * (1 / N) := by ring
  have hNi0 : 0 ≤ 1 / N := by positivity
  by_cases hz : S 0 0 ^ 2 + S 2 0 ^ 2 = 0
  · obtain ⟨z0, z2⟩ := sq_sum_zero hz
    have hdE : d ≤ E := by
      apply le_of_sq_le_sq3 hE0
      rw [z0, z2, sub_zero, sub_zero] at hcolE
      rw [hdd]; linarith [sq_nonneg (R 1 0 - S 1 0)]
    calc D * (d / N) ≤ 2 * (E * 1.25) := by
          apply mul_le_mul hD2 _ hq0 (by norm_num)
          rw [hqd]; exact mul_le_mul hdE hNi hNi0 hE0
      _ ≤ 6 * |δ| := by rw [hE]; linarith
  have hSp : 0 < S 0 0 ^ 2 + S 2 0 ^ 2 := lt_of_le_of_ne (by positivity) (Ne.symm hz)
  have hSr : S 1 1 ^ 2 + S 1 2 ^ 2 = S 0 0 ^ 2 + S 2 0 ^ 2 := by
    have c0 := (orth_cols hS.1).1
    have r1 := (orth_rows hS.1).2.1
    linarith
  have hSm : 0 < S 1 1 ^ 2 + S 1 2 ^ 2 := by rw [hSr]; exact hSp
  have hRm : 0 < R 1 1 ^ 2 + R 1 2 ^ 2 := by
    rw [hrow, hrow, show (κ * S 1 1) ^ 2 + (κ * S 1 2) ^ 2 = κ ^ 2 * (S 1 1 ^ 2 + S 1 2 ^ 2) by ring]; positivity
  have hDle : D ≤ 2 * E + 2 * E / d := by
    rw [hD, hreb hRm]
    exact rebuilt_close hS he hκ hrow hg hSp hE0 hd hcolE
  calc D * (d / N) ≤ (2 * E + 2 * E / d) * (d / N) := mul_le_mul_of_nonneg_right hDle hq0
    _ = 2 * E * (d / N) + 2 * E * (1 / N) := by field_simp
    _ ≤ 2 * E * 1 + 2 * E * 1.25 := by
        apply add_le_add <;> apply mul_le_mul_of_nonneg_left _ (by positivity) <;> assumption
    _ ≤ 6 * |δ| := by rw [hE]; linarith

end Tavi
