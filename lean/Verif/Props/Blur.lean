import Verif.Props.Fit
import Mathlib.Analysis.SpecialFunctions.Gaussian.GaussianIntegral
import Mathlib.Analysis.Calculus.MeanValue
import Mathlib.Analysis.Complex.ExponentialBounds
import Mathlib.Analysis.Real.Pi.Bounds
import Mathlib.MeasureTheory.Measure.Haar.NormedSpace
import Mathlib.MeasureTheory.Integral.IntervalIntegral.Basic

/-!
# The convolution of a fit with the resolution (C98)
-/

namespace Tavi

open MeasureTheory

/-! ## The words of the property -/

/-- The standard deviation of a peak of the full width at half maximum `fwhm`. -/
noncomputable def Spec.stdDev (fwhm : ℝ) : ℝ := fwhm / (2 * √(2 * Real.log 2))

/-- What an instrument shows at `x`: the signal, smeared with a Gaussian resolution of the area `r0` and the width `fwhm`. -/
noncomputable def Spec.smeared (signal : ℝ → ℝ) (r0 fwhm x : ℝ) : ℝ :=
  ∫ t : ℝ, r0 * (Real.exp (-(t ^ 2 / (2 * stdDev fwhm ^ 2))) / (√(2 * Real.pi) * stdDev fwhm)) * signal (x - t)

/-! ## Numbers -/

theorem sqrt_two_pi_inv : 1 / √(2 * Real.pi) ≤ 0.4 := by
  have h : (2.5 : ℝ) ≤ √(2 * Real.pi) := Real.le_sqrt_of_sq_le (by have := Real.pi_gt_d2; norm_num; linarith)
  rw [div_le_iff₀ (by linarith)]
  linarith

theorem exp_neg_ten : Real.exp (-10) ≤ 5e-5 := by
  have h := Real.exp_one_gt_d9
  have h' : (2.71 : ℝ) ≤ Real.exp 1 := by linarith
  have e : Real.exp 10 = Real.exp 1 ^ 10 := by rw [← Real.exp_nat_mul]; norm_num
  rw [Real.exp_neg, e]
  have h2 : (20000 : ℝ) ≤ Real.exp 1 ^ 10 := le_trans (by norm_num) (pow_le_pow_left₀ (by norm_num) h' 10)
  rw [inv_le_comm₀ (by positivity) (by norm_num)]
  norm_num
  linarith

/-- The bell curve without its factor. -/
noncomputable def bell (u : ℝ) : ℝ := Real.exp (-(u ^ 2 / 2))

theorem bell_pos (u : ℝ) : 0 < bell u := Real.exp_pos _

theorem bell_le_one (u : ℝ) : bell u ≤ 1 := Real.exp_le_one_iff.2 (by have := sq_nonneg u; linarith)

theorem bell_deriv (u : ℝ) : HasDerivAt bell (bell u * (-u)) u := by
  unfold bell
  have h : HasDerivAt (fun u : ℝ => -(u ^ 2 / 2)) (-u) u := by
    have := ((hasDerivAt_pow 2 u).div_const 2).neg
    refine HasDerivAt.congr_deriv this ?_
    norm_num
  exact h.exp

theorem bell_slope (u : ℝ) : |bell u * (-u)| ≤ 0.61 := by
  have h1 : bell u * |u| ≤ Real.exp (-(1 / 2)) := by
    have h : u ^ 2 ≤ Real.exp (u ^ 2 - 1) := by have := Real.add_one_le_exp (u ^ 2 - 1); linarith
    refine abs_le_of_sq_le_sq' ?_ (Real.exp_pos _).le |>.2
    have e1 : bell u ^ 2 = Real.exp (-(u ^ 2)) := by unfold bell; rw [← Real.exp_nat_mul]; congr 1; push_cast; ring
    have e2 : Real.exp (-(1 / 2)) ^ 2 = Real.exp (-1) := by rw [← Real.exp_nat_mul]; congr 1; push_cast; ring
    rw [mul_pow, sq_abs, e1, e2]
    calc Real.exp (-(u ^ 2)) * u ^ 2 ≤ Real.exp (-(u ^ 2)) * Real.exp (u ^ 2 - 1) :=
          mul_le_mul_of_nonneg_left h (Real.exp_pos _).le
      _ = Real.exp (-1) := by rw [← Real.exp_add]; congr 1; ring
  have h2 : Real.exp (-(1 / 2)) ≤ 0.61 := by
    refine abs_le_of_sq_le_sq' ?_ (by norm_num) |>.2
    have e2 : Real.exp (-(1 / 2)) ^ 2 = Real.exp (-1) := by rw [← Real.exp_nat_mul]; congr 1; push_cast; ring
    rw [e2, Real.exp_neg, inv_le_comm₀ (Real.exp_pos _) (by norm_num)]
    have := Real.exp_one_gt_d9
    norm_num
    linarith
  rw [abs_mul, abs_neg, abs_of_pos (bell_pos u)]
  exact h1.trans h2

theorem bell_lipschitz (a b : ℝ) : |bell a - bell b| ≤ 0.61 * |a - b| := by
  have := Convex.norm_image_sub_le_of_norm_hasDerivWithin_le (f := bell) (f' := fun u => bell u * (-u)) (s := Set.univ) (x := b)
    (y := a) (C := 0.61) (fun u _ => (bell_deriv u).hasDerivWithinAt) (fun u _ => bell_slope u) convex_univ trivial trivial
  exact this

theorem bell_continuous : Continuous bell := by unfold bell; fun_prop

/-! ## Sums and integrals -/

theorem riemann {F : ℝ → ℝ} {K h : ℝ} (hF : Continuous F) (hK : ∀ a b, |F a - F b| ≤ K * |a - b|) (hK0 : 0 ≤ K) (hh : 0 ≤ h)
    (a : ℝ) (n : ℕ) : |(∑ k ∈ Finset.range n, F (a + k * h)) * h - ∫ t in a..(a + n * h), F t| ≤ n * (K * h * h) := by
  induction n with
  | zero => simp
  | succ n ih =>
    have hi : ∀ u v : ℝ, IntervalIntegrable F volume u v := fun u v => hF.intervalIntegrable u v
    have e := intervalIntegral.integral_add_adjacent_intervals (hi a (a + n * h)) (hi (a + n * h) (a + (n + 1 : ℕ) * h))
    have e2 : F (a + n * h) * h - ∫ t in (a + n * h)..(a + (n + 1 : ℕ) * h), F t =
        ∫ t in (a + n * h)..(a + (n + 1 : ℕ) * h), (F (a + n * h) - F t) := by
      rw [intervalIntegral.integral_sub (by simp) (hi _ _), intervalIntegral.integral_const]
      push_cast
      simp only [smul_eq_mul]
      ring
    have e3 : |∫ t in (a + n * h)..(a + (n + 1 : ℕ) * h), (F (a + n * h) - F t)| ≤ K * h * h := by
      have := intervalIntegral.norm_integral_le_of_norm_le_const (a := a + n * h) (b := a + (n + 1 : ℕ) * h)
        (f := fun t => F (a + n * h) - F t) (C := K * h) (fun t ht => by
          rw [Set.uIoc_of_le (by push_cast; linarith)] at ht
          refine (hK _ _).trans (mul_le_mul_of_nonneg_left ?_ hK0)
          rw [abs_le]
          have h1 := ht.1
          have h2 := ht.2
          push_cast at h2
          constructor <;> linarith)
      rw [show |a + (n + 1 : ℕ) * h - (a + n * h)| = h by
        push_cast
        rw [show a + (n + 1) * h - (a + n * h) = h by ring, abs_of_nonneg hh]] at this
      exact this
    rw [Finset.sum_range_succ, add_mul, ← e]
    calc _ = |((∑ k ∈ Finset.range n, F (a + k * h)) * h - ∫ t in a..(a + n * h), F t) +
          (F (a + n * h) * h - ∫ t in (a + n * h)..(a + (n + 1 : ℕ) * h), F t)| := by congr 1; ring
      _ ≤ _ := abs_add_le _ _
      _ ≤ n * (K * h * h) + K * h * h := by rw [e2]; exact add_le_add ih e3
      _ = (n + 1 : ℕ) * (K * h * h) := by push_cast; ring

theorem bell_integrable : Integrable bell := by
  have := integrable_exp_neg_mul_sq (b := 1 / 2) (by norm_num)
  refine this.congr (ae_of_all _ fun u => ?_)
  show Real.exp (-(1 / 2) * u ^ 2) = Real.exp (-(u ^ 2 / 2))
  congr 1; ring

theorem bell_tail {u : ℝ} (h : u ∉ Set.Ioc (-5 : ℝ) 5) : bell u ≤ Real.exp (-10) * Real.exp (-(1 / 10) * u ^ 2) := by
  have h25 : 25 ≤ u ^ 2 := by
    rw [Set.mem_Ioc, not_and_or, not_lt, not_le] at h
    rcases h with h | h <;> nlinarith
  unfold bell
  rw [← Real.exp_add]
  exact Real.exp_le_exp.2 (by linarith)

theorem tail {g : ℝ → ℝ} {M : ℝ} (hg : Continuous g) (hM : ∀ t, |g t| ≤ M) :
    Integrable (fun u => bell u * g u) ∧ |(∫ u, bell u * g u) - ∫ u in (-5 : ℝ)..5, bell u * g u| ≤ 3e-4 * M := by
  have hM0 : 0 ≤ M := (abs_nonneg _).trans (hM 0)
  have hint : Integrable (fun u => bell u * g u) :=
    bell_integrable.mul_bdd (c := M) hg.aestronglyMeasurable (ae_of_all _ fun u => hM u)
  refine ⟨hint, ?_⟩
  have e := integral_add_compl (μ := volume) (f := fun u => bell u * g u) (s := Set.Ioc (-5 : ℝ) 5) measurableSet_Ioc hint
  rw [intervalIntegral.integral_of_le (by norm_num), ← e, add_sub_cancel_left]
  have hq := integrable_exp_neg_mul_sq (b := 1 / 10) (by norm_num)
  have h1 : ‖∫ u in (Set.Ioc (-5 : ℝ) 5)ᶜ, bell u * g u‖ ≤
      ∫ u in (Set.Ioc (-5 : ℝ) 5)ᶜ, M * Real.exp (-10) * Real.exp (-(1 / 10) * u ^ 2) := by
    refine norm_integral_le_of_norm_le (hq.const_mul _).integrableOn ?_
    refine (ae_restrict_mem measurableSet_Ioc.compl).mono fun u hu => ?_
    rw [norm_mul, Real.norm_eq_abs, abs_of_pos (bell_pos u)]
    have := bell_tail hu
    have h2 := hM u
    calc bell u * ‖g u‖ ≤ bell u * M := mul_le_mul_of_nonneg_left h2 (bell_pos u).le
      _ ≤ Real.exp (-10) * Real.exp (-(1 / 10) * u ^ 2) * M := mul_le_mul_of_nonneg_right this hM0
      _ = _ := by ring
  have h2 : ∫ u in (Set.Ioc (-5 : ℝ) 5)ᶜ, M * Real.exp (-10) * Real.exp (-(1 / 10) * u ^ 2) ≤
      ∫ u, M * Real.exp (-10) * Real.exp (-(1 / 10) * u ^ 2) :=
    setIntegral_le_integral (hq.const_mul _) (ae_of_all _ fun u => by positivity)
  have e3 : ∫ u : ℝ, M * Real.exp (-10) * Real.exp (-(1 / 10) * u ^ 2) = M * Real.exp (-10) * √(Real.pi / (1 / 10)) := by
    rw [integral_const_mul, integral_gaussian]
  rw [e3] at h2
  have h3 : √(Real.pi / (1 / 10)) ≤ 6 := by
    rw [Real.sqrt_le_iff]
    have := Real.pi_lt_d2
    constructor <;> norm_num
    linarith
  have h4 := exp_neg_ten
  refine (h1.trans h2).trans ?_
  have h5 : M * Real.exp (-10) ≤ M * 5e-5 := mul_le_mul_of_nonneg_left h4 hM0
  calc M * Real.exp (-10) * √(Real.pi / (1 / 10)) ≤ M * 5e-5 * 6 :=
        mul_le_mul h5 h3 (Real.sqrt_nonneg _) (by positivity)
    _ = 3e-4 * M := by ring

/-- The sum over the 10000 points, in units of the standard deviation, against the integral. -/
theorem quadrature {g : ℝ → ℝ} {M L : ℝ} (hg : Continuous g) (hM : ∀ t, |g t| ≤ M) (hL : ∀ s t, |g s - g t| ≤ L * |s - t|)
    (hL0 : 0 ≤ L) :
    |(∑ k ∈ Finset.range 10000, bell (-5 + k * (10 / 9999)) * g (-5 + k * (10 / 9999))) * (10 / 10000) - ∫ u, bell u * g u| ≤
      0.0075 * M + 0.0101 * L := by
  have hM0 : 0 ≤ M := (abs_nonneg _).trans (hM 0)
  have hF : Continuous fun u => bell u * g u := bell_continuous.mul hg
  have hK : ∀ a b, |bell a * g a - bell b * g b| ≤ (0.61 * M + L) * |a - b| := by
    intro a b
    have e : bell a * g a - bell b * g b = (bell a - bell b) * g a + bell b * (g a - g b) := by ring
    rw [e]
    refine (abs_add_le _ _).trans ?_
    rw [abs_mul, abs_mul, abs_of_pos (bell_pos b)]
    have h1 : |bell a - bell b| * |g a| ≤ (0.61 * |a - b|) * M :=
      mul_le_mul (bell_lipschitz a b) (hM a) (abs_nonneg _) (by positivity)
    have h2 : bell b * |g a - g b| ≤ 1 * (L * |a - b|) :=
      mul_le_mul (bell_le_one b) (hL a b) (abs_nonneg _) zero_le_one
    linarith
  have h1 := riemann hF hK (by positivity) (h := 10 / 9999) (by norm_num) (-5) 9999
  obtain ⟨_, h2⟩ := tail hg hM
  have hend : (-5 : ℝ) + (9999 : ℕ) * (10 / 9999) = 5 := by norm_num
  rw [hend] at h1
  have h3 : |∫ u in (-5 : ℝ)..5, bell u * g u| ≤ 10 * M := by
    have := intervalIntegral.norm_integral_le_of_norm_le_const (a := (-5 : ℝ)) (b := 5) (f := fun u => bell u * g u) (C := M)
      (fun u _ => by
        rw [norm_mul, Real.norm_eq_abs, abs_of_pos (bell_pos u)]
        calc bell u * ‖g u‖ ≤ 1 * M := mul_le_mul (bell_le_one u) (hM u) (norm_nonneg _) zero_le_one
          _ = M := one_mul M)
    rw [show |(5 : ℝ) - -5| = 10 by norm_num, mul_comm] at this
    exact this
  have h4 : |bell 5 * g 5| ≤ 5e-5 * M := by
    rw [abs_mul, abs_of_pos (bell_pos 5)]
    refine mul_le_mul ?_ (hM 5) (abs_nonneg _) (by norm_num)
    refine le_trans ?_ exp_neg_ten
    unfold bell
    exact Real.exp_le_exp.2 (by norm_num)
  rw [Finset.sum_range_succ, hend]
  set A := ∑ k ∈ Finset.range 9999, bell (-5 + k * (10 / 9999)) * g (-5 + k * (10 / 9999))
  set I5 := ∫ u in (-5 : ℝ)..5, bell u * g u
  set I := ∫ u, bell u * g u
  rw [abs_le] at *
  push_cast at h1
  constructor <;> linarith [h1.1, h1.2, h2.1, h2.2, h3.1, h3.2, h4.1, h4.2]

/-! ## C98 -/

theorem stdDev_pos {fwhm : ℝ} (h : 0 < fwhm) : 0 < Spec.stdDev fwhm := by
  have := Real.log_pos (by norm_num : (1 : ℝ) < 2)
  unfold Spec.stdDev
  positivity

theorem smeared_units {fwhm : ℝ} (h : 0 < fwhm) (signal : ℝ → ℝ) (r0 x : ℝ) :
    Spec.smeared signal r0 fwhm x = r0 / √(2 * Real.pi) * ∫ u, bell u * signal (x - Spec.stdDev fwhm * u) := by
  have hs := stdDev_pos h
  unfold Spec.smeared
  set σ := Spec.stdDev fwhm
  have e := Measure.integral_comp_mul_left (fun t => r0 * (Real.exp (-(t ^ 2 / (2 * σ ^ 2))) / (√(2 * Real.pi) * σ)) *
    signal (x - t)) σ
  have e2 : ∫ t : ℝ, r0 * (Real.exp (-(t ^ 2 / (2 * σ ^ 2))) / (√(2 * Real.pi) * σ)) * signal (x - t) =
      σ * ∫ u : ℝ, r0 * (Real.exp (-((σ * u) ^ 2 / (2 * σ ^ 2))) / (√(2 * Real.pi) * σ)) * signal (x - σ * u) := by
    rw [e, abs_of_pos (by positivity), smul_eq_mul, ← mul_assoc, mul_inv_cancel₀ hs.ne', one_mul]
  rw [e2, ← integral_const_mul, ← integral_const_mul]
  congr 1
  funext u
  have hp : √(2 * Real.pi) ≠ 0 := by have := Real.pi_pos; positivity
  have : (σ * u) ^ 2 / (2 * σ ^ 2) = u ^ 2 / 2 := by field_simp
  rw [this]
  unfold bell
  field_simp

/-- **C98**: a point of the curve of a convolution fit is the signal smeared with the resolution of the point, but for the error of
the sum over 10000 points within five standard deviations. -/
theorem C98_convolution (signal : ℝ → ℝ) (M L : ℝ) (hM : ∀ t, |signal t| ≤ M) (hL : ∀ s t, |signal s - signal t| ≤ L * |s - t|)
    (x r0 fwhm : ℝ) (hf : 0 < fwhm) :
    ∃ v, convPoint signal (some x) (r0, fwhm) = some v ∧
      |v - Spec.smeared signal r0 fwhm x| ≤ |r0| * (0.003 * M + 0.0041 * Spec.stdDev fwhm * L) := by
  have hs := stdDev_pos hf
  have hL0 : 0 ≤ L := by
    have := (abs_nonneg _).trans (hL 1 0)
    simpa using this
  have hM0 : 0 ≤ M := (abs_nonneg _).trans (hM 0)
  have hp0 : 0 < √(2 * Real.pi) := by have := Real.pi_pos; positivity
  set σ := Spec.stdDev fwhm with hσ
  have hc : Continuous signal := by
    have : LipschitzWith ⟨L, hL0⟩ signal := LipschitzWith.of_dist_le_mul fun s t => hL s t
    exact this.continuous
  have hq := quadrature (g := fun u => signal (x - σ * u)) (M := M) (L := L * σ) (by fun_prop) (fun t => hM _) (fun s t => by
    refine (hL _ _).trans (le_of_eq ?_)
    rw [show x - σ * s - (x - σ * t) = -(σ * (s - t)) by ring, abs_neg, abs_mul, abs_of_pos hs]
    ring) (by positivity)
  refine ⟨_, by
    rw [convPoint]
    exact if_neg hs.ne', ?_⟩
  have e1 : (∑ k ∈ Finset.range 10000, gaussian (-(5 * σ) + k * ((5 * σ + 5 * σ) / 9999)) r0 0 σ *
      signal (x - (-(5 * σ) + k * ((5 * σ + 5 * σ) / 9999)))) * (2 * 5 * σ / 10000) =
      r0 / √(2 * Real.pi) * ((∑ k ∈ Finset.range 10000, bell (-5 + k * (10 / 9999)) *
        signal (x - σ * (-5 + k * (10 / 9999)))) * (10 / 10000)) := by
    rw [Finset.sum_mul, Finset.sum_mul, Finset.mul_sum]
    refine Finset.sum_congr rfl fun k _ => ?_
    have e : -(5 * σ) + k * ((5 * σ + 5 * σ) / 9999) = σ * (-5 + k * (10 / 9999)) := by ring
    rw [e]
    unfold gaussian bell
    rw [sub_zero, show -((σ * (-5 + k * (10 / 9999))) ^ 2) / (2 * σ ^ 2) = -((-5 + k * (10 / 9999)) ^ 2 / 2) by field_simp]
    field_simp
    try ring
  rw [smeared_units hf]
  show |(∑ k ∈ Finset.range 10000, gaussian (-(5 * σ) + k * ((5 * σ + 5 * σ) / 9999)) r0 0 σ *
      signal (x - (-(5 * σ) + k * ((5 * σ + 5 * σ) / 9999)))) * (2 * 5 * σ / 10000) - _| ≤ _
  rw [e1, ← mul_sub, abs_mul, div_eq_mul_one_div, abs_mul, abs_of_pos (show 0 < 1 / √(2 * Real.pi) by positivity), mul_assoc]
  refine mul_le_mul_of_nonneg_left ?_ (abs_nonneg _)
  refine (mul_le_mul sqrt_two_pi_inv hq (abs_nonneg _) (by norm_num)).trans ?_
  have : 0 ≤ σ * L := mul_nonneg hs.le hL0
  clear hq e1
  linarith

/-- **C98**: the same for all points of a curve. -/
theorem C98_curve (signal : ℝ → ℝ) (M L : ℝ) (hM : ∀ t, |signal t| ≤ M) (hL : ∀ s t, |signal s - signal t| ≤ L * |s - t|)
    (pts : List (ℝ × ℝ × ℝ)) (hf : ∀ p ∈ pts, 0 < p.2.2) :
    ∃ ys : List ℝ, conv1d (pts.map fun p => some p.1) signal (pts.map Prod.snd) = .ok (ys.map some) ∧
      List.Forall₂ (fun p y => |y - Spec.smeared signal p.2.1 p.2.2 p.1| ≤
        |p.2.1| * (0.003 * M + 0.0041 * Spec.stdDev p.2.2 * L)) pts ys := by
  have key : ∃ ys : List ℝ, List.zipWith (convPoint signal) (pts.map fun p => some p.1) (pts.map Prod.snd) = ys.map some ∧
      List.Forall₂ (fun p y => |y - Spec.smeared signal p.2.1 p.2.2 p.1| ≤
        |p.2.1| * (0.003 * M + 0.0041 * Spec.stdDev p.2.2 * L)) pts ys := by
    induction pts with
    | nil => exact ⟨[], rfl, .nil⟩
    | cons p pts ih =>
      obtain ⟨ys, h1, h2⟩ := ih fun q hq => hf q (List.mem_cons_of_mem _ hq)
      obtain ⟨v, h3, h4⟩ := C98_convolution signal M L hM hL p.1 p.2.1 p.2.2 (hf p List.mem_cons_self)
      refine ⟨v :: ys, ?_, .cons h4 h2⟩
      rw [List.map_cons, List.map_cons, List.zipWith_cons_cons, h1, List.map_cons, ← h3]
  obtain ⟨ys, h1, h2⟩ := key
  refine ⟨ys, ?_, h2⟩
  unfold conv1d
  rw [if_pos (by simp), h1]

theorem smeared_constant (c r0 fwhm x : ℝ) (hf : 0 < fwhm) : Spec.smeared (constantSignal c) r0 fwhm x = r0 * c := by
  have hp0 : 0 < √(2 * Real.pi) := by have := Real.pi_pos; positivity
  rw [smeared_units hf]
  have e : ∫ u, bell u * constantSignal c (x - Spec.stdDev fwhm * u) = c * √(2 * Real.pi) := by
    have : (fun u => bell u * constantSignal c (x - Spec.stdDev fwhm * u)) = fun u => c * Real.exp (-(1 / 2) * u ^ 2) := by
      funext u
      unfold bell constantSignal
      rw [mul_comm]
      congr 2
      ring
    rw [this, integral_const_mul, integral_gaussian]
    congr 2
    ring
  rw [e]
  field_simp

/-- **C98**: a constant background is multiplied by the area of the resolution, within 0.3 per cent. -/
theorem C98_constant (c x r0 fwhm : ℝ) (hf : 0 < fwhm) :
    ∃ v, convPoint (constantSignal c) (some x) (r0, fwhm) = some v ∧ |v - r0 * c| ≤ 0.003 * |r0 * c| := by
  obtain ⟨v, h1, h2⟩ := C98_convolution (constantSignal c) |c| 0 (fun _ => le_refl _) (fun s t => by simp [constantSignal]) x r0 fwhm hf
  rw [smeared_constant c r0 fwhm x hf] at h2
  refine ⟨v, h1, h2.trans (le_of_eq ?_)⟩
  rw [abs_mul]
  ring

theorem gaussian_bell (x A c s : ℝ) (hs : s ≠ 0) : gaussian x A c s = A / (√(2 * Real.pi) * s) * bell ((x - c) / s) := by
  unfold gaussian bell
  congr 2
  field_simp

theorem smeared_gaussian (A c s r0 fwhm x : ℝ) (hs : 0 < s) (hf : 0 < fwhm) :
    Spec.smeared (fun t => gaussian t A c s) r0 fwhm x = gaussian x (r0 * A) c √(Spec.stdDev fwhm ^ 2 + s ^ 2) := by
  have hσ := stdDev_pos hf
  unfold Spec.smeared
  set σ := Spec.stdDev fwhm
  have hS : 0 < √(σ ^ 2 + s ^ 2) := by positivity
  have hS2 : √(σ ^ 2 + s ^ 2) ^ 2 = σ ^ 2 + s ^ 2 := Real.sq_sqrt (by positivity)
  set S := √(σ ^ 2 + s ^ 2)
  have hp0 : 0 < √(2 * Real.pi) := by have := Real.pi_pos; positivity
  have hp2 : √(2 * Real.pi) ^ 2 = 2 * Real.pi := Real.sq_sqrt (by have := Real.pi_pos; positivity)
  have hfun : (fun t : ℝ => r0 * (Real.exp (-(t ^ 2 / (2 * σ ^ 2))) / (√(2 * Real.pi) * σ)) * gaussian (x - t) A c s) =
      fun t => r0 / (√(2 * Real.pi) * σ) * (A / (√(2 * Real.pi) * s)) * Real.exp (-((x - c) ^ 2) / (2 * S ^ 2)) *
        Real.exp (-(S ^ 2 / (2 * σ ^ 2 * s ^ 2)) * (t - (x - c) * σ ^ 2 / S ^ 2) ^ 2) := by
    funext t
    unfold gaussian
    have : Real.exp (-(t ^ 2 / (2 * σ ^ 2))) * Real.exp (-((x - t - c) ^ 2) / (2 * s ^ 2)) =
        Real.exp (-((x - c) ^ 2) / (2 * S ^ 2)) *
          Real.exp (-(S ^ 2 / (2 * σ ^ 2 * s ^ 2)) * (t - (x - c) * σ ^ 2 / S ^ 2) ^ 2) := by
      rw [← Real.exp_add, ← Real.exp_add]
      congr 1
      have hne : S ^ 2 ≠ 0 := by positivity
      rw [hS2] at hne ⊢
      field_simp
      ring
    rw [mul_assoc _ (Real.exp (-((x - c) ^ 2) / (2 * S ^ 2))), ← this]
    ring
  rw [hfun, integral_const_mul, integral_sub_right_eq_self (fun t => Real.exp (-(S ^ 2 / (2 * σ ^ 2 * s ^ 2)) * t ^ 2)),
    integral_gaussian]
  have e : √(Real.pi / (S ^ 2 / (2 * σ ^ 2 * s ^ 2))) = √(2 * Real.pi) * σ * s / S := by
    rw [Real.sqrt_eq_iff_mul_self_eq (by have := Real.pi_pos; positivity) (by positivity)]
    rw [show √(2 * Real.pi) * σ * s / S * (√(2 * Real.pi) * σ * s / S) = √(2 * Real.pi) ^ 2 * σ ^ 2 * s ^ 2 / S ^ 2 by
      field_simp, hp2]
    field_simp
  rw [e]
  unfold gaussian
  field_simp

/-- **C98**: a Gaussian peak stays a Gaussian peak at its place; its area is multiplied by that of the resolution, and the squares of
the widths are added. -/
theorem C98_gaussian (A c s x r0 fwhm : ℝ) (hs : 0 < s) (hf : 0 < fwhm) :
    ∃ v, convPoint (fun t => gaussian t A c s) (some x) (r0, fwhm) = some v ∧
      |v - gaussian x (r0 * A) c √(Spec.stdDev fwhm ^ 2 + s ^ 2)| ≤
        |r0 * A| / s * (0.0012 + 0.00101 * (Spec.stdDev fwhm / s)) := by
  have hσ := stdDev_pos hf
  have hp0 : 0 < √(2 * Real.pi) := by have := Real.pi_pos; positivity
  have hpre : |A / (√(2 * Real.pi) * s)| ≤ 0.4 * (|A| / s) := by
    rw [abs_div, abs_of_pos (show 0 < √(2 * Real.pi) * s by positivity),
      show |A| / (√(2 * Real.pi) * s) = 1 / √(2 * Real.pi) * (|A| / s) by field_simp]
    exact mul_le_mul_of_nonneg_right sqrt_two_pi_inv (by positivity)
  obtain ⟨v, h1, h2⟩ := C98_convolution (fun t => gaussian t A c s) (0.4 * (|A| / s)) (0.4 * (|A| / s) * (0.61 / s)) (fun t => by
      rw [gaussian_bell _ _ _ _ hs.ne', abs_mul, abs_of_pos (bell_pos _)]
      calc _ ≤ 0.4 * (|A| / s) * 1 := mul_le_mul hpre (bell_le_one _) (bell_pos _).le (by positivity)
        _ = _ := mul_one _)
    (fun t u => by
      rw [gaussian_bell _ _ _ _ hs.ne', gaussian_bell _ _ _ _ hs.ne', ← mul_sub, abs_mul]
      have := bell_lipschitz ((t - c) / s) ((u - c) / s)
      rw [show (t - c) / s - (u - c) / s = (t - u) / s by ring, abs_div, abs_of_pos hs] at this
      calc _ ≤ 0.4 * (|A| / s) * (0.61 * (|t - u| / s)) := mul_le_mul hpre this (abs_nonneg _) (by positivity)
        _ = _ := by ring) x r0 fwhm hf
  rw [smeared_gaussian A c s r0 fwhm x hs hf] at h2
  refine ⟨v, h1, h2.trans ?_⟩
  rw [abs_mul]
  have hq : 0 ≤ |r0| * |A| / s := by positivity
  have hr : 0 ≤ |r0| * |A| / s * (Spec.stdDev fwhm / s) := by positivity
  calc |r0| * (0.003 * (0.4 * (|A| / s)) + 0.0041 * Spec.stdDev fwhm * (0.4 * (|A| / s) * (0.61 / s)))
      = |r0| * |A| / s * 0.0012 + |r0| * |A| / s * (Spec.stdDev fwhm / s) * 0.0010004 := by ring
    _ ≤ |r0| * |A| / s * 0.0012 + |r0| * |A| / s * (Spec.stdDev fwhm / s) * 0.00101 := by nlinarith
    _ = _ := by ring

/-! ## Concrete cases -/

example : ∃ v, convPoint (constantSignal 10) (some 3) (2, 0.1) = some v ∧ |v - 20| ≤ 0.06 := by
  obtain ⟨v, h1, h2⟩ := C98_constant 10 3 2 0.1 (by norm_num)
  refine ⟨v, h1, ?_⟩
  norm_num at h2 ⊢
  exact h2

end Tavi
