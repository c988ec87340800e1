import Verif.Basic
import Verif.Spec.Geometry

/-! Evaluation lemmas for the numpy primitives and elementary vector algebra. -/

namespace Tavi

open Matrix

theorem pyDiv_ok {x y : ℝ} (h : y ≠ 0) : pyDiv x y = .ok (x / y) := by simp [pyDiv, h]
theorem pySqrt_ok {x : ℝ} (h : 0 ≤ x) : pySqrt x = .ok (Real.sqrt x) := by simp [pySqrt, h]
theorem pyArccos_ok {x : ℝ} (h1 : -1 ≤ x) (h2 : x ≤ 1) : pyArccos x = .ok (Real.arccos x) := by
  simp [pyArccos, h1, h2]

@[simp] theorem py_bind_ok {α β} (a : α) (f : α → Py β) : (Except.ok a >>= f) = f a := rfl
@[simp] theorem py_bind_err {α β} (e : PyErr) (f : α → Py β) :
    ((Except.error e : Py α) >>= f) = .error e := rfl
@[simp] theorem py_pure {α} (a : α) : (pure a : Py α) = .ok a := rfl

theorem py_bind_eq_ok {α β} {x : Py α} {f : α → Py β} {b : β} :
    (x >>= f) = .ok b ↔ ∃ a, x = .ok a ∧ f a = .ok b := by
  cases x with
  | error e => simp
  | ok a => simp

theorem py_bind_eq_err {α β} {x : Py α} {f : α → Py β} {e : PyErr} :
    (x >>= f) = .error e ↔ x = .error e ∨ ∃ a, x = .ok a ∧ f a = .error e := by
  cases x with
  | error e' => simp
  | ok a => simp

theorem need_eq_ok {α : Type*} {o : Option α} {e : PyErr} {a : α} : need o e = .ok a ↔ o = some a := by
  cases o <;> simp [need]

@[simp] theorem need_some {α : Type*} {a : α} {e : PyErr} : need (some a) e = .ok a := rfl
@[simp] theorem need_none {α : Type*} {e : PyErr} : need (none : Option α) e = .error e := rfl

theorem deg2rad_eq (x : ℝ) : deg2rad x = x * Real.pi / 180 := by unfold deg2rad; ring

@[simp] theorem deg2rad_rad2deg (x : ℝ) : deg2rad (rad2deg x) = x := by
  unfold deg2rad rad2deg
  have := Real.pi_ne_zero
  field_simp

@[simp] theorem rad2deg_deg2rad (x : ℝ) : rad2deg (deg2rad x) = x := by
  unfold deg2rad rad2deg
  have := Real.pi_ne_zero
  field_simp

theorem deg2rad_pos {x : ℝ} (h : 0 < x) : 0 < deg2rad x := by
  unfold deg2rad; have := Real.pi_pos; positivity

theorem deg2rad_lt_pi {x : ℝ} (h : x < 180) : deg2rad x < Real.pi := by
  unfold deg2rad; have := Real.pi_pos; nlinarith

theorem deg2rad_nonneg {x : ℝ} (h : 0 ≤ x) : 0 ≤ deg2rad x := by
  unfold deg2rad; have := Real.pi_pos; positivity

theorem deg2rad_le_pi {x : ℝ} (h : x ≤ 180) : deg2rad x ≤ Real.pi := by
  unfold deg2rad; have := Real.pi_pos; nlinarith

theorem sin_deg_pos {x : ℝ} (h : 0 < x) (h' : x < 180) : 0 < Real.sin (deg2rad x) :=
  Real.sin_pos_of_pos_of_lt_pi (deg2rad_pos h) (deg2rad_lt_pi h')

theorem ext3 {u v : V3} (h0 : u 0 = v 0) (h1 : u 1 = v 1) (h2 : u 2 = v 2) : u = v := by
  funext i; fin_cases i <;> assumption

theorem dot3 (u v : V3) : u ⬝ᵥ v = u 0 * v 0 + u 1 * v 1 + u 2 * v 2 := by
  simp [dotProduct, Fin.sum_univ_three]

theorem norm3_eq_len (v : V3) : norm3 v = Spec.len v := by
  unfold norm3 Spec.len; rw [dot3]; congr 1; ring


theorem dot_self_nonneg3 (v : V3) : 0 ≤ v ⬝ᵥ v := by
  rw [dot3]; nlinarith [sq_nonneg (v 0), sq_nonneg (v 1), sq_nonneg (v 2)]

theorem norm3_sq (v : V3) : norm3 v ^ 2 = v ⬝ᵥ v := by
  unfold norm3
  rw [Real.sq_sqrt (dot_self_nonneg3 v)]

theorem norm3_mul_self (v : V3) : norm3 v * norm3 v = v ⬝ᵥ v := by
  rw [← sq, norm3_sq]

theorem norm3_nonneg (v : V3) : 0 ≤ norm3 v := Real.sqrt_nonneg _

theorem norm3_eq_zero {v : V3} : norm3 v = 0 ↔ v = 0 := by
  unfold norm3
  rw [Real.sqrt_eq_zero (dot_self_nonneg3 v)]
  constructor
  · intro h
    rw [dot3] at h
    have h0 : v 0 = 0 := by nlinarith [sq_nonneg (v 0), sq_nonneg (v 1), sq_nonneg (v 2)]
    have h1 : v 1 = 0 := by nlinarith [sq_nonneg (v 0), sq_nonneg (v 1), sq_nonneg (v 2)]
    have h2 : v 2 = 0 := by nlinarith [sq_nonneg (v 0), sq_nonneg (v 1), sq_nonneg (v 2)]
    exact ext3 h0 h1 h2
  · rintro rfl; simp

theorem norm3_pos {v : V3} (h : v ≠ 0) : 0 < norm3 v :=
  lt_of_le_of_ne (norm3_nonneg v) (fun e => h (norm3_eq_zero.1 e.symm))

theorem unit_ok {v : V3} (h : v ≠ 0) : unit v = .ok ((norm3 v)⁻¹ • v) := by
  simp [unit, norm3_eq_zero, h]

theorem inv3_ok {m : M3} (h : m.det ≠ 0) : inv3 m = .ok m⁻¹ := by simp [inv3, h]

theorem cross_eq (a b : V3) : cross a b = crossProduct a b := by
  rw [cross_apply]; rfl

theorem mulVec3 (m : M3) (v : V3) (i : Fin 3) :
    (m *ᵥ v) i = m i 0 * v 0 + m i 1 * v 1 + m i 2 * v 2 := by
  simp [mulVec, dot3]

end Tavi
