import Mathlib.Analysis.SpecialFunctions.Trigonometric.Inverse
import Mathlib.Analysis.SpecialFunctions.Complex.Arg
import Mathlib.LinearAlgebra.CrossProduct
import Mathlib.LinearAlgebra.Matrix.NonsingularInverse
import Mathlib.LinearAlgebra.Matrix.Determinant.Basic
import Mathlib.Data.Matrix.Reflection
import Mathlib.Tactic.Linarith
import Mathlib.Tactic.FieldSimp
import Mathlib.Tactic.Ring
import Mathlib.Tactic.LinearCombination

/-!
# Shared vocabulary of the model

Python exceptions, vectors, matrices and the numpy primitives used by the numerical part of TAVI.
Numbers are exact reals.  Whenever numpy would produce `nan`/`inf` (division by zero, square root of a
negative number, `arccos` outside `[-1, 1]`) the model stops with `PyErr.nonFinite`; this is how the model
keeps "the user gets a number" apart from "the user gets NaN".
-/

namespace Tavi

/-- Python exceptions (and the pseudo-exception `nonFinite`, "numpy returned nan or inf"). -/
inductive PyErr where
  | valueError
  | typeError
  | attributeError
  | keyError
  | indexError
  | unboundLocal
  | linAlgError
  | zeroDivision
  | fileNotFound
  | stopIteration
  | notADirectory
  | nonFinite
  deriving DecidableEq, Repr

/-- A Python computation that returns a value or raises. -/
abbrev Py := Except PyErr

/-- Use an attribute that may be missing: raise `e` when it is. -/
def need {α : Type _} (o : Option α) (e : PyErr) : Py α :=
  match o with
  | none => .error e
  | some a => .ok a

/-- numpy arrays of shape `(3,)`. -/
abbrev V3 := Fin 3 → ℝ

/-- numpy arrays of shape `(3, 3)`. -/
abbrev M3 := Matrix (Fin 3) (Fin 3) ℝ

open Matrix

/-- `np.deg2rad`, `np.radians`. -/
noncomputable def deg2rad (x : ℝ) : ℝ := x * (Real.pi / 180)

/-- `np.rad2deg`, `np.degrees`. -/
noncomputable def rad2deg (x : ℝ) : ℝ := x * (180 / Real.pi)

/-- Float division; a zero divisor gives `inf`/`nan` in numpy. -/
noncomputable def pyDiv (x y : ℝ) : Py ℝ := if y = 0 then .error .nonFinite else .ok (x / y)

/-- `np.sqrt`; `nan` for negative arguments. -/
noncomputable def pySqrt (x : ℝ) : Py ℝ := if x < 0 then .error .nonFinite else .ok (Real.sqrt x)

/-- `np.arccos`; `nan` outside `[-1, 1]`. -/
noncomputable def pyArccos (x : ℝ) : Py ℝ :=
  if x < -1 ∨ 1 < x then .error .nonFinite else .ok (Real.arccos x)

/-- `np.clip(c, -1, 1)`. -/
noncomputable def clip1 (c : ℝ) : ℝ := max (-1) (min c 1)

/-- `np.arctan2(y, x)`: the argument of the complex number `x + i y`. -/
noncomputable def arctan2 (y x : ℝ) : ℝ := Complex.arg ⟨x, y⟩

/-- `np.linalg.norm` of a 3-vector. -/
noncomputable def norm3 (v : V3) : ℝ := Real.sqrt (v ⬝ᵥ v)

/-- `v / np.linalg.norm(v)`; `nan` for the zero vector. -/
noncomputable def unit (v : V3) : Py V3 :=
  if norm3 v = 0 then .error .nonFinite else .ok ((norm3 v)⁻¹ • v)

/-- `np.linalg.inv` of a 3x3 matrix; raises `LinAlgError` for singular matrices. -/
noncomputable def inv3 (m : M3) : Py M3 := if m.det = 0 then .error .linAlgError else .ok m⁻¹

/-- `np.array([a, b, c]).T`: the matrix with columns `a`, `b`, `c`. -/
def colMat (a b c : V3) : M3 := !![a 0, b 0, c 0; a 1, b 1, c 1; a 2, b 2, c 2]

/-- `np.cross`. -/
def cross (a b : V3) : V3 :=
  ![a 1 * b 2 - a 2 * b 1, a 2 * b 0 - a 0 * b 2, a 0 * b 1 - a 1 * b 0]

end Tavi
