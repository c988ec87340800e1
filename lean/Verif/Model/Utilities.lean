import Verif.Basic
import Mathlib.Analysis.SpecialFunctions.Log.Basic

/-! # Model of `src/tavi/utilities.py` (numerical part) -/

namespace Tavi

open Matrix

/-- utilities.py:12 -/
noncomputable def ksq2eng : ℝ := 2.072124855

/-- utilities.py:14 -/
noncomputable def sig2fwhm : ℝ := 2 * Real.sqrt (2 * Real.log 2)

/-- `MotorAngles`, utilities.py:24-43. -/
structure MotorAngles where
  twoTheta : ℝ
  omega : Option ℝ := none
  sgl : Option ℝ := none
  sgu : Option ℝ := none
  chi : Option ℝ := none
  phi : Option ℝ := none

/-- `Peak`, utilities.py:61-70. -/
structure Peak where
  hkl : V3
  angles : MotorAngles

/-- `en2q`, utilities.py:82-87. -/
noncomputable def en2q (en : ℝ) : Py ℝ :=
  if en < 0 then .error .valueError else .ok (Real.sqrt (en / ksq2eng))

/-- `q2en`, utilities.py:90-95. -/
noncomputable def q2en (q : ℝ) : Py ℝ :=
  if q < 0 then .error .valueError else .ok (ksq2eng * q ^ 2)

/-- `get_angle_from_triangle`, utilities.py:98-109. -/
noncomputable def angleFromTriangle (a b c : ℝ) : Py ℝ :=
  if |a| < 1e-6 ∨ |b| < 1e-6 then .error .valueError
  else
    let x := (a ^ 2 + b ^ 2 - c ^ 2) / (2 * a * b)
    if x > 1 ∨ x < -1 then .error .valueError else .ok (Real.arccos x)

/-- `get_side_from_triangle`, utilities.py:112-116. -/
noncomputable def sideFromTriangle (a b angle : ℝ) : Py ℝ :=
  if |a| < 1e-6 ∨ |b| < 1e-6 then .error .valueError
  else .ok (Real.sqrt (a ^ 2 + b ^ 2 - 2 * a * b * Real.cos angle))

/-- `get_angle_vec`, utilities.py:119-121 (degrees, no clipping). -/
noncomputable def angleVec (v1 v2 : V3) : Py ℝ := do
  let x ← pyDiv (v1 ⬝ᵥ v2) (norm3 v1)
  let y ← pyDiv x (norm3 v2)
  let t ← pyArccos y
  return t / Real.pi * 180

/-- `get_angle_bragg`, utilities.py:124-134. -/
noncomputable def angleBragg (k d : ℝ) : Py ℝ := do
  let x ← pyDiv Real.pi (d * k)
  if x > 1 ∨ x < -1 then .error .valueError else return Real.arcsin x

/-- `rotation_matrix_2d`, utilities.py:137-157 (radians). -/
noncomputable def rotationMatrix2d (phi : ℝ) : M3 :=
  !![Real.cos phi, Real.sin phi, 0; -Real.sin phi, Real.cos phi, 0; 0, 0, 1]

/-- `spice_to_mantid`, utilities.py:160-162. -/
def spiceToMantidVec (v : V3) : V3 := ![v 0, v 2, -v 1]

/-- `mantid_to_spice`, utilities.py:165-167. -/
def mantidToSpiceVec (v : V3) : V3 := ![v 0, -v 2, v 1]

/-- `rot_x`, utilities.py:170-190 (degrees). -/
noncomputable def rotX (nu : ℝ) : M3 :=
  !![1, 0, 0; 0, Real.cos (deg2rad nu), -Real.sin (deg2rad nu);
     0, Real.sin (deg2rad nu), Real.cos (deg2rad nu)]

/-- `rot_y`, utilities.py:193-213 (degrees). -/
noncomputable def rotY (omega : ℝ) : M3 :=
  !![Real.cos (deg2rad omega), 0, Real.sin (deg2rad omega); 0, 1, 0;
     -Real.sin (deg2rad omega), 0, Real.cos (deg2rad omega)]

/-- `rot_z`, utilities.py:216-236 (degrees). -/
noncomputable def rotZ (mu : ℝ) : M3 :=
  !![Real.cos (deg2rad mu), -Real.sin (deg2rad mu), 0;
     Real.sin (deg2rad mu), Real.cos (deg2rad mu), 0; 0, 0, 1]

end Tavi
