import Verif.Model.UB

/-! # Model of `src/tavi/instrument/components/goni.py` -/

namespace Tavi

open Matrix

/-- `s.split(",")` for a character list (Python: always at least one piece). -/
def splitOn (sep : Char) : List Char → List (List Char)
  | [] => [[]]
  | c :: cs =>
    if c = sep then [] :: splitOn sep cs
    else match splitOn sep cs with
      | [] => [[c]]
      | p :: ps => (c :: p) :: ps

/-- `s.strip(ch)` for a single character: drop it at both ends. -/
def stripChar (ch : Char) (s : List Char) : List Char :=
  ((s.dropWhile (· = ch)).reverse.dropWhile (· = ch)).reverse

/-- Names of the six motors (the fields of `MotorAngles`). -/
inductive Motor where
  | twoTheta | omega | sgl | sgu | chi | phi
  deriving DecidableEq, Repr

/-- Limits of a motor: `(low, high)`, each possibly `None`. -/
abbrev Limit := Option ℝ × Option ℝ

/-- `Goniometer`, goni.py:9-48. -/
structure Goni where
  type : List Char := "Y,-Z,X".toList
  sense : Option (List Char) := none
  limits : Motor → Limit := fun
    | .sgl => (some (-10), some 10)
    | .sgu => (some (-10), some 10)
    | _ => (none, none)

namespace Goni

/-- `ax.strip("-")` if it starts with `-`, else `ax` (goni.py:61-66). -/
def unsigned (ax : List Char) : List Char := if ax.head? = some '-' then stripChar '-' ax else ax

/-- sign of an axis (goni.py:81). -/
def axSign (ax : List Char) : ℝ := if ax.head? = some '-' then -1 else 1

/-- The unpacking `ax0, ax1, ax2, *rest = self.type.split(",")` (goni.py:60, 72, 78). -/
def axes (g : Goni) : Py (List Char × List Char × List Char × List (List Char)) :=
  match splitOn ',' g.type with
  | a :: b :: c :: rest => .ok (a, b, c, rest)
  | _ => .error .valueError

/-- `stacking_order`, goni.py:56-67. -/
def stackingOrder (g : Goni) : Py (List Char) := do
  let (a, b, c, _) ← g.axes
  return unsigned a ++ unsigned b ++ unsigned c

/-- `mode`, goni.py:69-74. -/
def mode (g : Goni) : Py (Option (List Char)) := do
  let (_, _, _, rest) ← g.axes
  return rest.head?

/-- `motor_senses`, goni.py:76-83. -/
def motorSenses (g : Goni) : Py (ℝ × ℝ × ℝ) := do
  let (a, b, c, _) ← g.axes
  return (axSign a, axSign b, axSign c)

/-- `_sense`, goni.py:85-94. -/
def senseVal (g : Goni) : Py ℝ :=
  if g.sense = some "+".toList then .ok 1
  else if g.sense = some "-".toList then .ok (-1)
  else .error .valueError

/-- `operating_mode`, goni.py:110, 156, 194. -/
def operatingMode (g : Goni) : Py (List Char) := do
  let s ← g.stackingOrder
  let m ← g.mode
  return s ++ m.getD []

/-- `r_mat`, goni.py:96-141. -/
noncomputable def rMat (g : Goni) (a : MotorAngles) : Py M3 := do
  let (s0, s1, s2) ← g.motorSenses
  let om ← g.operatingMode
  if om = "YZX".toList then
    match a.omega, a.sgl, a.sgu with
    | some w, some l, some u => return rotY (w * s0) * (rotZ (l * s1) * rotX (u * s2))
    | _, _, _ => .error .valueError
  else if om = "YZYbisect".toList then
    match a.omega, a.chi, a.phi with
    | some w, some c, some p => return rotY (w * s0) * (rotZ (c * s1) * rotY (p * s2))
    | _, _, _ => .error .valueError
  else .error .valueError

/-- `r_mat_inv`, goni.py:143-146. -/
noncomputable def rMatInv (g : Goni) (a : MotorAngles) : Py M3 := do
  let r ← g.rMat a
  return rᵀ

/-- Value of one motor, `angles._asdict()` (goni.py:241). -/
def motorValue (a : MotorAngles) : Motor → Option ℝ
  | .twoTheta => some a.twoTheta
  | .omega => a.omega
  | .sgl => a.sgl
  | .sgu => a.sgu
  | .chi => a.chi
  | .phi => a.phi

/-- Check of one motor, goni.py:241-248. -/
noncomputable def checkMotor (lim : Limit) (value : Option ℝ) : Py Unit :=
  match value with
  | none => .ok ()
  | some x =>
    match lim.1, lim.2 with
    | some lo, some hi => if x < lo then .error .valueError
                          else if x > hi then .error .valueError else .ok ()
    | some lo, none => if x < lo then .error .valueError else .ok ()
    | none, some hi => if x > hi then .error .valueError else .ok ()
    | none, none => .ok ()

/-- `validate_motor_positions`, goni.py:238-248 (in field order). -/
noncomputable def validate (g : Goni) (a : MotorAngles) : Py Unit := do
  checkMotor (g.limits .twoTheta) (motorValue a .twoTheta)
  checkMotor (g.limits .omega) (motorValue a .omega)
  checkMotor (g.limits .sgl) (motorValue a .sgl)
  checkMotor (g.limits .sgu) (motorValue a .sgu)
  checkMotor (g.limits .chi) (motorValue a .chi)
  checkMotor (g.limits .phi) (motorValue a .phi)

/-- The motor name strings accepted by `set_limit`, goni.py:233. -/
def motorOfName (s : List Char) : Option Motor :=
  if s = "two_theta".toList then some .twoTheta
  else if s = "omega".toList then some .omega
  else if s = "sgl".toList then some .sgl
  else if s = "sgu".toList then some .sgu
  else if s = "chi".toList then some .chi
  else if s = "phi".toList then some .phi
  else none

/-- `set_limit`, goni.py:227-236. -/
def setLimit (g : Goni) (name : List Char) (r : Limit) : Py Goni :=
  match motorOfName name with
  | some m => .ok { g with limits := Function.update g.limits m r }
  | none => .error .valueError

/-- `angles_in_bisect_mode`, goni.py:148-176; for any other operating mode `angles` is unbound. -/
noncomputable def anglesInBisectMode (g : Goni) (hkl : V3) (twoTheta psi : ℝ) (c : UBConf) :
    Py MotorAngles := do
  let (s0, s1, s2) ← g.motorSenses
  let om ← g.operatingMode
  let ub ← need c.ubMat .attributeError
  let q := ub *ᵥ hkl
  if om = "YZYbisect".toList then
    let sense ← g.senseVal
    let omega := (sense * 90 + psi) * s0
    let chiRad := -arctan2 (q 1) (Real.sqrt (q 0 ^ 2 + q 2 ^ 2))
    let phiRad := arctan2 (q 2) (q 0)
    let angles : MotorAngles :=
      { twoTheta := twoTheta, omega := some omega,
        chi := some (rad2deg (s1 * chiRad)), phi := some (rad2deg (s2 * phiRad)) }
    g.validate angles
    return angles
  else .error .unboundLocal

/-- `angles_from_r_mat`, goni.py:178-225; the not yet implemented modes leave `angles` unbound. -/
noncomputable def anglesFromRMat (g : Goni) (r : M3) (twoTheta : ℝ) : Py MotorAngles := do
  let (s0, s1, s2) ← g.motorSenses
  let om ← g.operatingMode
  if om = "YZX".toList then
    let den := Real.sqrt (r 0 0 ^ 2 + r 2 0 ^ 2)
    let sglRad := arctan2 (r 1 0) den
    let sguRad := arctan2 (-r 1 2) (r 1 1)
    let omegaRad := arctan2 (-r 2 0) (r 0 0)
    let angles : MotorAngles :=
      { twoTheta := twoTheta, omega := some (rad2deg (s0 * omegaRad)),
        sgl := some (rad2deg (s1 * sglRad)), sgu := some (rad2deg (s2 * sguRad)) }
    g.validate angles
    return angles
  else if om = "YXYbisect".toList ∨ om = "YZYazimuthal".toList ∨ om = "YXYazimuthal".toList then
    .error .unboundLocal
  else .error .valueError

end Goni

end Tavi
