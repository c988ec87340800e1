import Verif.Model.Utilities
import Verif.Model.Lattice

/-! # Model of `src/tavi/ub_algorithm.py` -/

namespace Tavi

open Matrix

/-- The matrix in `mantid_to_spice`, ub_algorithm.py:10-12. -/
def mantidToSpice : M3 := !![1, 0, 0; 0, 0, -1; 0, 1, 0]

/-- The matrix in `spice_to_mantid`, ub_algorithm.py:15-17. -/
def spiceToMantid : M3 := !![1, 0, 0; 0, 0, 1; 0, -1, 0]

/-- `UBConf`, ub_algorithm.py:20-45.  `ubMat = none` means the attribute was never set (access raises
`AttributeError`); for the other fields `none` is Python's `None`. Stored values use the Mantid convention. -/
structure UBConf where
  convention : List Char := "Spice".toList
  ubMat : Option M3 := none
  planeNormal : Option V3 := none
  inPlaneRef : Option V3 := none
  uMat : Option M3 := none
  bMat : Option M3 := none
  ubPeaks : Option (List Peak) := none

namespace UBConf

/-- `_from_mantid`, ub_algorithm.py:53-61, on a matrix. -/
def fromMantidM (c : UBConf) (m : M3) : Py M3 :=
  if c.convention = "Mantid".toList then .ok m
  else if c.convention = "Spice".toList then .ok (mantidToSpice * m)
  else .error .valueError

/-- `_from_mantid`, ub_algorithm.py:53-61, on a vector. -/
def fromMantidV (c : UBConf) (v : V3) : Py V3 :=
  if c.convention = "Mantid".toList then .ok v
  else if c.convention = "Spice".toList then .ok (mantidToSpice *ᵥ v)
  else .error .valueError

/-- `_to_mantid`, ub_algorithm.py:63-71, on a matrix. -/
def toMantidM (c : UBConf) (m : M3) : Py M3 :=
  if c.convention = "Mantid".toList then .ok m
  else if c.convention = "Spice".toList then .ok (spiceToMantid * m)
  else .error .valueError

/-- `_to_mantid`, ub_algorithm.py:63-71, on a vector. -/
def toMantidV (c : UBConf) (v : V3) : Py V3 :=
  if c.convention = "Mantid".toList then .ok v
  else if c.convention = "Spice".toList then .ok (spiceToMantid *ᵥ v)
  else .error .valueError

/-- `ub_mat` getter, ub_algorithm.py:73-75. -/
def getUbMat (c : UBConf) : Py M3 :=
  match c.ubMat with
  | none => .error .attributeError
  | some m => c.fromMantidM m

/-- `ub_mat` setter, ub_algorithm.py:77-79. -/
def setUbMat (c : UBConf) (m : M3) : Py UBConf := do
  return { c with ubMat := some (← c.toMantidM m) }

/-- `u_mat` getter, ub_algorithm.py:81-83; `t.dot(None)` is a `TypeError`. -/
def getUMat (c : UBConf) : Py (Option M3) :=
  match c.uMat with
  | none => if c.convention = "Mantid".toList then .ok none
            else if c.convention = "Spice".toList then .error .typeError else .error .valueError
  | some m => do return some (← c.fromMantidM m)

/-- `u_mat` setter, ub_algorithm.py:85-87. -/
def setUMat (c : UBConf) (m : M3) : Py UBConf := do
  return { c with uMat := some (← c.toMantidM m) }

/-- `plane_normal` getter, ub_algorithm.py:89-91. -/
def getPlaneNormal (c : UBConf) : Py (Option V3) :=
  match c.planeNormal with
  | none => if c.convention = "Mantid".toList then .ok none
            else if c.convention = "Spice".toList then .error .typeError else .error .valueError
  | some v => do return some (← c.fromMantidV v)

/-- `plane_normal` setter, ub_algorithm.py:93-95. -/
def setPlaneNormal (c : UBConf) (v : V3) : Py UBConf := do
  return { c with planeNormal := some (← c.toMantidV v) }

/-- `in_plane_ref` getter, ub_algorithm.py:97-99. -/
def getInPlaneRef (c : UBConf) : Py (Option V3) :=
  match c.inPlaneRef with
  | none => if c.convention = "Mantid".toList then .ok none
            else if c.convention = "Spice".toList then .error .typeError else .error .valueError
  | some v => do return some (← c.fromMantidV v)

/-- `in_plane_ref` setter, ub_algorithm.py:101-103. -/
def setInPlaneRef (c : UBConf) (v : V3) : Py UBConf := do
  return { c with inPlaneRef := some (← c.toMantidV v) }

/-- The public keyword arguments of `UBConf(...)` (those with a property setter). -/
inductive Assign where
  | ubMat (m : M3)
  | uMat (m : M3)
  | planeNormal (v : V3)
  | inPlaneRef (v : V3)

/-- `__setattr__` of one keyword. -/
def assign (c : UBConf) : Assign → Py UBConf
  | .ubMat m => c.setUbMat m
  | .uMat m => c.setUMat m
  | .planeNormal v => c.setPlaneNormal v
  | .inPlaneRef v => c.setInPlaneRef v

/-- `UBConf.__init__`, ub_algorithm.py:47-51: keywords are assigned in order; a `None` convention means Spice. -/
def init (convention : Option (List Char)) (kwargs : List Assign) : Py UBConf :=
  kwargs.foldlM assign { convention := convention.getD "Spice".toList }

end UBConf

/-- `q_lab`, ub_algorithm.py:138-168. -/
noncomputable def qLab (ei ef theta : ℝ) (phi : ℝ := 0) : Py V3 := do
  let ki ← en2q ei
  let kf ← en2q ef
  let t := deg2rad theta
  let p := deg2rad phi
  return ![-kf * Real.sin t * Real.cos p, -kf * Real.sin t * Real.sin p, ki - kf * Real.cos t]

/-- `q_norm_from_hkl`, ub_algorithm.py:171-180. -/
noncomputable def qNormFromHkl (hkl : V3) (b : M3) : ℝ :=
  Real.sqrt ((b *ᵥ hkl) ⬝ᵥ (b *ᵥ hkl)) * 2 * Real.pi

/-- `two_theta_from_hkle`, ub_algorithm.py:183-198 (radians). -/
noncomputable def twoThetaFromHkle (hkl : V3) (ei ef : ℝ) (b : M3) : Py ℝ := do
  let ki ← en2q ei
  let kf ← en2q ef
  angleFromTriangle ki kf (qNormFromHkl hkl b)

/-- `psi_from_hkle`, ub_algorithm.py:201-217 (radians). -/
noncomputable def psiFromHkle (hkl : V3) (ei ef : ℝ) (b : M3) : Py ℝ := do
  let ki ← en2q ei
  let kf ← en2q ef
  angleFromTriangle ki (qNormFromHkl hkl b) kf

/-- `plane_normal_from_two_peaks`, ub_algorithm.py:220-237. -/
noncomputable def planeNormalFromTwoPeaks (u b : M3) (hkl1 hkl2 : V3) : Py (V3 × V3) := do
  let t1 := b *ᵥ hkl1
  let t2p := b *ᵥ hkl2
  let t3 ← unit (cross t1 t2p)
  let n := u *ᵥ t3
  let n := if n 1 < 0 then -n else n
  let t1n ← unit t1
  return (n, u *ᵥ t1n)

/-- Cosine used by both angle functions: `np.dot(q1, q2) / norm(q1) / norm(q2)`. -/
noncomputable def cosBetween (q1 q2 : V3) : Py ℝ := do
  let x ← pyDiv (q1 ⬝ᵥ q2) (norm3 q1)
  pyDiv x (norm3 q2)

/-- `angle_between_two_hkls`, ub_algorithm.py:240-249. -/
noncomputable def angleBetweenTwoHkls (hkl1 hkl2 : V3) (b : M3) : Py ℝ := do
  let c ← cosBetween (b *ᵥ hkl1) (b *ᵥ hkl2)
  return rad2deg (Real.arccos (clip1 c))

/-- `angle_between_two_motor_positions`, ub_algorithm.py:252-263. -/
noncomputable def angleBetweenTwoMotorPositions (a1 a2 : MotorAngles) (rInv : MotorAngles → Py M3)
    (ei ef : ℝ) : Py ℝ := do
  let r1 ← rInv a1
  let l1 ← qLab ei ef a1.twoTheta
  let r2 ← rInv a2
  let l2 ← qLab ei ef a2.twoTheta
  let c ← cosBetween (r1 *ᵥ l1) (r2 *ᵥ l2)
  return rad2deg (Real.arccos (clip1 c))

/-- `v / x` for a scalar `x` -/
noncomputable def vdiv (v : V3) (x : ℝ) : Py V3 :=
  if x = 0 then .error .nonFinite else .ok (x⁻¹ • v)

/-- The choice of `t2, t3` in `r_matrix_with_minimal_tilt`, ub_algorithm.py:306-328. -/
noncomputable def tiltFrame (t1 n : V3) (ref : Option V3) : Py (V3 × V3) :=
  if |t1 ⬝ᵥ n| < 1e-5 then .ok (cross n t1, n)
  else if norm3 (cross n t1) < 1e-5 then
    match ref with
    | none => .error .valueError
    | some r => .ok (r, cross t1 r)
  else .ok (cross n t1, cross t1 (cross n t1))

/-- `r_matrix_with_minimal_tilt`, ub_algorithm.py:271-339. -/
noncomputable def rMatrixWithMinimalTilt (hkl : V3) (ei ef twoTheta : ℝ) (c : UBConf) : Py M3 := do
  let ub ← need c.ubMat .attributeError
  let n ← need c.planeNormal .valueError
  let ki ← en2q ei
  let kf ← en2q ef
  let qn := qNormFromHkl hkl ub
  let tt := deg2rad twoTheta
  let q1 ← vdiv ![-kf * Real.sin tt, 0, ki - kf * Real.cos tt] qn
  let q2 ← vdiv ![ki - kf * Real.cos tt, 0, kf * Real.sin tt] qn
  let qMat := colMat q1 q2 ![0, 1, 0]
  let t1 := ub *ᵥ hkl
  let (t2, t3) ← tiltFrame t1 n c.inPlaneRef
  let u1 ← unit t1
  let u2 ← unit t2
  let u3 ← unit t3
  let ti ← inv3 (colMat u1 u2 u3)
  return qMat * ti

/-- `plane_normal_from_one_peak`, ub_algorithm.py:342-351. -/
noncomputable def planeNormalFromOnePeak (hkl : V3) (angles : MotorAngles)
    (rInv : MotorAngles → Py M3) (ub : M3) : Py (V3 × V3) := do
  let r ← rInv angles
  let n := r *ᵥ ![0, 1, 0]
  let q ← unit (ub *ᵥ hkl)
  return (n, cross n q)

/-- `ub_matrix_to_uv`, ub_algorithm.py:357-368. -/
noncomputable def ubMatrixToUv (ub : M3) : Py (V3 × V3) := do
  let i ← inv3 ub
  return (i *ᵥ ![0, 0, 1], i *ᵥ ![1, 0, 0])

/-- `ub_matrix_to_lattice_params`, ub_algorithm.py:371-377. -/
noncomputable def ubMatrixToLattice (ub : M3) : Py Latt := lattFromGStar (ubᵀ * ub)

/-- The three normalised columns used in several places:
`np.array([t1/|t1|, t2/|t2|, t3/|t3|]).T`, e.g. ub_algorithm.py:392-398, 451-457, 490-496. -/
noncomputable def frameMat (t1 t2 t3 : V3) : Py M3 := do
  let u1 ← unit t1
  let u2 ← unit t2
  let u3 ← unit t3
  return colMat u1 u2 u3

/-- `uv_to_ub_matrix`, ub_algorithm.py:380-405. -/
noncomputable def uvToUb (u v : V3) (L : Latt) : Py M3 := do
  let b ← bMatFromLattice L
  let t1 := b *ᵥ u
  let t2p := b *ᵥ v
  let t3 := cross t1 t2p
  let t2 := cross t3 t1
  let t ← frameMat t1 t2 t3
  let ti ← inv3 t
  return colMat ![0, 0, 1] ![1, 0, 0] ![0, 1, 0] * (ti * b)

/-- `b_mat_from_ub_matrix`, ub_algorithm.py:408-412. -/
noncomputable def bMatFromUb (ub : M3) : Py M3 := do
  let L ← lattFromGStar (ubᵀ * ub)
  bMatFromLattice L

/-- `u_mat_from_ub_matrix`, ub_algorithm.py:415-419. -/
noncomputable def uMatFromUb (ub : M3) : Py M3 := do
  let b ← bMatFromUb ub
  let bi ← inv3 b
  return ub * bi

/-- `np.sign` -/
noncomputable def npSign (x : ℝ) : ℝ := if x < 0 then -1 else if 0 < x then 1 else 0

/-- `find_u_from_one_peak_and_scattering_plane`, ub_algorithm.py:427-472. -/
noncomputable def findUFromOnePeak (peak : Peak) (v1 v2 : V3) (b : M3)
    (rInv : MotorAngles → Py M3) (ei ef : ℝ) : Py M3 := do
  let h1 := b *ᵥ peak.hkl
  let c1 := v1 ⬝ᵥ peak.hkl
  let c2 := v2 ⬝ᵥ peak.hkl
  let h2p := if |c1| > |c2| then npSign c1 • (b *ᵥ v2) else npSign c2 • (b *ᵥ v1)
  let h3 := cross h1 h2p
  let h2 := cross h3 h1
  let hMat ← frameMat h1 h2 h3
  let l1 ← qLab ei ef peak.angles.twoTheta
  let r ← rInv peak.angles
  let s1 := r *ᵥ l1
  let s3 := r *ᵥ ![0, 1, 0]
  let s2 := cross s3 s1
  let sMat ← frameMat s1 s2 s3
  let hi ← inv3 hMat
  return sMat * hi

/-- `find_u_from_two_peaks`, ub_algorithm.py:475-515. -/
noncomputable def findUFromTwoPeaks (p1 p2 : Peak) (b : M3) (rInv : MotorAngles → Py M3)
    (ei ef : ℝ) : Py M3 := do
  let h1 := b *ᵥ p1.hkl
  let h2p := b *ᵥ p2.hkl
  let h3 := cross h1 h2p
  let h2 := cross h3 h1
  let hMat ← frameMat h1 h2 h3
  let l1 ← qLab ei ef p1.angles.twoTheta
  let l2 ← qLab ei ef p2.angles.twoTheta
  let r1 ← rInv p1.angles
  let r2 ← rInv p2.angles
  let s1 := r1 *ᵥ l1
  let s2p := r2 *ᵥ l2
  let s3 := cross s1 s2p
  let s2 := cross s3 s1
  let sMat ← frameMat s1 s2 s3
  let hi ← inv3 hMat
  return sMat * hi

/-- One measured momentum transfer in the sample frame, in units of 2π:
`r_mat_inv(angles).dot(q_lab) / (2 * np.pi)`, ub_algorithm.py:529-535 and 558-559. -/
noncomputable def peakQ (rInv : MotorAngles → Py M3) (ei ef : ℝ) (p : Peak) : Py V3 := do
  let l ← qLab ei ef p.angles.twoTheta
  let r ← rInv p.angles
  return (1 / (2 * Real.pi)) • (r *ᵥ l)

/-- `find_ub_from_three_peaks`, ub_algorithm.py:518-541. -/
noncomputable def findUbFromThreePeaks (p1 p2 p3 : Peak) (rInv : MotorAngles → Py M3)
    (ei ef : ℝ) : Py M3 := do
  let s1 ← peakQ rInv ei ef p1
  let s2 ← peakQ rInv ei ef p2
  let s3 ← peakQ rInv ei ef p3
  let hi ← inv3 (colMat p1.hkl p2.hkl p3.hkl)
  return colMat s1 s2 s3 * hi

/-- One pass of the accumulation loop of `find_ub_from_multiple_peaks`, ub_algorithm.py:555-563. -/
noncomputable def accumPeak (rInv : MotorAngles → Py M3) (ei ef : ℝ) (acc : M3 × M3) (p : Peak) :
    Py (M3 × M3) := do
  let q ← peakQ rInv ei ef p
  return (acc.1 + Matrix.of (fun j k => q k * p.hkl j),
    acc.2 + Matrix.of (fun j k => p.hkl k * p.hkl j))

/-- `find_ub_from_multiple_peaks`, ub_algorithm.py:544-567. -/
noncomputable def findUbFromMultiplePeaks (peaks : List Peak) (rInv : MotorAngles → Py M3)
    (ei ef : ℝ) : Py M3 := do
  let (qv, vv) ← peaks.foldlM (accumPeak rInv ei ef) (0, 0)
  let vi ← inv3 vv
  return qvᵀ * viᵀ

end Tavi
