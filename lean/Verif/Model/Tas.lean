import Verif.Model.Goni
import Verif.Model.Sample

/-! # Model of `src/tavi/instrument/tas.py` and the crystals of `components/mono_ana.py` -/

namespace Tavi

open Matrix

/-- `MonoAna` (mono_ana.py:26-62): the attributes used for angles and for the flat-crystal resolution. -/
structure MonoAna where
  dSpacing : ℝ := 3.35416
  sense : List Char := "-".toList
  mosaicH : Option ℝ := none
  mosaicV : Option ℝ := none

namespace MonoAna

/-- `_sense`, mono_ana.py:67-75. -/
def senseVal (m : MonoAna) : Py ℝ :=
  if m.sense = "+".toList then .ok 1
  else if m.sense = "-".toList then .ok (-1)
  else .error .valueError

/-- `np.arcsin`; `nan` outside `[-1,1]`. -/
noncomputable def pyArcsin (x : ℝ) : Py ℝ :=
  if x < -1 ∨ 1 < x then .error .nonFinite else .ok (Real.arcsin x)

/-- `get_bragg_angle_from_energy`, mono_ana.py:100-110. -/
noncomputable def braggAngleFromEnergy (m : MonoAna) (energy : ℝ) : Py ℝ := do
  let x ← pyDiv (9.045 / 2) m.dSpacing
  let r ← pySqrt energy
  let y ← pyDiv x r
  let t ← pyArcsin y
  let s ← m.senseVal
  return rad2deg t * s

/-- `get_energy_from_bragg_angle`, mono_ana.py:112-122. -/
noncomputable def energyFromBraggAngle (m : MonoAna) (angle : ℝ) : Py ℝ := do
  let x ← pyDiv (81.81 / 4) (m.dSpacing ^ 2)
  pyDiv x (Real.sin (deg2rad angle) ^ 2)

/-- `_mosaic_h`, `_mosaic_v`, mono_ana.py:77-83: radians; `None / 60` is a `TypeError`. -/
noncomputable def mosaicRad (x : Option ℝ) : Py ℝ := do
  let x ← need x .typeError
  return deg2rad (x / 60)

end MonoAna

/-- `Collimators`, collimators.py:9-27: horizontal and vertical divergences in minutes of arc, in the order pre-mono,
pre-sample, post-sample, post-analyser (the lists of `horizontal_divergence` and `vertical_divergence`). -/
structure Collimators where
  h : Fin 4 → ℝ := fun _ => 30
  v : Fin 4 → ℝ := fun _ => 30

/-- `TAS`, tas.py:28-55 (with the mounted components of `TASBase`). -/
structure Tas where
  convention : List Char := "Spice".toList
  fixedEi : Option ℝ := none
  fixedEf : Option ℝ := none
  sample : Sample
  goni : Goni
  mono : MonoAna := {}
  ana : MonoAna := {}
  coll : Collimators := {}

namespace Tas

/-- `_get_ei_ef`, tas.py:69-94. -/
def getEiEf (t : Tas) (ei ef : Option ℝ := none) (en : ℝ := 0) : Py (ℝ × ℝ) :=
  let ef := match ef with
    | none => t.fixedEf
    | some x => some x
  let ei := match ei with
    | none => t.fixedEi
    | some x => some x
  match ei, ef with
  | none, none => .error .valueError
  | none, some ef => .ok (en + ef, ef)
  | some ei, none => .ok (ei, ei - en)
  | some ei, some ef => .ok (ei, ef)

/-- `get_two_theta`, tas.py:96-118 (degrees). -/
noncomputable def getTwoTheta (t : Tas) (hkl : V3) (en : ℝ := 0) : Py ℝ := do
  let (ei, ef) ← t.getEiEf none none en
  let b ← t.sample.bMat
  let x ← twoThetaFromHkle hkl ei ef b
  let s ← t.goni.senseVal
  return rad2deg x * s

/-- `get_psi`, tas.py:120-141 (degrees). -/
noncomputable def getPsi (t : Tas) (hkl : V3) (en : ℝ := 0) : Py ℝ := do
  let (ei, ef) ← t.getEiEf none none en
  let b ← t.sample.bMat
  let x ← psiFromHkle hkl ei ef b
  let s ← t.goni.senseVal
  return rad2deg x * s * (-1)

/-- `get_theta_m`, tas.py:143-151 (degrees). -/
noncomputable def getThetaM (t : Tas) (ei : ℝ) : Py ℝ := do
  let k ← en2q ei
  let x ← angleBragg k t.mono.dSpacing
  let s ← t.mono.senseVal
  return rad2deg (x * s)

/-- `get_theta_a`, tas.py:153-161 (degrees). -/
noncomputable def getThetaA (t : Tas) (ef : ℝ) : Py ℝ := do
  let k ← en2q ef
  let x ← angleBragg k t.ana.dSpacing
  let s ← t.ana.senseVal
  return rad2deg (x * s)

/-- `calculate_ub_matrix`, tas.py:163-245.  `single` is true when a bare `Peak` is passed.
Returns the UB configuration (or `None`) and the sample afterwards. -/
noncomputable def calculateUb (t : Tas) (single : Bool) (peaks : List Peak)
    (plane : Option (V3 × V3)) : Py (Option UBConf × Sample) := do
  let (ei, ef) ← t.getEiEf
  if single && plane.isNone then .error .valueError else
  match peaks with
  | [p] =>
    let b ← t.sample.bMat
    match plane with
    | none => .error .typeError
    | some (v1, v2) =>
      let u ← findUFromOnePeak p v1 v2 b t.goni.rMatInv ei ef
      let ub := u * b
      let (n, r) ← planeNormalFromOnePeak p.hkl p.angles t.goni.rMatInv ub
      let c : UBConf := { convention := t.convention, bMat := some b, ubMat := some ub,
                          planeNormal := some n, inPlaneRef := some r, ubPeaks := some peaks }
      return (some c, { t.sample with ubConf := some c })
  | [p1, p2] =>
    let b ← t.sample.bMat
    let u ← findUFromTwoPeaks p1 p2 b t.goni.rMatInv ei ef
    let (n, r) ← planeNormalFromTwoPeaks u b p1.hkl p2.hkl
    let c : UBConf := { convention := t.convention, bMat := some b, ubMat := some (u * b),
                        planeNormal := some n, inPlaneRef := some r, ubPeaks := some peaks }
    return (some c, { t.sample with ubConf := some c })
  | [p1, p2, p3] =>
    if p1.hkl ⬝ᵥ cross p2.hkl p3.hkl < 1e-6 then return (none, t.sample)
    else
      let ub ← findUbFromThreePeaks p1 p2 p3 t.goni.rMatInv ei ef
      let s ← t.sample.updateFromGStar (ubᵀ * ub)
      let b ← s.bMat
      let c : UBConf := { convention := t.convention, bMat := some b, ubMat := some ub,
                          ubPeaks := some peaks }
      return (some c, { s with ubConf := some c })
  | _ :: _ :: _ :: _ :: _ =>
    let ub ← findUbFromMultiplePeaks peaks t.goni.rMatInv ei ef
    let s ← t.sample.updateFromGStar (ubᵀ * ub)
    let b ← s.bMat
    let c : UBConf := { convention := t.convention, bMat := some b, ubMat := some ub,
                        ubPeaks := some peaks }
    return (some c, { s with ubConf := some c })
  | [] => .error .valueError

/-- `uv`, tas.py:247-254. -/
noncomputable def uv (t : Tas) : Py (Option (V3 × V3)) :=
  match t.sample.ubConf with
  | none => .ok none
  | some c => match c.ubMat with
    | none => .error .attributeError
    | some m => do return some (← ubMatrixToUv m)

/-- `calculate_motor_angles`, tas.py:256-307 (`hkl` has three components by type). -/
noncomputable def motorAngles (t : Tas) (hkl : V3) (en : ℝ := 0) : Py MotorAngles := do
  let twoTheta ← t.getTwoTheta hkl en
  let psi ← t.getPsi hkl en
  let (ei, ef) ← t.getEiEf none none en
  match t.sample.ubConf with
  | none => .error .valueError
  | some c =>
    let _ ← c.getUbMat
    let mode ← t.goni.mode
    match mode with
    | none =>
      let r ← rMatrixWithMinimalTilt hkl ei ef twoTheta c
      t.goni.anglesFromRMat r twoTheta
    | some m =>
      if m = "bisect".toList then t.goni.anglesInBisectMode hkl twoTheta psi c
      else .error .unboundLocal

/-- `calculate_hkl_from_angles`, tas.py:309-320. -/
noncomputable def hklFromAngles (t : Tas) (a : MotorAngles) : Py (Option V3) := do
  let (ei, ef) ← t.getEiEf
  let q ← qLab ei ef a.twoTheta
  let r ← t.goni.rMat a
  match t.sample.ubConf with
  | none => return none
  | some c =>
    match c.ubMat with
    | none => .error .attributeError
    | some ub =>
      let i ← inv3 (r * ub)
      return some ((1 / (2 * Real.pi)) • (i *ᵥ q))

end Tas

end Tavi
