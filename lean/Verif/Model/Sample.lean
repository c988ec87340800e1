import Verif.Model.UB

/-! # Model of `src/tavi/sample.py` (lattice, UB, mosaic) -/

namespace Tavi

open Matrix

/-- `Sample`, sample.py:24-89 (the attributes that influence calculations). -/
structure Sample where
  latt : Latt
  ubConf : Option UBConf := none
  mosaicH : ℝ := 30
  mosaicV : ℝ := 30

namespace Sample

/-- The validation loops of `update_lattice_parameters`, sample.py:215-221. -/
noncomputable def validLatt (L : Latt) : Py Unit :=
  if L.a ≤ 0 ∨ L.b ≤ 0 ∨ L.c ≤ 0 then .error .valueError
  else if 0 > L.alpha ∨ L.alpha > 180 ∨ 0 > L.beta ∨ L.beta > 180 ∨ 0 > L.gamma ∨ L.gamma > 180 then
    .error .valueError
  else .ok ()

/-- `update_lattice_parameters`, sample.py:204-228. -/
noncomputable def updateLatt (s : Sample) (L : Latt) : Py Sample := do
  validLatt L
  return { s with latt := L }

/-- `update_lattice_parametres_from_b_mat`, sample.py:265-268. -/
noncomputable def updateFromB (s : Sample) (b : M3) : Py Sample := do
  let L ← lattFromBMat b
  s.updateLatt L

/-- `update_lattice_parametres_from_g_star_mat`, sample.py:270-272. -/
noncomputable def updateFromGStar (s : Sample) (g : M3) : Py Sample := do
  let L ← lattFromGStar g
  s.updateLatt L

/-- `b_mat`, sample.py:249-251. -/
noncomputable def bMat (s : Sample) : Py M3 := bMatFromLattice s.latt

/-- `get_q_norm`, sample.py:253-263. -/
noncomputable def getQNorm (s : Sample) (hkl : V3) : Py ℝ := do
  let (as, bs, cs) ← reciprocalSpaceVectors s.latt
  return norm3 (hkl 0 • as + hkl 1 • bs + hkl 2 • cs)

/-- `_mosaic_h`, sample.py:194-197 (radians from minutes of arc). -/
noncomputable def mosaicHRad (s : Sample) : ℝ := deg2rad (s.mosaicH / 60)

/-- `_mosaic_v`, sample.py:199-202. -/
noncomputable def mosaicVRad (s : Sample) : ℝ := deg2rad (s.mosaicV / 60)

end Sample

end Tavi
