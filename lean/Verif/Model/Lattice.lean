import Verif.Basic

/-! # Model of `src/tavi/lattice_algorithm.py` -/

namespace Tavi

open Matrix

/-- The tuple `(a, b, c, alpha, beta, gamma)` passed around as `lattice_params`
(lattice_algorithm.py:34 and everywhere); angles in degrees. -/
@[ext] structure Latt where
  a : ℝ
  b : ℝ
  c : ℝ
  alpha : ℝ
  beta : ℝ
  gamma : ℝ

/-- `v_alpha_beta_gamma_calc`, lattice_algorithm.py:8-16. -/
noncomputable def vAbg (alpha beta gamma : ℝ) : Py ℝ :=
  let ca := Real.cos (deg2rad alpha)
  let cb := Real.cos (deg2rad beta)
  let cg := Real.cos (deg2rad gamma)
  pySqrt (1 - ca ^ 2 - cb ^ 2 - cg ^ 2 + 2 * ca * cb * cg)

/-- `real_space_vectors`, lattice_algorithm.py:19-50. -/
noncomputable def realSpaceVectors (L : Latt) : Py (V3 × V3 × V3) := do
  let ca := Real.cos (deg2rad L.alpha)
  let cb := Real.cos (deg2rad L.beta)
  let cg := Real.cos (deg2rad L.gamma)
  let sg := Real.sin (deg2rad L.gamma)
  let v ← vAbg L.alpha L.beta L.gamma
  let cy ← pyDiv (L.c * (ca - cg * cb)) sg
  let cz ← pyDiv (L.c * v) sg
  return (![L.a, 0, 0], ![L.b * cg, L.b * sg, 0], ![L.c * cb, cy, cz])

/-- `x / y / z` -/
noncomputable def pyDiv2 (x y z : ℝ) : Py ℝ := do
  let t ← pyDiv x y
  pyDiv t z

/-- `reciprocal_latt_params`, lattice_algorithm.py:53-82. -/
noncomputable def reciprocalLattParams (L : Latt) : Py Latt := do
  let sa := Real.sin (deg2rad L.alpha)
  let ca := Real.cos (deg2rad L.alpha)
  let sb := Real.sin (deg2rad L.beta)
  let cb := Real.cos (deg2rad L.beta)
  let cg := Real.cos (deg2rad L.gamma)
  let sg := Real.sin (deg2rad L.gamma)
  let v ← vAbg L.alpha L.beta L.gamma
  let as ← pyDiv2 sa L.a v
  let bs ← pyDiv2 sb L.b v
  let cs ← pyDiv2 sg L.c v
  let xa ← pyDiv2 (cb * cg - ca) sb sg
  let xb ← pyDiv2 (cg * ca - cb) sa sg
  let xg ← pyDiv2 (ca * cb - cg) sb sa
  let alphaS ← pyArccos xa
  let betaS ← pyArccos xb
  let gammaS ← pyArccos xg
  return ⟨as * Real.pi * 2, bs * Real.pi * 2, cs * Real.pi * 2,
    rad2deg alphaS, rad2deg betaS, rad2deg gammaS⟩

/-- `reciprocal_space_vectors`, lattice_algorithm.py:85-100. -/
noncomputable def reciprocalSpaceVectors (L : Latt) : Py (V3 × V3 × V3) := do
  let v ← vAbg L.alpha L.beta L.gamma
  let pre ← pyDiv (2 * Real.pi) (v * L.a * L.b * L.c)
  let (av, bv, cv) ← realSpaceVectors L
  return (pre • cross bv cv, pre • cross cv av, pre • cross av bv)

/-- `reciprocal_basis`, lattice_algorithm.py:103-116. -/
noncomputable def reciprocalBasis (L : Latt) : Py (V3 × V3 × V3) := do
  let (as, bs, _) ← reciprocalSpaceVectors L
  let i ← unit as
  let j ← unit (cross (cross as bs) as)
  return (i, j, cross i j)

/-- `b_mat_from_lattice`, lattice_algorithm.py:122-141. -/
noncomputable def bMatFromLattice (L : Latt) : Py M3 := do
  let r ← reciprocalLattParams L
  let cz ← pyDiv (2 * Real.pi) L.c
  let al := deg2rad L.alpha
  let bs := deg2rad r.beta
  let gs := deg2rad r.gamma
  return (1 / (2 * Real.pi)) •
    !![r.a, r.b * Real.cos gs, r.c * Real.cos bs;
       0, r.b * Real.sin gs, -r.c * Real.sin bs * Real.cos al;
       0, 0, cz]

/-- `lattice_params_from_g_star_mat`, lattice_algorithm.py:144-171
(a singular matrix is replaced by the identity after printing a message). -/
noncomputable def lattFromGStar (gs : M3) : Py Latt := do
  let g : M3 := match inv3 gs with
    | .ok g => g
    | .error _ => 1
  let a ← pySqrt (g 0 0)
  let b ← pySqrt (g 1 1)
  let c ← pySqrt (g 2 2)
  let xa ← pyDiv (g 1 2 + g 2 1) (2 * b * c)
  let xb ← pyDiv (g 0 2 + g 2 0) (2 * a * c)
  let xg ← pyDiv (g 0 1 + g 1 0) (2 * a * b)
  let alpha ← pyArccos xa
  let beta ← pyArccos xb
  let gamma ← pyArccos xg
  return ⟨a, b, c, rad2deg alpha, rad2deg beta, rad2deg gamma⟩

/-- `lattice_params_from_b_mat`, lattice_algorithm.py:174-183. -/
noncomputable def lattFromBMat (b : M3) : Py Latt := lattFromGStar (bᵀ * b)

end Tavi
