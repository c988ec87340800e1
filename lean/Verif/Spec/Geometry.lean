import Verif.Basic
import Verif.Model.Lattice

/-! # Independent geometric specifications (crystal cells, rotations, angles) -/

namespace Tavi.Spec

open Matrix

/-- A physically possible unit cell: positive edges, angles strictly between 0° and 180°, positive volume. -/
structure PossibleCell (L : Latt) : Prop where
  a_pos : 0 < L.a
  b_pos : 0 < L.b
  c_pos : 0 < L.c
  alpha_pos : 0 < L.alpha
  alpha_lt : L.alpha < 180
  beta_pos : 0 < L.beta
  beta_lt : L.beta < 180
  gamma_pos : 0 < L.gamma
  gamma_lt : L.gamma < 180
  volume_pos : 0 < 1 - Real.cos (L.alpha * Real.pi / 180) ^ 2 - Real.cos (L.beta * Real.pi / 180) ^ 2
    - Real.cos (L.gamma * Real.pi / 180) ^ 2
    + 2 * Real.cos (L.alpha * Real.pi / 180) * Real.cos (L.beta * Real.pi / 180)
      * Real.cos (L.gamma * Real.pi / 180)

/-- The metric tensor of a cell, textbook definition (Int. Tables A, 1.3.2): `G_ij = a_i · a_j`. -/
noncomputable def metric (L : Latt) : M3 :=
  let ca := Real.cos (L.alpha * Real.pi / 180)
  let cb := Real.cos (L.beta * Real.pi / 180)
  let cg := Real.cos (L.gamma * Real.pi / 180)
  !![L.a ^ 2, L.a * L.b * cg, L.a * L.c * cb;
     L.a * L.b * cg, L.b ^ 2, L.b * L.c * ca;
     L.a * L.c * cb, L.b * L.c * ca, L.c ^ 2]

/-- Proper rotation. -/
def IsRot (R : M3) : Prop := Rᵀ * R = 1 ∧ R.det = 1

/-- Orthogonal matrix. -/
def IsOrth (R : M3) : Prop := Rᵀ * R = 1

/-- Euclidean length. -/
noncomputable def len (v : V3) : ℝ := Real.sqrt (v 0 ^ 2 + v 1 ^ 2 + v 2 ^ 2)

/-- The angle in degrees between two non-zero vectors is the number in `[0,180]` whose cosine is
`u·v / (|u||v|)`. -/
def IsAngleDeg (u v : V3) (t : ℝ) : Prop :=
  0 ≤ t ∧ t ≤ 180 ∧
    u 0 * v 0 + u 1 * v 1 + u 2 * v 2 = len u * len v * Real.cos (t * Real.pi / 180)

end Tavi.Spec
