import Verif.Model.Resolution
import Mathlib.Analysis.Matrix.Spectrum

/-!
# Model of `src/tavi/instrument/resolution/convolution.py`

The projections and widths (lines 10-58) are in `Model/Resolution.lean`.  Here: the weights, the sampling grid and
`convolution`.

Simplifications.  The user's functions `model_disp` and `model_inten` are taken to be pointwise: one real number for every
band and every point (`Fin B → V3 → ℝ`), which is what numpy's vectorised evaluation amounts to; a `nan` from them is not
modelled.  `max_step` is a natural number and `energy_rez_factor` is positive.  `np.linalg.eigvalsh` is the list of eigenvalues
of the symmetric matrix with the given lower triangle.  Not modelled: `print`. The cache of the mesh and the process pool
of `calculate` (lines 218-223) are in `Model/ConvPool.lean`.
-/

namespace Tavi

open Matrix

/-- convolution.py lines 68-72: the two inner loops of `compute_weights`, which add up `v[k] * mat[k, l] * v[l]`. -/
noncomputable def weightOf (v : Fin 4 → ℝ) (mat : Mat 4 4) : ℝ :=
  ([0, 1, 2, 3] : List (Fin 4)).foldl (fun (tmp : ℝ) (k : Fin 4) =>
    ([0, 1, 2, 3] : List (Fin 4)).foldl (fun (tmp : ℝ) (l : Fin 4) => tmp + v k * mat k l * v l) tmp) 0

/-- Numbers of grid intervals along the three axes, `pts`. -/
abbrev Pts := ℕ × ℕ × ℕ

/-- convolution.py lines 78-84, `generate_meshgrid`: the nodes as triples of indices, in the order of a flattened array
(`indexing="ij"`). -/
def meshIdx (n : Pts) : List (ℕ × ℕ × ℕ) :=
  (List.range (n.1 + 1)).flatMap fun i => (List.range (n.2.1 + 1)).flatMap fun j =>
    (List.range (n.2.2 + 1)).map fun k => (i, j, k)

/-- convolution.py lines 81-83: the coordinate of node `i` of `np.linspace(-s, s, n + 1)`. -/
noncomputable def lineAt (s : ℝ) (n i : ℕ) : ℝ := (linspaceN (-s) s (n + 1)).getD i 0

/-- convolution.py lines 90-91: the node in momentum space. -/
noncomputable def nodeAt (sig : ℝ × ℝ × ℝ) (s : ℝ) (n : Pts) (i : ℕ × ℕ × ℕ) : V3 :=
  ![lineAt s n.1 i.1 * sig.1, lineAt s n.2.1 i.2.1 * sig.2.1, lineAt s n.2.2 i.2.2 * sig.2.2]

/-- convolution.py line 94: `einsum("i...,ij,j...->...")`. -/
noncomputable def rSq (m : Mat 3 3) (v : V3) : ℝ := v ⬝ᵥ (m *ᵥ v)

/-- convolution.py line 95: the ellipsoid mask. -/
noncomputable def inMask (sig : ℝ × ℝ × ℝ) (m : Mat 3 3) (s : ℝ) (n : Pts) (i : ℕ × ℕ × ℕ) : Bool :=
  decide (rSq m (nodeAt sig s n i) < s ^ 2)

/-- convolution.py lines 87-96, `generate_pts`: the points inside the ellipsoid. -/
noncomputable def generatePts (sig : ℝ × ℝ × ℝ) (m : Mat 3 3) (s : ℝ) (n : Pts) : List V3 :=
  ((meshIdx n).filter (inMask sig m s n)).map (nodeAt sig s n)

/-- `|b - a|`, undefined next to an undefined number: one entry of `np.abs(np.diff(arr))`. -/
noncomputable def absDiff (a b : Option ℝ) : Option ℝ :=
  match a, b with
  | some x, some y => some |y - x|
  | _, _ => none

/-- convolution.py lines 103-104 for one line of the array: `nanmean` of the absolute differences, undefined when there is
none. -/
noncomputable def lineStep (l : List (Option ℝ)) : Option ℝ :=
  match (List.zipWith absDiff l l.tail).filterMap id with
  | [] => none
  | d :: ds => some ((d :: ds).sum / ((d :: ds).length : ℝ))

/-- convolution.py lines 100-108, `get_max_step`, given the lines of the array along the axis. -/
noncomputable def getMaxStep (lines : List (List (Option ℝ))) : ℝ :=
  match lines.filterMap lineStep with
  | [] => 0
  | d :: ds => ds.foldl max d

/-- convolution.py lines 164-165: `disp_arr`, undefined outside the mask. -/
noncomputable def dispArr {B : ℕ} (sig : ℝ × ℝ × ℝ) (m : Mat 3 3) (s : ℝ) (n : Pts) (q : V3) (disp : Fin B → V3 → ℝ)
    (b : Fin B) (i : ℕ × ℕ × ℕ) : Option ℝ :=
  if inMask sig m s n i then some (disp b (nodeAt sig s n i + q)) else none

/-- The lines of a `(B, n1 + 1, n2 + 1, n3 + 1)` array along axis 1. -/
def lines1 {B : ℕ} {α : Type} (n : Pts) (arr : Fin B → ℕ × ℕ × ℕ → α) : List (List α) :=
  (List.finRange B).flatMap fun b => (List.range (n.2.1 + 1)).flatMap fun j => (List.range (n.2.2 + 1)).map fun k =>
    (List.range (n.1 + 1)).map fun i => arr b (i, j, k)

/-- The lines along axis 2. -/
def lines2 {B : ℕ} {α : Type} (n : Pts) (arr : Fin B → ℕ × ℕ × ℕ → α) : List (List α) :=
  (List.finRange B).flatMap fun b => (List.range (n.1 + 1)).flatMap fun i => (List.range (n.2.2 + 1)).map fun k =>
    (List.range (n.2.1 + 1)).map fun j => arr b (i, j, k)

/-- The lines along axis 3. -/
def lines3 {B : ℕ} {α : Type} (n : Pts) (arr : Fin B → ℕ × ℕ × ℕ → α) : List (List α) :=
  (List.finRange B).flatMap fun b => (List.range (n.1 + 1)).flatMap fun i => (List.range (n.2.1 + 1)).map fun j =>
    (List.range (n.2.2 + 1)).map fun k => arr b (i, j, k)

/-- convolution.py lines 171-174 for one axis: `int(np.min((pt * step / en_rez, max_step)))` when the step is too big. -/
noncomputable def refine (step enRez : ℝ) (maxStep pt : ℕ) : ℕ :=
  if step > enRez then ⌊min ((pt : ℝ) * (step / enRez)) (maxStep : ℝ)⌋.toNat else pt

/-- The symmetric matrix with the lower triangle of `m`: all that `np.linalg.eigvalsh` looks at. -/
def lowerSym (m : Mat 3 3) : Mat 3 3 := fun i j => if j ≤ i then m i j else m j i

theorem lowerSym_hermitian (m : Mat 3 3) : (lowerSym m).IsHermitian := by
  ext i j
  simp only [conjTranspose_apply, lowerSym, star_trivial]
  rcases lt_trichotomy i j with h | h | h
  · rw [if_pos h.le, if_neg (not_le.2 h)]
  · subst h; rfl
  · rw [if_neg (not_le.2 h), if_pos h.le]

/-- `np.linalg.eigvalsh(m)`. -/
noncomputable def eigvalsh (m : Mat 3 3) : Fin 3 → ℝ := (lowerSym_hermitian m).eigenvalues

/-- convolution.py lines 132-134: `np.prod(1 / np.sqrt(eigenvalues)) * (2 * num_of_sigmas) ** 3`. -/
noncomputable def elemVols (ev : Fin 3 → ℝ) (s : ℝ) : Py ℝ := do
  let r0 ← pySqrt (ev 0)
  let r1 ← pySqrt (ev 1)
  let r2 ← pySqrt (ev 2)
  let a ← pyDiv 1 r0
  let b ← pyDiv 1 r1
  let c ← pyDiv 1 r2
  return a * b * c * (2 * s) ^ 3

/-- `reso_params`: convolution.py line 117. -/
structure ResoParams where
  q : V3
  en : ℝ
  r0 : ℝ
  mat : Mat 4 4

/-- convolution.py lines 151-156: the weight of band `b` at the point `v` away from the centre. -/
noncomputable def bandWeight {B : ℕ} (p : ResoParams) (disp : Fin B → V3 → ℝ) (v : V3) (b : Fin B) : ℝ :=
  weightOf ![v 0, v 1, v 2, disp b (v + p.q) - p.en] p.mat

/-- All values of a function of band and point. -/
def allVals {B : ℕ} (pts : List V3) (f : Fin B → V3 → ℝ) : List ℝ :=
  (List.finRange B).flatMap fun b => pts.map (f b)

/-- `np.max`; `ValueError` for an empty array. -/
noncomputable def amax (l : List ℝ) : Py ℝ := match l with
  | [] => .error .valueError
  | x :: xs => .ok (xs.foldl max x)

/-- `np.min`; `ValueError` for an empty array. -/
noncomputable def amin (l : List ℝ) : Py ℝ := match l with
  | [] => .error .valueError
  | x :: xs => .ok (xs.foldl min x)

/-- convolution.py lines 203-214 for one point: `np.any(weights < 5**3, axis=0)`, then the sum over the bands of intensity
times `exp(-weight / 2)`. -/
noncomputable def pointTerm {B : ℕ} (p : ResoParams) (disp inten : Fin B → V3 → ℝ) (v : V3) : ℝ :=
  if ((List.finRange B).any fun b => decide (bandWeight p disp v b < 5 ^ 3)) then
    ((List.finRange B).map fun b => inten b (v + p.q) * Real.exp (-bandWeight p disp v b / 2)).sum
  else 0

/-- convolution.py lines 179-215: the second round, on the grid with `n` intervals. -/
noncomputable def secondRound {B : ℕ} (p : ResoParams) (disp inten : Fin B → V3 → ℝ) (sig : ℝ × ℝ × ℝ) (m : Mat 3 3)
    (vols : ℝ) (n : Pts) : Py ℝ := do
  let cell ← pyDiv vols ((n.1 * n.2.1 * n.2.2 : ℕ) : ℝ)
  let d ← pySqrt p.mat.det
  return p.r0 * (((generatePts sig m 3 n).map (pointTerm p disp inten)).sum * cell) * d / (2 * Real.pi) ^ 2

/-- convolution.py lines 161-174: the refined grid. -/
noncomputable def refinedPts {B : ℕ} (p : ResoParams) (disp : Fin B → V3 → ℝ) (sig : ℝ × ℝ × ℝ) (m : Mat 3 3)
    (enRez : ℝ) (maxStep : ℕ) : Pts :=
  let arr := dispArr sig m 3 (10, 10, 10) p.q disp
  (refine (getMaxStep (lines1 (10, 10, 10) arr)) enRez maxStep 10,
   refine (getMaxStep (lines2 (10, 10, 10) arr)) enRez maxStep 10,
   refine (getMaxStep (lines3 (10, 10, 10) arr)) enRez maxStep 10)

/-- convolution.py lines 147-159: is everything outside the relevant volume? -/
noncomputable def skipped {B : ℕ} (p : ResoParams) (disp : Fin B → V3 → ℝ) (pts : List V3) (sEn : ℝ) : Py Bool := do
  let hi ← amax (allVals pts fun b v => disp b (v + p.q))
  let lo ← amin (allVals pts fun b v => disp b (v + p.q))
  let w ← amin (allVals pts fun b v => bandWeight p disp v b)
  return decide (hi < p.en - 3 * sEn) || decide (lo > p.en + 3 * sEn) || decide (w > 5 ^ 3)

/-- convolution.py lines 111-215, `convolution`. `None` gives `nan`. -/
noncomputable def convolution {B : ℕ} (reso : Option ResoParams) (disp inten : Fin B → V3 → ℝ) (rez : ℝ) (maxStep : ℕ) :
    Py ℝ := do
  let p ← need reso .nonFinite
  let m ← convProj p.mat 3
  let sig ← incohSigmaQs m
  let sEn ← incohSigmaEn p.mat
  let sCoh ← cohSigma p.mat 3
  let vols ← elemVols (eigvalsh m) 3
  let skip ← skipped p disp (generatePts sig m 3 (10, 10, 10)) sEn
  cond skip (pure 0) (secondRound p disp inten sig m vols (refinedPts p disp sig m (sCoh * rez) maxStep))

end Tavi
