import Verif.Model.Tas
import Verif.Model.Scan
import Mathlib.Algebra.Order.Round

/-! # Model of `src/tavi/instrument/resolution` (Cooper-Nathans, ellipsoids, grids) -/

namespace Tavi

open Matrix

/-- numpy arrays of shape `(n, m)`. -/
abbrev Mat (n m : ℕ) := Matrix (Fin n) (Fin m) ℝ

/-- `np.linalg.inv`. -/
noncomputable def invN {n : ℕ} (m : Mat n n) : Py (Mat n n) := if m.det = 0 then .error .linAlgError else .ok m⁻¹

/-- `x / np.tan(t)`: not finite where the tangent vanishes. At odd multiples of 90° the tangent is infinite (a huge float)
and the quotient is 0. -/
noncomputable def overTan (x t : ℝ) : Py ℝ :=
  if Real.sin t = 0 then .error .nonFinite else .ok (x * Real.cos t / Real.sin t)

namespace CooperNathans

/-- `mat_f`, cooper_nathans.py:58-69. -/
noncomputable def matF (mono ana : MonoAna) : Py (Mat 4 4) := do
  let mh ← MonoAna.mosaicRad mono.mosaicH
  let a ← pyDiv 1 (mh ^ 2)
  let mv ← MonoAna.mosaicRad mono.mosaicV
  let b ← pyDiv 1 (mv ^ 2)
  let ah ← MonoAna.mosaicRad ana.mosaicH
  let c ← pyDiv 1 (ah ^ 2)
  let av ← MonoAna.mosaicRad ana.mosaicV
  let d ← pyDiv 1 (av ^ 2)
  return diagonal ![a, b, c, d]

/-- One diagonal entry of `mat_g`; the divergence arrives in minutes of arc (collimators.py:42-70 converts to radians). -/
noncomputable def collEntry (x : ℝ) : Py ℝ := pyDiv 1 (deg2rad (x / 60) ^ 2)

/-- `mat_g`, cooper_nathans.py:71-91. -/
noncomputable def matG (c : Collimators) : Py (Mat 8 8) := do
  let h0 ← collEntry (c.h 0)
  let v0 ← collEntry (c.v 0)
  let h1 ← collEntry (c.h 1)
  let v1 ← collEntry (c.v 1)
  let h2 ← collEntry (c.h 2)
  let v2 ← collEntry (c.v 2)
  let h3 ← collEntry (c.h 3)
  let v3 ← collEntry (c.v 3)
  return diagonal ![h0, h1, v0, v1, h2, h3, v2, v3]

/-- `calc_mat_a`, cooper_nathans.py:93-106. -/
noncomputable def matA (ki kf tm ta : ℝ) : Py (Mat 6 8) := do
  let m ← overTan (0.5 * ki) tm
  let m' ← overTan (-0.5 * ki) tm
  let a ← overTan (0.5 * kf) ta
  let a' ← overTan (-0.5 * kf) ta
  return !![m, m', 0, 0, 0, 0, 0, 0;
            0, ki, 0, 0, 0, 0, 0, 0;
            0, 0, 0, ki, 0, 0, 0, 0;
            0, 0, 0, 0, a, a', 0, 0;
            0, 0, 0, 0, kf, 0, 0, 0;
            0, 0, 0, 0, 0, 0, kf, 0]

/-- `calc_mat_b`, cooper_nathans.py:108-116. -/
noncomputable def matB (ki kf phi tt : ℝ) : Mat 4 6 :=
  let r := rotationMatrix2d phi
  let s := rotationMatrix2d (phi - tt)
  !![r 0 0, r 0 1, r 0 2, s 0 0 * (-1), s 0 1 * (-1), s 0 2 * (-1);
     r 1 0, r 1 1, r 1 2, s 1 0 * (-1), s 1 1 * (-1), s 1 2 * (-1);
     r 2 0, r 2 1, r 2 2, s 2 0 * (-1), s 2 1 * (-1), s 2 2 * (-1);
     2 * ksq2eng * ki, 0, 0, -2 * ksq2eng * kf, 0, 0]

/-- `calc_mat_c`, cooper_nathans.py:118-131. -/
noncomputable def matC (tm ta : ℝ) : Py (Mat 4 8) := do
  let m ← pyDiv 0.5 (Real.sin tm)
  let m' ← pyDiv (-0.5) (Real.sin tm)
  let a ← pyDiv 0.5 (Real.sin ta)
  let a' ← pyDiv (-0.5) (Real.sin ta)
  return !![0.5, 0.5, 0, 0, 0, 0, 0, 0;
            0, 0, m, m', 0, 0, 0, 0;
            0, 0, 0, 0, 0.5, 0.5, 0, 0;
            0, 0, 0, 0, 0, 0, a, a']

/-- The matrix algebra of `calculate_at_hkle`, cooper_nathans.py:164-176: the covariance in the local Q frame. -/
noncomputable def matCov (a : Mat 6 8) (b : Mat 4 6) (hInv : Mat 8 8) (qh qv : ℝ) : Mat 4 4 :=
  (b * a) * hInv * (b * a)ᵀ + diagonal ![0, qh, qv, 0]

/-- The prefactor of `calculate_at_hkle`, cooper_nathans.py:178-192. -/
noncomputable def prefactor (ki kf tm ta : ℝ) (f : Mat 4 4) (h : Mat 8 8) : Py ℝ := do
  let rm ← overTan (1 * ki ^ 3) tm
  let ra ← overTan (1 * kf ^ 3) ta
  let x ← pyDiv2 (Real.pi ^ 2 / 4) (Real.sin tm) (Real.sin ta)
  let y ← pyDiv f.det h.det
  let r ← pySqrt y
  return rm * ra * x * r

/-- `calculate_at_hkle`, cooper_nathans.py:138-192. -/
noncomputable def calculateAt (t : Tas) (hkl : V3) (ei ef : ℝ) : Py (Mat 4 4 × ℝ) := do
  let q ← t.sample.getQNorm hkl
  let ki ← en2q ei
  let kf ← en2q ef
  let angles ← t.motorAngles hkl (ei - ef)
  let psi ← t.getPsi hkl (ei - ef)
  let tm ← t.getThetaM ei
  let ta ← t.getThetaA ef
  let a ← matA ki kf (deg2rad tm) (deg2rad ta)
  let b := matB ki kf (deg2rad psi) (deg2rad angles.twoTheta)
  let c ← matC (deg2rad tm) (deg2rad ta)
  let f ← matF t.mono t.ana
  let g ← matG t.coll
  let h := cᵀ * f * c + g
  let hInv ← invN h
  let cov := matCov a b hInv (q ^ 2 * t.sample.mosaicHRad ^ 2) (q ^ 2 * t.sample.mosaicVRad ^ 2)
  let covInv ← invN cov
  let r0 ← prefactor ki kf (deg2rad tm) (deg2rad ta) f h
  return (sig2fwhm ^ 2 • covInv, r0)

end CooperNathans

/-! ## Ellipsoids -/

/-- A square numpy array of any size. -/
structure Quad where
  n : ℕ
  m : Mat n n

namespace Quad

/-- `np.delete(np.delete(q, i, axis=0), i, axis=1)`. -/
def delete (q : Quad) (i : ℕ) : Py Quad :=
  match q with
  | ⟨0, _⟩ => .error .indexError
  | ⟨n + 1, m⟩ => if h : i < n + 1 then .ok ⟨n, m.submatrix (Fin.succAbove ⟨i, h⟩) (Fin.succAbove ⟨i, h⟩)⟩
      else .error .indexError

/-- `q[0, 0]`. -/
def entry00 (q : Quad) : Py ℝ :=
  match q with
  | ⟨0, _⟩ => .error .indexError
  | ⟨_ + 1, m⟩ => .ok (m 0 0)

end Quad

/-- `ResoEllipsoid.quadric_proj` on an array of fixed size, ellipsoid.py:182-204. -/
noncomputable def quadricProjAt {n : ℕ} (q : Mat (n + 1) (n + 1)) (i : Fin (n + 1)) : Py (Mat n n) :=
  if |q i i| < 1e-8 then .ok (q.submatrix i.succAbove i.succAbove)
  else do
    let s ← pySqrt (q i i)
    let vec : Fin (n + 1) → ℝ := fun j => 0.5 * (q i j + q j i) / s
    return (q - vecMulVec vec vec).submatrix i.succAbove i.succAbove

/-- `ResoEllipsoid.quadric_proj`, ellipsoid.py:182-204. -/
noncomputable def quadricProj (q : Quad) (i : ℕ) : Py Quad :=
  match q with
  | ⟨0, _⟩ => .error .indexError
  | ⟨n + 1, m⟩ => if h : i < n + 1 then (quadricProjAt m ⟨i, h⟩) >>= fun r => .ok ⟨n, r⟩
      else .error .indexError

/-- `coh_fwhms`, ellipsoid.py:159-162. -/
noncomputable def cohFwhm (m : Mat 4 4) (axis : Fin 4) : Py ℝ := do
  let s ← pySqrt (m axis axis)
  pyDiv sig2fwhm s

/-- `incoh_fwhms`, ellipsoid.py:164-173. -/
noncomputable def incohFwhm (m : Mat 4 4) (axis : Fin 4) : Py ℝ := do
  let q ← [3, 2, 1, 0].foldlM (fun (r : Quad) (i : ℕ) => if i = axis.val then pure r else quadricProj r i)
    (⟨4, m⟩ : Quad)
  let x ← q.entry00
  let s ← pySqrt |x|
  pyDiv sig2fwhm s

/-- `convolution.quadric_proj`, convolution.py:10-32, on an array of fixed size. -/
noncomputable def convProj {n : ℕ} (q : Mat (n + 1) (n + 1)) (i : Fin (n + 1)) : Py (Mat n n) :=
  if |q i i| < 1e-8 then .ok (q.submatrix i.succAbove i.succAbove)
  else do
    let s ← pySqrt (q i i)
    let vec : Fin (n + 1) → ℝ := fun j => 0.5 * (q i j + q j i) / s
    let ortho := q - vecMulVec vec vec
    return ortho.submatrix i.succAbove i.succAbove

/-- `1 / np.sqrt(np.abs(x))`. -/
noncomputable def invSqrtAbs (x : ℝ) : Py ℝ := do
  let s ← pySqrt |x|
  pyDiv 1 s

/-- `incoh_sigma_en`, convolution.py:34-39. -/
noncomputable def incohSigmaEn (m : Mat 4 4) : Py ℝ := do
  let a ← convProj m 2
  let b ← convProj a 1
  let c ← convProj b 0
  invSqrtAbs (c 0 0)

/-- `incoh_sigma_qs`, convolution.py:42-50. -/
noncomputable def incohSigmaQs (m : Mat 3 3) : Py (ℝ × ℝ × ℝ) := do
  let m2 ← convProj m 2
  let a ← convProj m2 1
  let b ← convProj m2 0
  let c ← convProj m 1
  let d ← convProj c 0
  let s1 ← invSqrtAbs (a 0 0)
  let s2 ← invSqrtAbs (b 0 0)
  let s3 ← invSqrtAbs (d 0 0)
  return (s1, s2, s3)

/-- `coh_sigma`, convolution.py:53-57. -/
noncomputable def cohSigma (m : Mat 4 4) (axis : Fin 4) : Py ℝ := invSqrtAbs (m axis axis)

/-- `ResoEllipsoid`, ellipsoid.py:33-58 (labels and descriptive strings are not modelled). `axes = none` is the local Q
frame. -/
structure Ellipsoid where
  hkl : V3
  en : ℝ
  q : ℝ
  axes : Option (List AxisItem)
  mat : Mat 4 4
  r0 : ℝ
  frame : Str
  angles : Fin 3 → ℝ
  qVec : V3

/-- `mat_lab_to_local`, ellipsoid.py:103-109. -/
noncomputable def labToLocal (psi : ℝ) : M3 :=
  !![Real.sin psi, 0, Real.cos psi; Real.cos psi, 0, -Real.sin psi; 0, 1, 0]

/-- `conv_mat_4d = np.eye(4); conv_mat_4d[0:3, 0:3] = m`, ellipsoid.py:116-117, 142-143. -/
def embed4 (m : M3) : Mat 4 4 :=
  !![m 0 0, m 0 1, m 0 2, 0; m 1 0, m 1 1, m 1 2, 0; m 2 0, m 2 1, m 2 2, 0; 0, 0, 0, 1]

/-- `((1, 0, 0), (0, 1, 0), (0, 0, 1), "en")`, ellipsoid.py:37, 110. -/
noncomputable def hklAxes : List AxisItem :=
  [.vec ![1, 0, 0], .vec ![0, 1, 0], .vec ![0, 0, 1], .name "en".toList]

/-- `p1, p2, p3 = np.array([item for item in axes if isinstance(item, tuple) and len(item) == 3])`, ellipsoid.py:122. -/
def threeVecs (axes : List AxisItem) : Py (V3 × V3 × V3) :=
  match axes.filterMap fun a => match a with
    | .vec v => some v
    | .name _ => none with
  | [a, b, c] => .ok (a, b, c)
  | _ => .error .valueError

/-- `new_idx = [0, 1, 2]; new_idx.insert(en_axis, 3)`, ellipsoid.py:148-149. -/
def rollIdx (en : ℕ) : List (Fin 4) := ([0, 1, 2] : List (Fin 4)).take en ++ [3] ++ ([0, 1, 2] : List (Fin 4)).drop en

/-- `mat[new_idx, :][:, new_idx]`, ellipsoid.py:150. -/
def roll (m : Mat 4 4) (en : ℕ) : Mat 4 4 :=
  m.submatrix (fun i => (rollIdx en).getD i 0) (fun i => (rollIdx en).getD i 0)

/-- `mat_w_inv`, ellipsoid.py:134. -/
noncomputable def matWInv (p1 p2 p3 : V3) : Py M3 :=
  let d := p1 ⬝ᵥ cross p2 p3
  if d = 0 then .error .nonFinite else .ok (d⁻¹ • (colMat (cross p2 p3) (cross p3 p1) (cross p1 p2))ᵀ)

/-- `p[0] * a_star_vec + p[1] * b_star_vec + p[2] * c_star_vec`, ellipsoid.py:125-127. -/
def recipCombo (p as bs cs : V3) : V3 := p 0 • as + p 1 • bs + p 2 • cs

/-- The customised branch of `_project_to_frame`, ellipsoid.py:121-152. -/
noncomputable def projCustom (t : Tas) (hkl : V3) (axes : List AxisItem) (conv : M3) (m : Mat 4 4) :
    Py (Mat 4 4 × (Fin 3 → ℝ) × V3) := do
  let (p1, p2, p3) ← threeVecs axes
  let (as, bs, cs) ← reciprocalSpaceVectors t.sample.latt
  let v1 := recipCombo p1 as bs cs
  let v2 := recipCombo p2 as bs cs
  let v3 := recipCombo p3 as bs cs
  if v1 ⬝ᵥ cross v2 v3 < 1e-8 then .error .valueError else
  if |v1 ⬝ᵥ cross v2 v3| < 1e-8 then .error .valueError else
  let wi ← matWInv p1 p2 p3
  let a12 ← angleVec v1 v2
  let a23 ← angleVec v2 v3
  let a31 ← angleVec v3 v1
  let e := embed4 (conv * colMat p1 p2 p3)
  let en ← enIndex axes
  return (roll (eᵀ * m * e) en, ![a12, a23, a31], wi *ᵥ hkl)

/-- The conversion from hkl to the local Q frame, ellipsoid.py:97-109. -/
noncomputable def hklToLocal (t : Tas) (hkl : V3) (en : ℝ) : Py M3 := do
  let angles ← t.motorAngles hkl en
  let r ← t.goni.rMat angles
  let c ← need t.sample.ubConf .attributeError
  let ub ← need c.ubMat .typeError
  let psi ← t.getPsi hkl en
  return labToLocal (deg2rad psi) * ((2 * Real.pi) • (r * ub))

/-- The HKL branch of `_project_to_frame`, ellipsoid.py:110-119. -/
noncomputable def projHkl (t : Tas) (hkl : V3) (conv : M3) (m : Mat 4 4) : Py (Mat 4 4 × (Fin 3 → ℝ) × V3) := do
  let p ← reciprocalLattParams t.sample.latt
  return ((embed4 conv)ᵀ * m * embed4 conv, ![p.gamma, p.alpha, p.beta], hkl)

open Classical in
/-- `_project_to_frame`, ellipsoid.py:92-152: matrix, angles, Q coordinates and frame name. -/
noncomputable def projectToFrame (t : Tas) (hkl : V3) (en : ℝ) (axes : List AxisItem) (m : Mat 4 4) :
    Py ((Mat 4 4 × (Fin 3 → ℝ) × V3) × Str) := do
  let conv ← hklToLocal t hkl en
  if axes = hklAxes then (projHkl t hkl conv m) >>= fun r => .ok (r, "hkl".toList)
  else (projCustom t hkl axes conv m) >>= fun r => .ok (r, "proj".toList)

/-- The two branches at the end of `ResoEllipsoid.__init__`, ellipsoid.py:52-58. -/
noncomputable def frameOf (t : Tas) (hkl : V3) (en q : ℝ) (axes : Option (List AxisItem)) (m : Mat 4 4) :
    Py ((Mat 4 4 × (Fin 3 → ℝ) × V3) × Str) :=
  match axes with
  | none => .ok ((m, ![90, 90, 90], ![q, 0, 0]), "q".toList)
  | some ax => projectToFrame t hkl en ax m

/-- `ResoEllipsoid.__init__`, ellipsoid.py:33-58. -/
noncomputable def mkEllipsoid (t : Tas) (hkl : V3) (en : ℝ) (axes : Option (List AxisItem)) (m : Mat 4 4) (r0 : ℝ) :
    Py Ellipsoid := do
  let b ← t.sample.bMat
  let q := norm3 (b *ᵥ hkl) * 2 * Real.pi
  let r ← frameOf t hkl en q axes m
  return ⟨hkl, en, q, axes, r.1.1, r0, r.2, r.1.2.1, r.1.2.2⟩

/-- `np.round(x, 2)`: a nearest multiple of 0.01 (ties are not modelled exactly: numpy rounds them to even). -/
noncomputable def round2 (x : ℝ) : ℝ := (round (x * 100) : ℤ) / 100

/-- `ResoEllipse.__init__`, ellipse.py:27-36, without the eigen-decomposition. -/
structure Ellipse where
  mat : Quad
  cx : ℝ
  cy : ℝ
  angle : ℝ

/-- `np.insert(q_vec, en_idx, en)`, ellipsoid.py:226. -/
def insertEn (q : V3) (idx : ℕ) (en : ℝ) : List ℝ := [q 0, q 1, q 2].take idx ++ [en] ++ [q 0, q 1, q 2].drop idx

/-- The `match tuple(axes)` of `get_ellipse`, ellipsoid.py:229-237. -/
noncomputable def pairAngle (angles : Fin 3 → ℝ) (x y : Fin 4) : ℝ :=
  if (x = 0 ∧ y = 1) ∨ (x = 1 ∧ y = 0) then round2 (angles 0)
  else if (x = 1 ∧ y = 2) ∨ (x = 2 ∧ y = 1) then round2 (angles 1)
  else if (x = 0 ∧ y = 2) ∨ (x = 2 ∧ y = 0) then round2 (angles 2)
  else 90

/-- `en_idx` of `get_ellipse`, ellipsoid.py:222-225. -/
noncomputable def enIdxOr3 (axes : Option (List AxisItem)) : Py ℕ :=
  match axes with
  | none => .ok 3
  | some ax => enIndex ax

/-- `qe_vec[i] if ORIGIN else 0`, ellipsoid.py:240-243. -/
noncomputable def centreAt (origin : Bool) (qe : List ℝ) (i : ℕ) : Py ℝ :=
  if origin then need qe[i]? .indexError else .ok 0

/-- `get_ellipse`, ellipsoid.py:206-259, for axis numbers 0..3. -/
noncomputable def getEllipse (e : Ellipsoid) (x y : Fin 4) (projection origin : Bool) : Py Ellipse := do
  let idx ← enIdxOr3 e.axes
  let qe := insertEn e.qVec idx e.en
  let cx ← centreAt origin qe x.val
  let cy ← centreAt origin qe y.val
  let m ← [3, 2, 1, 0].foldlM (fun (r : Quad) (i : ℕ) =>
      if i = x.val ∨ i = y.val then pure r else if projection then quadricProj r i else r.delete i) (⟨4, e.mat⟩ : Quad)
  return ⟨m, cx, cy, pairAngle e.angles x y⟩

/-- `np.linspace(lo, hi, n)` with `n` points. -/
noncomputable def linspaceN (lo hi : ℝ) (n : ℕ) : List ℝ :=
  (List.range n).map fun i : ℕ => lo + i * ((hi - lo) / ((n : ℝ) - 1))

/-- `self.fwhms`, ellipse.py:36, for one eigenvalue. -/
noncomputable def ellipseFwhm (ev : ℝ) : Py ℝ := do
  let s ← pySqrt |ev|
  let x ← pyDiv 1 s
  return x * sig2fwhm

/-- `get_points`, ellipse.py:38-47. `la.eig(mat)` is an argument: the eigenvalues `ev` and the matrix of eigenvectors `vecs`. -/
noncomputable def ellipsePoints (ev : Fin 2 → ℝ) (vecs : Mat 2 2) (cx cy : ℝ) (n : ℕ) : Py (List (ℝ × ℝ)) := do
  let f0 ← ellipseFwhm (ev 0)
  let f1 ← ellipseFwhm (ev 1)
  return (linspaceN 0 (2 * Real.pi) n).map fun phi =>
    let len : Fin 2 → ℝ := ![f0 / 2 * Real.cos phi, f1 / 2 * Real.sin phi]
    ((vecs *ᵥ len) 0 + cx, (vecs *ᵥ len) 1 + cy)

/-! ## Grids and batches -/

/-- An entry of the `grid` argument of `generate_hkle`. -/
inductive GridItem where
  | scalar (x : ℝ)
  | tup (l : List ℝ)
  | other

/-- `np.arange(lo, hi, step)`: `ceil((hi - lo) / step)` values, none when that is negative. -/
noncomputable def arange (lo hi step : ℝ) : Py (List ℝ) :=
  if step = 0 then .error .zeroDivision
  else .ok ((List.range ⌈(hi - lo) / step⌉.toNat).map fun i : ℕ => lo + i * step)

/-- The values of one grid entry, resolution_calculator.py:77-84. -/
noncomputable def gridVals : GridItem → Py (List ℝ)
  | .scalar x => .ok [x]
  | .tup [lo, hi, step] => arange lo hi step
  | .tup _ => .error .valueError
  | .other => .error .valueError

/-- `name == "en"`. -/
noncomputable def isEn : AxisItem → Bool
  | .name s => decide (s = "en".toList)
  | .vec _ => false

/-- One round of the loop, resolution_calculator.py:76-89: `(q_list, e_list)`. -/
noncomputable def gridStep (acc : List (List ℝ) × Option (List ℝ)) (p : AxisItem × GridItem) :
    Py (List (List ℝ) × Option (List ℝ)) := do
  let vals ← gridVals p.2
  return if isEn p.1 then (acc.1, some vals) else (acc.1 ++ [vals], acc.2)

/-- `np.array(ax)` for the axes that are not `"en"`; only tuples of three numbers are modelled, any other name makes the
arithmetic fail with a `TypeError`. -/
def axisVec : AxisItem → Py V3
  | .vec v => .ok v
  | .name _ => .error .typeError

/-- `generate_hkle`, resolution_calculator.py:49-98. Simplified: with fewer than three Q axes, or with an axis of another
name, the code fails only once the comprehension reaches it, that is, if the lists before it are not empty; here it always
fails. -/
noncomputable def generateHkle (grid : List GridItem) (axes : List AxisItem) : Py (List (V3 × ℝ)) :=
  if grid.length ≠ 4 then .error .valueError
  else if axes.length ≠ 4 ∨ axes.any isEn = false then .error .valueError
  else do
    let (qs, es) ← (axes.zip grid).foldlM gridStep ([], none)
    let vecs ← (axes.filter fun a => !isEn a).mapM axisVec
    let us ← need qs[0]? .indexError
    let vs ← need qs[1]? .indexError
    let ws ← need qs[2]? .indexError
    let es ← need es .unboundLocal
    let p1 ← need vecs[0]? .indexError
    let p2 ← need vecs[1]? .indexError
    let p3 ← need vecs[2]? .indexError
    return us.flatMap fun u => vs.flatMap fun v => ws.flatMap fun w => es.map fun e => (u • p1 + v • p2 + w • p3, e)

/-- `require_positive` for one number, resolution_calculator.py:29-39 (`None` is an `AttributeError`). -/
noncomputable def requirePositive (x : Option ℝ) : Py Unit := do
  let x ← need x .attributeError
  if x < 0 then .error .valueError else return ()

/-- `require_positive` for a list. -/
noncomputable def requireAllPositive (f : Fin 4 → ℝ) : Py Unit :=
  if f 0 < 0 ∨ f 1 < 0 ∨ f 2 < 0 ∨ f 3 < 0 then .error .valueError else .ok ()

/-- `check_sense`, resolution_calculator.py:41-47. -/
def checkSense (s : Option (List Char)) : Py Unit := do
  let s ← need s .attributeError
  if s = "+".toList ∨ s = "-".toList then .ok () else .error .valueError

/-- `validate_instrument_parameters`, resolution_calculator.py:122-147, with all components mounted. -/
noncomputable def Tas.validateReso (t : Tas) : Py Unit := do
  requirePositive t.mono.mosaicH
  requirePositive t.mono.mosaicV
  checkSense (some t.mono.sense)
  requirePositive t.ana.mosaicH
  requirePositive t.ana.mosaicV
  checkSense (some t.ana.sense)
  requireAllPositive t.coll.h
  requireAllPositive t.coll.v
  checkSense t.goni.sense

/-- `str(cn)`, cooper_nathans.py:28-56: only what can fail, `u, v = instru.uv`. -/
noncomputable def Tas.describe (t : Tas) : Py Unit := do
  let uv ← t.uv
  let _ ← need uv .typeError
  return ()

/-- The `hkle` argument of `cooper_nathans`: one position or a list of positions. -/
inductive HkleArg where
  | one (hkl : V3) (en : ℝ)
  | many (l : List (V3 × ℝ))

/-- `hkle_list`, resolution_calculator.py:113. -/
def HkleArg.toList : HkleArg → List (V3 × ℝ)
  | .one h e => [(h, e)]
  | .many l => l

/-- `generate_hkleief_list`, resolution_calculator.py:100-120. -/
def Tas.hkleiefList (t : Tas) (l : List (V3 × ℝ)) : Py (List (V3 × ℝ × ℝ)) :=
  l.mapM fun p => (t.getEiEf none none p.2) >>= fun e => .ok (p.1, e.1, e.2)

/-- The result at one position: an ellipsoid, or one that contains nan or inf. -/
inductive Reso where
  | finite (e : Ellipsoid)
  | nonFinite

/-- What `except ValueError` catches, tas.py:349 (`LinAlgError` is a subclass of `ValueError`). -/
def caught (e : PyErr) : Bool := e == .valueError || e == .linAlgError

/-- The body of the `try` at one position, tas.py:344-348. -/
noncomputable def Tas.resoAt (t : Tas) (axes : Option (List AxisItem)) (p : V3 × ℝ × ℝ) : Py Ellipsoid := do
  let (m, r0) ← CooperNathans.calculateAt t p.1 p.2.1 p.2.2
  mkEllipsoid t p.1 (p.2.1 - p.2.2) axes m r0

/-- One round of the loop, tas.py:343-353: `(rez_list, err_msg)`; the message is represented by the exception. -/
def resoStep {α : Type} (f : α → Py Ellipsoid) (acc : List (Option Reso) × List PyErr) (p : α) :
    Py (List (Option Reso) × List PyErr) :=
  match f p with
  | .ok e => .ok (acc.1 ++ [some (.finite e)], acc.2)
  | .error e => if caught e then .ok (acc.1 ++ [none], acc.2 ++ [e])
      else if e = .nonFinite then .ok (acc.1 ++ [some .nonFinite], acc.2) else .error e

/-- `(rez_list[0]) if len(rez_list) == 1 else (tuple(rez_list))`, tas.py:355. -/
inductive ResoOut where
  | bare (r : Option Reso)
  | tuple (l : List (Option Reso))

def packReso : List (Option Reso) → ResoOut
  | [r] => .bare r
  | l => .tuple l

/-- `TAS.cooper_nathans`, tas.py:322-355: the return value and `self.err_msg` afterwards. -/
noncomputable def Tas.cooperNathans (t : Tas) (hkle : HkleArg) (axes : Option (List AxisItem)) :
    Py (ResoOut × List PyErr) := do
  t.validateReso
  t.describe
  let l ← t.hkleiefList hkle.toList
  let (rez, msg) ← l.foldlM (resoStep (t.resoAt axes)) ([], [])
  return (packReso rez, msg)

end Tavi
