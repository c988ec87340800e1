import Verif.Basic

/-!
# Model of `src/tavi/data/scan_data.py`

Floats inside numpy arrays are `Num = Option ℝ`: `some r` is a finite number, `none` is "undefined" (numpy's `nan` or
`±inf`, which the model does not tell apart).  The element-wise operations propagate `none` and turn a division by zero
into `none`, as numpy does with its warnings ignored.

Simplification: `np.min`/`np.max` of an array containing an undefined number are undefined (numpy agrees for `nan`).
The plot labels are in `Verif/Model/ScanPlot.lean`.
-/

namespace Tavi

open Classical

/-- One float of a numpy array: `none` = nan or inf. -/
abbrev Num := Option ℝ

/-- `a + b`. -/
noncomputable def nadd : Num → Num → Num
  | some a, some b => some (a + b)
  | _, _ => none

/-- `a - b`. -/
noncomputable def nsub : Num → Num → Num
  | some a, some b => some (a - b)
  | _, _ => none

/-- `a * b`. -/
noncomputable def nmul : Num → Num → Num
  | some a, some b => some (a * b)
  | _, _ => none

/-- `a / b`. -/
noncomputable def ndiv : Num → Num → Num
  | some a, some b => if b = 0 then none else some (a / b)
  | _, _ => none

/-- `np.sqrt(a)`. -/
noncomputable def nsqrt : Num → Num
  | some a => if a < 0 then none else some (Real.sqrt a)
  | none => none

/-- `np.linspace(a, b, n)`; a negative `n` is a `ValueError`. -/
noncomputable def linspace (a b : ℝ) (n : ℤ) : Py (List ℝ) :=
  if n < 0 then .error .valueError
  else .ok ((List.range n.toNat).map fun i : ℕ => a + i * ((b - a) / (n.toNat - 1 : ℝ)))

/-- A comparison-like operation of two floats, undefined if one of them is. -/
def nlift (f : ℝ → ℝ → ℝ) : Num → Num → Num
  | some a, some b => some (f a b)
  | _, _ => none

/-- The common shape of `np.min`/`np.max`: `ValueError` for an empty array. -/
noncomputable def npFold (f : ℝ → ℝ → ℝ) : List Num → Py Num
  | [] => .error .valueError
  | x :: l => .ok (l.foldl (nlift f) x)

/-- `np.min`. -/
noncomputable def npMin (l : List Num) : Py Num := npFold min l

/-- `np.max`. -/
noncomputable def npMax (l : List Num) : Py Num := npFold max l

/-- Rebin parameters `(min, max, step)` as produced by `Scan.format_rebin_params`. -/
structure RebinParams where
  min : Option ℝ := none
  max : Option ℝ := none
  step : Option ℝ := none

/-- `np.min(self.x) if rebin_min is None else rebin_min`: scan_data.py:126-127 and the other copies of these lines. -/
def pickLimit (given : Option ℝ) (dflt : Py Num) : Py Num :=
  match given with
  | some m => .ok (some m)
  | none => dflt

/-- The lines shared (literally repeated) by all rebin functions: scan_data.py:125-130, 161-166, 187-192, 220-225,
308-314, 317-322, 355-361, 364-369.  Returns `rebin_min`, `rebin_step`, `ZERO` and `num`.
A missing step is a `TypeError` (`None / 100`); an undefined range is refused by `math.floor`; a zero step raises
(`ZeroDivisionError` for Python floats; `OverflowError`/`ValueError` from `math.floor` for numpy floats, not told apart). -/
noncomputable def binRange (xs : List Num) (p : RebinParams) : Py (ℝ × ℝ × ℝ × ℤ) := do
  let mn ← pickLimit p.min (npMin xs)
  let mx ← pickLimit p.max (npMax xs)
  let step ← need p.step .typeError
  let zero := step / 100
  let mn ← need mn .valueError
  let mx ← need mx .valueError
  if step = 0 then .error .zeroDivision
  else pure (mn, step, zero, ⌊(mx + zero - mn) / step⌋ + 1)

/-- The bin boundaries `x_boundary`: scan_data.py:132, 168, 194, 227, 315, 323, 362, 370. -/
noncomputable def binBoundary (mn step : ℝ) (num : ℤ) : Py (List ℝ) :=
  linspace (mn - step / 2) (mn + step * (num - 1 / 2)) (num + 1)

/-- `np.nanargmax(x_boundary - ZERO > x0)`: scan_data.py:140, 175, 201, 235, 336-337, 383-384.  The index of the first
`True`, or `0` when there is none; an empty array is a `ValueError`. -/
noncomputable def argmaxGt (bd : List ℝ) (zero : ℝ) (x0 : Num) : Py ℕ :=
  if bd = [] then .error .valueError
  else match x0 with
    | none => .ok 0
    | some x =>
      let i := bd.findIdx (fun b => decide (b - zero > x))
      if i < bd.length then .ok i else .ok 0

/-- `ScanData1D.__init__`, scan_data.py:12-28: the arrays of a curve and its optional normalisation column. -/
structure ScanData1D where
  x : List Num
  y : List Num
  err : List Num
  norm : Option (List Num) := none

/-- `ScanData1D(x, y, norm)`, scan_data.py:12-24. -/
noncomputable def ScanData1D.init (x y : List Num) (norm : Option (List Num) := none) : ScanData1D :=
  { x := x, y := y, err := y.map nsqrt, norm := norm }

/-- The choice of the normalisation column at the top of `renorm`, `rebin_tol`, `rebin_tol_renorm`, `rebin_grid_renorm`:
scan_data.py:105-110, 118-123, 154-159, 213-218, 295-300, 348-353. -/
def normCol (arg own : Option (List Num)) : Py (List Num) :=
  match arg with
  | some c => .ok c
  | none => match own with
    | some c => .ok c
    | none => .error .valueError

/-- Element-wise operation of two arrays of the same shape (numpy: `ValueError` otherwise).  Simplification: numpy
broadcasts an array of length one; here that is refused too. -/
def zipN (f : Num → Num → Num) (a b : List Num) : Py (List Num) :=
  if a.length = b.length then .ok (List.zipWith f a b) else .error .valueError

/-- `ScanData1D.renorm`, scan_data.py:102-113. -/
noncomputable def ScanData1D.renorm (d : ScanData1D) (col : Option (List Num)) (normVal : ℝ) : Py ScanData1D := do
  let c ← normCol col d.norm
  let y ← zipN ndiv d.y c
  let e ← zipN ndiv d.err c
  pure { d with y := y.map (nmul · (some normVal)), err := e.map (nmul · (some normVal)) }

/-- `a[k] += v` for an array `a`. -/
noncomputable def bump (a : List Num) (k : ℕ) (v : Num) : List Num := a.modify k (nadd · v)

/-- `np.zeros(n)`. -/
def zeros (n : ℕ) : List Num := List.replicate n (some 0)

/-- The loop of `rebin_tol`, scan_data.py:138-145.  The lists are `self.x`, `self.y` and `norm_col` from position `i` on;
the accumulators are `x`, `y`, `weights`, `counts`. -/
noncomputable def tolLoop (bd : List ℝ) (zero : ℝ) :
    List Num → List Num → List Num → (List Num × List Num × List Num × List Num) →
      Py (List Num × List Num × List Num × List Num)
  | [], _, _, acc => .ok acc
  | x0 :: xs, ys, ns, acc => do
    let idx ← argmaxGt bd zero x0
    if 0 < idx then
      let y0 ← need ys.head? .indexError
      let n0 ← need ns.head? .indexError
      let (x, y, w, c) := acc
      tolLoop bd zero xs ys.tail ns.tail
        (bump x (idx - 1) (nmul x0 n0), bump y (idx - 1) y0, bump w (idx - 1) n0, bump c (idx - 1) (some 1))
    else tolLoop bd zero xs ys.tail ns.tail acc

/-- `ScanData1D.rebin_tol`, scan_data.py:115-149. -/
noncomputable def ScanData1D.rebinTol (d : ScanData1D) (p : RebinParams) (col : Option (List Num)) : Py ScanData1D := do
  let c ← normCol col d.norm
  let (mn, step, zero, num) ← binRange d.x p
  let bd ← binBoundary mn step num
  let z := zeros bd.tail.length
  let (x, y, w, cnt) ← tolLoop bd zero d.x d.y c (z, z, z, z)
  pure { d with
    err := List.zipWith ndiv (y.map nsqrt) cnt
    y := List.zipWith ndiv y cnt
    x := List.zipWith ndiv x w }

/-- The loop of `rebin_tol_renorm`, scan_data.py:173-179. -/
noncomputable def tolRenormLoop (bd : List ℝ) (zero : ℝ) :
    List Num → List Num → List Num → (List Num × List Num × List Num) → Py (List Num × List Num × List Num)
  | [], _, _, acc => .ok acc
  | x0 :: xs, ys, ns, acc => do
    let idx ← argmaxGt bd zero x0
    if 0 < idx then
      let y0 ← need ys.head? .indexError
      let n0 ← need ns.head? .indexError
      let (x, y, w) := acc
      tolRenormLoop bd zero xs ys.tail ns.tail
        (bump x (idx - 1) (nmul x0 n0), bump y (idx - 1) y0, bump w (idx - 1) n0)
    else tolRenormLoop bd zero xs ys.tail ns.tail acc

/-- `ScanData1D.rebin_tol_renorm`, scan_data.py:151-183. -/
noncomputable def ScanData1D.rebinTolRenorm (d : ScanData1D) (p : RebinParams) (col : Option (List Num)) (normVal : ℝ) :
    Py ScanData1D := do
  let c ← normCol col d.norm
  let (mn, step, zero, num) ← binRange d.x p
  let bd ← binBoundary mn step num
  let z := zeros bd.tail.length
  let (x, y, w) ← tolRenormLoop bd zero d.x d.y c (z, z, z)
  pure { d with
    err := (List.zipWith ndiv (y.map nsqrt) w).map (nmul · (some normVal))
    y := (List.zipWith ndiv y w).map (nmul · (some normVal))
    x := List.zipWith ndiv x w }

/-- The loop of `rebin_grid`, scan_data.py:199-204. -/
noncomputable def gridLoop (bd : List ℝ) (zero : ℝ) :
    List Num → List Num → (List Num × List Num) → Py (List Num × List Num)
  | [], _, acc => .ok acc
  | x0 :: xs, ys, acc => do
    let idx ← argmaxGt bd zero x0
    if 0 < idx then
      let y0 ← need ys.head? .indexError
      let (y, c) := acc
      gridLoop bd zero xs ys.tail (bump y (idx - 1) y0, bump c (idx - 1) (some 1))
    else gridLoop bd zero xs ys.tail acc

/-- `ScanData1D.rebin_grid`, scan_data.py:185-208. -/
noncomputable def ScanData1D.rebinGrid (d : ScanData1D) (p : RebinParams) : Py ScanData1D := do
  let (mn, step, zero, num) ← binRange d.x p
  let bd ← binBoundary mn step num
  let x ← linspace mn (mn + step * (num - 1)) num
  let z := zeros x.length
  let (y, c) ← gridLoop bd zero d.x d.y (z, z)
  pure { d with
    x := x.map some
    err := List.zipWith ndiv (y.map nsqrt) c
    y := List.zipWith ndiv y c }

/-- The loop of `rebin_grid_renorm`, scan_data.py:234-239. -/
noncomputable def gridRenormLoop (bd : List ℝ) (zero : ℝ) :
    List Num → List Num → List Num → (List Num × List Num) → Py (List Num × List Num)
  | [], _, _, acc => .ok acc
  | x0 :: xs, ys, ns, acc => do
    let idx ← argmaxGt bd zero x0
    if 0 < idx then
      let y0 ← need ys.head? .indexError
      let n0 ← need ns.head? .indexError
      let (y, c) := acc
      gridRenormLoop bd zero xs ys.tail ns.tail (bump y (idx - 1) y0, bump c (idx - 1) n0)
    else gridRenormLoop bd zero xs ys.tail ns.tail acc

/-- `ScanData1D.rebin_grid_renorm`, scan_data.py:210-243. -/
noncomputable def ScanData1D.rebinGridRenorm (d : ScanData1D) (p : RebinParams) (col : Option (List Num))
    (normVal : ℝ) : Py ScanData1D := do
  let nc ← normCol col d.norm
  let (mn, step, zero, num) ← binRange d.x p
  let bd ← binBoundary mn step num
  let x ← linspace mn (mn + step * (num - 1)) num
  let z := zeros x.length
  let (y, c) ← gridRenormLoop bd zero d.x d.y nc (z, z)
  pure { d with
    x := x.map some
    err := (List.zipWith ndiv (y.map nsqrt) c).map (nmul · (some normVal))
    y := (List.zipWith ndiv y c).map (nmul · (some normVal)) }

/-- The result of `self - other`: the new curve and the states in which `self` and `other` are left (the code may
overwrite `other.y` and `other.err`). -/
structure SubResult where
  result : Py ScanData1D
  self : ScanData1D
  other : ScanData1D

/-- The test `x0 > x_max or x0 < x_min` of `__sub__`, scan_data.py:88 (comparisons with nan are false). -/
noncomputable def outside (xmin xmax x0 : Num) : Bool :=
  match x0 with
  | none => false
  | some x => (match xmax with | some m => decide (x > m) | none => false) ||
      (match xmin with | some m => decide (x < m) | none => false)

/-- `ScanData1D.__sub__`, scan_data.py:75-100.  In the branch for different lengths: `np.diff(self.x)[-1]` is an
`IndexError` for fewer than two points; the class attribute `ScanData1D.ZERO` does not exist, so the first point that is
in range raises an `AttributeError`; when no point is in range `other.y` and `other.err` are overwritten with `0/0`. -/
noncomputable def ScanData1D.sub (self other : ScanData1D) : SubResult :=
  if self.x.length ≠ other.x.length then
    if self.x.length < 2 then ⟨.error .indexError, self, other⟩
    else
      let iv := List.zipWith nsub self.x.tail self.x
      let xmin := nsub (self.x.head?.join) (ndiv iv.head?.join (some 2))
      let xmax := nadd (self.x.getLast?.join) (ndiv iv.getLast?.join (some 2))
      if other.x.any fun x0 => !(outside xmin xmax x0) then ⟨.error .attributeError, self, other⟩
      else
        let nans : List Num := List.replicate self.x.length none
        let other' := { other with y := nans, err := nans }
        ⟨do
          let y ← zipN nsub self.y other'.y
          let e ← zipN nadd (self.err.map fun a => nmul a a) (other'.err.map fun a => nmul a a)
          pure { ScanData1D.init self.x y with err := e.map nsqrt }, self, other'⟩
  else
    ⟨do
      let y ← zipN nsub self.y other.y
      let e ← zipN nadd (self.err.map fun a => nmul a a) (other.err.map fun a => nmul a a)
      pure { ScanData1D.init self.x y with err := e.map nsqrt }, self, other⟩

/-- `ScanData2D.__init__`, scan_data.py:249-264, for flat (one-dimensional) columns. -/
structure ScanData2D where
  x : List Num
  y : List Num
  z : List Num
  err : List Num
  norm : Option (List Num) := none

/-- `ScanData2D(x, y, z, norm)`. -/
noncomputable def ScanData2D.init (x y z : List Num) (norm : Option (List Num) := none) : ScanData2D :=
  { x := x, y := y, z := z, err := z.map nsqrt, norm := norm }

/-- `ScanData2D.renorm`, scan_data.py:294-303. -/
noncomputable def ScanData2D.renorm (d : ScanData2D) (col : Option (List Num)) (normVal : ℝ) : Py ScanData2D := do
  let c ← normCol col d.norm
  let z ← zipN ndiv d.z c
  let e ← zipN ndiv d.err c
  pure { d with z := z.map (nmul · (some normVal)), err := e.map (nmul · (some normVal)) }

/-- A two-dimensional array: list of rows. -/
abbrev Grid := List (List Num)

/-- Two-dimensional result of a 2D rebinning or reshaping. -/
structure Map2D where
  x : Grid
  y : Grid
  z : Grid
  err : Grid

/-- `a[i, j] += v`. -/
noncomputable def bump2 (a : Grid) (i j : ℕ) (v : Num) : Grid := a.modify i (fun r => bump r j v)

/-- `np.zeros((m, n))`. -/
def zeros2 (m n : ℕ) : Grid := List.replicate m (zeros n)

/-- Element-wise operation on 2D arrays of equal shape. -/
def zip2 (f : Num → Num → Num) (a b : Grid) : Grid := List.zipWith (List.zipWith f) a b

/-- Map over a 2D array. -/
def map2 (f : Num → Num) (a : Grid) : Grid := a.map (List.map f)

/-- The loop of `ScanData2D.rebin_grid`, scan_data.py:332-340. -/
noncomputable def grid2Loop (bx : List ℝ) (zx : ℝ) (by_ : List ℝ) (zy : ℝ) :
    List Num → List Num → List Num → (Grid × Grid) → Py (Grid × Grid)
  | [], _, _, acc => .ok acc
  | x0 :: xs, ys, zs, acc => do
    let y0 ← need ys.head? .indexError
    let idx ← argmaxGt bx zx x0
    let idy ← argmaxGt by_ zy y0
    if 0 < idx ∧ 0 < idy then
      let z0 ← need zs.head? .indexError
      let (z, c) := acc
      grid2Loop bx zx by_ zy xs ys.tail zs.tail
        (bump2 z (idx - 1) (idy - 1) z0, bump2 c (idx - 1) (idy - 1) (some 1))
    else grid2Loop bx zx by_ zy xs ys.tail zs.tail acc

/-- `ScanData2D.rebin_grid`, scan_data.py:305-345. -/
noncomputable def ScanData2D.rebinGrid (d : ScanData2D) (px py : RebinParams) : Py Map2D := do
  let (mx, sx, zx, nx) ← binRange d.x px
  let bx ← binBoundary mx sx nx
  let (my, sy, zy, ny) ← binRange d.y py
  let by_ ← binBoundary my sy ny
  let xl ← linspace mx (mx + sx * (nx - 1)) nx
  let yl ← linspace my (my + sy * (ny - 1)) ny
  let z0 := zeros2 xl.length yl.length
  let (z, c) ← grid2Loop bx zx by_ zy d.x d.y d.z (z0, z0)
  pure {
    x := xl.map fun a => yl.map fun _ => some a
    y := xl.map fun _ => yl.map some
    z := zip2 ndiv z c
    err := zip2 ndiv (map2 nsqrt z) c }

/-- The loop of `ScanData2D.rebin_grid_renorm`, scan_data.py:379-387. -/
noncomputable def grid2RenormLoop (bx : List ℝ) (zx : ℝ) (by_ : List ℝ) (zy : ℝ) :
    List Num → List Num → List Num → List Num → (Grid × Grid) → Py (Grid × Grid)
  | [], _, _, _, acc => .ok acc
  | x0 :: xs, ys, zs, ns, acc => do
    let y0 ← need ys.head? .indexError
    let idx ← argmaxGt bx zx x0
    let idy ← argmaxGt by_ zy y0
    if 0 < idx ∧ 0 < idy then
      let z0 ← need zs.head? .indexError
      let n0 ← need ns.head? .indexError
      let (z, c) := acc
      grid2RenormLoop bx zx by_ zy xs ys.tail zs.tail ns.tail
        (bump2 z (idx - 1) (idy - 1) z0, bump2 c (idx - 1) (idy - 1) n0)
    else grid2RenormLoop bx zx by_ zy xs ys.tail zs.tail ns.tail acc

/-- `ScanData2D.rebin_grid_renorm`, scan_data.py:347-393. -/
noncomputable def ScanData2D.rebinGridRenorm (d : ScanData2D) (px py : RebinParams) (col : Option (List Num))
    (normVal : ℝ) : Py Map2D := do
  let nc ← normCol col d.norm
  let (mx, sx, zx, nx) ← binRange d.x px
  let bx ← binBoundary mx sx nx
  let (my, sy, zy, ny) ← binRange d.y py
  let by_ ← binBoundary my sy ny
  let xl ← linspace mx (mx + sx * (nx - 1)) nx
  let yl ← linspace my (my + sy * (ny - 1)) ny
  let z0 := zeros2 xl.length yl.length
  let (z, c) ← grid2RenormLoop bx zx by_ zy d.x d.y d.z nc (z0, z0)
  pure {
    x := xl.map fun a => yl.map fun _ => some a
    y := xl.map fun _ => yl.map some
    z := map2 (nmul · (some normVal)) (zip2 ndiv z c)
    err := map2 (nmul · (some normVal)) (zip2 ndiv (map2 nsqrt z) c) }

end Tavi
