import Verif.Model.ScanData
import Verif.Model.Str
import Verif.Model.Utilities

/-!
# Model of `src/tavi/data/scan.py` (data access) and `src/tavi/data/scan_group.py`

A scan is its named columns plus the part of `scan_info` that the data access uses.  Columns are one-dimensional.
Titles and curve labels are not part of the result (only the exceptions raised while building them are modelled).
-/

namespace Tavi

open Classical

/-- The preset part of `ScanInfo`, scan.py:114-129: a "normal" scan has one channel and value, a "countfile" scan a list of
them (and of labels). -/
inductive Preset where
  | normal (channel : Str) (value : ℝ)
  | countfile (channels : List Str) (values : List ℝ) (labels : List Str)

/-- `Scan`, scan.py:83-86 with the `scan_info` of 112-145. -/
structure Scan where
  data : List (Str × List Num)
  scanNum : ℕ := 0
  defX : Str := "s1".toList
  defY : Str := "detector".toList
  preset : Preset

/-- `self.data[name]`. -/
def Scan.col (s : Scan) (name : Str) : Py (List Num) := need (lookupKey name s.data) .keyError

/-- What the user may pass as rebin parameters. -/
inductive RebinArg where
  | num (step : ℝ)
  | tup2 (min max : Option ℝ)
  | tup3 (min max step : Option ℝ)
  | tupOther (len : ℕ)
  | other
  
/-- `bool(rebin_params)`: zero and the empty tuple are falsy. `other` stands for truthy objects of an unsupported type. -/
noncomputable def RebinArg.truthy : RebinArg → Bool
  | .num s => decide (s ≠ 0)
  | .tup2 _ _ => true
  | .tup3 _ _ _ => true
  | .tupOther n => decide (n ≠ 0)
  | .other => true

/-- The checks at the end of `format_rebin_params`, scan.py:216-221. -/
noncomputable def checkRebin (p : RebinParams) : Py RebinParams :=
  let bad : Prop := match p.min, p.max with
    | some a, some b => a ≥ b
    | _, _ => False
  let neg : Prop := match p.step with
    | some s => s < 0
    | none => False
  if bad then .error .valueError
  else if neg then .error .valueError
  else .ok p

/-- `Scan.format_rebin_params`, scan.py:198-221. -/
noncomputable def formatRebin : RebinArg → Py RebinParams
  | .tup3 a b c => checkRebin ⟨a, b, c⟩
  | .tup2 a b => checkRebin ⟨a, b, none⟩
  | .tupOther _ => .error .valueError
  | .num s => checkRebin ⟨none, none, some s⟩
  | .other => .error .valueError

/-- The kind of rebinning chosen by the loop at scan.py:295-298 and scan_group.py:80-83: `grid` if given, else `tol`.
Returns whether it is a grid request, and the parameters. -/
def chooseRebin (grid tol : Option RebinArg) : Bool × Option RebinArg :=
  match grid with
  | some g => (true, some g)
  | none => (false, tol)

/-- `not rebin_params`. -/
noncomputable def isFalsy : Option RebinArg → Bool
  | none => true
  | some a => !a.truthy

/-- The angle name in `"del_q(name)"`: `re.match(r"(.+)\((.+)\)", ax_str).groups()[-1]`, scan.py:253.  The first group is
greedy, so the last `(` with something before it and something before the last `)` after it is taken. -/
def parenName (s : Str) : Option Str :=
  let lastClose : Option ℕ := (List.range s.length).reverse.find? fun j => s[j]? == some ')'
  match lastClose with
  | none => none
  | some j =>
    match (List.range s.length).reverse.find? fun i => s[i]? == some '(' && decide (1 ≤ i ∧ i + 2 ≤ j) with
    | none => none
    | some i => some ((s.take j).drop (i + 1))

/-- The q values of `_get_del_q`, scan.py:225-242. An undefined number in these columns is a `nonFinite` outcome. -/
noncomputable def Scan.qs (s : Scan) : Py (List Num) :=
  match lookupKey "q".toList s.data with
  | some q => .ok q
  | none => do
    let eis ← need (lookupKey "ei".toList s.data) .typeError
    let efs ← match lookupKey "ef".toList s.data with
      | some c => (pure (some c) : Py (Option (List Num)))
      | none => match lookupKey "en".toList s.data with
        | some c => some <$> zipN nsub eis c
        | none => pure none
    let tts : Option (List Num) := match lookupKey "s2".toList s.data with
      | some c => some c
      | none => lookupKey "2theta".toList s.data
    let kis ← eis.mapM fun e => do en2q (← need e .nonFinite)
    let efs ← need efs .typeError
    let kfs ← efs.mapM fun e => do en2q (← need e .nonFinite)
    let tts ← need tts .typeError
    ((kis.zip kfs).zip tts).mapM fun kkt => do
      let tt ← need kkt.2 .nonFinite
      some <$> sideFromTriangle kkt.1.1 kkt.1.2 (deg2rad tt)

/-- `Scan._get_del_q`, scan.py:223-259. -/
noncomputable def Scan.getDelQ (s : Scan) (ax : Str) : Py (List Num) := do
  let qs ← s.qs
  let mx ← npMax qs
  let mn ← npMin qs
  let mid := (qs.length - 1) / 2
  let changing : Prop := match nsub mx mn with
    | some d => d > 1.1e-4
    | none => False
  if changing then
    let q0 ← need qs[mid]? .indexError
    pure (qs.map (nsub · q0))
  else
    let qAbs := ndiv (qs.foldl nadd (some 0)) (some qs.length)
    let name ← need (parenName ax) .attributeError
    let angles ← s.col (strip name)
    let a0 ← need angles[mid]? .indexError
    pure (angles.map fun a => nmul (Option.map deg2rad (nsub a a0)) qAbs)

/-- The curve label built at scan.py:288-292; only its exceptions matter. -/
def Scan.labelOk (s : Scan) (y : Str) : Py Unit :=
  let pieces := splitChar '_' y
  if pieces.length > 1 then do
    let k ← pyInt (pieces.getLast?.getD [])
    match s.preset with
    | .normal _ _ => .error .indexError
    | .countfile _ _ labels => do
      let _ ← pyIndex labels (k - 1)
      pure ()
  else
    match s.preset with
    | .normal _ _ => .ok ()
    | .countfile _ _ _ => .error .typeError

/-- The axis label built by `make_labels`, scan_data.py:30-45, from the preset of the scan: adding a list of channels to a
string is a `TypeError`. -/
def presetLabelOk : Preset → Py Unit
  | .normal _ _ => .ok ()
  | .countfile _ _ _ => .error .typeError

/-- `Scan.get_data`, scan.py:261-341. -/
noncomputable def Scan.getData (s : Scan) (xAxis yAxis : Option Str) (normTo : Option (ℝ × Str))
    (grid tol : Option RebinArg) : Py ScanData1D := do
  let xs := xAxis.getD s.defX
  let ys := yAxis.getD s.defY
  let x ← if isSubstr "del_q".toList xs then s.getDelQ xs else s.col xs
  let y ← s.col ys
  let d := ScanData1D.init x y
  s.labelOk ys
  let (isGrid, params) := chooseRebin grid tol
  if isFalsy params then
    match normTo with
    | some (v, ch) => do
      let c ← s.col ch
      d.renorm (some (c.map fun n => ndiv n (some v))) 1
    | none => do
      presetLabelOk s.preset
      pure d
  else do
    let arg ← need params .typeError
    let p ← formatRebin arg
    match isGrid, normTo with
    | false, none => do
      let ch ← match s.preset with
        | .normal ch _ => (pure ch : Py Str)
        | .countfile _ _ _ => .error .typeError
      let c ← s.col ch
      d.rebinTol p (some c)
    | false, some (v, ch) => do
      let c ← s.col ch
      d.rebinTolRenorm p (some c) v
    | true, none => do
      let r ← d.rebinGrid p
      presetLabelOk s.preset
      pure r
    | true, some (v, ch) => do
      let c ← s.col ch
      d.rebinGridRenorm p (some c) v

/-- `ScanGroup._get_default_renorm_params`, scan_group.py:41-53. Lists of presets cannot be put in a set. -/
noncomputable def defaultRenorm (scans : List Scan) : Py (ℝ × Str) := do
  let l ← scans.mapM fun s => match s.preset with
    | .normal ch v => (pure (v, ch) : Py (ℝ × Str))
    | .countfile _ _ _ => .error .typeError
  match l with
  | [] => .error .valueError
  | p :: ps => if ∀ q ∈ ps, q = p then pure p else .error .valueError

/-- Columns of all scans appended, scan_group.py:55-59, 73-76. -/
def groupCol (scans : List Scan) (name : Str) : Py (List Num) := do
  let l ← scans.mapM fun s => s.col name
  pure l.flatten

/-- `ScanGroup._combine_data_1d`, scan_group.py:61-123.  (The x and y columns are read scan by scan; a missing column
is a `KeyError` in either order.) -/
noncomputable def combine1D (scans : List Scan) (xAxis yAxis : Str) (normTo : Option (ℝ × Str))
    (grid tol : Option RebinArg) : Py ScanData1D := do
  let x ← groupCol scans xAxis
  let y ← groupCol scans yAxis
  let d := ScanData1D.init x y
  let (isGrid, params) := chooseRebin grid tol
  if isFalsy params then
    match normTo with
    | some (v, ch) => do
      let c ← groupCol scans ch
      d.renorm (some c) v
    | none => do
      let _ ← defaultRenorm scans
      pure d
  else do
    let arg ← need params .typeError
    let p ← formatRebin arg
    match isGrid, normTo with
    | false, none => do
      let (_, ch) ← defaultRenorm scans
      let c ← groupCol scans ch
      d.rebinTol p (some c)
    | false, some (v, ch) => do
      let c ← groupCol scans ch
      d.rebinTolRenorm p (some c) v
    | true, none => do
      let _ ← defaultRenorm scans
      d.rebinGrid p
    | true, some (v, ch) => do
      let c ← groupCol scans ch
      d.rebinGridRenorm p (some c) v

/-- `ScanGroup.combine_data` without axes, scan_group.py:238-246: the default axes must agree. -/
noncomputable def combineDefault (scans : List Scan) (normTo : Option (ℝ × Str)) (grid tol : Option RebinArg) :
    Py ScanData1D :=
  match scans with
  | [] => .error .valueError
  | s :: ss =>
    if (∀ t ∈ ss, t.defX = s.defX) ∧ (∀ t ∈ ss, t.defY = s.defY) then
      combine1D (s :: ss) s.defX s.defY normTo grid tol
    else .error .valueError

/-- `a[i : i + n] = col`: numpy refuses a wrong length, except that a single value is broadcast. -/
def fillSlice (n : ℕ) (c : List Num) : Py (List Num) :=
  if c.length = n then .ok c
  else match c with
    | [v] => .ok (List.replicate n v)
    | _ => .error .valueError

/-- `arr.reshape((m, n))`: rows of length `n`. -/
def reshape (m n : ℕ) (l : List Num) : Py Grid :=
  if l.length = m * n then .ok ((List.range m).map fun i => (l.drop (i * n)).take n) else .error .valueError

/-- What the user may pass as `grid` to the 2D combination. -/
inductive Grid2Arg where
  | pair (a b : RebinArg)
  | num (x : ℝ)
  | tupOther (len : ℕ)

/-- Flat columns of `_combine_data_2d`, scan_group.py:141-157. The number of points is counted first, which needs `x` of all scans. -/
noncomputable def flatCols (scans : List Scan) (x y z : Str) : Py (List Num × List Num × List Num) := do
  let _ ← groupCol scans x
  let l ← scans.mapM fun s => do
    let cx ← s.col x
    let cy ← s.col y
    let cy ← fillSlice cx.length cy
    let cz ← s.col z
    let cz ← fillSlice cx.length cz
    pure (cx, cy, cz)
  pure ((l.map (·.1)).flatten, (l.map (·.2.1)).flatten, (l.map (·.2.2)).flatten)

/-- The branch of `_combine_data_2d` without rebinning, scan_group.py:162-188. The last scan decides which axis is the scanned
one; both cases give the shape `(num_scans, total_points // num_scans)`. -/
noncomputable def combine2DRaw (scans : List Scan) (x y z : Str) (normTo : Option (ℝ × Str)) : Py Map2D := do
  let (cx, cy, cz) ← flatCols scans x y z
  let d := ScanData2D.init cx cy cz
  let last ← need scans.getLast? .unboundLocal
  if last.defX = x ∨ last.defX = y then
    let d ← match normTo with
      | some (v, ch) => do
        let c ← groupCol scans ch
        d.renorm (some c) v
      | none => do
        let _ ← defaultRenorm scans
        pure d
    let m := scans.length
    let n := cx.length / scans.length
    let gx ← reshape m n d.x
    let gy ← reshape m n d.y
    let gz ← reshape m n d.z
    let ge ← reshape m n d.err
    pure { x := gx, y := gy, z := gz, err := ge }
  else .error .valueError

/-- The branch of `_combine_data_2d` with rebinning, scan_group.py:190-204. -/
noncomputable def combine2DRebin (scans : List Scan) (x y z : Str) (normTo : Option (ℝ × Str)) (a b : RebinArg) :
    Py Map2D := do
  let (cx, cy, cz) ← flatCols scans x y z
  let d := ScanData2D.init cx cy cz
  let pa ← formatRebin a
  let pb ← formatRebin b
  match normTo with
  | none => do
    let _ ← defaultRenorm scans
    d.rebinGrid pa pb
  | some (v, ch) => do
    let c ← groupCol scans ch
    d.rebinGridRenorm pa pb (some c) v

/-- `ScanGroup._combine_data_2d`, scan_group.py:125-204. -/
noncomputable def combine2D (scans : List Scan) (x y z : Str) (normTo : Option (ℝ × Str)) (grid : Option Grid2Arg) :
    Py Map2D :=
  match grid with
  | none => combine2DRaw scans x y z normTo
  | some (.num r) => if r = 0 then combine2DRaw scans x y z normTo else do
      let _ ← flatCols scans x y z
      .error .typeError
  | some (.tupOther 0) => combine2DRaw scans x y z normTo
  | some (.tupOther _) => do
      let _ ← flatCols scans x y z
      .error .valueError
  | some (.pair a b) => combine2DRebin scans x y z normTo a b

/-- An entry of the `axes` argument of `combine_data_hkle`: a projection vector or a name. -/
inductive AxisItem where
  | vec (v : V3)
  | name (s : Str)

/-- `axes.index("en")`. -/
noncomputable def enIndex (axes : List AxisItem) : Py ℕ :=
  let i := axes.findIdx fun a => match a with
    | .name s => decide (s = "en".toList)
    | .vec _ => false
  if i < axes.length then .ok i else .error .valueError

/-- `isinstance(g, tuple) and len(g) == 2`. -/
def isPair : RebinArg → Bool
  | .tup2 _ _ => true
  | _ => false

/-- The loop at scan_group.py:257-260 and 273-277: the positions among the first four that are not integrated. -/
def toPlot (grid : List RebinArg) : Py (List ℕ) := do
  let l ← (List.range 4).mapM fun i => do
    let g ← need grid[i]? .indexError
    pure (i, g)
  pure ((l.filter fun ig => !(isPair ig.2)).map (·.1))

/-- The reordering of `combine_data_hkle`, scan_group.py:257-282: energy moved to the last place. Returns the axes, the grid
and the positions to plot. -/
noncomputable def reorder (axes : List AxisItem) (grid : List RebinArg) : Py (List AxisItem × List RebinArg × ℕ × ℕ) := do
  let plot ← toPlot grid
  let en ← enIndex axes
  let first ← need plot.head? .indexError
  let swap := decide (en = first)
  let ea ← need axes[en]? .indexError
  let eg ← need grid[en]? .indexError
  let axes := axes.eraseIdx en
  let grid := grid.eraseIdx en
  let axes := axes.take (axes.length - 1) ++ ea :: axes.drop (axes.length - 1)
  let grid := grid ++ [eg]
  let plot ← toPlot grid
  let plot := if swap then plot.reverse else plot
  match plot with
  | [a, b] => pure (axes, grid, a, b)
  | _ => .error .valueError

/-- The rows used by `combine_data_hkle`, scan_group.py:287-313: `(qh, qk, ql, en, detector, monitor)`. -/
def hkleRows (scans : List Scan) (z norm : Str) : Py (List (List Num)) := do
  let l ← scans.mapM fun s => do
    let cz ← s.col z
    let n := cz.length
    let h ← s.col "qh".toList
    let h ← fillSlice n h
    let k ← s.col "qk".toList
    let k ← fillSlice n k
    let l ← s.col "ql".toList
    let l ← fillSlice n l
    let e ← s.col "en".toList
    let e ← fillSlice n e
    let m ← s.col norm
    let m ← fillSlice n m
    pure [h, k, l, e, cz, m]
  pure ((List.range 6).map fun i => (l.map fun r => r.getD i []).flatten)

/-- One row of `w_mat_inv @ np.vstack((qh, qk, ql))`. -/
noncomputable def projRow (w : M3) (i : Fin 3) (h k l : List Num) : List Num :=
  List.zipWith (fun (hk : Num × Num) l =>
    nadd (nadd (nmul (some (w i 0)) hk.1) (nmul (some (w i 1)) hk.2)) (nmul (some (w i 2)) l)) (h.zip k) l

/-- `(arr > rebin_min) & (arr < rebin_max)`, scan_group.py:338; comparing with `None` is a `TypeError`, comparisons with nan
are false. -/
noncomputable def inside (p : RebinParams) (arr : List Num) : Py (List Bool) := do
  let a ← need p.min .typeError
  let b ← need p.max .typeError
  pure (arr.map fun x => match x with
    | some x => decide (a < x ∧ x < b)
    | none => false)

/-- `arr[mask]`. -/
def applyMask (mask : List Bool) (arr : List Num) : List Num :=
  ((arr.zip mask).filter (·.2)).map (·.1)

/-- `z_axis = axes[-1]` used as a column name, scan_group.py:284-286. -/
def lastName (axes : List AxisItem) : Py Str :=
  match axes.getLast? with
  | some (.name z) => .ok z
  | _ => .error .keyError

/-- `norm_to`, or the preset when it is `None`, scan_group.py:297-299. -/
noncomputable def pickNorm (scans : List Scan) (normTo : Option (ℝ × Str)) : Py (ℝ × Str) :=
  match normTo with
  | some n => .ok n
  | none => defaultRenorm scans

/-- `np.linalg.inv(w_mat.T)` for the projection vectors among the axes, scan_group.py:315-319. -/
noncomputable def projInv (axes : List AxisItem) : Py M3 :=
  match axes.filterMap fun a => match a with
    | .vec v => some v
    | .name _ => none with
  | [a, b, c] => if (colMat a b c).det = 0 then .error .valueError else .ok (colMat a b c)⁻¹
  | _ => .error .valueError

/-- `combine_data_hkle`, scan_group.py:248-378. `normTo = none` means the explicit value `None`. Labels and title are not
modelled. -/
noncomputable def combineHkle (scans : List Scan) (grid : List RebinArg) (axes : List AxisItem)
    (normTo : Option (ℝ × Str)) : Py Map2D := do
  let (axes, grid, ax, ay) ← reorder axes grid
  let z ← lastName axes
  let _ ← groupCol scans z
  let (v, ch) ← pickNorm scans normTo
  let rows ← hkleRows scans z ch
  let wi ← projInv axes
  let h := rows.getD 0 []
  let k := rows.getD 1 []
  let l := rows.getD 2 []
  let qe : List (List Num) := [projRow wi 0 h k l, projRow wi 1 h k l, projRow wi 2 h k l, rows.getD 3 []]
  let params ← grid.mapM formatRebin
  let masks ← ((List.range 4).filter fun i => decide (i ≠ ax ∧ i ≠ ay)).mapM fun i =>
    inside (params.getD i {}) (qe.getD i [])
  let mask := masks.foldl (fun m m' => List.zipWith (· && ·) m m') ((rows.getD 3 []).map fun _ => true)
  let d := ScanData2D.init (applyMask mask (qe.getD ax [])) (applyMask mask (qe.getD ay []))
    (applyMask mask (rows.getD 4 [])) (some (applyMask mask (rows.getD 5 [])))
  d.rebinGridRenorm (params.getD ax {}) (params.getD ay {}) none v

end Tavi
