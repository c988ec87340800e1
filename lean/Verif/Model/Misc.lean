import Verif.Model.Utilities
import Verif.Model.Str

/-!
# Model of smaller parts: plot axes, axis labels, comparison of motor positions, instrument components

`src/tavi/plotter.py` (the two coordinate transforms), `src/tavi/utilities.py` (`labels_from_projection`,
`MotorAngles.__eq__`), `src/tavi/instrument/components/*.py` (unit conversions).
-/

namespace Tavi

/-! ## Plot axes -/

/-- `y / np.tan(angle / 180 * np.pi)`, plotter.py:18, 23. Where the tangent is infinite the quotient is zero (`y cos / sin`);
where it is zero numpy gives inf or nan. -/
noncomputable def plotOverTan (y angle : ℝ) : Py ℝ :=
  let a := angle / 180 * Real.pi
  if Real.sin a = 0 then .error .nonFinite else .ok (y * Real.cos a / Real.sin a)

/-- `tr`, plotter.py:16-18, for one point. -/
noncomputable def tr (x y angle : ℝ) : Py (ℝ × ℝ) := (plotOverTan y angle).map fun t => (x + t, y)

/-- `inv_tr`, plotter.py:21-23, for one point. -/
noncomputable def invTr (x y angle : ℝ) : Py (ℝ × ℝ) := (plotOverTan y angle).map fun t => (x - t, y)

/-! ## Axis labels -/

/-- An entry of a projection vector: a Python `int` or a (finite) `float`. -/
inductive LabelNum where
  | int (n : ℤ)
  | float (q : ℚ)
  deriving DecidableEq

/-- The value of an entry. -/
def LabelNum.val : LabelNum → ℚ
  | .int n => n
  | .float q => q

/-- An axis: `"en"` or a vector of three entries. -/
inductive LabelAxis where
  | en
  | vec (a b c : LabelNum)
  deriving DecidableEq

/-- The entries of a vector. -/
def LabelAxis.entries : LabelAxis → List LabelNum
  | .en => []
  | .vec a b c => [a, b, c]

/-- `p == q` for axes: numbers are compared by value. -/
def LabelAxis.same (p q : LabelAxis) : Bool :=
  match p, q with
  | .en, .en => true
  | .vec a b c, .vec a' b' c' => decide (a.val = a'.val) && decide (b.val = b'.val) && decide (c.val = c'.val)
  | _, _ => false

/-- `((1, 0, 0), (0, 1, 0), (0, 0, 1), "en")`, utilities.py:239, 242 -/
def defaultAxes : List LabelAxis :=
  [.vec (.int 1) (.int 0) (.int 0), .vec (.int 0) (.int 1) (.int 0), .vec (.int 0) (.int 0) (.int 1), .en]

/-- `axes == (…)`, utilities.py:242 -/
def sameAxes : List LabelAxis → List LabelAxis → Bool
  | [], [] => true
  | p :: ps, q :: qs => p.same q && sameAxes ps qs
  | _, _ => false

/-- `next((i for i, v in enumerate(p) if v != 0), -1)`, utilities.py:256, with 3 for -1: `(-1 + 1) % 3 = 0`,
`(-1 + 2) % 3 = 1` and `(2 + 1) % 3 = 0`, `(2 + 2) % 3 = 1` agree, and 3 is no key. -/
def firstNonzero (a b c : LabelNum) : ℕ := if a.val ≠ 0 then 0 else if b.val ≠ 0 then 1 else if c.val ≠ 0 then 2 else 3

/-- The letter of `hkl_dict` under a key, utilities.py:249 -/
def hklLetter : ℕ → Char
  | 0 => 'H'
  | 1 => 'K'
  | _ => 'L'

/-- Utilities.py:257-264: choose a key of `hkl_dict` (the list of keys left). -/
def chooseKey (left : List ℕ) (idx : ℕ) : Py ℕ :=
  let next1 := if idx = 3 then 0 else (idx + 1) % 3
  let next2 := if idx = 3 then 1 else (idx + 2) % 3
  if idx ∈ left then .ok idx
  else if next1 ∈ left then .ok next1
  else if next2 ∈ left then .ok next2
  else .error .indexError

/-- `f"{num}"` for an integer. -/
def intStr (n : ℤ) : Str := if 0 ≤ n then decStr n.toNat else '-' :: decStr (-n).toNat

/-- One entry, utilities.py:269-280. `fmt3` is `f"{x:.3f}"`. -/
def labelEntry (fmt3 : ℚ → Str) (letter : Char) (v : LabelNum) : Str :=
  let isInt := match v with | .int _ => true | .float q => decide (q.den = 1)
  if isInt then
    let num := v.val.num
    if num = 0 then "0".toList
    else if num = 1 then [letter]
    else if num = -1 then ['-', letter]
    else intStr num ++ [letter]
  else fmt3 v.val ++ [letter]

/-- The label of a vector, utilities.py:266-284. -/
def labelVec (fmt3 : ℚ → Str) (letter : Char) (a b c : LabelNum) : Str :=
  "(".toList ++ labelEntry fmt3 letter a ++ ", ".toList ++ labelEntry fmt3 letter b ++ ", ".toList ++
    labelEntry fmt3 letter c ++ ") (r.l.u.)".toList

/-- The loop over the axes, utilities.py:251-285; `left` are the keys of `hkl_dict`. -/
def labelLoop (fmt3 : ℚ → Str) : List ℕ → List LabelAxis → Py (List Str)
  | _, [] => .ok []
  | left, .en :: rest => (labelLoop fmt3 left rest).map fun ls => "E (meV)".toList :: ls
  | left, .vec a b c :: rest =>
    chooseKey left (firstNonzero a b c) >>= fun k =>
    (labelLoop fmt3 (left.erase k) rest).map fun ls => labelVec fmt3 (hklLetter k) a b c :: ls

/-- `labels_from_projection`, utilities.py:239-287. -/
def labelsFromProjection (fmt3 : ℚ → Str) (axes : Option (List LabelAxis)) : Py (List Str) :=
  match axes with
  | none => .ok ["Q_para (A^-1)".toList, "Q_perp (A^-1)".toList, "Q_up (A^-1)".toList, "E (meV)".toList]
  | some axes =>
    if sameAxes axes defaultAxes then
      .ok ["(H, 0, 0) (r.l.u.)".toList, "(0, K, 0) (r.l.u.)".toList, "(0, 0, L) (r.l.u.)".toList, "E (meV)".toList]
    else labelLoop fmt3 [0, 1, 2] axes

/-! ## Motor positions -/

/-- `_asdict().items()` in the order of the fields, utilities.py:38-43. -/
def MotorAngles.fields (m : MotorAngles) : List (Option ℝ) := [some m.twoTheta, m.omega, m.sgl, m.sgu, m.chi, m.phi]

/-- `np.allclose(value, other, atol=1e-1)`, utilities.py:54: `|a - b| <= atol + rtol * |b|` with `rtol = 1e-5`. `None` cannot be
compared. -/
noncomputable def allclose1 (a : ℝ) : Option ℝ → Py Bool
  | none => .error .typeError
  | some b => .ok (decide (|a - b| ≤ 1e-1 + 1e-5 * |b|))

/-- The loop of `MotorAngles.__eq__`, utilities.py:51-58. -/
noncomputable def motorEqLoop : List (Option ℝ × Option ℝ) → Py Bool
  | [] => .ok true
  | (none, _) :: rest => motorEqLoop rest
  | (some a, b) :: rest => allclose1 a b >>= fun close => if close then motorEqLoop rest else .ok false

/-- `MotorAngles.__eq__`, utilities.py:51-58. -/
noncomputable def MotorAngles.eq (m other : MotorAngles) : Py Bool := motorEqLoop (m.fields.zip other.fields)

open Classical in
/-- `m != other`: the class defines `__eq__` only, so `!=` is that of `tuple`, which compares the entries exactly. -/
noncomputable def MotorAngles.ne (m other : MotorAngles) : Bool := decide (m.fields ≠ other.fields)

/-! ## Instrument components -/

/-- `TASComponent._min2rad`, component_base.py:42-51. -/
noncomputable def min2radOpt (a : Option ℝ) : Option ℝ := a.map fun a => deg2rad (a / 60)

/-- `TASComponent._cm2angstrom`, component_base.py:78-90; `cm2angstrom = 1e8`. -/
noncomputable def cm2angstromOpt (l : Option ℝ) : Option ℝ := l.map fun l => l * 1e8

/-- `TASComponent._cm2angstrom_given_shape`, component_base.py:53-76. -/
noncomputable def cm2angstromShape (l : Option ℝ) (shape : Str) : Option ℝ :=
  match l with
  | none => none
  | some l =>
    if shape = "rectangular".toList then some (l / Real.sqrt 12 * 1e8)
    else if shape = "circular".toList ∨ shape = "spherical".toList then some (l / 4 * 1e8)
    else none

/-- `Distances`, component_base.py:93-107. -/
structure Distances where
  srcMono : Option ℝ := none
  monoSample : Option ℝ := none
  sampleAna : Option ℝ := none
  anaDet : Option ℝ := none
  monoMonitor : Option ℝ := none

/-- `Distances._src_mono`, component_base.py:109-111. -/
noncomputable def Distances.srcMonoA (d : Distances) : Option ℝ := cm2angstromOpt d.srcMono
/-- `Distances._mono_sample`, component_base.py:113-115. -/
noncomputable def Distances.monoSampleA (d : Distances) : Option ℝ := cm2angstromOpt d.srcMono
/-- `Distances._sample_ana`, component_base.py:117-119. -/
noncomputable def Distances.sampleAnaA (d : Distances) : Option ℝ := cm2angstromOpt d.srcMono
/-- `Distances._ana_det`, component_base.py:121-123. -/
noncomputable def Distances.anaDetA (d : Distances) : Option ℝ := cm2angstromOpt d.srcMono
/-- `Distances._mono_monitor`, component_base.py:125-127. -/
noncomputable def Distances.monoMonitorA (d : Distances) : Option ℝ := cm2angstromOpt d.srcMono

/-- `Collimators`, collimators.py:12-27. -/
structure CollimatorParams where
  hPreMono : ℝ := 30
  hPreSample : ℝ := 30
  hPostSample : ℝ := 30
  hPostAna : ℝ := 30
  vPreMono : ℝ := 30
  vPreSample : ℝ := 30
  vPostSample : ℝ := 30
  vPostAna : ℝ := 30

/-- `horizontal_divergence`, collimators.py:32-40. -/
def CollimatorParams.horizontal (c : CollimatorParams) : List ℝ := [c.hPreMono, c.hPreSample, c.hPostSample, c.hPostAna]

/-- `_horizontal_divergence`, collimators.py:42-50. -/
noncomputable def CollimatorParams.horizontalRad (c : CollimatorParams) : List ℝ :=
  [deg2rad (c.hPreMono / 60), deg2rad (c.hPreSample / 60), deg2rad (c.hPostSample / 60), deg2rad (c.hPostAna / 60)]

/-- `vertical_divergence`, collimators.py:52-60. -/
def CollimatorParams.vertical (c : CollimatorParams) : List ℝ := [c.vPreMono, c.vPreSample, c.vPostSample, c.vPostAna]

/-- `_vertical_divergence`, collimators.py:62-70. -/
noncomputable def CollimatorParams.verticalRad (c : CollimatorParams) : List ℝ :=
  [deg2rad (c.vPreMono / 60), deg2rad (c.vPreSample / 60), deg2rad (c.vPostSample / 60), deg2rad (c.vPostAna / 60)]

/-- A component with a shape and sizes: `Source`, `Detector`, `Monitor` (no depth) and `MonoAna`. source.py:16-30,
detector.py:21-35, monitor.py:21-35, mono_ana.py:46-51, 85-98. -/
structure Sized where
  shape : Str := "rectangular".toList
  width : Option ℝ := none
  height : Option ℝ := none
  depth : Option ℝ := none

/-- `_width` -/
noncomputable def Sized.widthA (s : Sized) : Option ℝ := cm2angstromShape s.width s.shape
/-- `_height` -/
noncomputable def Sized.heightA (s : Sized) : Option ℝ := cm2angstromShape s.height s.shape
/-- `_depth` (`MonoAna` only) -/
noncomputable def Sized.depthA (s : Sized) : Option ℝ := cm2angstromShape s.depth s.shape

/-- The components a configuration can name and the attributes of the instrument they are stored in,
tas_base.py:57-72: the attribute has the name of the entry. -/
def componentNames : List Str :=
  ["source".toList, "collimators".toList, "guide".toList, "monochromator".toList, "monitor".toList, "goniometer".toList,
   "analyzer".toList, "detector".toList, "distances".toList]

/-- `TASBase.__init__`, tas_base.py:37-54: the attributes set at the start. -/
def tasBaseAttrs (P : Type) : List (Str × Option P) :=
  ["source".toList, "guide".toList, "monitor".toList, "detector".toList, "arms".toList].map fun n => (n, none)

/-- One turn of the loop, tas_base.py:69-72. -/
def loadComponent {P : Type} (config : List (Str × P)) (attrs : List (Str × Option P)) (name : Str) : List (Str × Option P) :=
  match lookupKey name config with
  | none => attrs
  | some p => assocSet attrs name (some p)

/-- `TASBase._load_instrument_parameters`, tas_base.py:56-72; `P` stands for the parameters of a component. -/
def loadInstrument {P : Type} (attrs : List (Str × Option P)) (config : List (Str × P)) : List (Str × Option P) :=
  componentNames.foldl (loadComponent config) attrs

end Tavi
