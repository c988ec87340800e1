import Verif.Model.Tas
import Verif.Model.Misc

/-!
# Model of what is shown of an orientation and of a set of angles: `UBConf.__repr__` (`ub_algorithm.py` lines 105-130) and
`MotorAngles.__repr__` (`utilities.py` lines 45-49)

Given: the text numpy makes of a matrix or vector (`np.array2string` with the options of lines 122-127), the text Python makes of the
indices of a peak (`str(peak.hkl)`) and of an angle (`f"{x:.4g}"`). The attributes are shown in the order in which they were first set
(`__dict__`), so this order is a parameter.
-/

namespace Tavi

open Matrix

/-- Texts of matrices, vectors and indices. -/
structure ArrFmt where
  mat : M3 → Str
  vec : V3 → Str
  hkl : V3 → Str

/-- The attributes an instance of `UBConf` can have in its `__dict__`, ub_algorithm.py lines 37-45. -/
inductive UBKey where
  | convention
  | bMat
  | ubMat
  | uMat
  | planeNormal
  | inPlaneRef
  | ubPeaks
  deriving DecidableEq

/-- `.replace("\n", "")`, ub_algorithm.py line 128. -/
def oneLine (s : Str) : Str := s.filter (· ≠ '\n')

/-- Line 129: one attribute (the name without its underscore, line 121). -/
def arrayLine (name : String) (s : Str) : Str := name.toList ++ "=".toList ++ oneLine s ++ "\n".toList

/-- `ub_peaks`, lines 112-117. -/
def peaksText (F : ArrFmt) (ps : List Peak) : Str :=
  "UB matrix determined from ".toList ++ decStr ps.length ++ " peaks: ".toList ++ ps.flatMap fun p => F.hkl p.hkl ++ ", ".toList

/-- A stored matrix is converted before it is shown, lines 119-121; `None` is passed over. -/
def shownM (F : ArrFmt) (c : UBConf) (name : String) : Option M3 → Py Str
  | none => .ok []
  | some m => do return arrayLine name (F.mat (← c.fromMantidM m))

/-- The same for a vector. -/
def shownV (F : ArrFmt) (c : UBConf) (name : String) : Option V3 → Py Str
  | none => .ok []
  | some v => do return arrayLine name (F.vec (← c.fromMantidV v))

/-- The text of one attribute, lines 107-129. `b_mat` is shown as it is. -/
def keyText (F : ArrFmt) (c : UBConf) : UBKey → Py Str
  | .convention => .ok ("UBconf using ".toList ++ c.convention ++ " convention.\n".toList)
  | .ubPeaks => need c.ubPeaks .typeError >>= fun ps => .ok (peaksText F ps)
  | .bMat => .ok ((c.bMat.map fun m => arrayLine "b_mat" (F.mat m)).getD [])
  | .ubMat => shownM F c "ub_mat" c.ubMat
  | .uMat => shownM F c "u_mat" c.uMat
  | .planeNormal => shownV F c "plane_normal" c.planeNormal
  | .inPlaneRef => shownV F c "in_plane_ref" c.inPlaneRef

/-- `UBConf.__repr__`, ub_algorithm.py lines 105-130. -/
def ubText (F : ArrFmt) (c : UBConf) (keys : List UBKey) : Py Str := do
  return (← keys.mapM (keyText F c)).flatten

/-- The order of the attributes of a configuration made by `calculate_ub_matrix`, tas.py lines 187-194, 203-210, 221-226, 233-238 (values
`None` are not set, ub_algorithm.py lines 47-51). -/
def calcKeys (c : UBConf) : List UBKey :=
  [.convention, .bMat, .ubMat] ++ (if c.planeNormal.isSome then [.planeNormal, .inPlaneRef] else []) ++ [.ubPeaks]

/-- One angle of `MotorAngles.__repr__`, utilities.py line 48. -/
def angleEntry (g4 : ℝ → Str) (name : String) : Option ℝ → Str
  | none => []
  | some x => name.toList ++ "=".toList ++ g4 x ++ ", ".toList

/-- `MotorAngles.__repr__`, utilities.py lines 45-49. -/
def angleText (g4 : ℝ → Str) (a : MotorAngles) : Str :=
  angleEntry g4 "two_theta" (some a.twoTheta) ++ angleEntry g4 "omega" a.omega ++ angleEntry g4 "sgl" a.sgl ++
    angleEntry g4 "sgu" a.sgu ++ angleEntry g4 "chi" a.chi ++ angleEntry g4 "phi" a.phi

end Tavi
