import Verif.Model.Resolution
import Verif.Model.Str

/-!
# Model of the written summary of a resolution calculation: `ResoEllipsoid.__str__` (`ellipsoid.py` lines 64-90) and
`CooperNathans.__str__` (`cooper_nathans.py` lines 28-56), attached to every result in `tas.py` lines 338 and 347-348

Given: the formatting of numbers by Python (`f"{x:.4g}"`, `f"{x:.3f}"`, `f"{x}"`), the layout of a table by pandas
(`DataFrame.to_string`) and the labels of the four axes (`labels_from_projection` is in `Model/Misc.lean`). The types of the crystals are
text only.
-/

namespace Tavi

open Matrix

/-- What Python and pandas do with numbers: `f"{x:.4g}"`, `f"{x:.3f}"`, `f"{x}"`, and the table with given names of rows and columns. -/
structure NumFmt where
  g4 : ℝ → Str
  f3 : ℝ → Str
  plain : ℝ → Str
  table : (Fin 4 → Str) → (Fin 4 → Str) → Mat 4 4 → Str

/-- `np.round(x, 4)` (ties as in `round2`). -/
noncomputable def round4 (x : ℝ) : ℝ := (round (x * 10000) : ℤ) / 10000

/-- `f"{x}"` for a number or `None`. -/
def optText (F : NumFmt) : Option ℝ → Str
  | none => "None".toList
  | some x => F.plain x

/-- cooper_nathans.py lines 41-42: the three numbers of a vector. -/
noncomputable def vecText (F : NumFmt) (u : V3) : Str :=
  "[".toList ++ F.g4 (round4 (u 0)) ++ ", ".toList ++ F.g4 (round4 (u 1)) ++ ", ".toList ++ F.g4 (round4 (u 2)) ++ "]".toList

/-- `f"{tuple(l)}"` for a list of four numbers, lines 49-50. -/
def tupleText (F : NumFmt) (f : Fin 4 → ℝ) : Str :=
  "(".toList ++ joinStr ", ".toList [F.plain (f 0), F.plain (f 1), F.plain (f 2), F.plain (f 3)] ++ ")".toList

/-- Lines 30-35: the energies that are fixed and the convention. -/
def configLine (F : NumFmt) (t : Tas) : Str :=
  "Triple-axis spectrometer".toList ++
    (match t.fixedEi with
      | some e => ", fixed Ei=".toList ++ F.f3 e ++ " meV".toList
      | none => []) ++
    (match t.fixedEf with
      | some e => ", fixed Ef=".toList ++ F.f3 e ++ " meV".toList
      | none => []) ++
    ", using ".toList ++ t.convention ++ " UB convention.".toList

/-- Lines 45-48: the two lines of a crystal. -/
def crystalLines (F : NumFmt) (name type : Str) (m : MonoAna) : List Str :=
  [name ++ " type=".toList ++ type ++ ", d_spacing=".toList ++ F.plain m.dSpacing ++ " A".toList,
   name ++ " horizontal and vertical mosiac FWHM=(".toList ++ optText F m.mosaicH ++ ",".toList ++ optText F m.mosaicV ++ ") mins".toList]

/-- Line 51. -/
def latticeLine (F : NumFmt) (L : Latt) : Str :=
  "Sample lattice parameters a=".toList ++ F.plain L.a ++ " A, b=".toList ++ F.plain L.b ++ " A, c=".toList ++ F.plain L.c ++
    " A, alpha=".toList ++ F.plain L.alpha ++ ", beta=".toList ++ F.plain L.beta ++ ", gamma=".toList ++ F.plain L.gamma ++ ".".toList

/-- Lines 43-55. -/
noncomputable def instrumentLines (F : NumFmt) (monoType anaType : Str) (t : Tas) (u v : V3) : List Str :=
  [configLine F t] ++ crystalLines F "Monochromator".toList monoType t.mono ++ crystalLines F "Analyzer".toList anaType t.ana ++
  ["Collimator horizontal divergence = ".toList ++ tupleText F t.coll.h ++ " mins".toList,
   "Collimator vertical divergence = ".toList ++ tupleText F t.coll.v ++ " mins".toList,
   latticeLine F t.sample.latt,
   "When all goniometer angles are set to zeros, the orientation vectors".toList,
   "u=".toList ++ vecText F u ++ " (r.l.u.) along the incident beam".toList,
   "v=".toList ++ vecText F v ++ " (r.l.u.) in the horizontal scattering plane.".toList]

/-- `str(cn)`, cooper_nathans.py lines 28-56. -/
noncomputable def instrumentText (F : NumFmt) (monoType anaType : Str) (t : Tas) : Py Str :=
  t.uv >>= fun uv => need uv .typeError >>= fun w => .ok (joinStr "\n".toList (instrumentLines F monoType anaType t w.1 w.2))

/-- `re.sub(r"\([^()]*\)$", "", label)`, ellipsoid.py lines 68-69: a bracket without brackets at the end is removed (labels contain no
line break). -/
def stripUnit (s : Str) : Str :=
  match s.reverse with
  | ')' :: r => (match r.dropWhile (fun c => c ≠ '(' && c ≠ ')') with
    | '(' :: r' => r'.reverse
    | _ => s)
  | _ => s

/-- `f"{fwhm:.4g} in {label}, "`, ellipsoid.py lines 79-82 and 84-87. -/
def widthLine (F : NumFmt) (labels : Fin 4 → Str) (i : Fin 4) (w : ℝ) : Str := F.g4 w ++ " in ".toList ++ labels i ++ ", ".toList

/-- Lines 71-89. -/
noncomputable def reportLines (F : NumFmt) (labels : Fin 4 → Str) (e : Ellipsoid) (method : Str) (c w : Fin 4 → ℝ) : List Str :=
  ["Resolution ellipsoid centered at (h,k,l)=(".toList ++ F.g4 (e.hkl 0) ++ ", ".toList ++ F.g4 (e.hkl 1) ++ ", ".toList ++ F.g4 (e.hkl 2) ++
     ") (r.l.u.), en=".toList ++ F.g4 e.en ++ " meV. (Q = ".toList ++ F.g4 e.q ++ " A^-1)".toList,
   "Calculated using ".toList ++ method ++ " method.".toList,
   "Projection axes are ".toList ++ joinStr ", ".toList [labels 0, labels 1, labels 2, labels 3],
   "resolution matrix R=".toList,
   F.table (fun i => stripUnit (labels i)) (fun i => stripUnit (labels i)) e.mat,
   "prefactor R0=".toList ++ F.g4 e.r0,
   "Coherent FWHMs are: ".toList,
   widthLine F labels 0 (c 0), widthLine F labels 1 (c 1), widthLine F labels 2 (c 2), widthLine F labels 3 (c 3),
   "Incoherent FWHMs are: ".toList,
   widthLine F labels 0 (w 0), widthLine F labels 1 (w 1), widthLine F labels 2 (w 2), widthLine F labels 3 (w 3),
   []]

/-- `str(rez)`, ellipsoid.py lines 64-90; `method` and `params` are the attributes set in tas.py lines 347-348. -/
noncomputable def reportText (F : NumFmt) (labels : Fin 4 → Str) (e : Ellipsoid) (method params : Str) : Py Str :=
  cohFwhm e.mat 0 >>= fun c0 => cohFwhm e.mat 1 >>= fun c1 => cohFwhm e.mat 2 >>= fun c2 => cohFwhm e.mat 3 >>= fun c3 =>
  incohFwhm e.mat 0 >>= fun w0 => incohFwhm e.mat 1 >>= fun w1 => incohFwhm e.mat 2 >>= fun w2 => incohFwhm e.mat 3 >>= fun w3 =>
  .ok (joinStr "\n".toList (reportLines F labels e method ![c0, c1, c2, c3] ![w0, w1, w2, w3]) ++ params)

/-- What a user reads of a result of `cooper_nathans`: tas.py lines 338 and 347-348. -/
noncomputable def printedReso (F : NumFmt) (labels : Fin 4 → Str) (monoType anaType : Str) (t : Tas) (e : Ellipsoid) : Py Str :=
  instrumentText F monoType anaType t >>= fun s => reportText F labels e "Cooper-Nathans".toList s

end Tavi
