import Verif.Model.Links
import Verif.Model.Misc
import Verif.Model.Tas

/-!
# Model of configurations: the components of the spectrometer (`components/*.py`, `tas_base.py`) and the two ways to get a
`Sample` from stored data (`sample.py` lines 99-170)

A component is the list of its attributes with their values. Simplifications:
* decoding of the JSON text is not modelled: a configuration is the decoded dict. Of nested values only lists of numbers and
  dicts of ranges (the limits of the goniometer) occur; whole numbers and floats are not told apart;
* names of methods are not modelled; a name of a property cannot be assigned (`AttributeError`);
* a plane normal or in-plane vector that has not three components is refused; the code stores it under the convention
  `Mantid` (and stores a matrix when the header of a scan has a single number);
* of a `Sample`, everything but `json_dict` and `type` (always `None` and `"crystal"`).
-/

namespace Tavi

/-- A value in a configuration. `other` stands for what a scan can hold besides: a list of texts or a dict. -/
inductive Cfg where
  | null
  | bool (b : Bool)
  | num (x : ℝ)
  | str (s : Str)
  | nums (l : List ℝ)
  | ranges (l : List (Str × Limit))
  | other

/-- The attributes of a component. -/
abbrev Attrs := List (Str × Cfg)

/-! ## Components -/

/-- A class of components: the default values, the properties, and what follows the loading of the parameters. -/
structure CompClass where
  defaults : Attrs
  properties : List Str
  finish : Str → Attrs → Py Attrs

/-- `setattr(self, key, val)`: a property without setter cannot be set. -/
def setAttribute (c : CompClass) (a : Attrs) (kv : Str × Cfg) : Py Attrs :=
  if kv.1 ∈ c.properties then .error .attributeError else .ok (assocSet a kv.1 kv.2)

/-- component_base.py lines 19-28, `TASComponent.__init__`. -/
def CompClass.load (c : CompClass) (name : Str) (params : Attrs) : Py Attrs :=
  params.foldlM (setAttribute c) (assocSet c.defaults "component_name".toList (.str name))

/-- `component_class(param, component_name)`. -/
def CompClass.make (c : CompClass) (name : Str) (params : Attrs) : Py Attrs :=
  c.load name params >>= fun a => c.finish name a

/-- component_base.py lines 30-40, `update(param, value)`, for a name that is no property: `print` otherwise. -/
def updateAttr (a : Attrs) (param : Str) (value : Cfg) : Attrs :=
  if (lookupKey param a).isSome then assocSet a param value else a

/-- A class in which nothing follows the loading. -/
def plainClass (defaults : Attrs) (properties : List Str) : CompClass := ⟨defaults, properties, fun _ a => .ok a⟩

/-- source.py lines 12-20. -/
def sourceClass : CompClass := plainClass
  [("name".toList, .str "HFIR".toList), ("shape".toList, .str "rectangular".toList), ("width".toList, .null),
   ("height".toList, .null)] ["_width".toList, "_height".toList]

/-- collimators.py lines 12-27. -/
def collimatorsClass : CompClass := plainClass
  (["h_pre_mono".toList, "h_pre_sample".toList, "h_post_sample".toList, "h_post_ana".toList, "v_pre_mono".toList,
    "v_pre_sample".toList, "v_post_sample".toList, "v_post_ana".toList].map fun k => (k, .num 30))
  ["horizontal_divergence".toList, "_horizontal_divergence".toList, "vertical_divergence".toList,
   "_vertical_divergence".toList]

/-- guide.py lines 10-19. -/
def guideClass : CompClass := plainClass
  [("in_use".toList, .bool false), ("div_h".toList, .null), ("div_v".toList, .null)] ["_div_h".toList, "_div_v".toList]

/-- monitor.py lines 16-25 and detector.py lines 16-25. -/
def countingClass : CompClass := plainClass
  [("shape".toList, .str "rectangular".toList), ("width".toList, .null), ("height".toList, .null)]
  ["_width".toList, "_height".toList]

/-- component_base.py lines 96-107. -/
def distancesClass : CompClass := plainClass
  (["src_mono".toList, "mono_sample".toList, "sample_ana".toList, "ana_det".toList, "mono_monitor".toList].map fun k =>
    (k, .null))
  ["_src_mono".toList, "_mono_sample".toList, "_sample_ana".toList, "_ana_det".toList, "_mono_monitor".toList]

/-- mono_ana.py lines 10-23: the d-spacings. -/
noncomputable def monoAnaXtal : List (Str × ℝ) :=
  [("PG002".toList, 3.35416), ("Pg002".toList, 3.35416), ("PG004".toList, 1.67708), ("Cu111".toList, 2.08717),
   ("Cu220".toList, 1.27813), ("Ge111".toList, 3.26627), ("Ge220".toList, 2.00018), ("Ge311".toList, 1.70576),
   ("Ge331".toList, 1.29789), ("Be002".toList, 1.79160), ("Be110".toList, 1.14280), ("Heusler".toList, 3.435)]

/-- `mono_ana_xtal[self.type]`: a list is no key of a dict (`TypeError`). -/
noncomputable def xtalSpacing : Option Cfg → Py ℝ
  | some (.str s) => need (lookupKey s monoAnaXtal) .keyError
  | some (.nums _) => .error .typeError
  | some (.ranges _) => .error .typeError
  | some .other => .error .typeError
  | _ => .error .keyError

/-- mono_ana.py lines 34-62. The d-spacing always comes from the table (line 62). -/
noncomputable def monoAnaClass : CompClass :=
  ⟨[("type".toList, .str "PG002".toList), ("d_spacing".toList, .num 3.35416), ("mosaic_h".toList, .null),
    ("mosaic_v".toList, .null), ("sense".toList, .str "-".toList), ("shape".toList, .str "rectangular".toList),
    ("width".toList, .num 12), ("height".toList, .num 8), ("depth".toList, .num 0.15), ("curved_h".toList, .bool false),
    ("curvh".toList, .num 0), ("optimally_curved_h".toList, .bool false), ("curved_v".toList, .bool false),
    ("curvv".toList, .num 0), ("optimally_curved_v".toList, .bool false)],
   ["_sense".toList, "_mosaic_h".toList, "_mosaic_v".toList, "_width".toList, "_height".toList, "_depth".toList],
   fun _ a => (xtalSpacing (lookupKey "type".toList a)).map fun d => assocSet a "d_spacing".toList (.num d)⟩

/-- goni.py lines 32-49. The name is set after the parameters (line 49). -/
def goniClass : CompClass :=
  ⟨[("type".toList, .str "Y,-Z,X".toList), ("sense".toList, .null),
    ("limits".toList, .ranges [("two_theta".toList, (none, none)), ("omega".toList, (none, none)),
      ("sgl".toList, (some (-10), some 10)), ("sgu".toList, (some (-10), some 10)), ("chi".toList, (none, none)),
      ("phi".toList, (none, none))])],
   ["stacking_order".toList, "mode".toList, "motor_senses".toList, "_sense".toList],
   fun name a => .ok (assocSet a "component_name".toList (.str name))⟩

/-- tas_base.py lines 57-67: the components of a configuration, in the order in which they are loaded. -/
noncomputable def components : List (Str × CompClass) :=
  [("source".toList, sourceClass), ("collimators".toList, collimatorsClass), ("guide".toList, guideClass),
   ("monochromator".toList, monoAnaClass), ("monitor".toList, countingClass), ("goniometer".toList, goniClass),
   ("analyzer".toList, monoAnaClass), ("detector".toList, countingClass), ("distances".toList, distancesClass)]

/-- The spectrometer: its components (a component that has not been set is missing, `none` is `None`) and the path of the
configuration. -/
structure TasBase where
  parts : List (Str × Option Attrs)
  jsonPath : Option Str

/-- tas_base.py lines 37-54. -/
def TasBase.new : TasBase :=
  ⟨["source".toList, "guide".toList, "monitor".toList, "detector".toList, "arms".toList].map fun k => (k, none), none⟩

/-- A decoded configuration: the parameters of the components; `none` is `null`. -/
abbrev InstrConfig := List (Str × Option Attrs)

/-- tas_base.py lines 69-72: the spectrometer afterwards and whether an exception was raised on the way. -/
def loadParts (cfg : InstrConfig) : List (Str × CompClass) → List (Str × Option Attrs) → List (Str × Option Attrs) × Py Unit
  | [], ps => (ps, .ok ())
  | (n, c) :: rest, ps =>
    match lookupKey n cfg with
    | some (some p) => match c.make n p with
      | .ok a => loadParts cfg rest (assocSet ps n (some a))
      | .error e => (ps, .error e)
    | _ => loadParts cfg rest ps

/-- tas_base.py lines 74-89, `load_instrument_params_from_json(path)`; the file is what the path leads to. A path that
leads nowhere is only reported by `print`. -/
noncomputable def TasBase.loadJson (t : TasBase) (path : Str) (file : Option InstrConfig) : TasBase × Py Unit :=
  match file with
  | none => (t, .ok ())
  | some cfg => match loadParts cfg components t.parts with
    | (ps, .ok _) => (⟨ps, some path⟩, .ok ())
    | (ps, .error e) => (⟨ps, t.jsonPath⟩, .error e)

/-! ## Samples -/

/-- A `Sample` with everything that is loaded. -/
structure SampleRec where
  latt : Latt
  ubConf : Option UBConf := none
  mosaicH : Cfg := .num 30
  mosaicV : Cfg := .num 30
  shape : Cfg := .str "cuboid".toList
  width : Cfg := .num 1
  height : Cfg := .num 1
  depth : Cfg := .num 1

/-- A number that is compared with a number; anything else is a `TypeError`. -/
def asNum : Option Cfg → Py ℝ
  | some (.num x) => .ok x
  | _ => .error .typeError

/-- sample.py lines 64-89 with 204-228, `Sample(lattice_params)` for six numbers. -/
noncomputable def newSample (L : Latt) : Py SampleRec := (Sample.validLatt L).map fun _ => { latt := L }

/-- `d.get(k)`. -/
def getCfg (d : Attrs) (k : Str) : Cfg := (lookupKey k d).getD .null

/-- `x is None`. -/
def Cfg.isNull : Cfg → Bool
  | .null => true
  | _ => false

/-- `d[k]` for the six lattice parameters, which must be numbers to be compared. -/
def needNum (d : Attrs) (k : Str) : Py ℝ := need (lookupKey k d) .keyError >>= fun v => asNum (some v)

/-- `np.array(x).reshape(3, 3)`: `ValueError` for another number of elements. -/
def cfgMat : Cfg → Py M3
  | .nums [a, b, c, d, e, f, g, h, i] => .ok !![a, b, c; d, e, f; g, h, i]
  | _ => .error .valueError

/-- Three components. -/
def cfgVec : Cfg → Py V3
  | .nums [a, b, c] => .ok ![a, b, c]
  | .nums _ => .error .valueError
  | _ => .error .typeError

/-- A keyword argument that is given only when the entry is not `None`. -/
def optKw {α : Type} (v : Cfg) (conv : Cfg → Py α) (mk : α → UBConf.Assign) : Py (List UBConf.Assign) :=
  if v.isNull then .ok [] else (conv v).map fun x => [mk x]

/-- sample.py lines 118-123. -/
def applyShape (d : Attrs) (s : SampleRec) : SampleRec :=
  if (getCfg d "shape".toList).isNull || (getCfg d "width".toList).isNull || (getCfg d "height".toList).isNull
      || (getCfg d "depth".toList).isNull then s
  else { s with shape := getCfg d "shape".toList, width := getCfg d "width".toList, height := getCfg d "height".toList,
                depth := getCfg d "depth".toList }

/-- sample.py lines 126-129. -/
def applyMosaic (d : Attrs) (s : SampleRec) : SampleRec :=
  if (getCfg d "mosaic_h".toList).isNull || (getCfg d "mosaic_v".toList).isNull then s
  else { s with mosaicH := getCfg d "mosaic_h".toList, mosaicV := getCfg d "mosaic_v".toList }

/-- `sample_params_dict.get("convention")`; anything but a text is no convention. -/
def conventionOf : Cfg → Option Str
  | .null => none
  | .str s => some s
  | _ => some []

/-- sample.py lines 132-145: the UB configuration. -/
def ubFromJson (d : Attrs) : Py UBConf :=
  optKw (getCfg d "ub_matrix".toList) cfgMat .ubMat >>= fun u =>
  optKw (getCfg d "plane_normal".toList) cfgVec .planeNormal >>= fun n =>
  optKw (getCfg d "in_plane_ref".toList) cfgVec .inPlaneRef >>= fun r =>
  UBConf.init (conventionOf (getCfg d "convention".toList)) (u ++ n ++ r)

/-- sample.py lines 99-147, `Sample.from_json`, for the decoded file. -/
noncomputable def sampleFromJson (d : Attrs) : Py SampleRec :=
  needNum d "a".toList >>= fun a => needNum d "b".toList >>= fun b => needNum d "c".toList >>= fun c =>
  needNum d "alpha".toList >>= fun al => needNum d "beta".toList >>= fun be => needNum d "gamma".toList >>= fun ga =>
  newSample ⟨a, b, c, al, be, ga⟩ >>= fun s =>
  ubFromJson d >>= fun u =>
  .ok { applyMosaic d (applyShape d s) with ubConf := some u }

/-- The numbers of an array, if all are finite. -/
def finiteOf (l : List (Option ℝ)) : Option (List ℝ) := l.mapM id

/-- What a look-up in a scan gives, as the value of an attribute. -/
def cfgOf : Option Val → Cfg
  | none => .null
  | some (.leaf (.num x)) => .num x
  | some (.leaf (.str s)) => .str s
  | some (.leaf (.arr l)) => (finiteOf l).elim .other .nums
  | _ => .other

/-- sample.py lines 204-221: the lattice parameters of a scan. An array of another length is only reported by `print`, and
then the names are unbound; `None` and a number cannot be unpacked. -/
def unpackLatt : Cfg → Py Latt
  | .nums [a, b, c, al, be, ga] => .ok ⟨a, b, c, al, be, ga⟩
  | .nums _ => .error .unboundLocal
  | .str [_, _, _, _, _, _] => .error .typeError
  | .str _ => .error .unboundLocal
  | _ => .error .typeError

/-- `np.array(info.plane_normal)`, not `None` even if there is no plane normal; multiplying it raises `TypeError`. -/
def scanNormal : Cfg → Py V3 := cfgVec

/-- sample.py lines 149-170, `Sample.from_scan`, for what the scan reports; `SampleUBInfo` has no `in_plane_ref`, so there
never is one. -/
noncomputable def sampleFromInfo (i : SampleUBInfo) : Py SampleRec :=
  unpackLatt (cfgOf i.lattice) >>= fun L =>
  newSample L >>= fun s =>
  scanNormal (cfgOf i.normal) >>= fun n =>
  UBConf.init none [.ubMat i.ub, .planeNormal n] >>= fun u =>
  .ok { s with ubConf := some u, mosaicH := cfgOf i.mosaicH, mosaicV := cfgOf i.mosaicV }

/-- sample.py lines 149-170, `Sample.from_scan(scan)`. -/
noncomputable def sampleFromScan (s : ScanObj) : Py SampleRec := sampleUbInfo s >>= sampleFromInfo

/-- The sample as far as angles are calculated from it. -/
def SampleRec.forAngles (s : SampleRec) : Sample := { latt := s.latt, ubConf := s.ubConf }

end Tavi
