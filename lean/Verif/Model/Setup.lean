import Verif.Model.Config

/-!
# From the files to the spectrometer that calculates (`tas_base.py`, `tas.py` lines 44-55, `goni.py`, `mono_ana.py`,
`collimators.py`)

`Model/Config.lean` has the components as lists of attributes, `Model/Tas.lean` the calculations on a spectrometer. Here is
what the calculations read from the attributes. Simplification: an attribute of the wrong kind is refused at once, with the
error the calculation would raise when it comes to it.
-/

namespace Tavi

/-- `self.goniometer` and so on: `AttributeError` for a component that has not been loaded (tas_base.py lines 39-43 only
declare it), and for an attribute of a component that is `None`. -/
def TasBase.part (t : TasBase) (n : Str) : Py Attrs :=
  match lookupKey n t.parts with
  | some (some a) => .ok a
  | _ => .error .attributeError

/-- `x.split(",")`: only texts can be split (goni.py line 60). -/
def cfgText : Option Cfg → Py Str
  | some (.str s) => .ok s
  | _ => .error .attributeError

/-- `match self.sense` (goni.py lines 88-94, mono_ana.py lines 69-75): anything that is not a text matches neither sense. -/
def cfgSense : Option Cfg → Option Str
  | some (.str s) => some s
  | _ => none

/-- The names of the fields of `MotorAngles` (utilities.py lines 38-43), under which limits are looked up (goni.py line 244). -/
def motorField : Motor → Str
  | .twoTheta => "two_theta".toList
  | .omega => "omega".toList
  | .sgl => "sgl".toList
  | .sgu => "sgu".toList
  | .chi => "chi".toList
  | .phi => "phi".toList

/-- `self.limits.get(name, (None, None))` (goni.py line 244). -/
def cfgLimits : Option Cfg → Py (Motor → Limit)
  | some (.ranges l) => .ok fun m => (lookupKey (motorField m) l).getD (none, none)
  | _ => .error .attributeError

/-- A number or `None`. -/
def cfgOptNum : Option Cfg → Py (Option ℝ)
  | some (.num x) => .ok (some x)
  | some .null => .ok none
  | _ => .error .typeError

/-- The goniometer, goni.py lines 32-49. -/
def goniOf (a : Attrs) : Py Goni :=
  cfgText (lookupKey "type".toList a) >>= fun ty =>
  cfgLimits (lookupKey "limits".toList a) >>= fun lim =>
  .ok { type := ty, sense := cfgSense (lookupKey "sense".toList a), limits := lim }

/-- A crystal, mono_ana.py lines 34-62. -/
noncomputable def monoOf (a : Attrs) : Py MonoAna :=
  asNum (lookupKey "d_spacing".toList a) >>= fun d =>
  cfgOptNum (lookupKey "mosaic_h".toList a) >>= fun mh =>
  cfgOptNum (lookupKey "mosaic_v".toList a) >>= fun mv =>
  .ok { dSpacing := d, sense := (cfgSense (lookupKey "sense".toList a)).getD [], mosaicH := mh, mosaicV := mv }

/-- The collimators, collimators.py lines 12-63: before the monochromator, before the sample, after the sample, after the
analyzer. -/
def collOf (a : Attrs) : Py Collimators :=
  asNum (lookupKey "h_pre_mono".toList a) >>= fun h0 =>
  asNum (lookupKey "h_pre_sample".toList a) >>= fun h1 =>
  asNum (lookupKey "h_post_sample".toList a) >>= fun h2 =>
  asNum (lookupKey "h_post_ana".toList a) >>= fun h3 =>
  asNum (lookupKey "v_pre_mono".toList a) >>= fun v0 =>
  asNum (lookupKey "v_pre_sample".toList a) >>= fun v1 =>
  asNum (lookupKey "v_post_sample".toList a) >>= fun v2 =>
  asNum (lookupKey "v_post_ana".toList a) >>= fun v3 =>
  .ok { h := ![h0, h1, h2, h3], v := ![v0, v1, v2, v3] }

/-- The sample as far as the calculations read it. -/
def SampleRec.mounted (s : SampleRec) : Py Sample :=
  asNum (some s.mosaicH) >>= fun mh => asNum (some s.mosaicV) >>= fun mv =>
  .ok { latt := s.latt, ubConf := s.ubConf, mosaicH := mh, mosaicV := mv }

/-- `TAS(convention, fixed_ei, fixed_ef)` (tas.py lines 44-55) with the loaded components, after `mount_sample(s)`
(tas_base.py lines 118-120). -/
noncomputable def TasBase.ready (t : TasBase) (conv : Str) (ei ef : Option ℝ) (s : SampleRec) : Py Tas :=
  t.part "goniometer".toList >>= fun ga => goniOf ga >>= fun g =>
  t.part "monochromator".toList >>= fun ma => monoOf ma >>= fun m =>
  t.part "analyzer".toList >>= fun aa => monoOf aa >>= fun an =>
  t.part "collimators".toList >>= fun ca => collOf ca >>= fun c =>
  s.mounted >>= fun sm =>
  .ok { convention := conv, fixedEi := ei, fixedEf := ef, sample := sm, goni := g, mono := m, ana := an, coll := c }

end Tavi
