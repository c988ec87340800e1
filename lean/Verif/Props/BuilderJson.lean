import Verif.Model.BuilderJson
import Verif.Props.Builder
import Verif.Props.DatasetName
import Verif.Props.Loads
import Verif.Props.Columns

/-!
# Configuration files given when scans are read (C104)
-/

namespace Tavi

/-! ## What is expected -/

namespace Spec

/-- A value that says nothing. -/
def SaysNothing (v : JVal) : Prop := v = .null ∨ v = .str []

/-- How the parameters of one group are meant: which are taken at all, under which name they are found, which are words, which are
quantities, and in what units. -/
structure ConfMeaning where
  taken : Str → Prop
  name : Str → Str
  words : List Str
  quantities : List Str
  units : List (Str × Str)

/-- The stored data say what the configuration says. -/
inductive ConfTells (m : ConfMeaning) (p : Str) : JVal → Leaf → Prop
  /-- a number is kept -/
  | number {x : ℝ} {t : Str} (h : p ∉ m.words) : ConfTells m p (.num x t) (.num x)
  /-- a number where a word is expected is written out -/
  | written {x : ℝ} {t : Str} (h : p ∈ m.words) : ConfTells m p (.num x t) (.str t)
  /-- a list of numbers is kept -/
  | numbers {l : List ℝ} : ConfTells m p (.nums l) (.fin l)
  /-- a text is kept -/
  | text {s : Str} (h : p ∉ m.quantities) : ConfTells m p (.str s) (.str s)
  /-- a quantity may be given by a text -/
  | spelled {s : Str} {q : ℚ} (h : p ∈ m.quantities) (hc : ',' ∉ s) (hs : pyFloat s = .ok q) : ConfTells m p (.str s) (.num (q : ℝ))
  /-- several quantities in one text -/
  | spelledMany {s : Str} {qs : List ℚ} (h : p ∈ m.quantities) (hc : ',' ∈ s) (hs : (splitChar ',' s).mapM pyFloat = .ok qs) :
      ConfTells m p (.str s) (.fin (qs.map fun q : ℚ => (q : ℝ)))
  /-- yes or no as a word -/
  | flagWord {b : Bool} (h : p ∈ m.words) : ConfTells m p (.bool b) (.str (if b then "True".toList else "False".toList))
  /-- yes or no -/
  | flag {b : Bool} (h : p ∉ m.words) : ConfTells m p (.bool b) (.num (if b then 1 else 0))
  /-- a list of texts is kept -/
  | texts {l : List Str} (h : p ∉ m.quantities) : ConfTells m p (.strs l) (.strs l)
  /-- a list of texts for a quantity -/
  | spelledAll {l : List Str} {qs : List ℚ} (h : p ∈ m.quantities) (hs : l.mapM pyFloat = .ok qs) :
      ConfTells m p (.strs l) (.fin (qs.map fun q : ℚ => (q : ℝ)))

/-- The type a parameter is marked with in the file: text for words, number for quantities, neither for the others. -/
def ConfTyped (m : ConfMeaning) (p : Str) (a : Dict) : Prop :=
  (p ∈ m.words → a.get? "type".toList = some (.leaf (.str "NX_CHAR".toList))) ∧
  (p ∈ m.quantities → a.get? "type".toList = some (.leaf (.str "NX_FLOAT".toList))) ∧
  (p ∉ m.words → p ∉ m.quantities → ∀ t ∈ ["NX_CHAR".toList, "NX_FLOAT".toList, "NX_INT".toList],
    a.get? "type".toList ≠ some (.leaf (.str t)))

/-- The group `g` is the group `g0` supplemented by the parameters. -/
structure ConfSupplied (m : ConfMeaning) (params : List (Str × JVal)) (g0 g : Dict) : Prop where
  /-- what is said is found -/
  found : ∀ p v, (p, v) ∈ params → m.taken p → ¬ SaysNothing v → ∃ ds a x, g.get? (m.name p) = some (.dict ds) ∧
    ds.get? "dataset".toList = some (.leaf x) ∧ ConfTells m p v x ∧ ds.get? "attrs".toList = some (.dict a) ∧
    (∀ u, (p, u) ∈ m.units → a.get? "units".toList = some (.leaf (.str u))) ∧ ConfTyped m p a
  /-- the rest is as before -/
  kept : ∀ k, (∀ p v, (p, v) ∈ params → m.taken p → m.name p = k → SaysNothing v) → g.get? k = g0.get? k

/-- Source and detector. -/
def boxMeaning : ConfMeaning :=
  ⟨fun _ => True, id, ["shape".toList], ["width".toList, "height".toList],
   [("width".toList, "cm".toList), ("height".toList, "cm".toList)]⟩

/-- Monochromator and analyser. -/
def crystalMeaning (mosaic : List Str) (arc : Str) : ConfMeaning :=
  ⟨fun _ => True, id,
   ["shape".toList, "curved_h".toList, "optimally_curved_h".toList, "curved_v".toList, "optimally_curved_v".toList],
   ["width".toList, "height".toList, "depth".toList, "curvh".toList, "curvv".toList] ++ mosaic,
   [("width".toList, "cm".toList), ("height".toList, "cm".toList), ("depth".toList, "cm".toList),
    ("curvh".toList, "cm^-1".toList), ("curvv".toList, "cm^-1".toList), ("mosaic_h".toList, arc), ("mosaic_v".toList, arc)]⟩

/-- Monochromator. -/
def monoMeaning : ConfMeaning := crystalMeaning ["mosaic_h".toList, "mosaic_v".toList] "mins of arc".toList

/-- Analyser. -/
def anaMeaning : ConfMeaning := crystalMeaning [] "minutes of arc".toList

/-- A group that takes one parameter only. -/
def onlyMeaning (q : Str) : ConfMeaning := ⟨fun p => p = q, id, [q], [], []⟩

/-- The sample: the parameters of the cell are not taken, the matrix is found as `orientation_matrix`. -/
def sampleMeaning : ConfMeaning :=
  ⟨fun p => p ∉ ["a".toList, "b".toList, "c".toList, "alpha".toList, "beta".toList, "gamma".toList],
   fun p => if p = "ub_matrix".toList then "orientation_matrix".toList else p,
   ["shape".toList],
   ["width".toList, "height".toList, "depth".toList, "plane_normal".toList, "in_plane_ref".toList, "ub_matrix".toList],
   [("width".toList, "cm".toList), ("height".toList, "cm".toList), ("depth".toList, "cm".toList),
    ("mosaic_h".toList, "minutes of arc".toList), ("mosaic_v".toList, "minutes of arc".toList)]⟩

/-- The parameters in a section of the instrument file. -/
def sectionOf (inst : Option (List (Str × JSec))) (name : Str) : List (Str × JVal) :=
  match inst.bind (lookupKey name) with
  | some (.dict ps) => ps
  | _ => []

/-- One direction of the collimators: replaced when all four are numbers, kept when one of them is missing. -/
structure ConfDivergence (key : Str) (names : List Str) (params : List (Str × JVal)) (g0 g : Dict) : Prop where
  found : ∀ vals : List (ℝ × Str), names.map (lookupKey · params) = vals.map (fun x => some (.num x.1 x.2)) →
    ∃ ds a, g.get? key = some (.dict ds) ∧ ds.get? "dataset".toList = some (.leaf (.fin (vals.map Prod.fst))) ∧
      ds.get? "attrs".toList = some (.dict a) ∧ a.get? "units".toList = some (.leaf (.str "minutes of arc".toList))
  kept : (∃ n ∈ names, lookupKey n params = none) → g.get? key = g0.get? key

/-- The four horizontal collimations, from the source to the detector. -/
def beamH : List Str := ["h_pre_mono".toList, "h_pre_sample".toList, "h_post_sample".toList, "h_post_ana".toList]

/-- The four vertical collimations. -/
def beamV : List Str := ["v_pre_mono".toList, "v_pre_sample".toList, "v_post_sample".toList, "v_post_ana".toList]

/-- The groups of the instrument that take the parameters of a section, and how. -/
def instrumentParts : List (Str × Str × ConfMeaning) :=
  [("source".toList, "source".toList, boxMeaning), ("monochromator".toList, "monochromator".toList, monoMeaning),
   ("analyser".toList, "analyzer".toList, anaMeaning), ("detector".toList, "detector".toList, boxMeaning),
   ("goniometer".toList, "goniometer".toList, onlyMeaning "type".toList)]

/-- The entry `d` is the entry `d0` supplemented by the configuration files. -/
structure ConfSupplemented (inst : Option (List (Str × JSec))) (samp : Option (List (Str × JVal))) (d0 d : Dict) : Prop where
  /-- what does not belong to instrument, monitor and sample -/
  rest : ∀ k, k ≠ "instrument".toList → k ≠ "monitor".toList → k ≠ "sample".toList → d.get? k = d0.get? k
  /-- the instrument -/
  instrument : ∃ i0 i, d0.get? "instrument".toList = some (.dict i0) ∧ d.get? "instrument".toList = some (.dict i) ∧
    (∀ k, k ≠ "collimator".toList → k ∉ instrumentParts.map Prod.fst → i.get? k = i0.get? k) ∧
    (∀ x ∈ instrumentParts, ∃ g0 g, i0.get? x.1 = some (.dict g0) ∧ i.get? x.1 = some (.dict g) ∧
      ConfSupplied x.2.2 (sectionOf inst x.2.1) g0 g) ∧
    ∃ g0 g, i0.get? "collimator".toList = some (.dict g0) ∧ i.get? "collimator".toList = some (.dict g) ∧
      ConfDivergence "divergence_x".toList beamH (sectionOf inst "collimators".toList) g0 g ∧
      ConfDivergence "divergence_y".toList beamV (sectionOf inst "collimators".toList) g0 g ∧
      ∀ k, k ≠ "divergence_x".toList → k ≠ "divergence_y".toList → g.get? k = g0.get? k
  /-- the monitor -/
  monitor : ∃ g0 g, d0.get? "monitor".toList = some (.dict g0) ∧ d.get? "monitor".toList = some (.dict g) ∧
    ConfSupplied (onlyMeaning "shape".toList) (sectionOf inst "monitor".toList) g0 g
  /-- the sample -/
  sample : ∃ g0 g, d0.get? "sample".toList = some (.dict g0) ∧ d.get? "sample".toList = some (.dict g) ∧
    ConfSupplied sampleMeaning (samp.getD []) g0 g

/-- The files are dicts: no key occurs twice. The sample file does not give the matrix under both of its names, and no parameter of
the detector has the name of a detector of the polarised mode. -/
structure TidyConfig (inst : Option (List (Str × JSec))) (samp : Option (List (Str × JVal))) : Prop where
  sections : ∀ name, ((sectionOf inst name).map Prod.fst).Nodup
  detector : ∀ kv ∈ sectionOf inst "detector".toList, ¬ "detector_".toList <+: kv.1
  sample : ((samp.getD []).map fun kv => sampleMeaning.name kv.1).Nodup

/-- A value that can be stored for a parameter: anything but a nested value; a quantity is not given by a text. -/
inductive Storable (m : ConfMeaning) (p : Str) : JVal → Prop
  | null : Storable m p .null
  | bool (b : Bool) : Storable m p (.bool b)
  | num (x : ℝ) (t : Str) : Storable m p (.num x t)
  | nums (l : List ℝ) : Storable m p (.nums l)
  | str (s : Str) (h : p ∉ m.quantities) : Storable m p (.str s)
  | strs (l : List Str) (h : p ∉ m.quantities) : Storable m p (.strs l)

/-- Files whose values can all be stored. -/
structure StorableConfig (inst : Option (List (Str × JSec))) (samp : Option (List (Str × JVal))) : Prop where
  /-- sections are dicts or null -/
  sections : ∀ name, inst.bind (lookupKey name) ≠ some .other
  parts : ∀ x ∈ instrumentParts, ∀ p v, (p, v) ∈ sectionOf inst x.2.1 → Storable x.2.2 p v
  monitor : ∀ p v, (p, v) ∈ sectionOf inst "monitor".toList → Storable (onlyMeaning "shape".toList) p v
  collimators : ∀ n ∈ beamH ++ beamV, ∀ v, lookupKey n (sectionOf inst "collimators".toList) = some v → ∃ x t, v = .num x t
  sample : ∀ p v, (p, v) ∈ samp.getD [] → if p = "ub_matrix".toList then ∃ l, v = .nums l ∧ l.length = 9 else Storable sampleMeaning p v

end Spec

open Spec

/-! ## Members made of parameters -/

/-- A way to store a parameter agrees with its meaning. -/
def KindFits (m : ConfMeaning) (p : Str) : JKind → Prop
  | .skip => ¬ m.taken p
  | .char => m.taken p ∧ p ∈ m.words ∧ p ∉ m.quantities ∧ ∀ u, (p, u) ∉ m.units
  | .float a => m.taken p ∧ p ∉ m.words ∧ p ∈ m.quantities ∧ ∀ u, (p, u) ∈ m.units → a = [units u]
  | .angle a => m.taken p ∧ p ∉ m.words ∧ p ∉ m.quantities ∧ ∀ u, (p, u) ∈ m.units → a = [units u]
  | .raw => m.taken p ∧ p ∉ m.words ∧ p ∉ m.quantities ∧ ∀ u, (p, u) ∉ m.units
  | .matrix => m.taken p ∧ p ∈ m.quantities ∧ (∀ u, (p, u) ∉ m.units) ∧ p ∉ m.words

theorem jval_empty_iff (v : JVal) : v.empty = true ↔ SaysNothing v := by
  cases v with
  | str s => cases s <;> simp [JVal.empty, SaysNothing]
  | _ => simp [JVal.empty, SaysNothing]

theorem charLeaf_tells {m : ConfMeaning} {p : Str} (h1 : p ∈ m.words) (h2 : p ∉ m.quantities) {v : JVal} {x : Leaf}
    (h : charLeaf v = .ok x) : ConfTells m p v x := by
  cases v with
  | null => exact absurd h (by simp [charLeaf])
  | bool b =>
    have hb : charLeaf (.bool b) = .ok (.str (if b then "True".toList else "False".toList)) := by cases b <;> rfl
    rw [hb] at h
    obtain rfl := Except.ok.inj h
    exact .flagWord h1
  | num y t => obtain rfl := Except.ok.inj h; exact .written h1
  | str s => obtain rfl := Except.ok.inj h; exact .text h2
  | nums l => obtain rfl := Except.ok.inj h; exact .numbers
  | strs l => obtain rfl := Except.ok.inj h; exact .texts h2
  | other => exact absurd h (by simp [charLeaf])

theorem rawLeaf_tells {m : ConfMeaning} {p : Str} (h1 : p ∉ m.words) (h2 : p ∉ m.quantities) {v : JVal} {x : Leaf}
    (h : rawLeaf v = .ok x) : ConfTells m p v x := by
  cases v with
  | null => exact absurd h (by simp [rawLeaf])
  | bool b => obtain rfl := Except.ok.inj h; exact .flag h1
  | num y t => obtain rfl := Except.ok.inj h; exact .number h1
  | str s => obtain rfl := Except.ok.inj h; exact .text h2
  | nums l => obtain rfl := Except.ok.inj h; exact .numbers
  | strs l => obtain rfl := Except.ok.inj h; exact .texts h2
  | other => exact absurd h (by simp [rawLeaf])

theorem floatLeaf_tells {m : ConfMeaning} {p : Str} (h1 : p ∉ m.words) (h2 : p ∈ m.quantities) {v : JVal} {x : Leaf}
    (h : floatLeaf v = .ok x) : ConfTells m p v x := by
  cases v with
  | null => exact absurd h (by simp [floatLeaf])
  | bool b => obtain rfl := Except.ok.inj h; exact .flag h1
  | num y t => obtain rfl := Except.ok.inj h; exact .number h1
  | str s =>
    obtain ⟨r, hr, rfl⟩ := map_eq_ok.1 h
    unfold recastStr at hr
    by_cases hc : ',' ∈ s
    · rw [if_pos (by simpa using hc), if_pos rfl] at hr
      obtain ⟨qs, hqs, rfl⟩ := map_eq_ok.1 hr
      exact .spelledMany h2 hc hqs
    · rw [if_neg (by simpa using hc)] at hr
      by_cases hn : isNumericText s = true
      · rw [if_pos hn, if_pos rfl] at hr
        obtain ⟨q, hq, rfl⟩ := map_eq_ok.1 hr
        exact .spelled h2 hc hq
      · rw [if_neg hn] at hr
        exact absurd hr (by simp)
  | nums l => obtain rfl := Except.ok.inj h; exact .numbers
  | strs l =>
    obtain ⟨qs, hqs, rfl⟩ := map_eq_ok.1 h
    exact .spelledAll h2 hqs
  | other => exact absurd h (by simp [floatLeaf])

theorem matrixLeaf_tells {m : ConfMeaning} {p : Str} (h2 : p ∈ m.quantities) {v : JVal} {x : Leaf}
    (h : matrixLeaf v = .ok x) : ConfTells m p v x ∧ ¬ SaysNothing v := by
  cases v with
  | nums l =>
    rw [matrixLeaf] at h
    split at h
    · obtain rfl := Except.ok.inj h; exact ⟨.numbers, by simp [SaysNothing]⟩
    · exact absurd h (by simp)
  | strs l =>
    rw [matrixLeaf] at h
    split at h
    · obtain ⟨qs, hqs, rfl⟩ := map_eq_ok.1 h
      exact ⟨.spelledAll h2 hqs, by simp [SaysNothing]⟩
    · exact absurd h (by simp)
  | _ => exact absurd h (by simp [matrixLeaf])

theorem nxDs_dataset (x : Leaf) (a : List (Str × Str)) : (nxDs x a).get? "dataset".toList = some (.leaf x) := rfl

theorem nxDs_attrs (x : Leaf) (a : List (Str × Str)) : (nxDs x a).get? "attrs".toList = some (.dict (strDict a)) := rfl

theorem angle_typed (a : List (Str × Str)) : ∀ t ∈ ["NX_CHAR".toList, "NX_FLOAT".toList, "NX_INT".toList],
    (strDict (("type".toList, "NX_ANGLE".toList) :: a)).get? "type".toList ≠ some (.leaf (.str t)) := by
  have h : (strDict (("type".toList, "NX_ANGLE".toList) :: a)).get? "type".toList = some (.leaf (.str "NX_ANGLE".toList)) := rfl
  rw [h]
  intro t ht e
  injection e with e
  injection e with e
  injection e with e
  subst e
  exact absurd ht (by decide +kernel)

/-- What is made of a parameter. -/
theorem jsonDs_fits {m : ConfMeaning} {p : Str} {k : JKind} (hk : KindFits m p k) {v : JVal} {o : Option Dict}
    (h : jsonDs k v = .ok o) :
    (m.taken p ∧ ¬ SaysNothing v → ∃ ds a x, o = some ds ∧ ds.get? "dataset".toList = some (.leaf x) ∧ ConfTells m p v x ∧
      ds.get? "attrs".toList = some (.dict a) ∧ (∀ u, (p, u) ∈ m.units → a.get? "units".toList = some (.leaf (.str u))) ∧
      ConfTyped m p a) ∧
    (¬ (m.taken p ∧ ¬ SaysNothing v) → o = none) := by
  cases k with
  | skip =>
    obtain rfl := Except.ok.inj h
    exact ⟨fun hh => absurd hh.1 hk, fun _ => rfl⟩
  | matrix =>
    obtain ⟨x, hx, rfl⟩ := map_eq_ok.1 h
    obtain ⟨h1, h2⟩ := matrixLeaf_tells hk.2.1 hx
    exact ⟨fun _ => ⟨_, _, x, rfl, rfl, h1, rfl, fun u hu => absurd hu (hk.2.2.1 u), fun h => absurd h hk.2.2.2, fun _ => rfl,
      fun _ h => absurd hk.2.1 h⟩, fun hn => absurd ⟨hk.1, h2⟩ hn⟩
  | char =>
    rw [jsonDs] at h
    by_cases hv : v.empty = true
    · rw [if_pos hv] at h
      obtain rfl := Except.ok.inj h
      exact ⟨fun hh => absurd ((jval_empty_iff v).1 hv) hh.2, fun _ => rfl⟩
    · rw [if_neg hv] at h
      obtain ⟨x, hx, rfl⟩ := map_eq_ok.1 h
      exact ⟨fun _ => ⟨_, _, x, rfl, rfl, charLeaf_tells hk.2.1 hk.2.2.1 hx, rfl, fun u hu => absurd hu (hk.2.2.2 u), fun _ => rfl,
        fun h => absurd h hk.2.2.1, fun h => absurd hk.2.1 h⟩,
        fun hn => absurd ⟨hk.1, fun hb => hv ((jval_empty_iff v).2 hb)⟩ hn⟩
  | float a =>
    rw [jsonDs] at h
    by_cases hv : v.empty = true
    · rw [if_pos hv] at h
      obtain rfl := Except.ok.inj h
      exact ⟨fun hh => absurd ((jval_empty_iff v).1 hv) hh.2, fun _ => rfl⟩
    · rw [if_neg hv] at h
      obtain ⟨x, hx, rfl⟩ := map_eq_ok.1 h
      refine ⟨fun _ => ⟨_, _, x, rfl, rfl, floatLeaf_tells hk.2.1 hk.2.2.1 hx, rfl, fun u hu => ?_, fun h => absurd h hk.2.1, fun _ => rfl,
        fun _ h => absurd hk.2.2.1 h⟩,
        fun hn => absurd ⟨hk.1, fun hb => hv ((jval_empty_iff v).2 hb)⟩ hn⟩
      rw [hk.2.2.2 u hu]; rfl
  | angle a =>
    rw [jsonDs] at h
    by_cases hv : v.empty = true
    · rw [if_pos hv] at h
      obtain rfl := Except.ok.inj h
      exact ⟨fun hh => absurd ((jval_empty_iff v).1 hv) hh.2, fun _ => rfl⟩
    · rw [if_neg hv] at h
      obtain ⟨x, hx, rfl⟩ := map_eq_ok.1 h
      refine ⟨fun _ => ⟨_, _, x, rfl, rfl, rawLeaf_tells hk.2.1 hk.2.2.1 hx, rfl, fun u hu => ?_, fun h => absurd h hk.2.1,
        fun h => absurd h hk.2.2.1, fun _ _ => ?_⟩,
        fun hn => absurd ⟨hk.1, fun hb => hv ((jval_empty_iff v).2 hb)⟩ hn⟩
      · rw [hk.2.2.2 u hu]; rfl
      · exact angle_typed a
  | raw =>
    rw [jsonDs] at h
    by_cases hv : v.empty = true
    · rw [if_pos hv] at h
      obtain rfl := Except.ok.inj h
      exact ⟨fun hh => absurd ((jval_empty_iff v).1 hv) hh.2, fun _ => rfl⟩
    · rw [if_neg hv] at h
      obtain ⟨x, hx, rfl⟩ := map_eq_ok.1 h
      exact ⟨fun _ => ⟨_, _, x, rfl, rfl, rawLeaf_tells hk.2.1 hk.2.2.1 hx, rfl, fun u hu => absurd hu (hk.2.2.2 u), fun h => absurd h hk.2.1,
        fun h => absurd h hk.2.2.1, fun _ _ _ _ => by simp [strDict, Dict.get?]⟩,
        fun hn => absurd ⟨hk.1, fun hb => hv ((jval_empty_iff v).2 hb)⟩ hn⟩

/-- A group with parameters added is supplied. -/
theorem supplied_of {m : ConfMeaning} {kind : Str → JKind} (hk : ∀ p, KindFits m p (kind p)) {l : List (Str × JVal)}
    (hl : (l.map fun kv => m.name kv.1).Nodup) {g0 g : Dict}
    (h : addMembers (l.map fun kv => (m.name kv.1, jsonDs (kind kv.1) kv.2)) g0 = .ok g) : ConfSupplied m l g0 g := by
  obtain ⟨h1, h2⟩ := addMembers_get h (by rw [List.map_map]; exact hl)
  refine ⟨fun p v hp ht hb => ?_, fun k hkk => ?_⟩
  · obtain ⟨o, ho, hg⟩ := h2 (m.name p) _ (List.mem_map.2 ⟨(p, v), hp, rfl⟩)
    obtain ⟨ds, a, x, rfl, hd, hx, ha, hu⟩ := (jsonDs_fits (hk p) ho).1 ⟨ht, hb⟩
    exact ⟨ds, a, x, by rw [hg]; rfl, hd, hx, ha, hu⟩
  · by_cases hm : k ∈ (l.map fun kv => (m.name kv.1, jsonDs (kind kv.1) kv.2)).map Prod.fst
    · rw [List.map_map] at hm
      obtain ⟨⟨p, v⟩, hp, rfl⟩ := List.mem_map.1 hm
      obtain ⟨o, ho, hg⟩ := h2 (m.name p) _ (List.mem_map.2 ⟨(p, v), hp, rfl⟩)
      have := (jsonDs_fits (hk p) ho).2 (fun hh => hh.2 (hkk p v hp hh.1 rfl))
      subst this
      simpa using hg
    · exact h1 k hm

/-- The members made of a section. -/
theorem supplied_sec {m : ConfMeaning} {kind : Str → JKind} (hm : m.name = id) (hk : ∀ p, KindFits m p (kind p)) {c : NxConfig} {name : Str}
    (hn : ((sectionOf c.inst name).map Prod.fst).Nodup) {g0 g : Dict}
    (h : addMembers (secFields kind (c.sec name)) g0 = .ok g) : ConfSupplied m (sectionOf c.inst name) g0 g := by
  have hs : secFields kind (c.sec name) = (sectionOf c.inst name).map (fun kv => (m.name kv.1, jsonDs (kind kv.1) kv.2)) ∨
      c.sec name = .other := by
    rw [hm]
    unfold NxConfig.sec sectionOf
    cases c.inst with
    | none => exact .inl rfl
    | some l =>
      simp only [Option.bind_some]
      cases lookupKey name l with
      | none => exact .inl rfl
      | some s =>
        cases s with
        | null => exact .inl rfl
        | dict ps => exact .inl rfl
        | other => exact .inr rfl
  rcases hs with hs | hs
  · rw [hs] at h
    exact supplied_of hk (by rw [hm]; exact hn) h
  · rw [hs] at h
    exact absurd h (by simp [secFields, addMembers])

/-! ## Each group -/

/-- The check of `KindFits`. -/
def fitsB (words quantities : List Str) (us : List (Str × Str)) (tk : Bool) (p : Str) : JKind → Bool
  | .skip => !tk
  | .char => tk && decide (p ∈ words) && decide (p ∉ quantities) && us.all fun x => decide (x.1 ≠ p)
  | .float a => tk && decide (p ∉ words) && decide (p ∈ quantities) && us.all fun x => decide (x.1 = p → a = [units x.2])
  | .angle a => tk && decide (p ∉ words) && decide (p ∉ quantities) && us.all fun x => decide (x.1 = p → a = [units x.2])
  | .raw => tk && decide (p ∉ words) && decide (p ∉ quantities) && us.all fun x => decide (x.1 ≠ p)
  | .matrix => tk && decide (p ∈ quantities) && (us.all fun x => decide (x.1 ≠ p)) && decide (p ∉ words)

theorem fits_of_check {m : ConfMeaning} {p : Str} {k : JKind} {tk : Bool} (ht : tk = true ↔ m.taken p)
    (h : fitsB m.words m.quantities m.units tk p k = true) : KindFits m p k := by
  cases k <;> simp only [fitsB, Bool.and_eq_true, decide_eq_true_eq, List.all_eq_true, Bool.not_eq_true'] at h
  · exact ⟨ht.1 h.1.1.1, h.1.1.2, h.1.2, fun u hu => h.2 _ hu rfl⟩
  · exact ⟨ht.1 h.1.1.1, h.1.1.2, h.1.2, fun u hu => h.2 _ hu rfl⟩
  · exact ⟨ht.1 h.1.1.1, h.1.1.2, h.1.2, fun u hu => h.2 _ hu rfl⟩
  · exact ⟨ht.1 h.1.1.1, h.1.1.2, h.1.2, fun u hu => h.2 _ hu rfl⟩
  · exact fun hh => by rw [ht.2 hh] at h; exact absurd h (by decide)
  · exact ⟨ht.1 h.1.1.1, h.1.1.2, fun u hu => h.1.2 _ hu rfl, h.2⟩

/-- A parameter about which nothing special is said. -/
theorem fits_plain {m : ConfMeaning} {p : Str} (ht : m.taken p) {L : List Str} (hp : p ∉ L) (h1 : ∀ q ∈ m.words, q ∈ L)
    (h2 : ∀ q ∈ m.quantities, q ∈ L) (h3 : ∀ x ∈ m.units, x.1 ∈ L) : KindFits m p .raw :=
  ⟨ht, fun h => hp (h1 _ h), fun h => hp (h2 _ h), fun _ hu => hp (h3 _ hu)⟩

theorem boxKind_fits (p : Str) : KindFits boxMeaning p (boxKind p) := by
  by_cases h : p ∈ ["shape".toList, "width".toList, "height".toList]
  · exact fits_of_check (tk := true) ⟨fun _ => trivial, fun _ => rfl⟩ ((show ∀ q ∈ ["shape".toList, "width".toList, "height".toList],
      fitsB boxMeaning.words boxMeaning.quantities boxMeaning.units true q (boxKind q) = true by decide +kernel) p h)
  · have hr : boxKind p = .raw := by
      unfold boxKind
      rw [if_neg (fun e : p = "shape".toList => h (by rw [e]; decide +kernel)), if_neg (fun hm => h ((show ∀ q ∈ ["width".toList, "height".toList],
        q ∈ ["shape".toList, "width".toList, "height".toList] by decide +kernel) p hm))]
    rw [hr]
    exact fits_plain trivial h (by decide +kernel) (by decide +kernel) (by decide +kernel)

/-- The parameters of a crystal with a meaning of their own. -/
def crystalNames : List Str :=
  ["shape".toList, "width".toList, "height".toList, "depth".toList, "mosaic_h".toList, "mosaic_v".toList, "curved_h".toList,
   "optimally_curved_h".toList, "curved_v".toList, "optimally_curved_v".toList, "curvh".toList, "curvv".toList]

theorem crystal_raw (k : JKind) {p : Str} (h : p ∉ crystalNames) : crystalKind k p = .raw := by
  unfold crystalKind
  rw [if_neg (fun e : p = "shape".toList => h (by rw [e]; decide +kernel)),
    if_neg (fun hm => h ((show ∀ q ∈ ["width".toList, "height".toList, "depth".toList], q ∈ crystalNames by decide +kernel) p hm)),
    if_neg (fun hm => h ((show ∀ q ∈ ["mosaic_h".toList, "mosaic_v".toList], q ∈ crystalNames by decide +kernel) p hm)),
    if_neg (fun hm => h ((show ∀ q ∈ ["curved_h".toList, "optimally_curved_h".toList, "curved_v".toList,
      "optimally_curved_v".toList], q ∈ crystalNames by decide +kernel) p hm)),
    if_neg (fun hm => h ((show ∀ q ∈ ["curvh".toList, "curvv".toList], q ∈ crystalNames by decide +kernel) p hm))]

theorem mono_fits (p : Str) : KindFits monoMeaning p (crystalKind monoMosaic p) := by
  by_cases h : p ∈ crystalNames
  · exact fits_of_check (tk := true) ⟨fun _ => trivial, fun _ => rfl⟩ ((show ∀ q ∈ crystalNames,
      fitsB monoMeaning.words monoMeaning.quantities monoMeaning.units true q (crystalKind monoMosaic q) = true by
        decide +kernel) p h)
  · rw [crystal_raw _ h]
    exact fits_plain trivial h (by decide +kernel) (by decide +kernel) (by decide +kernel)

theorem ana_fits (p : Str) : KindFits anaMeaning p (crystalKind anaMosaic p) := by
  by_cases h : p ∈ crystalNames
  · exact fits_of_check (tk := true) ⟨fun _ => trivial, fun _ => rfl⟩ ((show ∀ q ∈ crystalNames,
      fitsB anaMeaning.words anaMeaning.quantities anaMeaning.units true q (crystalKind anaMosaic q) = true by
        decide +kernel) p h)
  · rw [crystal_raw _ h]
    exact fits_plain trivial h (by decide +kernel) (by decide +kernel) (by decide +kernel)

theorem only_fits (q p : Str) : KindFits (onlyMeaning q) p (onlyKind q p) := by
  unfold onlyKind
  split
  · rename_i h; subst h; exact ⟨rfl, by simp [onlyMeaning], by simp [onlyMeaning], by simp [onlyMeaning]⟩
  · rename_i h; exact h

/-- The parameters of the cell. -/
def cellNames : List Str := ["a".toList, "b".toList, "c".toList, "alpha".toList, "beta".toList, "gamma".toList]

/-- The other parameters of a sample with a meaning of their own. -/
def sampleNames : List Str :=
  ["shape".toList, "width".toList, "height".toList, "depth".toList, "plane_normal".toList, "in_plane_ref".toList,
   "mosaic_h".toList, "mosaic_v".toList, "ub_matrix".toList]

theorem sample_fits (p : Str) : KindFits sampleMeaning p (sampleKind p) := by
  by_cases h0 : p ∈ cellNames
  · have : sampleKind p = .skip := by exact if_pos h0
    rw [this]
    exact fun h => h h0
  · by_cases h : p ∈ sampleNames
    · exact fits_of_check (tk := true) ⟨fun _ => h0, fun _ => rfl⟩ ((show ∀ q ∈ sampleNames,
        fitsB sampleMeaning.words sampleMeaning.quantities sampleMeaning.units true q (sampleKind q) = true by
          decide +kernel) p h)
    · have hr : sampleKind p = .raw := by
        refine (if_neg h0).trans ?_
        rw [if_neg (fun e : p = "shape".toList => h (by rw [e]; decide +kernel)),
          if_neg (fun hm => h ((show ∀ q ∈ ["width".toList, "height".toList, "depth".toList, "plane_normal".toList,
            "in_plane_ref".toList], q ∈ sampleNames by decide +kernel) p hm)),
          if_neg (fun hm => h ((show ∀ q ∈ ["mosaic_h".toList, "mosaic_v".toList], q ∈ sampleNames by decide +kernel) p hm)),
          if_neg (fun e : p = "ub_matrix".toList => h (by rw [e]; decide +kernel))]
      rw [hr]
      exact fits_plain h0 h (by decide +kernel) (by decide +kernel) (by decide +kernel)


theorem addMembers_append (fs gs : List Field) (d : Dict) : addMembers (fs ++ gs) d = addMembers fs d >>= addMembers gs := by
  induction fs generalizing d with
  | nil => rfl
  | cons f fs ih =>
    show (f.2 >>= fun o => addMembers (fs ++ gs) (addDataset d f.1 o)) = (f.2 >>= fun o => addMembers fs (addDataset d f.1 o)) >>= _
    cases f.2 with
    | error e => rfl
    | ok o => exact ih _

theorem addMembers_fields {fs : List Field} {d g : Dict} (h : addMembers fs d = .ok g) : ∀ f ∈ fs, ∃ o, f.2 = .ok o := by
  induction fs generalizing d with
  | nil => intro f hf; simp at hf
  | cons f fs ih =>
    rw [addMembers] at h
    obtain ⟨o, ho, h⟩ := py_bind_eq_ok.1 h
    intro f' hf'
    rcases List.mem_cons.1 hf' with rfl | hf'
    · exact ⟨o, ho⟩
    · exact ih h f' hf'

theorem detector_prefix (i : ℕ) : "detector_".toList <+: suffixed "detector".toList i :=
  ⟨decStr i, by rw [suffixed]; rfl⟩

theorem supplied_det {c : NxConfig} {logs : List (Str × LogVal)} {g : Dict}
    (hn : ((sectionOf c.inst "detector".toList).map Prod.fst).Nodup)
    (hd : ∀ kv ∈ sectionOf c.inst "detector".toList, ¬ "detector_".toList <+: kv.1) (h : buildDetWith c logs = .ok g) :
    ∃ g0, buildDet logs = .ok g0 ∧ ConfSupplied boxMeaning (sectionOf c.inst "detector".toList) g0 g := by
  rw [buildDetWith] at h
  obtain ⟨d1, h1, h⟩ := py_bind_eq_ok.1 h
  obtain ⟨d2, h2, h⟩ := py_bind_eq_ok.1 h
  obtain ⟨g0, hg0⟩ := addMembers_ok (addMembers_fields h) d1
  have hb : buildDet logs = .ok g0 := by
    rw [buildDet, ← List.take_append_drop 1 (detFields logs), addMembers_append, h1]; exact hg0
  have hs := supplied_sec rfl boxKind_fits hn h2
  have hrest : (((detFields logs).drop 1).map Prod.fst) = (oneTo (nDet logs)).map (suffixed "detector".toList) := by
    rw [detFields, List.drop_succ_cons, List.drop_zero, List.map_map]; rfl
  have hnd : (((detFields logs).drop 1).map Prod.fst).Nodup := by
    rw [hrest, oneTo, List.map_map]
    refine List.Nodup.map ?_ List.nodup_range
    intro i j hij
    exact Nat.add_right_cancel (numbered_inj hij)
  have hpre : ∀ k ∈ ((detFields logs).drop 1).map Prod.fst, "detector_".toList <+: k := by
    intro k hk
    rw [hrest] at hk
    obtain ⟨i, _, rfl⟩ := List.mem_map.1 hk
    exact detector_prefix i
  obtain ⟨a1, a2⟩ := addMembers_get h hnd
  obtain ⟨b1, b2⟩ := addMembers_get hg0 hnd
  refine ⟨g0, hb, fun p v hp ht hv => ?_, fun k hk => ?_⟩
  · obtain ⟨ds, a, x, e, hr⟩ := hs.found p v hp ht hv
    refine ⟨ds, a, x, ?_, hr⟩
    rw [← e]
    exact a1 p fun hm => hd _ hp (hpre p hm)
  · have e := hs.kept k hk
    by_cases hm : k ∈ ((detFields logs).drop 1).map Prod.fst
    · obtain ⟨⟨k', f⟩, hf, rfl⟩ := List.mem_map.1 hm
      obtain ⟨o, ho, e1⟩ := a2 k' f hf
      obtain ⟨o', ho', e2⟩ := b2 k' f hf
      rw [ho] at ho'
      obtain rfl := Except.ok.inj ho'
      rw [e1, e2, e]
    · rw [a1 k hm, b1 k hm, e]

/-! ## Collimators -/

theorem option_mapM_iff {α β : Type} (f : α → Option β) (l : List α) (r : List β) :
    l.mapM f = some r ↔ l.map f = r.map some := by
  induction l generalizing r with
  | nil => cases r <;> simp
  | cons a l ih =>
    rw [List.mapM_cons]
    cases ha : f a with
    | none => cases r <;> simp [ha]
    | some b =>
      cases hl : l.mapM f with
      | none =>
        cases r with
        | nil => simp [ha]
        | cons c r =>
          have : ¬ l.map f = r.map some := fun h => by rw [(ih r).2 h] at hl; simp at hl
          simp [ha, this]
      | some bs =>
        cases r with
        | nil => simp [ha]
        | cons c r =>
          have := ih r
          rw [hl] at this
          simp only [Option.some.injEq] at this
          simp [ha, this]

theorem divergence_of {key pre : Str} {names : List Str}
    (hn : names = ["_pre_mono".toList, "_pre_sample".toList, "_post_sample".toList, "_post_ana".toList].map (pre ++ ·))
    {l : List (Str × JVal)} {g0 g : Dict} (h : addMembers (divField key pre l) g0 = .ok g) :
    ConfDivergence key names l g0 g ∧ ∀ k, k ≠ key → g.get? k = g0.get? k := by
  have hmap : ["_pre_mono".toList, "_pre_sample".toList, "_post_sample".toList, "_post_ana".toList].map
      (fun s => lookupKey (pre ++ s) l) = names.map (lookupKey · l) := by rw [hn, List.map_map]; rfl
  rw [divField] at h
  generalize hq : (["_pre_mono".toList, "_pre_sample".toList, "_post_sample".toList, "_post_ana".toList].mapM
    fun s => lookupKey (pre ++ s) l) = q at h
  cases q with
  | none =>
    obtain rfl := Except.ok.inj h
    refine ⟨⟨fun vals hv => ?_, fun _ => rfl⟩, fun _ _ => rfl⟩
    have := (option_mapM_iff _ _ (vals.map fun x => JVal.num x.1 x.2)).2 (hmap.trans (hv.trans (by rw [List.map_map]; rfl)))
    rw [hq] at this
    exact absurd this (by simp)
  | some vs =>
    have hvs := (option_mapM_iff _ _ _).1 hq
    rw [hmap] at hvs
    obtain ⟨o, ho, h⟩ := py_bind_eq_ok.1 h
    obtain rfl := Except.ok.inj h
    refine ⟨⟨fun vals hv => ?_, fun ⟨n, hn', hl⟩ => ?_⟩, fun k hk => get?_addDataset_ne _ (Ne.symm hk)⟩
    · have e : vs = vals.map fun x => JVal.num x.1 x.2 := by
        rw [hv, show (vals.map fun x => some (JVal.num x.1 x.2)) = (vals.map fun x => JVal.num x.1 x.2).map some by
          rw [List.map_map]; rfl] at hvs
        exact (List.map_injective_iff.2 (Option.some_injective _) hvs).symm
      subst e
      obtain ⟨x, hx, rfl⟩ := map_eq_ok.1 ho
      have hll : listLeaf (vals.map fun x => JVal.num x.1 x.2) = .ok (.fin (vals.map Prod.fst)) := by
        rw [listLeaf, (option_mapM_iff _ _ (vals.map Prod.fst)).2 (by rw [List.map_map, List.map_map]; rfl)]
      rw [hll] at hx
      obtain rfl := Except.ok.inj hx
      refine ⟨nxDs (.fin (vals.map Prod.fst)) [("type".toList, "NX_ANGLE".toList), units "minutes of arc".toList],
        strDict [("type".toList, "NX_ANGLE".toList), units "minutes of arc".toList], ?_, rfl, rfl, rfl⟩
      show (g0.set key _).get? key = _
      rw [get?_set, if_pos rfl]
    · exfalso
      have : none ∈ names.map (lookupKey · l) := List.mem_map.2 ⟨n, hn', hl⟩
      rw [hvs] at this
      simp at this

theorem supplied_coll {c : NxConfig} {g0 g : Dict} (h : addMembers (collJson (c.sec "collimators".toList)) g0 = .ok g) :
    ConfDivergence "divergence_x".toList beamH (sectionOf c.inst "collimators".toList) g0 g ∧
    ConfDivergence "divergence_y".toList beamV (sectionOf c.inst "collimators".toList) g0 g ∧
    ∀ k, k ≠ "divergence_x".toList → k ≠ "divergence_y".toList → g.get? k = g0.get? k := by
  have hs : collJson (c.sec "collimators".toList) =
      divField "divergence_x".toList "h".toList (sectionOf c.inst "collimators".toList) ++
      divField "divergence_y".toList "v".toList (sectionOf c.inst "collimators".toList) ∨ c.sec "collimators".toList = .other := by
    unfold NxConfig.sec sectionOf
    cases c.inst with
    | none => exact .inl rfl
    | some l =>
      simp only [Option.bind_some]
      cases lookupKey "collimators".toList l with
      | none => exact .inl rfl
      | some s =>
        cases s with
        | null => exact .inl rfl
        | dict ps => exact .inl rfl
        | other => exact .inr rfl
  rcases hs with hs | hs
  · rw [hs, addMembers_append] at h
    obtain ⟨d, h1, h2⟩ := py_bind_eq_ok.1 h
    obtain ⟨x1, x2⟩ := divergence_of (names := beamH) (by decide +kernel) h1
    obtain ⟨y1, y2⟩ := divergence_of (names := beamV) (by decide +kernel) h2
    refine ⟨⟨fun vals hv => ?_, fun hm => ?_⟩, ⟨fun vals hv => y1.found vals hv, fun hm => ?_⟩, fun k hx hy => ?_⟩
    · rw [y2 _ (by decide)]; exact x1.found vals hv
    · rw [y2 _ (by decide)]; exact x1.kept hm
    · rw [y1.kept hm, x2 _ (by decide)]
    · rw [y2 k hy, x2 k hx]
  · rw [hs] at h
    exact absurd h (by simp [collJson, addMembers])

/-! ## The entry -/

theorem entry_of_made {iso : Str → Py Str} {logs : List (Str × LogVal)} {p : Pieces} (h : Made iso logs p) :
    scanToNx iso logs = .ok p.entry := by
  rw [scanToNx, h.hmd]
  show (buildUser p.md >>= _) = _
  rw [h.huser, py_bind_ok, h.hsrc, py_bind_ok, h.hmono, py_bind_ok, h.hana, py_bind_ok, h.hdet, py_bind_ok, h.hcoll, py_bind_ok,
    h.hslits, py_bind_ok, h.hflip, py_bind_ok, h.hgoni, py_bind_ok, h.hmon, py_bind_ok, h.hsamp, py_bind_ok, h.hlg, py_bind_ok,
    h.hstart, py_bind_ok, h.hstop, py_bind_ok]
  rfl

theorem pieces_top (p : Pieces) : p.entry.get? "instrument".toList = some (.dict p.inst) ∧
    p.entry.get? "monitor".toList = some (.dict p.mon) ∧ p.entry.get? "sample".toList = some (.dict p.samp) := by
  refine ⟨?_, ?_, ?_⟩
  · rw [← entry_get p (by decide) (by decide)]; exact entry_inst p
  · rw [← entry_get p (by decide) (by decide)]; exact entry_mon p
  · rw [← entry_get p (by decide) (by decide)]; exact entry_samp p

theorem assemble_rest {lg data : Dict} {title start stop : Option Dict} {i m s i' m' s' user : Dict} {k : Str}
    (n1 : k ≠ "instrument".toList) (n2 : k ≠ "monitor".toList) (n3 : k ≠ "sample".toList) :
    (assemble lg data title start stop i m s user).get? k = (assemble lg data title start stop i' m' s' user).get? k := by
  unfold assemble
  simp only [get?_set, if_neg (Ne.symm n1), if_neg (Ne.symm n2), if_neg (Ne.symm n3)]

/-- The files change nothing but what they speak about. -/
theorem scan_supplemented {iso : Str → Py Str} {c : NxConfig} {logs : List (Str × LogVal)} {d : Dict}
    (ht : TidyConfig c.inst c.samp) (h : scanToNxWith iso c logs = .ok d) :
    ∃ d0, scanToNx iso logs = .ok d0 ∧ ConfSupplemented c.inst c.samp d0 d := by
  rw [scanToNxWith] at h
  obtain ⟨md, hmd, h⟩ := py_bind_eq_ok.1 h
  obtain ⟨user, h1, h⟩ := py_bind_eq_ok.1 h
  obtain ⟨src, h2, h⟩ := py_bind_eq_ok.1 h
  obtain ⟨mono, h3, h⟩ := py_bind_eq_ok.1 h
  obtain ⟨ana, h4, h⟩ := py_bind_eq_ok.1 h
  obtain ⟨det, h5, h⟩ := py_bind_eq_ok.1 h
  obtain ⟨coll, h6, h⟩ := py_bind_eq_ok.1 h
  obtain ⟨slits, h7, h⟩ := py_bind_eq_ok.1 h
  obtain ⟨flip, h8, h⟩ := py_bind_eq_ok.1 h
  obtain ⟨goni, h9, h⟩ := py_bind_eq_ok.1 h
  obtain ⟨mon, h10, h⟩ := py_bind_eq_ok.1 h
  obtain ⟨samp, h11, h⟩ := py_bind_eq_ok.1 h
  obtain ⟨lg, h12, h⟩ := py_bind_eq_ok.1 h
  obtain ⟨start, h13, h⟩ := py_bind_eq_ok.1 h
  obtain ⟨stop, h14, h⟩ := py_bind_eq_ok.1 h
  have hmd' : lookupKey "metadata".toList logs = some (.meta_ md) := by
    split at hmd
    · rename_i m hm; obtain rfl := Except.ok.inj hmd; exact hm
    · exact absurd hmd (by simp)
  obtain ⟨src0, a2, b2⟩ := py_bind_eq_ok.1 h2
  obtain ⟨mono0, a3, b3⟩ := py_bind_eq_ok.1 h3
  obtain ⟨ana0, a4, b4⟩ := py_bind_eq_ok.1 h4
  obtain ⟨det0, a5, b5⟩ := supplied_det (ht.sections _) ht.detector h5
  obtain ⟨coll0, a6, b6⟩ := py_bind_eq_ok.1 h6
  obtain ⟨goni0, a9, b9⟩ := py_bind_eq_ok.1 h9
  obtain ⟨mon0, a10, b10⟩ := py_bind_eq_ok.1 h10
  obtain ⟨samp0, a11, b11⟩ := py_bind_eq_ok.1 h11
  let p0 : Pieces := ⟨md, user, src0, mono0, ana0, det0, coll0, slits, flip, goni0, mon0, samp0, lg, start, stop⟩
  let p1 : Pieces := ⟨md, user, src, mono, ana, det, coll, slits, flip, goni, mon, samp, lg, start, stop⟩
  have hp0 : Made iso logs p0 := ⟨hmd', h1, a2, a3, a4, a5, a6, h7, h8, a9, a10, a11, h12, h13, h14⟩
  obtain rfl : p1.entry = d := Except.ok.inj h
  refine ⟨p0.entry, entry_of_made hp0, ?_, ?_, ?_, ?_⟩
  · intro k n1 n2 n3
    exact assemble_rest n1 n2 n3
  · refine ⟨p0.inst, p1.inst, (pieces_top p0).1, (pieces_top p1).1, fun k n1 n2 => ?_, fun x hx => ?_, coll0, coll,
      inst_comp p0 (by simp [Pieces.comps, p0]), inst_comp p1 (by simp [Pieces.comps, p1]), supplied_coll b6⟩
    · by_cases hk : k = "name".toList
      · subst hk
        show (addDataset _ _ _).get? _ = (addDataset _ _ _).get? _
        rw [get?_addDataset_eq _ rfl, get?_addDataset_eq _ rfl]
      · simp only [instrumentParts, List.map_cons, List.map_nil, List.mem_cons, List.not_mem_nil, or_false, not_or] at n2
        rw [inst_get p0 hk, inst_get p1 hk, if_neg (Ne.symm n2.1), if_neg (Ne.symm n2.2.1), if_neg (Ne.symm n1),
          if_neg (Ne.symm n2.2.2.1), if_neg (Ne.symm n2.2.2.2.1), if_neg (Ne.symm n2.2.2.2.2), if_neg (Ne.symm n2.1),
          if_neg (Ne.symm n2.2.1), if_neg (Ne.symm n1), if_neg (Ne.symm n2.2.2.1), if_neg (Ne.symm n2.2.2.2.1),
          if_neg (Ne.symm n2.2.2.2.2)]
    · simp only [instrumentParts, List.mem_cons, List.not_mem_nil, or_false] at hx
      rcases hx with rfl | rfl | rfl | rfl | rfl
      · exact ⟨src0, src, inst_comp p0 (by simp [Pieces.comps, p0]), inst_comp p1 (by simp [Pieces.comps, p1]),
          supplied_sec rfl boxKind_fits (ht.sections _) b2⟩
      · exact ⟨mono0, mono, inst_comp p0 (by simp [Pieces.comps, p0]), inst_comp p1 (by simp [Pieces.comps, p1]),
          supplied_sec rfl mono_fits (ht.sections _) b3⟩
      · exact ⟨ana0, ana, inst_comp p0 (by simp [Pieces.comps, p0]), inst_comp p1 (by simp [Pieces.comps, p1]),
          supplied_sec rfl ana_fits (ht.sections _) b4⟩
      · exact ⟨det0, det, inst_comp p0 (by simp [Pieces.comps, p0]), inst_comp p1 (by simp [Pieces.comps, p1]), b5⟩
      · exact ⟨goni0, goni, inst_comp p0 (by simp [Pieces.comps, p0]), inst_comp p1 (by simp [Pieces.comps, p1]),
          supplied_sec rfl (only_fits _) (ht.sections _) b9⟩
  · exact ⟨mon0, mon, (pieces_top p0).2.1, (pieces_top p1).2.1, supplied_sec rfl (only_fits _) (ht.sections _) b10⟩
  · refine ⟨samp0, samp, (pieces_top p0).2.2, (pieces_top p1).2.2, ?_⟩
    have hs := ht.sample
    cases hc : c.samp with
    | none =>
      rw [hc] at b11
      obtain rfl := Except.ok.inj b11
      exact ⟨fun p v hp => by simp at hp, fun _ _ => rfl⟩
    | some l =>
      rw [hc] at b11 hs
      exact supplied_of sample_fits hs b11

/-! ## Folders -/

theorem supplemented_named {inst : Option (List (Str × JSec))} {samp : Option (List (Str × JVal))} {d0 d : Dict}
    (h : ConfSupplemented inst samp d0 d) (n : Str) : ConfSupplemented inst samp (setDatasetName d0 n) (setDatasetName d n) := by
  have ha : d.get? kAttrs = d0.get? kAttrs := h.rest _ (by decide) (by decide) (by decide)
  obtain ⟨r, i, m, s⟩ := h
  refine ⟨fun k n1 n2 n3 => ?_, ?_, ?_, ?_⟩
  · by_cases hk : k = kAttrs
    · subst hk
      unfold setDatasetName
      rw [ha]
      split
      · rw [get?_set, get?_set, if_pos rfl, if_pos rfl]
      · exact ha
    · rw [get?_setDatasetName _ _ hk, get?_setDatasetName _ _ hk]; exact r k n1 n2 n3
  · rw [get?_setDatasetName _ _ (by decide), get?_setDatasetName _ _ (by decide)]; exact i
  · rw [get?_setDatasetName _ _ (by decide), get?_setDatasetName _ _ (by decide)]; exact m
  · rw [get?_setDatasetName _ _ (by decide), get?_setDatasetName _ _ (by decide)]; exact s

theorem forall2_assocSet {α : Type} {R : α → α → Prop} {l l' : List (Str × α)}
    (h : List.Forall₂ (fun a b => a.1 = b.1 ∧ R a.2 b.2) l l') (k : Str) {v v' : α} (hv : R v v') :
    List.Forall₂ (fun a b => a.1 = b.1 ∧ R a.2 b.2) (assocSet l k v) (assocSet l' k v') := by
  induction h with
  | nil => exact .cons ⟨rfl, hv⟩ .nil
  | @cons a b l l' hab _ ih =>
    obtain ⟨ka, va⟩ := a
    obtain ⟨kb, vb⟩ := b
    obtain ⟨hk, hr⟩ := hab
    simp only at hk
    subst hk
    simp only [assocSet]
    split
    · exact .cons ⟨rfl, hv⟩ (by assumption)
    · exact .cons ⟨rfl, hr⟩ ih

section

variable {iso : Str → Py Str} {xml : List Str → Option Str} {fs : FS}
  {inst : Option (List (Str × JSec))} {samp : Option (List (Str × JVal))}

theorem loadJson_some {α : Type} (o : Option α) : loadJson (o.map some) = .ok o := by cases o <;> rfl

theorem files_supplemented (ht : TidyConfig inst samp) {dir : List Str} {ds : Str} :
    ∀ {files : List Str} {acc0 acc r : List (Str × Dict)},
      List.Forall₂ (fun a b => a.1 = b.1 ∧ ConfSupplemented inst samp a.2 b.2) acc0 acc →
      filesToNxWith iso xml (inst.map some) (samp.map some) fs dir ds files acc = .ok r →
      ∃ r0, filesToNx iso xml fs dir ds files acc0 = .ok r0 ∧
        List.Forall₂ (fun a b => a.1 = b.1 ∧ ConfSupplemented inst samp a.2 b.2) r0 r
  | [], acc0, acc, r, hacc, h => by
    obtain rfl := Except.ok.inj h
    exact ⟨acc0, rfl, hacc⟩
  | f :: files, acc0, acc, r, hacc, h => by
    rw [filesToNxWith] at h
    obtain ⟨n, hn, h⟩ := py_bind_eq_ok.1 h
    obtain ⟨d, hd, h⟩ := py_bind_eq_ok.1 h
    rw [fileToNxWith, loadJson_some, py_bind_ok, loadJson_some, py_bind_ok] at hd
    obtain ⟨logs, hl, hd⟩ := py_bind_eq_ok.1 hd
    obtain ⟨d0, hd0, hs⟩ := scan_supplemented (c := ⟨inst, samp⟩) ht hd
    obtain ⟨r0, hr0, hr⟩ := files_supplemented ht (forall2_assocSet hacc n (supplemented_named hs ds)) h
    refine ⟨r0, ?_, hr⟩
    rw [filesToNx, hn, py_bind_ok, fileToNx, hl, py_bind_ok, hd0, py_bind_ok]
    exact hr0

/-- **C104.** A single file read with configuration files. -/
theorem C104_file (ht : TidyConfig inst samp) {dir : List Str} {name : Str} {d : Dict}
    (h : fileToNxWith iso xml (inst.map some) (samp.map some) fs dir name = .ok d) :
    ∃ d0, fileToNx iso xml fs dir name = .ok d0 ∧ ConfSupplemented inst samp d0 d := by
  rw [fileToNxWith, loadJson_some, py_bind_ok, loadJson_some, py_bind_ok] at h
  obtain ⟨logs, hl, h⟩ := py_bind_eq_ok.1 h
  obtain ⟨d0, hd0, hs⟩ := scan_supplemented (c := ⟨inst, samp⟩) ht h
  exact ⟨d0, by rw [fileToNx, hl, py_bind_ok]; exact hd0, hs⟩

/-- **C104.** A folder read with configuration files: the same scans are found as without, in the same order, and each entry is
the one without the files, supplemented by what they say: every parameter in its group, under its name, with its value and units;
everything else unchanged. -/
theorem C104_supplemented (ht : TidyConfig inst samp) {folder listing : List Str} {scanNum : Option ℕ} {r : List (Str × Dict)}
    (h : fromSpiceWith iso xml (inst.map some) (samp.map some) fs folder listing scanNum = .ok r) :
    ∃ r0, fromSpice iso xml fs folder listing scanNum = .ok r0 ∧
      List.Forall₂ (fun a b => a.1 = b.1 ∧ ConfSupplemented inst samp a.2 b.2) r0 r := by
  rw [fromSpiceWith] at h
  rw [fromSpice]
  by_cases n1 : (fs folder).isNone = true
  · rw [if_pos n1] at h; exact absurd h (by simp)
  rw [if_neg n1] at h ⊢
  by_cases n2 : isFolder fs folder = false
  · rw [if_pos n2] at h; exact absurd h (by simp)
  rw [if_neg n2] at h ⊢
  by_cases n3 : isFolder fs (folder ++ ["Datafiles".toList]) = false
  · rw [if_pos n3] at h; exact absurd h (by simp)
  rw [if_neg n3] at h ⊢
  rw [spiceDataToNxWith] at h
  obtain ⟨first, h1, h⟩ := py_bind_eq_ok.1 h
  obtain ⟨f, h2, h⟩ := py_bind_eq_ok.1 h
  obtain ⟨ds, h3, h⟩ := py_bind_eq_ok.1 h
  obtain ⟨r0, hr0, hr⟩ := files_supplemented ht .nil h
  refine ⟨r0, ?_, hr⟩
  rw [spiceDataToNx, h1, py_bind_ok, h2, py_bind_ok, h3, py_bind_ok]
  exact hr0

/-! ## Without files, and with files that are refused -/

theorem scan_without (logs : List (Str × LogVal)) : scanToNxWith iso ⟨none, none⟩ logs = scanToNx iso logs := by
  have e2 : buildSourceWith ⟨none, none⟩ = buildSource := bind_pure _
  have e3 : ∀ md, buildMonoWith ⟨none, none⟩ logs md = buildMono logs md := fun md => bind_pure _
  have e4 : ∀ md, buildAnaWith ⟨none, none⟩ logs md = buildAna logs md := fun md => bind_pure _
  have e5 : buildDetWith ⟨none, none⟩ logs = buildDet logs := by
    conv_rhs => rw [buildDet, ← List.take_append_drop 1 (detFields logs), addMembers_append]
    rfl
  have e6 : ∀ md, buildCollWith ⟨none, none⟩ md = buildColl md := fun md => bind_pure _
  have e9 : ∀ md, buildGoniWith ⟨none, none⟩ logs md = buildGoni logs md := fun md => bind_pure _
  have e10 : ∀ md, buildMonitorWith ⟨none, none⟩ logs md = buildMonitor logs md := fun md => bind_pure _
  have e11 : ∀ md, buildSampleWith ⟨none, none⟩ logs md = buildSample logs md := fun md => bind_pure _
  unfold scanToNxWith scanToNx
  simp only [e2, e3, e4, e5, e6, e9, e10, e11]
  rfl

theorem file_without (dir : List Str) (name : Str) : fileToNxWith iso xml none none fs dir name = fileToNx iso xml fs dir name := by
  rw [fileToNxWith, fileToNx]
  show (createSpicelogs xml fs dir name >>= scanToNxWith iso ⟨none, none⟩) = _
  congr 1
  funext logs
  exact scan_without logs

/-- **C104.** Without configuration files reading a folder is what it is in all other properties. -/
theorem C104_without (folder listing : List Str) (scanNum : Option ℕ) :
    fromSpiceWith iso xml none none fs folder listing scanNum = fromSpice iso xml fs folder listing scanNum := by
  have hf : ∀ dir ds files acc, filesToNxWith iso xml none none fs dir ds files acc = filesToNx iso xml fs dir ds files acc := by
    intro dir ds files
    induction files with
    | nil => intro acc; rfl
    | cons f files ih => intro acc; simp only [filesToNxWith, filesToNx, file_without, ih]
  simp only [fromSpiceWith, fromSpice, spiceDataToNxWith, spiceDataToNx, hf]

/-- **C104.** A path at which there is no file is refused, whichever of the two it is. -/
theorem C104_no_file (dir : List Str) (name : Str) (ji : JPath (List (Str × JSec))) (js : JPath (List (Str × JVal)))
    (h : ji = some none ∨ js = some none) : fileToNxWith iso xml ji js fs dir name = .error .valueError := by
  rw [fileToNxWith]
  rcases h with rfl | rfl
  · rfl
  · cases ji with
    | none => rfl
    | some i => cases i <;> rfl

/-- **C104.** A sample file whose matrix has not nine numbers is refused. -/
theorem C104_matrix (l : List ℝ) (hl : l.length ≠ 9) (hs : ∃ ps, samp = some ps ∧ ("ub_matrix".toList, JVal.nums l) ∈ ps)
    (dir : List Str) (name : Str) (d : Dict) :
    fileToNxWith iso xml (inst.map some) (samp.map some) fs dir name ≠ .ok d := by
  intro h
  obtain ⟨ps, rfl, hm⟩ := hs
  rw [fileToNxWith, loadJson_some, py_bind_ok, loadJson_some, py_bind_ok] at h
  obtain ⟨logs, _, h⟩ := py_bind_eq_ok.1 h
  rw [scanToNxWith] at h
  obtain ⟨md, _, h⟩ := py_bind_eq_ok.1 h
  obtain ⟨_, _, h⟩ := py_bind_eq_ok.1 h
  obtain ⟨_, _, h⟩ := py_bind_eq_ok.1 h
  obtain ⟨_, _, h⟩ := py_bind_eq_ok.1 h
  obtain ⟨_, _, h⟩ := py_bind_eq_ok.1 h
  obtain ⟨_, _, h⟩ := py_bind_eq_ok.1 h
  obtain ⟨_, _, h⟩ := py_bind_eq_ok.1 h
  obtain ⟨_, _, h⟩ := py_bind_eq_ok.1 h
  obtain ⟨_, _, h⟩ := py_bind_eq_ok.1 h
  obtain ⟨_, _, h⟩ := py_bind_eq_ok.1 h
  obtain ⟨_, _, h⟩ := py_bind_eq_ok.1 h
  obtain ⟨_, h11, h⟩ := py_bind_eq_ok.1 h
  obtain ⟨_, _, h11⟩ := py_bind_eq_ok.1 h11
  obtain ⟨o, ho⟩ := addMembers_fields h11 _ (List.mem_map.2 ⟨_, hm, rfl⟩)
  have hk : sampleKind "ub_matrix".toList = .matrix := by
    unfold sampleKind
    rw [if_neg (by decide +kernel), if_neg (by decide +kernel), if_neg (by decide +kernel), if_neg (by decide +kernel), if_pos rfl]
  simp only [hk, jsonDs, matrixLeaf, if_neg hl] at ho
  exact absurd ho (by simp [Except.map])

/-- **C104, finding.** The cell in the sample file is ignored: the cell of the entry is that of the data file, whatever the file
says about `a`, `b`, `c`, `alpha`, `beta` and `gamma` – even when its matrix is taken. -/
theorem C104_cell_ignored (ht : TidyConfig inst samp) (hu : ∀ v, ("unit_cell".toList, v) ∉ samp.getD [])
    {dir : List Str} {name : Str} {d : Dict} (h : fileToNxWith iso xml (inst.map some) (samp.map some) fs dir name = .ok d) :
    ∃ d0 g0 g, fileToNx iso xml fs dir name = .ok d0 ∧ d0.get? "sample".toList = some (.dict g0) ∧
      d.get? "sample".toList = some (.dict g) ∧ g.get? "unit_cell".toList = g0.get? "unit_cell".toList := by
  obtain ⟨d0, hd0, hs⟩ := C104_file ht h
  obtain ⟨g0, g, e0, e, hsup⟩ := hs.sample
  refine ⟨d0, g0, g, hd0, e0, e, hsup.kept _ fun p v hp _ hn => ?_⟩
  exfalso
  have : p = "unit_cell".toList := by
    by_cases hp' : p = "ub_matrix".toList
    · subst hp'; exact absurd hn (by decide +kernel)
    · rw [← hn]; exact (if_neg hp').symm
  subst this
  exact hu v hp

/-! ## Files that can be used -/

/-- What can be stored is stored. -/
theorem jsonDs_ok {m : ConfMeaning} {p : Str} {k : JKind} (hk : KindFits m p k) (hm : k ≠ .matrix) {v : JVal} (hv : Storable m p v) :
    ∃ o, jsonDs k v = .ok o := by
  cases k with
  | matrix => exact absurd rfl hm
  | skip => exact ⟨_, rfl⟩
  | char =>
    rw [jsonDs]
    split
    · exact ⟨_, rfl⟩
    · rename_i he
      cases hv with
      | null => exact absurd rfl he
      | bool b => cases b <;> exact ⟨_, rfl⟩
      | _ => exact ⟨_, rfl⟩
  | float a =>
    rw [jsonDs]
    split
    · exact ⟨_, rfl⟩
    · rename_i he
      cases hv with
      | null => exact absurd rfl he
      | str s h => exact absurd hk.2.2.1 h
      | strs s h => exact absurd hk.2.2.1 h
      | _ => exact ⟨_, rfl⟩
  | angle a =>
    rw [jsonDs]
    split
    · exact ⟨_, rfl⟩
    · rename_i he
      cases hv with
      | null => exact absurd rfl he
      | _ => exact ⟨_, rfl⟩
  | raw =>
    rw [jsonDs]
    split
    · exact ⟨_, rfl⟩
    · rename_i he
      cases hv with
      | null => exact absurd rfl he
      | _ => exact ⟨_, rfl⟩

theorem secFields_ok {m : ConfMeaning} {kind : Str → JKind} (hk : ∀ p, KindFits m p (kind p)) (hmx : ∀ p, kind p ≠ .matrix)
    {c : NxConfig} {name : Str} (hs : c.inst.bind (lookupKey name) ≠ some .other)
    (hv : ∀ p v, (p, v) ∈ sectionOf c.inst name → Storable m p v) (d : Dict) :
    ∃ g, addMembers (secFields kind (c.sec name)) d = .ok g := by
  refine addMembers_ok (fun f hf => ?_) d
  have : c.sec name = .null ∨ c.sec name = .dict (sectionOf c.inst name) := by
    revert hs
    unfold NxConfig.sec sectionOf
    cases c.inst with
    | none => exact fun _ => .inl rfl
    | some l =>
      simp only [Option.bind_some]
      cases lookupKey name l with
      | none => exact fun _ => .inl rfl
      | some s =>
        cases s with
        | null => exact fun _ => .inl rfl
        | dict ps => exact fun _ => .inr rfl
        | other => exact fun h => absurd rfl h
  rcases this with e | e
  · rw [e] at hf; exact absurd hf (by simp [secFields])
  · rw [e] at hf
    obtain ⟨kv, hkv, rfl⟩ := List.mem_map.1 hf
    exact jsonDs_ok (hk kv.1) (hmx kv.1) (hv _ _ hkv)

theorem divField_ok {key pre : Str} {l : List (Str × JVal)}
    (h : ∀ n ∈ ["_pre_mono".toList, "_pre_sample".toList, "_post_sample".toList, "_post_ana".toList].map (pre ++ ·), ∀ v,
      lookupKey n l = some v → ∃ x t, v = .num x t) : ∀ f ∈ divField key pre l, ∃ o, f.2 = .ok o := by
  intro f hf
  rw [divField] at hf
  generalize hq : (["_pre_mono".toList, "_pre_sample".toList, "_post_sample".toList, "_post_ana".toList].mapM
    fun s => lookupKey (pre ++ s) l) = q at hf
  cases q with
  | none => exact absurd hf (by simp)
  | some vs =>
    obtain rfl := List.mem_singleton.1 hf
    have hvs := (option_mapM_iff _ _ _).1 hq
    have hall : ∀ v ∈ vs, ∃ x t, v = JVal.num x t := by
      intro v hv
      have : some v ∈ vs.map some := List.mem_map.2 ⟨v, hv, rfl⟩
      rw [← hvs] at this
      obtain ⟨s, hs, e⟩ := List.mem_map.1 this
      exact h _ (List.mem_map.2 ⟨s, hs, rfl⟩) v e
    have hnum : ∃ xs : List ℝ, vs.mapM JVal.num? = some xs := by
      clear hvs hq hf
      induction vs with
      | nil => exact ⟨[], rfl⟩
      | cons v vs ih =>
        obtain ⟨x, t, rfl⟩ := hall v (List.mem_cons_self ..)
        obtain ⟨xs, hxs⟩ := ih fun v hv => hall v (List.mem_cons_of_mem _ hv)
        exact ⟨x :: xs, by rw [List.mapM_cons, hxs]; rfl⟩
    obtain ⟨xs, hxs⟩ := hnum
    have : listLeaf vs = .ok (.fin xs) := by rw [listLeaf, hxs]
    rw [this]; exact ⟨_, rfl⟩

/-- **C104.** Files whose values can be stored are not refused: what can be read without them can be read with them. -/
theorem C104_loads (h : StorableConfig inst samp) {dir : List Str} {name : Str} {d0 : Dict}
    (h0 : fileToNx iso xml fs dir name = .ok d0) :
    ∃ d, fileToNxWith iso xml (inst.map some) (samp.map some) fs dir name = .ok d := by
  rw [fileToNx] at h0
  obtain ⟨logs, hl, h0⟩ := py_bind_eq_ok.1 h0
  obtain ⟨p, hp, rfl⟩ := scanToNx_inv h0
  have part : ∀ x ∈ instrumentParts, ∀ kind : Str → JKind, (∀ p, KindFits x.2.2 p (kind p)) → (∀ p, kind p ≠ .matrix) → ∀ d,
      ∃ g, addMembers (secFields kind ((⟨inst, samp⟩ : NxConfig).sec x.2.1)) d = .ok g :=
    fun x hx kind hk hm d => secFields_ok (c := ⟨inst, samp⟩) hk hm (h.sections _) (h.parts x hx) d
  have mbox : ∀ p, boxKind p ≠ .matrix := by intro p; unfold boxKind; split_ifs <;> simp
  have mcry : ∀ k, k ≠ JKind.matrix → ∀ p, crystalKind k p ≠ .matrix := by
    intro k hk p; unfold crystalKind; split_ifs <;> first | exact hk | simp
  have monly : ∀ q p, onlyKind q p ≠ .matrix := by intro q p; unfold onlyKind; split_ifs <;> simp
  obtain ⟨src, e2⟩ := part (_, _, _) (List.mem_cons_self ..) boxKind boxKind_fits mbox p.src
  obtain ⟨mono, e3⟩ := part (_, _, _) (by rw [instrumentParts]; exact List.mem_cons_of_mem _ (List.mem_cons_self ..))
    (crystalKind monoMosaic) mono_fits (mcry _ (by simp [monoMosaic])) p.mono
  obtain ⟨ana, e4⟩ := part (_, _, _)
    (by rw [instrumentParts]; exact List.mem_cons_of_mem _ (List.mem_cons_of_mem _ (List.mem_cons_self ..)))
    (crystalKind anaMosaic) ana_fits (mcry _ (by simp [anaMosaic])) p.ana
  obtain ⟨det, e5⟩ : ∃ det, buildDetWith ⟨inst, samp⟩ logs = .ok det := by
    have hd := hp.hdet
    rw [buildDet, ← List.take_append_drop 1 (detFields logs), addMembers_append] at hd
    obtain ⟨d1, h1, h2⟩ := py_bind_eq_ok.1 hd
    obtain ⟨d2, hd2⟩ := part (_, _, _) (by
      rw [instrumentParts]
      exact List.mem_cons_of_mem _ (List.mem_cons_of_mem _ (List.mem_cons_of_mem _ (List.mem_cons_self ..)))) boxKind boxKind_fits mbox d1
    obtain ⟨d3, hd3⟩ := addMembers_ok (addMembers_fields h2) d2
    exact ⟨d3, by rw [buildDetWith, h1, py_bind_ok, hd2, py_bind_ok]; exact hd3⟩
  obtain ⟨coll, e6⟩ : ∃ g, addMembers (collJson ((⟨inst, samp⟩ : NxConfig).sec "collimators".toList)) p.coll = .ok g := by
    refine addMembers_ok ?_ _
    have hs := h.sections "collimators".toList
    have hc := h.collimators
    revert hs hc
    unfold NxConfig.sec sectionOf
    cases inst with
    | none => exact fun _ _ f hf => by simp [collJson] at hf
    | some l =>
      simp only [Option.bind_some]
      cases lookupKey "collimators".toList l with
      | none => exact fun _ _ f hf => by simp [collJson] at hf
      | some s =>
        cases s with
        | null => exact fun _ _ f hf => by simp [collJson] at hf
        | dict ps =>
          intro _ hc f hf
          rw [Option.getD_some, collJson] at hf
          have eH : beamH = ["_pre_mono".toList, "_pre_sample".toList, "_post_sample".toList, "_post_ana".toList].map
            ("h".toList ++ ·) := by decide +kernel
          have eV : beamV = ["_pre_mono".toList, "_pre_sample".toList, "_post_sample".toList, "_post_ana".toList].map
            ("v".toList ++ ·) := by decide +kernel
          rcases List.mem_append.1 hf with hf | hf
          · exact divField_ok (by rw [← eH]; exact fun n hn => hc n (List.mem_append_left _ hn)) f hf
          · exact divField_ok (by rw [← eV]; exact fun n hn => hc n (List.mem_append_right _ hn)) f hf
        | other => exact fun h => absurd rfl h
  obtain ⟨goni, e9⟩ := part (_, _, _) (by
      rw [instrumentParts]
      exact List.mem_cons_of_mem _ (List.mem_cons_of_mem _ (List.mem_cons_of_mem _ (List.mem_cons_of_mem _ (List.mem_cons_self ..)))))
    (onlyKind "type".toList) (only_fits _) (monly _) p.goni
  obtain ⟨mon, e10⟩ := secFields_ok (c := ⟨inst, samp⟩) (only_fits "shape".toList) (monly _) (h.sections _) h.monitor p.mon
  obtain ⟨smp, e11⟩ : ∃ g, addMembers (sampleJson samp) p.samp = .ok g := by
    refine addMembers_ok (fun f hf => ?_) _
    cases hsmp : samp with
    | none => rw [hsmp] at hf; exact absurd hf (by simp [sampleJson])
    | some l =>
      rw [hsmp] at hf
      obtain ⟨⟨q, v⟩, hkv, rfl⟩ := List.mem_map.1 hf
      have hq := h.sample q v (by rw [hsmp]; exact hkv)
      by_cases hub : q = "ub_matrix".toList
      · rw [if_pos hub] at hq
        obtain ⟨l', rfl, hl'⟩ := hq
        subst hub
        have hk : sampleKind "ub_matrix".toList = .matrix := by
          unfold sampleKind
          rw [if_neg (by decide +kernel), if_neg (by decide +kernel), if_neg (by decide +kernel), if_neg (by decide +kernel), if_pos rfl]
        show ∃ o, jsonDs (sampleKind "ub_matrix".toList) (.nums l') = .ok o
        rw [hk, jsonDs, matrixLeaf, if_pos hl']
        exact ⟨_, rfl⟩
      · rw [if_neg hub] at hq
        refine jsonDs_ok (sample_fits q) ?_ hq
        unfold sampleKind
        rw [if_neg hub]
        split_ifs <;> simp
  rw [fileToNxWith, loadJson_some, py_bind_ok, loadJson_some, py_bind_ok, hl, py_bind_ok, scanToNxWith, hp.hmd]
  show ∃ d, (buildUser p.md >>= _) = .ok d
  rw [hp.huser, py_bind_ok, buildSourceWith, hp.hsrc, py_bind_ok, e2, py_bind_ok, buildMonoWith, hp.hmono, py_bind_ok, e3, py_bind_ok,
    buildAnaWith, hp.hana, py_bind_ok, e4, py_bind_ok, e5, py_bind_ok, buildCollWith, hp.hcoll, py_bind_ok, e6, py_bind_ok,
    hp.hslits, py_bind_ok, hp.hflip, py_bind_ok, buildGoniWith, hp.hgoni, py_bind_ok, e9, py_bind_ok, buildMonitorWith, hp.hmon,
    py_bind_ok, e10, py_bind_ok, buildSampleWith, hp.hsamp, py_bind_ok, e11, py_bind_ok, hp.hlg, py_bind_ok, hp.hstart, py_bind_ok,
    hp.hstop, py_bind_ok]
  exact ⟨_, rfl⟩

end

end Tavi
