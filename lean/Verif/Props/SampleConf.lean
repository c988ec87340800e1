import Verif.Props.BuilderJson
import Verif.Props.SampleScan
import Verif.Props.Folder

/-!
# C105: the sample of a scan read with a sample file
-/

namespace Tavi

open Matrix

namespace Spec

/-- The scan `s` called `sn` is the one that loading the data file with the configuration files gives; `ds` is the name of its data
set. -/
def LoadedWith (iso : Str → Py Str) (xml : List Str → Option Str) (inst : Option (List (Str × JSec))) (samp : Option (List (Str × JVal)))
    (lists : List Str) (fs : FS) (dir : List Str) (file : Str) (f : SpiceFile) (ds sn : Str) (s : ScanObj) : Prop :=
  readSpiceDatafile fs (dir ++ [file]) = .ok f ∧
  ∃ d, fileToNxWith iso xml (inst.map some) (samp.map some) fs dir file = .ok d ∧ newScan lists sn (setDatasetName d ds) = .ok s

/-- The numbers called `p` in the sample file, or, if it says nothing about them, those called `key` in the header of the data
file. -/
def ConfGives (samp : List (Str × JVal)) (f : SpiceFile) (p key : Str) (l : List ℝ) : Prop :=
  (p, .nums l) ∈ samp ∨
  (∀ v, (p, v) ∈ samp → SaysNothing v) ∧ HeaderValue (header f key) (some (.leaf (.fin l)))

/-- Sample file and header together describe a sample. -/
structure DescribesSampleWith (samp : List (Str × JVal)) (f : SpiceFile) (L : Latt) (mos : Option Val) (ub : List ℝ) (n : V3) :
    Prop where
  cell : HeaderValue (header f "latticeconstants".toList) (some (.leaf (.fin [L.a, L.b, L.c, L.alpha, L.beta, L.gamma])))
  possible : Acceptable L
  mosaic : HeaderValue (header f "samplemosaic".toList) mos
  normal : ConfGives samp f "plane_normal".toList "plane_normal".toList [n 0, n 1, n 2]
  matrix : ConfGives samp f "ub_matrix".toList "ubmatrix".toList ub
  nine : ub.length = 9
  invertible : (rows ub).det ≠ 0
  /-- the file is written with the names of the program, not with those of the entry -/
  names : ∀ k ∈ ["unit_cell".toList, "mosaic".toList, "orientation_matrix".toList], ∀ v, (k, v) ∉ samp

/-- The sample file as `Sample.from_json` sees it. -/
def JVal.cfg : JVal → Cfg
  | .null => .null
  | .bool b => .bool b
  | .num x _ => .num x
  | .str s => .str s
  | .nums l => .nums l
  | _ => .other

/-- The document as `Sample.from_json` sees it. -/
def document (samp : List (Str × JVal)) : Attrs := samp.map fun kv => (kv.1, JVal.cfg kv.2)

end Spec

open Spec

/-! ## Reading the entry -/

theorem get_setDatasetName_ne (d : Dict) (n : Str) {k : Str} (hk : k ≠ kAttrs) : (setDatasetName d n).get? k = d.get? k := by
  unfold setDatasetName
  split
  · rw [get?_set, if_neg (Ne.symm hk)]
  · rfl

/-- Making a scan changes nothing in the entry but its logs and its monitor. -/
theorem newScan_entry {lists : List Str} {sn : Str} {d : Dict} {s : ScanObj} (h : newScan lists sn d = .ok s) {k : Str}
    (h1 : k ≠ kSpice) (h2 : k ≠ kDas) (h3 : k ≠ "monitor".toList) : s.entry.get? k = d.get? k := by
  have hdrop : ∀ e : Dict, (dropLogs e).get? k = e.get? k := fun e => by
    rw [dropLogs, get?_erase, if_neg h2, get?_erase, if_neg h1]
  rw [newScan] at h
  obtain ⟨nd, hn, h⟩ := py_bind_eq_ok.1 h
  obtain ⟨data, _, rfl⟩ := map_eq_ok.1 h
  rw [datasetNames] at hn
  obtain ⟨_, _, hn⟩ := py_bind_eq_ok.1 hn
  obtain ⟨_, _, hn⟩ := py_bind_eq_ok.1 hn
  obtain ⟨_, _, hn⟩ := py_bind_eq_ok.1 hn
  obtain ⟨_, _, hn⟩ := py_bind_eq_ok.1 hn
  obtain ⟨mon, _, hn⟩ := py_bind_eq_ok.1 hn
  obtain ⟨md, hm, hn⟩ := py_bind_eq_ok.1 hn
  obtain ⟨_, _, hn⟩ := py_bind_eq_ok.1 hn
  obtain ⟨_, _, hn⟩ := py_bind_eq_ok.1 hn
  obtain ⟨_, _, hn⟩ := py_bind_eq_ok.1 hn
  obtain rfl := Except.ok.inj hn
  show (dropLogs md.2).get? k = _
  rw [hdrop, ← hdrop d]
  rw [dropMonitorData] at hm
  obtain ⟨o, _, hm⟩ := py_bind_eq_ok.1 hm
  split_ifs at hm
  · obtain rfl := Except.ok.inj hm
    show (Dict.set _ _ _).get? k = _
    rw [get?_set, if_neg (Ne.symm h3)]
  · obtain rfl := Except.ok.inj hm
    rfl

section
variable {iso : Str → Py Str} {xml : List Str → Option Str} {inst : Option (List (Str × JSec))} {samp : Option (List (Str × JVal))}
  {lists : List Str} {fs : FS} {dir : List Str} {file : Str} {f : SpiceFile} {ds sn : Str} {s : ScanObj}

/-- The sample group of a scan read with configuration files. -/
theorem sample_group (ht : TidyConfig inst samp) (h : LoadedWith iso xml inst samp lists fs dir file f ds sn s) :
    ∃ logs p g, Made iso logs p ∧ p.md = logAttrs ((splitChar '_' file).headD []) f ∧
      (dropLogs s.entry).get? "sample".toList = some (.dict g) ∧ ConfSupplied sampleMeaning (samp.getD []) p.samp g := by
  obtain ⟨hf, d, hd, hs⟩ := h
  obtain ⟨d0, hd0, hsup⟩ := C104_file ht hd
  obtain ⟨logs, p, _, hp, rfl, hmd⟩ := fileToNx_inv hf hd0
  obtain ⟨g0, g, e0, e, hc⟩ := hsup.sample
  have hg0 := (entry_get p (k := "sample".toList) (by decide) (by decide)).symm.trans (entry_samp p)
  rw [hg0] at e0
  obtain rfl := Val.dict.inj (Option.some.inj e0)
  refine ⟨logs, p, g, hp, hmd, ?_, hc⟩
  rw [dropLogs, get?_erase, if_neg (by decide), get?_erase, if_neg (by decide),
    newScan_entry hs (by decide) (by decide) (by decide), get_setDatasetName_ne _ _ (by decide)]
  exact e

theorem entry_look (s : ScanObj) {key k : Str}
    (hk : splitChar '/' (specialKey key false) = ["sample".toList, k]) :
    s.get key = getItem (dropLogs s.entry) ["sample".toList, k] false := by
  show (nxGet s.entry key false).1 = _
  rw [nxGet, hk]

/-- What the sample file says is what is found. -/
theorem look_said {g g0 : Dict} (hg : (dropLogs s.entry).get? "sample".toList = some (.dict g))
    (hc : ConfSupplied sampleMeaning (samp.getD []) g0 g) {q : Str} {v : JVal} (hm : (q, v) ∈ samp.getD [])
    (hq : sampleMeaning.taken q) (hv : ¬ SaysNothing v) :
    ∃ x, ConfTells sampleMeaning q v x ∧
      getItem (dropLogs s.entry) ["sample".toList, sampleMeaning.name q] false = .ok (some (.leaf x)) := by
  obtain ⟨dd, a, x, h1, h2, h3, _, _⟩ := hc.found q v hm hq hv
  refine ⟨x, h3, getItem_hit (f := dd) ?_ h2⟩
  rw [walk, hg]
  show walk g [_] = _
  rw [walk, h1]
  rfl

/-- What the sample file says nothing about is as in the entry made of the data file. -/
theorem look_kept {g g0 : Dict} (hg : (dropLogs s.entry).get? "sample".toList = some (.dict g))
    (hc : ConfSupplied sampleMeaning (samp.getD []) g0 g) {k : Str} {o : Option Dict} {w : Option Val}
    (hno : ∀ q v, (q, v) ∈ samp.getD [] → sampleMeaning.taken q → sampleMeaning.name q = k → SaysNothing v)
    (hk : g0.get? k = o.map Val.dict) (hs : Stored o w) :
    getItem (dropLogs s.entry) ["sample".toList, k] false = .ok w :=
  path_stored hg ((hc.kept k hno).trans hk) hs

/-- A parameter of the entry that is not the matrix. -/
theorem name_eq {q k : Str} (h : sampleMeaning.name q = k) (hk : k ≠ "orientation_matrix".toList) : q = k := by
  by_cases hq : q = "ub_matrix".toList
  · exact absurd (((if_pos hq).symm : "orientation_matrix".toList = sampleMeaning.name q).trans h).symm hk
  · exact ((if_neg hq : sampleMeaning.name q = q)).symm.trans h

theorem name_matrix {q : Str} (h : sampleMeaning.name q = "orientation_matrix".toList) :
    q = "ub_matrix".toList ∨ q = "orientation_matrix".toList := by
  by_cases hq : q = "ub_matrix".toList
  · exact .inl hq
  · exact .inr ((if_neg hq : sampleMeaning.name q = q).symm.trans h)

theorem Made.samp_num_member {logs : List (Str × LogVal)} {p : Pieces} (h : Made iso logs p) {k c : Str}
    (hk : (k, c) ∈ [("unit_cell".toList, "latticeconstants".toList), ("mosaic".toList, "samplemosaic".toList),
      ("orientation_matrix".toList, "ubmatrix".toList), ("plane_normal".toList, "plane_normal".toList)]) {v : Option Val}
    (hv : HeaderValue (textOf p.md c) v) : ∃ o, p.samp.get? k = o.map Val.dict ∧ Stored o v := by
  have hp : Plain k := (show ∀ kc ∈ [("unit_cell".toList, "latticeconstants".toList), ("mosaic".toList, "samplemosaic".toList),
      ("orientation_matrix".toList, "ubmatrix".toList), ("plane_normal".toList, "plane_normal".toList)], Plain kc.1 by
    decide) _ hk
  obtain ⟨a, hm⟩ := samp_num_mem logs p.md hk
  obtain ⟨o, ho, hg⟩ := h.samp_member hp hm
  obtain ⟨o', ho', hst⟩ := stored_holds hv a
  rw [ho] at ho'
  obtain rfl := Except.ok.inj ho'
  exact ⟨_, hg, hst⟩

theorem Made.samp_text_member {logs : List (Str × LogVal)} {p : Pieces} (h : Made iso logs p) {k c : Str}
    (hk : (k, c) ∈ [("name".toList, "samplename".toList), ("type".toList, "sampletype".toList)]) :
    ∃ o v, p.samp.get? k = o.map Val.dict ∧ Stored o v := by
  have hp : Plain k := (show ∀ kc ∈ [("name".toList, "samplename".toList), ("type".toList, "sampletype".toList)], Plain kc.1 by
    decide) _ hk
  obtain ⟨o, ho, hg⟩ := h.samp_member hp (samp_text_mem logs p.md hk)
  obtain rfl := Except.ok.inj ho
  exact ⟨_, _, hg, stored_text _ _⟩

theorem reshape_rows_with {l : List ℝ} (h : l.length = 9) : reshape33 (some (.leaf (.fin l))) = .ok (rows l) := by
  match l, h with
  | [a, b, c, d, e, f, g, h, i], _ =>
    refine congrArg Except.ok ?_
    ext r q
    fin_cases r <;> fin_cases q <;> rfl

/-- Numbers that come from the sample file or from the header. -/
theorem look_numbers {g : Dict} {logs : List (Str × LogVal)} {p : Pieces} (hp : Made iso logs p)
    (hf : readSpiceDatafile fs (dir ++ [file]) = .ok f) (hmd : p.md = logAttrs ((splitChar '_' file).headD []) f)
    (hg : (dropLogs s.entry).get? "sample".toList = some (.dict g)) (hc : ConfSupplied sampleMeaning (samp.getD []) p.samp g)
    {q c : Str} {l : List ℝ} (hl : ConfGives (samp.getD []) f q c l) (hq : sampleMeaning.taken q)
    (hk : (sampleMeaning.name q, c) ∈ [("unit_cell".toList, "latticeconstants".toList), ("mosaic".toList, "samplemosaic".toList),
      ("orientation_matrix".toList, "ubmatrix".toList), ("plane_normal".toList, "plane_normal".toList)])
    (hone : ∀ q' v, (q', v) ∈ samp.getD [] → sampleMeaning.name q' = sampleMeaning.name q → q' = q) :
    getItem (dropLogs s.entry) ["sample".toList, sampleMeaning.name q] false = .ok (some (.leaf (.fin l))) := by
  rcases hl with hm | ⟨hno, hv⟩
  · obtain ⟨x, hx, e⟩ := look_said hg hc hm hq (by rintro (h | h) <;> cases h)
    cases hx with
    | numbers => exact e
  · have hcc : c ≠ "instrument".toList ∧ c ≠ "Error Messages".toList ∧ c ≠ "Others".toList :=
      (show ∀ kc ∈ [("unit_cell".toList, "latticeconstants".toList), ("mosaic".toList, "samplemosaic".toList),
      ("orientation_matrix".toList, "ubmatrix".toList), ("plane_normal".toList, "plane_normal".toList)],
        kc.2 ≠ "instrument".toList ∧ kc.2 ≠ "Error Messages".toList ∧ kc.2 ≠ "Others".toList by decide) _ hk
    obtain ⟨o, ho, hst⟩ := hp.samp_num_member hk (by rw [header_text hf hmd hcc.1 hcc.2.1 hcc.2.2]; exact hv)
    refine look_kept hg hc (fun q' v hm _ hn => ?_) ho hst
    obtain rfl := hone q' v hm hn
    exact hno v hm

/-- What is reported about the sample. -/
theorem info_with (ht : TidyConfig inst samp) (h : LoadedWith iso xml inst samp lists fs dir file f ds sn s) {L : Latt}
    {mos : Option Val} {ub : List ℝ} {n : V3} (hd : DescribesSampleWith (samp.getD []) f L mos ub n) :
    ∃ i, sampleUbInfo s = .ok i ∧ i.lattice = some (.leaf (.fin [L.a, L.b, L.c, L.alpha, L.beta, L.gamma])) ∧ i.mosaicH = mos ∧
      i.mosaicV = mos ∧ i.ub = rows ub ∧ i.normal = some (.leaf (.fin [n 0, n 1, n 2])) := by
  obtain ⟨logs, p, g, hp, hmd, hg, hc⟩ := sample_group ht h
  have hown : ∀ k ∈ ["unit_cell".toList, "mosaic".toList], ∀ q v, (q, v) ∈ samp.getD [] → sampleMeaning.taken q →
      sampleMeaning.name q = k → SaysNothing v := by
    intro k hk q v hm _ hn
    obtain ⟨k1, k2⟩ := (show ∀ k ∈ ["unit_cell".toList, "mosaic".toList], k ≠ "orientation_matrix".toList ∧
      k ∈ ["unit_cell".toList, "mosaic".toList, "orientation_matrix".toList] by decide) k hk
    obtain rfl := name_eq hn k1
    exact absurd hm (hd.names _ k2 v)
  have hcell : ∃ o, p.samp.get? "unit_cell".toList = o.map Val.dict ∧ Stored o _ :=
    hp.samp_num_member (c := "latticeconstants".toList) (by decide)
      (by rw [header_text h.1 hmd (by decide) (by decide) (by decide)]; exact hd.cell)
  obtain ⟨o1, ho1, hs1⟩ := hcell
  have hmos : ∃ o, p.samp.get? "mosaic".toList = o.map Val.dict ∧ Stored o _ :=
    hp.samp_num_member (c := "samplemosaic".toList) (by decide)
      (by rw [header_text h.1 hmd (by decide) (by decide) (by decide)]; exact hd.mosaic)
  obtain ⟨o2, ho2, hs2⟩ := hmos
  have g1 := look_kept hg hc (hown _ (by decide)) ho1 hs1
  have g2 := look_kept hg hc (hown _ (by decide)) ho2 hs2
  have g3 : getItem (dropLogs s.entry) ["sample".toList, "orientation_matrix".toList] false = .ok (some (.leaf (.fin ub))) :=
    look_numbers hp h.1 hmd hg hc (q := "ub_matrix".toList) hd.matrix
      (show "ub_matrix".toList ∉ _ by decide) (by decide +kernel) (fun q' v hm hn => by
        rcases name_matrix (hn.trans (by decide +kernel)) with e | e
        · exact e
        · subst e; exact absurd hm (hd.names _ (by decide) v))
  have g4 : getItem (dropLogs s.entry) ["sample".toList, "plane_normal".toList] false =
      .ok (some (.leaf (.fin [n 0, n 1, n 2]))) :=
    look_numbers hp h.1 hmd hg hc (q := "plane_normal".toList) hd.normal
      (show "plane_normal".toList ∉ _ by decide) (by decide +kernel) (fun q' v hm hn => by
        exact name_eq (hn.trans (by decide +kernel)) (by decide))
  have text : ∀ k c, (k, c) ∈ [("name".toList, "samplename".toList), ("type".toList, "sampletype".toList)] →
      ∃ w, getItem (dropLogs s.entry) ["sample".toList, k] false = .ok w := by
    intro k c hk
    obtain ⟨k1, k2, k3⟩ := (show ∀ kc ∈ [("name".toList, "samplename".toList), ("type".toList, "sampletype".toList)],
      kc.1 ≠ "orientation_matrix".toList ∧ kc.1 ≠ "ub_matrix".toList ∧ kc.1 ∉ ["a".toList, "b".toList, "c".toList, "alpha".toList,
        "beta".toList, "gamma".toList] by decide) _ hk
    by_cases hsaid : ∃ v, (k, v) ∈ samp.getD [] ∧ ¬ SaysNothing v
    · obtain ⟨v, hm, hv⟩ := hsaid
      obtain ⟨x, _, e⟩ := look_said hg hc hm k3 hv
      rw [show sampleMeaning.name k = k from if_neg k2] at e
      exact ⟨_, e⟩
    · obtain ⟨o, w, ho, hst⟩ := hp.samp_text_member hk
      refine ⟨w, look_kept hg hc (fun q v hm _ hn => ?_) ho hst⟩
      obtain rfl := name_eq hn k1
      by_contra hv
      exact hsaid ⟨v, hm, hv⟩
  obtain ⟨w5, g5⟩ := text "name".toList "samplename".toList (by decide)
  obtain ⟨w6, g6⟩ := text "type".toList "sampletype".toList (by decide)
  have e1 : s.get "sample/unit_cell".toList = _ := (entry_look s (by decide)).trans g1
  have e2 : s.get "sample/mosaic".toList = _ := (entry_look s (by decide)).trans g2
  have e3 : s.get "sample/orientation_matrix".toList = _ := (entry_look s (by decide)).trans g3
  have e4 : s.get "sample/plane_normal".toList = _ := (entry_look s (by decide)).trans g4
  have e5 : s.get "sample/name".toList = _ := (entry_look s (by decide)).trans g5
  have e6 : s.get "sample/type".toList = _ := (entry_look s (by decide)).trans g6
  have hdet : (spiceToMantid * rows ub).det ≠ 0 := by
    rw [Matrix.det_mul]
    refine mul_ne_zero ?_ hd.invertible
    simp [spiceToMantid, Matrix.det_fin_three]
  have huv : ∃ uv, (if isText w6 "crystal".toList then (ubMatrixToUv (spiceToMantid * rows ub)).map some else Except.ok none :
      Py (Option (V3 × V3))) = .ok uv := by
    split_ifs
    · rw [ubMatrixToUv, inv3_ok hdet]; exact ⟨_, rfl⟩
    · exact ⟨_, rfl⟩
  obtain ⟨uv, huv⟩ := huv
  refine ⟨⟨w5, _, mos, mos, rows ub, w6, uv, _⟩, ?_, rfl, rfl, rfl, rfl, rfl⟩
  rw [sampleUbInfo, e6, py_bind_ok, e2, py_bind_ok, e3, py_bind_ok, reshape_rows_with hd.nine, py_bind_ok, e1, py_bind_ok, huv, py_bind_ok,
    e5, py_bind_ok, e4, py_bind_ok]

/-- The sample of such a scan, in full. -/
theorem fromScan_with (ht : TidyConfig inst samp) (h : LoadedWith iso xml inst samp lists fs dir file f ds sn s) {L : Latt}
    {mos : Option Val} {ub : List ℝ} {n : V3} (hd : DescribesSampleWith (samp.getD []) f L mos ub n) :
    sampleFromScan s = .ok { latt := L, mosaicH := cfgOf mos, mosaicV := cfgOf mos, ubConf := some (spiceConf (rows ub) n) } := by
  obtain ⟨i, e, h1, h2, h3, h4, h5⟩ := info_with ht h hd
  rw [sampleFromScan, e, py_bind_ok, fromInfo_ok h1 hd.possible h5, h2, h3, h4]

/-- **C105.** The sample of a scan read with a sample file: UB matrix and plane normal are those of the file, or of the header where
the file has none, in the axes of the data files (Spice); lattice parameters and mosaic are those of the header. -/
theorem C105_sample (ht : TidyConfig inst samp) (h : LoadedWith iso xml inst samp lists fs dir file f ds sn s) {L : Latt}
    {mos : Option Val} {ub : List ℝ} {n : V3} (hd : DescribesSampleWith (samp.getD []) f L mos ub n) :
    ∃ r c, sampleFromScan s = .ok r ∧ r.latt = L ∧ r.mosaicH = cfgOf mos ∧ r.mosaicV = cfgOf mos ∧ r.ubConf = some c ∧
      c.convention = "Spice".toList ∧ c.getUbMat = .ok (rows ub) ∧ c.getPlaneNormal = .ok (some n) ∧ c.inPlaneRef = none := by
  obtain ⟨_, k1, _, k3, _⟩ := session_reads (init_spice (rows ub) n)
  exact ⟨_, _, fromScan_with ht h hd, rfl, rfl, rfl, rfl, rfl, k1, k3, rfl⟩

/-! ## Against `Sample.from_json` -/

theorem lookupKey_of_mem_nodup {β : Type} {l : List (Str × β)} (hn : (l.map Prod.fst).Nodup) {k : Str} {v : β} (h : (k, v) ∈ l) :
    lookupKey k l = some v := by
  induction l with
  | nil => exact absurd h (by simp)
  | cons x l ih =>
    rw [List.map_cons, List.nodup_cons] at hn
    rcases List.mem_cons.1 h with rfl | h
    · simp [lookupKey]
    · have hne : x.1 ≠ k := fun e => hn.1 (List.mem_map.2 ⟨_, h, e.symm⟩)
      rw [← ih hn.2 h]
      simp [lookupKey, hne]

theorem keys_nodup {l : List (Str × JVal)} (h : (l.map fun kv => sampleMeaning.name kv.1).Nodup) : (l.map Prod.fst).Nodup := by
  have : (l.map fun kv => sampleMeaning.name kv.1) = (l.map Prod.fst).map sampleMeaning.name := by rw [List.map_map]; rfl
  rw [this] at h
  exact h.of_map _

theorem given_document {l : List (Str × JVal)} (hn : (l.map Prod.fst).Nodup) {k : Str} {x : List ℝ} (h : (k, .nums x) ∈ l) :
    given (document l) k = some (.nums x) := by
  unfold given document
  rw [lookupKey_map, lookupKey_of_mem_nodup hn h]
  rfl

theorem init_of (conv : Option Str) (ub : M3) (n : V3) (rest : List UBConf.Assign)
    (hc : conv.getD "Spice".toList = "Spice".toList) :
    UBConf.init conv ([.ubMat ub] ++ [.planeNormal n] ++ rest) = rest.foldlM UBConf.assign (spiceConf ub n) := by
  have h0 := init_spice ub n
  unfold UBConf.init at h0 ⊢
  rw [hc, List.foldlM_append]
  have : ([UBConf.Assign.ubMat ub] ++ [UBConf.Assign.planeNormal n]).foldlM UBConf.assign { convention := "Spice".toList } = .ok (spiceConf ub n) := h0
  rw [this]
  rfl

theorem vec_of (n : V3) : vec [n 0, n 1, n 2] = n := by
  ext i; fin_cases i <;> rfl

/-- **C105** (partial): with a sample file that gives matrix and normal, in the axes of the data files, and the cell of the header,
the sample of the scan is oriented as the one `Sample.from_json` makes of the file; if the file has no in-plane vector, all angles
are calculated from the same sample. Missing: other conventions (`C105_convention`), other cells, and the mosaic (`C105_ignored`). -/
theorem C105_same_partial {l : List (Str × JVal)} (ht : TidyConfig inst (some l))
    (h : LoadedWith iso xml inst (some l) lists fs dir file f ds sn s) {L : Latt} {mos : Option Val} {ub : List ℝ} {n : V3}
    (hd : DescribesSampleWith l f L mos ub n) (hu : ("ub_matrix".toList, .nums ub) ∈ l)
    (hnorm : ("plane_normal".toList, .nums [n 0, n 1, n 2]) ∈ l)
    (hconv : given (document l) "convention".toList = none ∨ given (document l) "convention".toList = some (.str "Spice".toList))
    {r' : SampleRec} (hr' : sampleFromJson (document l) = .ok r') (hL : r'.latt = L) :
    ∃ r c c', sampleFromScan s = .ok r ∧ r.latt = r'.latt ∧ r.ubConf = some c ∧ r'.ubConf = some c' ∧
      c.convention = c'.convention ∧ c.getUbMat = c'.getUbMat ∧ c.getPlaneNormal = c'.getPlaneNormal ∧
      (given (document l) "in_plane_ref".toList = none → r.forAngles = r'.forAngles) := by
  have hk : (l.map Prod.fst).Nodup := keys_nodup ht.sample
  have gu := given_document hk hu
  have gn := given_document hk hnorm
  obtain ⟨c', hc', o1, o2, o3, _, o5, _⟩ := C84_orientation hr'
  obtain ⟨r, c, hr, r1, _, _, r4, r5, r6, r7, _⟩ := C105_sample ht h hd
  obtain ⟨l1, e1, _, q1⟩ := o3 _ gu
  obtain ⟨l2, e2, _, q2⟩ := o5 _ gn
  obtain rfl := Cfg.nums.inj e1
  obtain rfl := Cfg.nums.inj e2
  refine ⟨r, c, c', hr, r1.trans hL.symm, r4, hc', ?_, r6.trans q1.symm, ?_, fun hno => ?_⟩
  · rcases hconv with hv | hv
    · exact r5.trans (o2 hv).symm
    · exact r5.trans (o1 _ hv).symm
  · rw [r7, q2, vec_of]
  · obtain ⟨_, _, _, _, _, _, _, u, hubj, es⟩ := json_inv hr'
    have hcv : (conventionOf (getCfg (document l) "convention".toList)).getD "Spice".toList = "Spice".toList := by
      rcases hconv with hv | hv
      · have := given_none.1 hv
        cases hg : getCfg (document l) "convention".toList with
        | null => rfl
        | _ => rw [hg] at this; cases this
      · rw [(given_some hv).1]; rfl
    rw [ubFromJson, optKw_some gu (cfgMat_ok hd.nine), py_bind_ok, optKw_some gn (cfgVec_ok rfl), py_bind_ok,
      optKw_none hno, py_bind_ok, init_of _ _ _ _ hcv, vec_of] at hubj
    have hu' : u = spiceConf (rows ub) n := (Except.ok.inj hubj).symm
    have hfull := (fromScan_with ht h hd).symm.trans hr
    obtain rfl := Except.ok.inj hfull
    have : r'.ubConf = some u := by rw [es]
    rw [SampleRec.forAngles, SampleRec.forAngles, this, hu', hL]

/-- **C105** (finding): the convention of the sample file is ignored. For a file in the Mantid convention, `Sample.from_json` keeps its
matrix, the sample of the scan has it with the axes exchanged: every reflection is at another place, unless it is along the
first axis. -/
theorem C105_convention {l : List (Str × JVal)} (ht : TidyConfig inst (some l))
    (h : LoadedWith iso xml inst (some l) lists fs dir file f ds sn s) {L : Latt} {mos : Option Val} {ub : List ℝ} {n : V3}
    (hd : DescribesSampleWith l f L mos ub n) (hu : ("ub_matrix".toList, .nums ub) ∈ l)
    (hconv : given (document l) "convention".toList = some (.str "Mantid".toList))
    {r' : SampleRec} (hr' : sampleFromJson (document l) = .ok r') :
    ∃ r c c' m m', sampleFromScan s = .ok r ∧ r.ubConf = some c ∧ r'.ubConf = some c' ∧ c.ubMat = some m ∧ c'.ubMat = some m' ∧
      m' = rows ub ∧ (∀ hkl, m *ᵥ hkl = toMantidAxes (m' *ᵥ hkl)) ∧
      ∀ hkl, m *ᵥ hkl = m' *ᵥ hkl → (m' *ᵥ hkl) 1 = 0 ∧ (m' *ᵥ hkl) 2 = 0 := by
  have hk : (l.map Prod.fst).Nodup := keys_nodup ht.sample
  have gu := given_document hk hu
  obtain ⟨c', hc', o1, _, o3, _⟩ := C84_orientation hr'
  obtain ⟨l1, e1, _, q1⟩ := o3 _ gu
  obtain rfl := Cfg.nums.inj e1
  have hm' : c'.ubMat = some (rows ub) := by
    rw [UBConf.getUbMat] at q1
    cases hcm : c'.ubMat with
    | none => rw [hcm] at q1; cases q1
    | some m =>
      rw [hcm] at q1
      have q2 : c'.fromMantidM m = .ok (rows ub) := q1
      rw [UBConf.fromMantidM, if_pos (o1 _ hconv)] at q2
      rw [Except.ok.inj q2]
  have hvec : ∀ hkl, (spiceToMantid * rows ub) *ᵥ hkl = toMantidAxes (rows ub *ᵥ hkl) := fun hkl => by
    rw [← Matrix.mulVec_mulVec, spiceToMantid_vec]
  refine ⟨_, spiceConf (rows ub) n, c', spiceToMantid * rows ub, rows ub, fromScan_with ht h hd, rfl, hc', rfl, hm', rfl, hvec,
    fun hkl he => ?_⟩
  rw [hvec] at he
  have h1 := congrFun he 1
  have h2 := congrFun he 2
  simp [toMantidAxes] at h1 h2
  constructor <;> linarith

end

/-- **C105** (finding): cell, mosaic, shape, in-plane vector and convention of the sample file do not reach the sample: two sample
files with the same matrix and the same normal give the same sample, whatever else is in them. -/
theorem C105_ignored {iso : Str → Py Str} {xml : List Str → Option Str} {inst : Option (List (Str × JSec))}
    {l l' : List (Str × JVal)} {lists : List Str} {fs : FS} {dir : List Str} {file : Str} {f : SpiceFile} {ds sn : Str}
    {s s' : ScanObj} (ht : TidyConfig inst (some l)) (ht' : TidyConfig inst (some l'))
    (h : LoadedWith iso xml inst (some l) lists fs dir file f ds sn s)
    (h' : LoadedWith iso xml inst (some l') lists fs dir file f ds sn s') {L : Latt} {mos : Option Val} {ub : List ℝ} {n : V3}
    (hd : DescribesSampleWith l f L mos ub n) (hd' : DescribesSampleWith l' f L mos ub n) :
    sampleFromScan s = sampleFromScan s' :=
  (fromScan_with ht h hd).trans (fromScan_with ht' h' hd').symm

/-- **C105.** A scan asked for by its number is the one of the file with that number, read with the configuration files, if there is
one such file. -/
theorem C105_scan (iso : Str → Py Str) (xml : List Str → Option Str) (inst : Option (List (Str × JSec)))
    (samp : Option (List (Str × JVal))) (lists : List Str) (fs : FS) (folder listing : List Str) (n : ℕ)
    (hdata : HasData fs folder) (hn : listing.Nodup) (file i x : Str) (hfile : file ∈ listing) (hs : ScanFile file i x (scanName n))
    (honly : ∀ b ∈ listing, scanName n ++ ".dat".toList <:+ b → b = file) (s : ScanObj) :
    scanFromSpiceWith iso xml (inst.map some) (samp.map some) lists fs folder listing n = .ok s ↔
      ∃ f, LoadedWith iso xml inst samp lists fs (folder ++ ["Datafiles".toList]) file f (datasetOf f i x) (scanName n) s := by
  have hw : wantedFiles (some n) listing = [file] := by
    unfold wantedFiles
    refine filter_only hn hfile ?_ fun b hb hp => honly b hb (List.isSuffixOf_iff_suffix.1 hp)
    refine List.isSuffixOf_iff_suffix.2 ⟨i ++ "_".toList ++ x ++ "_".toList, ?_⟩
    rw [hs.eq]; simp only [List.append_assoc]
  have hsort : sortStr (wantedFiles (some n) listing) = [file] := by rw [hw]; rfl
  have hopen : fromSpiceWith iso xml (inst.map some) (samp.map some) fs folder listing (some n) =
      spiceDataToNxWith iso xml (inst.map some) (samp.map some) fs folder listing (some n) := by
    rw [fromSpiceWith, if_neg (by rw [hdata.1]; simp), if_neg (by rw [isFolder, hdata.1]; simp),
      if_neg (by rw [isFolder, hdata.2]; simp)]
  rw [scanFromSpiceWith, hopen, spiceDataToNxWith, hsort]
  show ((Except.ok file >>= _) >>= _) = _ ↔ _
  rw [py_bind_ok]
  constructor
  · intro h
    obtain ⟨es, h, h4⟩ := py_bind_eq_ok.1 h
    obtain ⟨f, h1, h⟩ := py_bind_eq_ok.1 h
    rw [hs.dataset, py_bind_ok, filesToNxWith, hs.entry, py_bind_ok] at h
    obtain ⟨d, h2, h⟩ := py_bind_eq_ok.1 h
    obtain rfl := Except.ok.inj h
    exact ⟨f, h1, d, h2, h4⟩
  · rintro ⟨f, h1, d, h2, h4⟩
    rw [h1, py_bind_ok, hs.dataset, py_bind_ok, filesToNxWith, hs.entry, py_bind_ok, h2, py_bind_ok]
    exact h4

end Tavi
