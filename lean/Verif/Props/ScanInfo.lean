import Verif.Props.DatasetName
import Verif.Props.Convention

/-!
# What a loaded scan reports about itself (C77)
-/

namespace Tavi

open Spec Matrix

/-! ## What the statements refer to -/

/-- A text of the header as reported: nothing for an empty one. -/
def Spec.shownText : Option Str → Option Val
  | none => none
  | some [] => none
  | some (c :: s) => some (.leaf (.str (c :: s)))

/-- A header text that holds nothing, a number (without sign and exponent), or several numbers separated by commas. -/
inductive Spec.HeaderValue : Option Str → Option Val → Prop
  | absent : HeaderValue none none
  | empty : HeaderValue (some []) none
  | number {n : Numeral} : n.Valid → n.sign = none → n.exp = none → HeaderValue (some n.text) (some (.leaf (.num (n.value : ℝ))))
  | vector {ns : List Numeral} {ss : List Str} : 2 ≤ ns.length → (∀ n ∈ ns, n.Valid) →
      List.Forall₂ (fun s (n : Numeral) => Trim s n.text) ss ns →
      HeaderValue (some (joinStr ",".toList ss)) (some (.leaf (.fin (ns.map fun n => (n.value : ℝ)))))

/-- The scan `s` called `sn` is the one that loading the file gives; `ds` is the name of its data set. -/
def Spec.Loaded (iso : Str → Py Str) (xml : List Str → Option Str) (fs : FS) (dir : List Str) (file : Str) (f : SpiceFile)
    (ds sn : Str) (s : ScanObj) : Prop :=
  readSpiceDatafile fs (dir ++ [file]) = .ok f ∧
  ∃ d, fileToNx iso xml fs dir file = .ok d ∧ newScan ["divergence_x".toList] sn (setDatasetName d ds) = .ok s

/-! ## Members that are not columns -/

/-- What reading a stored dataset gives. -/
def Stored (o : Option Dict) (v : Option Val) : Prop :=
  (o = none ∧ v = none) ∨ ∃ x a, o = some (nxDs x a) ∧ v = some (.leaf x)

theorem stored_text (t : Option Str) (a : List (Str × Str)) : Stored (dsText t a) (shownText t) := by
  cases t with
  | none => exact .inl ⟨rfl, rfl⟩
  | some t =>
    cases t with
    | nil => exact .inl ⟨rfl, rfl⟩
    | cons c s => exact .inr ⟨_, _, rfl, rfl⟩

theorem stored_holds {t : Option Str} {v : Option Val} (h : HeaderValue t v) (a : List (Str × Str)) :
    ∃ o, dsFloatText t a = .ok o ∧ Stored o v := by
  have key : ∀ {t : Str} {r : Recast}, recastStr t true = .ok r →
      ∃ o, dsFloatText (some t) a = .ok o ∧ Stored o (some (.leaf r.leaf)) := by
    intro t r h
    cases t with
    | nil => exact absurd h (by simp [recastStr, isNumericText])
    | cons c s => exact ⟨_, by rw [dsFloatText, h]; rfl, .inr ⟨_, _, rfl, rfl⟩⟩
  cases h with
  | absent => exact ⟨none, rfl, .inl ⟨rfl, rfl⟩⟩
  | empty => exact ⟨none, rfl, .inl ⟨rfl, rfl⟩⟩
  | number hv hs he => exact key (C51_plain_partial _ hv hs he)
  | vector hl hv hs =>
    obtain ⟨o, ho, hst⟩ := key (C51_vector _ _ hl hv hs)
    exact ⟨o, ho, by simpa [Recast.leaf, reals, List.map_map, Function.comp_def] using hst⟩

theorem member_get {fs : List Field} {at' : List (Str × Str)} {g : Dict} (hg : addMembers fs (nxEntry at') = .ok g)
    (hnd : (fs.map Prod.fst).Nodup) {k : Str} (hp : Plain k) {v : Py (Option Dict)} (hm : (k, v) ∈ fs) :
    ∃ o, v = .ok o ∧ g.get? k = o.map Val.dict := by
  obtain ⟨o, ho, hget⟩ := (addMembers_get hg hnd).2 k _ hm
  have hb : (nxEntry at').get? k = none := by rw [nxEntry, Dict.get?, if_neg (Ne.symm hp.1)]; rfl
  rw [hb, Option.or_none] at hget
  exact ⟨o, ho, hget⟩

section
variable {iso : Str → Py Str} {logs : List (Str × LogVal)} {p : Pieces}

theorem path_stored {d g : Dict} {G k : Str} (hG : d.get? G = some (.dict g)) {o : Option Dict} {v : Option Val}
    (hk : g.get? k = o.map Val.dict) (hs : Stored o v) : getItem d [G, k] false = .ok v := by
  rcases hs with ⟨rfl, rfl⟩ | ⟨x, a, rfl, rfl⟩
  · exact getItem_miss hG hk
  · exact path_hit hG hk

theorem Made.comp_stored (h : Made iso logs p) {C k : Str} {g : Dict} (hC : (C, g) ∈ p.comps) {o : Option Dict} {v : Option Val}
    (hk : g.get? k = o.map Val.dict) (hs : Stored o v) : getItem (dropLogs p.entry) [C, k] false = .ok v := by
  rcases hs with ⟨rfl, rfl⟩ | ⟨x, a, rfl, rfl⟩
  · exact (h.comp hC).1 hk
  · exact (h.comp hC).2 x a hk

theorem Made.lone_stored (h : Made iso logs p) {i : ℕ} (hi : i < 11) {k : Str} (hf : Free i k) {o : Option Dict} {v : Option Val}
    (hk : (p.groups.getD i .nil).get? k = o.map Val.dict) (hs : Stored o v) : getItem (dropLogs p.entry) [k] false = .ok v := by
  obtain ⟨hp, h1, h2, h3, h4, _⟩ := hf
  have hl := h.lone i hi hp h1 h2 (h.others_none hp h3 h4)
  rcases hs with ⟨rfl, rfl⟩ | ⟨x, a, rfl, rfl⟩
  · exact hl.1 hk
  · exact hl.2 x a hk

/-- A dataset of the entry itself. -/
theorem Made.top_stored (h : Made iso logs p) {k : Str} (hp : Plain k) (hi : k ∉ instK) (hl : Lone 11 k) (hn : NotNumbered k)
    {o : Option Dict} {v : Option Val} (hk : (dropLogs p.entry).get? k = o.map Val.dict) (hs : Stored o v) :
    getItem (dropLogs p.entry) [k] false = .ok v := by
  rcases hs with ⟨rfl, rfl⟩ | ⟨x, a, rfl, rfl⟩
  · have hno : ∀ g ∈ p.groups, getItem g [k] false = .ok none := by
      intro g hg
      obtain ⟨j, hj, rfl⟩ := groups_index p hg
      obtain ⟨K, hf, _⟩ := h.flats j hj
      exact hf.item_none hp (h.others_none (i := 11) hp hl hn j hj (by omega)) [] false
    exact (h.search (x := .dict .nil) hp hi hk fun g hg => .inl (hno g hg)).1 hno
  · exact item_found hk

theorem entry_title (p : Pieces) : (dropLogs p.entry).get? "title".toList =
    (dsText (textOf p.md "scan_title".toList) [required]).map Val.dict := by
  rw [entry_get _ (by decide) (by decide), Pieces.entry, assemble, get?_set, if_neg (by decide), get?_set,
    if_neg (by decide), get?_set, if_neg (by decide), get?_set, if_neg (by decide), get?_addDataset_ne _ (by decide),
    get?_addDataset_ne _ (by decide), get?_addDataset_eq _ (by rfl)]

theorem entry_start (p : Pieces) : (dropLogs p.entry).get? "start_time".toList = p.start.map Val.dict := by
  rw [entry_get _ (by decide) (by decide), Pieces.entry, assemble, get?_set, if_neg (by decide), get?_set,
    if_neg (by decide), get?_set, if_neg (by decide), get?_set, if_neg (by decide), get?_addDataset_ne _ (by decide),
    get?_addDataset_eq _ (by rw [get?_addDataset_ne _ (by decide)]; rfl)]

theorem entry_stop (p : Pieces) : (dropLogs p.entry).get? "end_time".toList = p.stop.map Val.dict := by
  rw [entry_get _ (by decide) (by decide), Pieces.entry, assemble, get?_set, if_neg (by decide), get?_set,
    if_neg (by decide), get?_set, if_neg (by decide), get?_set, if_neg (by decide),
    get?_addDataset_eq _ (by rw [get?_addDataset_ne _ (by decide), get?_addDataset_ne _ (by decide)]; rfl)]

theorem entry_attrs (p : Pieces) : (dropLogs p.entry).get? kAttrs =
    some (.dict (strDict [("NX_class".toList, "NXentry".toList), required])) := by
  rw [entry_get _ (by decide) (by decide), Pieces.entry, assemble, get?_set, if_neg (by decide), get?_set,
    if_neg (by decide), get?_set, if_neg (by decide), get?_set, if_neg (by decide), get?_addDataset_ne _ (by decide),
    get?_addDataset_ne _ (by decide), get?_addDataset_ne _ (by decide)]
  rfl

end

/-! ## Loaded scans -/

section
variable {iso : Str → Py Str} {xml : List Str → Option Str} {fs : FS} {dir : List Str} {file : Str} {f : SpiceFile}
  {ds sn : Str} {s : ScanObj}

/-- What is behind a loaded scan. -/
theorem loaded_inv (h : Loaded iso xml fs dir file f ds sn s) :
    ∃ (logs : List (Str × LogVal)) (p : Pieces) (s' : ScanObj), createSpicelogs xml fs dir file = .ok logs ∧ Made iso logs p ∧
      p.md = logAttrs ((splitChar '_' file).headD []) f ∧ fileToNx iso xml fs dir file = .ok p.entry ∧
      newScan ["divergence_x".toList] sn p.entry = .ok s' ∧ s = { s' with entry := setDatasetName s'.entry ds } ∧
      s.name = sn ∧ s.data = s'.data ∧ s.entry = setDatasetName (dropLogs p.entry) ds := by
  obtain ⟨hf, d, hd, hs⟩ := h
  obtain ⟨logs, p, h1, hp, rfl, hmd⟩ := fileToNx_inv hf hd
  rw [hp.newScan_named] at hs
  obtain ⟨s', hs', rfl⟩ := map_eq_ok.1 hs
  obtain ⟨_, _, hn, he, _⟩ := hp.scan hs'
  exact ⟨logs, p, s', h1, hp, hmd, hd, hs', rfl, hn, rfl, by rw [he]⟩

/-- A scan gives what its entry gives. -/
theorem scan_get {p : Pieces} (he : s.entry = setDatasetName (dropLogs p.entry) ds) {key : Str} {k : Str} {ks : List Str}
    {b : Bool} (hk : splitChar '/' (specialKey key b) = k :: ks) (hne : k ≠ kAttrs) :
    (nxGet s.entry key b).1 = getItem (dropLogs p.entry) (k :: ks) b := by
  rw [he, nxGet_setDatasetName _ _ _ _ (by rw [hk]; exact fun e => hne (Option.some.inj e)), nxGet_drop, nxGet, hk]

theorem header_text {p : Pieces} (hf : readSpiceDatafile fs (dir ++ [file]) = .ok f)
    (hmd : p.md = logAttrs ((splitChar '_' file).headD []) f) {k : Str}
    (h0 : k ≠ "instrument".toList) (h1 : k ≠ "Error Messages".toList) (h2 : k ≠ "Others".toList) :
    textOf p.md k = header f k := by
  rw [hmd, textOf_logAttrs (nodup_file hf).1 h0 h1 h2]

end

/-! ## C77: the sample -/

section
variable {iso : Str → Py Str} {logs : List (Str × LogVal)} {p : Pieces}

theorem Made.samp_member (h : Made iso logs p) {k : Str} (hp : Plain k) {v : Py (Option Dict)} (hm : (k, v) ∈ sampleFields logs p.md) :
    ∃ o, v = .ok o ∧ p.samp.get? k = o.map Val.dict := by
  refine member_get h.hsamp ?_ hp hm
  show sampK.Nodup
  decide +kernel

theorem samp_text_mem (logs : List (Str × LogVal)) (md : List (Str × MetaVal)) {k c : Str}
    (h : (k, c) ∈ [("name".toList, "samplename".toList), ("type".toList, "sampletype".toList)]) :
    (k, Except.ok (dsText (textOf md c) [required])) ∈ sampleFields logs md := by
  simp only [List.mem_cons, Prod.mk.injEq, List.not_mem_nil, or_false] at h
  unfold sampleFields
  apply List.mem_append_left
  apply List.mem_append_left
  rcases h with ⟨rfl, rfl⟩ | ⟨rfl, rfl⟩
  all_goals repeat (first | exact List.mem_cons_self | apply List.mem_cons_of_mem)

theorem samp_num_mem (logs : List (Str × LogVal)) (md : List (Str × MetaVal)) {k c : Str}
    (h : (k, c) ∈ [("unit_cell".toList, "latticeconstants".toList), ("mosaic".toList, "samplemosaic".toList),
      ("orientation_matrix".toList, "ubmatrix".toList), ("plane_normal".toList, "plane_normal".toList)]) :
    ∃ a, (k, dsFloatText (textOf md c) a) ∈ sampleFields logs md := by
  simp only [List.mem_cons, Prod.mk.injEq, List.not_mem_nil, or_false] at h
  rcases h with ⟨rfl, rfl⟩ | ⟨rfl, rfl⟩ | ⟨rfl, rfl⟩ | ⟨rfl, rfl⟩
  all_goals
    apply Exists.intro
    unfold sampleFields
    apply List.mem_append_left
    apply List.mem_append_left
    repeat (first | exact List.mem_cons_self | apply List.mem_cons_of_mem)

theorem Made.samp_text (h : Made iso logs p) {k c : Str}
    (hk : (k, c) ∈ [("name".toList, "samplename".toList), ("type".toList, "sampletype".toList)]) :
    getItem (dropLogs p.entry) ["sample".toList, k] false = .ok (shownText (textOf p.md c)) := by
  have hp : Plain k := (show ∀ kc ∈ [("name".toList, "samplename".toList), ("type".toList, "sampletype".toList)], Plain kc.1 by
    decide) _ hk
  obtain ⟨o, ho, hg⟩ := h.samp_member hp (samp_text_mem logs p.md hk)
  obtain rfl := Except.ok.inj ho
  exact path_stored (entry_samp p) hg (stored_text _ _)

theorem Made.samp_num (h : Made iso logs p) {k c : Str}
    (hk : (k, c) ∈ [("unit_cell".toList, "latticeconstants".toList), ("mosaic".toList, "samplemosaic".toList),
      ("orientation_matrix".toList, "ubmatrix".toList), ("plane_normal".toList, "plane_normal".toList)]) {v : Option Val}
    (hv : HeaderValue (textOf p.md c) v) : getItem (dropLogs p.entry) ["sample".toList, k] false = .ok v := by
  have hp : Plain k := (show ∀ kc ∈ [("unit_cell".toList, "latticeconstants".toList), ("mosaic".toList, "samplemosaic".toList),
      ("orientation_matrix".toList, "ubmatrix".toList), ("plane_normal".toList, "plane_normal".toList)], Plain kc.1 by
    decide) _ hk
  obtain ⟨a, hm⟩ := samp_num_mem logs p.md hk
  obtain ⟨o, ho, hg⟩ := h.samp_member hp hm
  obtain ⟨o', ho', hst⟩ := stored_holds hv a
  rw [ho] at ho'
  obtain rfl := Except.ok.inj ho'
  exact path_stored (entry_samp p) hg hst

end

/-- Nine numbers as a matrix, row by row. -/
noncomputable def Spec.rowMajor (ns : List Numeral) : M3 := fun i j => ((ns.map fun n => (n.value : ℝ))[3 * (i : ℕ) + j]?).getD 0

theorem reshape_rowMajor {ns : List Numeral} (h : ns.length = 9) :
    reshape33 (some (.leaf (.fin (ns.map fun n => (n.value : ℝ))))) = .ok (rowMajor ns) := by
  match ns, h with
  | [a, b, c, d, e, f, g, h, i], _ =>
    show Except.ok _ = _
    refine congrArg Except.ok ?_
    ext r q
    fin_cases r <;> fin_cases q <;> rfl

/-- **C77**: the sample a scan reports is the one of the header: name, type, lattice constants, mosaic (used for both
directions), plane normal, and the UB matrix row by row; two vectors of the scattering plane for a crystal. -/
theorem C77_sample (iso : Str → Py Str) (xml : List Str → Option Str) (fs : FS) (dir : List Str) (file : Str) (f : SpiceFile)
    (ds sn : Str) (s : ScanObj) (h : Loaded iso xml fs dir file f ds sn s)
    (cell mos pn : Option Val) (hcell : HeaderValue (header f "latticeconstants".toList) cell)
    (hmos : HeaderValue (header f "samplemosaic".toList) mos) (hpn : HeaderValue (header f "plane_normal".toList) pn)
    (ns : List Numeral) (ss : List Str) (hlen : ns.length = 9) (hv : ∀ n ∈ ns, n.Valid)
    (hss : List.Forall₂ (fun s (n : Numeral) => Trim s n.text) ss ns)
    (hub : header f "ubmatrix".toList = some (joinStr ",".toList ss)) (hdet : (rowMajor ns).det ≠ 0) :
    ∃ i, sampleUbInfo s = .ok i ∧ i.name = shownText (header f "samplename".toList) ∧
      i.type = shownText (header f "sampletype".toList) ∧ i.lattice = cell ∧ i.mosaicH = mos ∧ i.mosaicV = mos ∧
      i.normal = pn ∧ i.ub = rowMajor ns ∧
      (header f "sampletype".toList = some "crystal".toList →
        ∃ u v, i.uv = some (u, v) ∧ toMantidAxes (i.ub *ᵥ u) = ![0, 0, 1] ∧ toMantidAxes (i.ub *ᵥ v) = ![1, 0, 0]) ∧
      (header f "sampletype".toList ≠ some "crystal".toList → i.uv = none) := by
  obtain ⟨logs, p, s', _, hp, hmd, _, _, _, _, _, he⟩ := loaded_inv h
  have ht : ∀ k ∈ ["samplename".toList, "sampletype".toList, "latticeconstants".toList, "samplemosaic".toList,
      "ubmatrix".toList, "plane_normal".toList], textOf p.md k = header f k := by
    intro k hk
    obtain ⟨h0, h1, h2⟩ := (show ∀ k ∈ ["samplename".toList, "sampletype".toList, "latticeconstants".toList,
      "samplemosaic".toList, "ubmatrix".toList, "plane_normal".toList], k ≠ "instrument".toList ∧
      k ≠ "Error Messages".toList ∧ k ≠ "Others".toList by decide) k hk
    exact header_text h.1 hmd h0 h1 h2
  have g1 := hp.samp_text (k := "name".toList) (c := "samplename".toList) (by decide)
  have g2 := hp.samp_text (k := "type".toList) (c := "sampletype".toList) (by decide)
  have g3 := hp.samp_num (k := "unit_cell".toList) (c := "latticeconstants".toList) (by decide) (v := cell)
    (by rw [ht _ (by decide)]; exact hcell)
  have g4 := hp.samp_num (k := "mosaic".toList) (c := "samplemosaic".toList) (by decide) (v := mos)
    (by rw [ht _ (by decide)]; exact hmos)
  have g5 := hp.samp_num (k := "orientation_matrix".toList) (c := "ubmatrix".toList) (by decide)
    (v := some (.leaf (.fin (ns.map fun n => (n.value : ℝ)))))
    (by rw [ht _ (by decide), hub]; exact .vector (by omega) hv hss)
  have g6 := hp.samp_num (k := "plane_normal".toList) (c := "plane_normal".toList) (by decide) (v := pn)
    (by rw [ht _ (by decide)]; exact hpn)
  rw [ht _ (by decide)] at g1 g2
  have e1 : s.get "sample/name".toList = _ := (scan_get he (by decide) (by decide)).trans g1
  have e2 : s.get "sample/type".toList = _ := (scan_get he (by decide) (by decide)).trans g2
  have e3 : s.get "sample/unit_cell".toList = _ := (scan_get he (by decide) (by decide)).trans g3
  have e4 : s.get "sample/mosaic".toList = _ := (scan_get he (by decide) (by decide)).trans g4
  have e5 : s.get "sample/orientation_matrix".toList = _ := (scan_get he (by decide) (by decide)).trans g5
  have e6 : s.get "sample/plane_normal".toList = _ := (scan_get he (by decide) (by decide)).trans g6
  have hcr : isText (shownText (header f "sampletype".toList)) "crystal".toList =
      decide (header f "sampletype".toList = some "crystal".toList) := by
    rcases header f "sampletype".toList with _ | _ | ⟨c, t⟩
    · rfl
    · rfl
    · show decide _ = decide _
      simp only [Option.some.injEq]
  have hdet' : (spiceToMantid * rowMajor ns).det ≠ 0 := by
    rw [Matrix.det_mul]
    refine mul_ne_zero ?_ hdet
    simp [spiceToMantid, Matrix.det_fin_three]
  have hmul : ∀ w : V3, toMantidAxes (rowMajor ns *ᵥ ((spiceToMantid * rowMajor ns)⁻¹ *ᵥ w)) = w := by
    intro w
    rw [← spiceToMantid_vec, Matrix.mulVec_mulVec, Matrix.mulVec_mulVec,
      Matrix.mul_nonsing_inv _ (Ne.isUnit hdet'), Matrix.one_mulVec]
  have hstart : sampleUbInfo s = ((if isText (shownText (header f "sampletype".toList)) "crystal".toList then
      (ubMatrixToUv (spiceToMantid * rowMajor ns)).map some else .ok none) >>= fun uv =>
      .ok ⟨shownText (header f "samplename".toList), cell, mos, mos, rowMajor ns, shownText (header f "sampletype".toList), uv,
        pn⟩) := by
    rw [sampleUbInfo, e2, py_bind_ok, e4, py_bind_ok, e5, py_bind_ok, reshape_rowMajor hlen, py_bind_ok, e3, py_bind_ok]
    refine congrArg _ (funext fun uv => ?_)
    rw [e1, py_bind_ok, e6, py_bind_ok]
  rw [hstart, hcr]
  by_cases hc : header f "sampletype".toList = some "crystal".toList
  · rw [if_pos (decide_eq_true hc), ubMatrixToUv, inv3_ok hdet']
    exact ⟨_, rfl, rfl, rfl, rfl, rfl, rfl, rfl, rfl, fun _ => ⟨_, _, rfl, hmul _, hmul _⟩, fun hn => absurd hc hn⟩
  · rw [if_neg (by rw [decide_eq_true_iff]; exact hc)]
    exact ⟨_, rfl, rfl, rfl, rfl, rfl, rfl, rfl, rfl, fun hn => absurd hn hc, fun _ => rfl⟩

/-- **C77**, the code disagrees: without a UB matrix in the header nothing is reported about the sample. -/
theorem C77_no_ub_fails (iso : Str → Py Str) (xml : List Str → Option Str) (fs : FS) (dir : List Str) (file : Str) (f : SpiceFile)
    (ds sn : Str) (s : ScanObj) (h : Loaded iso xml fs dir file f ds sn s) (mos : Option Val)
    (hmos : HeaderValue (header f "samplemosaic".toList) mos)
    (hub : header f "ubmatrix".toList = none ∨ header f "ubmatrix".toList = some []) :
    sampleUbInfo s = .error .attributeError := by
  obtain ⟨logs, p, s', _, hp, hmd, _, _, _, _, _, he⟩ := loaded_inv h
  have g2 := hp.samp_text (k := "type".toList) (c := "sampletype".toList) (by decide)
  have g4 := hp.samp_num (k := "mosaic".toList) (c := "samplemosaic".toList) (by decide) (v := mos)
    (by rw [header_text h.1 hmd (by decide) (by decide) (by decide)]; exact hmos)
  have g5 := hp.samp_num (k := "orientation_matrix".toList) (c := "ubmatrix".toList) (by decide) (v := none) (by
    rw [header_text h.1 hmd (by decide) (by decide) (by decide)]
    rcases hub with h | h
    · rw [h]; exact .absent
    · rw [h]; exact .empty)
  have e2 : s.get "sample/type".toList = _ := (scan_get he (by decide) (by decide)).trans g2
  have e4 : s.get "sample/mosaic".toList = _ := (scan_get he (by decide) (by decide)).trans g4
  have e5 : s.get "sample/orientation_matrix".toList = _ := (scan_get he (by decide) (by decide)).trans g5
  rw [sampleUbInfo, e2, py_bind_ok, e4, py_bind_ok, e5, py_bind_ok]
  rfl

end Tavi
