import Verif.Props.Reports

/-!
# What a loaded scan reports about the measurement (C77)
-/

namespace Tavi

open Spec

/-! ## What the statements refer to -/

/-- The part of the report that does not depend on how counting was preset. `iso` turns dates into ISO format. -/
structure Spec.ReportsHeader (iso : Str → Py Str) (f : SpiceFile) (ds : Str) (i : ScanInfo) : Prop where
  dataset : i.expId = some (.leaf (.str ds))
  title : i.title = shownText (header f "scan_title".toList)
  ordinate : ∀ y, header f "def_y".toList = some y → i.defY = .leaf (.str y)
  /-- the momentum and energy transfer under their NeXus names -/
  abscissa : ∀ x, header f "def_x".toList = some x → i.defX = .leaf (.str ((lookupKey x renamed).getD x))
  start : ∀ d t, header f "date".toList = some d → header f "time".toList = some t →
    ∃ r, iso (d ++ " ".toList ++ t) = .ok r ∧ i.start = some (.leaf (.str r))
  no_stop : header f "end_time".toList = none → i.stop = none
  stop : ∀ t, header f "end_time".toList = some t → t ≠ [] → ∃ r, iso t = .ok r ∧ i.stop = some (.leaf (.str r))

theorem nexusName_eq (x : Str) : nexusName x = (lookupKey x renamed).getD x := by
  unfold nexusName
  split
  · rename_i h; subst h; decide
  · split
    · rename_i h; subst h; decide
    · split
      · rename_i h; subst h; decide
      · split
        · rename_i h; subst h; decide
        · rename_i h1 h2 h3 h4
          have : lookupKey x renamed = none := by
            rw [lookupKey_eq_none]
            intro hm
            have e : renamed.map Prod.fst = ["h".toList, "k".toList, "l".toList, "e".toList] := rfl
            rw [e] at hm
            simp only [List.mem_cons, List.not_mem_nil, or_false] at hm
            tauto
          rw [this]; rfl

section
variable {iso : Str → Py Str} {logs : List (Str × LogVal)} {p : Pieces}

theorem stored_date {t : Option Str} {a : List (Str × Str)} {o : Option Dict} (h : dsDate iso t a = .ok o) :
    (t = none → Stored o none) ∧ ∀ s, t = some s → s ≠ [] → ∃ r, iso s = .ok r ∧ Stored o (some (.leaf (.str r))) := by
  refine ⟨?_, ?_⟩
  · rintro rfl
    obtain rfl := Except.ok.inj h
    exact .inl ⟨rfl, rfl⟩
  · rintro s rfl hne
    cases s with
    | nil => exact absurd rfl hne
    | cons c s =>
      obtain ⟨r, hr, rfl⟩ := map_eq_ok.1 h
      exact ⟨r, hr, .inr ⟨_, _, rfl, rfl⟩⟩

/-- Some stored form there always is. -/
theorem date_stored {t : Option Str} {a : List (Str × Str)} {o : Option Dict} (h : dsDate iso t a = .ok o) : ∃ v, Stored o v := by
  cases o with
  | none => exact ⟨none, .inl ⟨rfl, rfl⟩⟩
  | some ds =>
    cases t with
    | none => exact absurd h (by simp [dsDate])
    | some s =>
      cases s with
      | nil => exact absurd h (by simp [dsDate])
      | cons c s =>
        obtain ⟨r, _, hs⟩ := (stored_date h).2 _ rfl (by simp)
        exact ⟨_, hs⟩

theorem Stored.unique {o : Option Dict} {v w : Option Val} (h : Stored o v) (h' : Stored o w) : v = w := by
  rcases h with ⟨rfl, rfl⟩ | ⟨x, a, rfl, rfl⟩
  · rcases h' with ⟨_, rfl⟩ | ⟨x, a, h, _⟩
    · rfl
    · exact absurd h (by simp)
  · rcases h' with ⟨h, _⟩ | ⟨y, b, h, rfl⟩
    · exact absurd h (by simp)
    · have : x = y := by
        have := congrArg (fun o => (o.getD .nil).get? kDataset) h
        have : some (Val.leaf x) = some (Val.leaf y) := this
        simpa using this
      rw [this]

theorem textOrNone_some {md : List (Str × MetaVal)} {k t : Str} (h : textOf md k = some t) : textOrNone md k = t := by
  rw [textOrNone, h]; rfl

/-- The attributes of the data group. -/
theorem Made.data_attr (p : Pieces) : getItem (dropLogs p.entry) ["data".toList] true =
    .ok (some (.dict (strDict ([("NX_class".toList, "NXdata".toList), required]
      ++ optAttr "signal".toList (textOf p.md "def_y".toList)
      ++ optAttr "axes".toList ((textOf p.md "def_x".toList).map nexusName))))) :=
  getItem_hit (f := buildData p.md) (by rw [walk, entry_data]; rfl) rfl

end

section
variable {iso : Str → Py Str} {xml : List Str → Option Str} {fs : FS} {dir : List Str} {file : Str} {f : SpiceFile}
  {ds sn : Str} {s : ScanObj}

theorem get?_setDatasetName_attrs {d a : Dict} (h : d.get? kAttrs = some (.dict a)) (n : Str) :
    (setDatasetName d n).get? kAttrs = some (.dict (a.set "dataset_name".toList (.leaf (.str n)))) := by
  unfold setDatasetName
  rw [h]
  show (d.set kAttrs _).get? kAttrs = _
  rw [get?_set, if_pos rfl]

/-- The report, given how counting was preset. -/
theorem info_of (h : Loaded iso xml fs dir file f ds sn s) {x y : Str} (hx : header f "def_x".toList = some x)
    (hy : header f "def_y".toList = some y) {m : ℤ} (hm : reportedNumber sn = .ok m) {pt : Option Val}
    (hpt : s.get "preset_type".toList = .ok pt) :
    (∀ pr, presetOf s = .ok pr → ∃ i, scanInfo s = .ok i ∧ ReportsHeader iso f ds i ∧ i.scanNum = m ∧ i.presetType = pt ∧
      i.preset = pr) ∧
    (presetOf s = .error .unboundLocal → scanInfo s = .error .unboundLocal) := by
  obtain ⟨logs, p, s', _, hp, hmd, _, _, _, hname, _, he⟩ := loaded_inv h
  have hH : ∀ {k : Str}, k ≠ "instrument".toList → k ≠ "Error Messages".toList → k ≠ "Others".toList →
      textOf p.md k = header f k := fun h0 h1 h2 => header_text h.1 hmd h0 h1 h2
  have gexp : scanExpId s = .ok (some (.leaf (.str ds))) := by
    rw [scanExpId, he, get?_setDatasetName_attrs (entry_attrs p), need_some, py_bind_ok]
    show Except.ok (Dict.get? _ _) = _
    rw [get?_set, if_pos rfl]
  have gti : s.get "title".toList = .ok (shownText (header f "scan_title".toList)) := by
    rw [← hH (by decide) (by decide) (by decide)]
    exact (scan_get he (by decide) (by decide)).trans
      (hp.top_stored (by decide) (by decide) (by decide +kernel) (by decide) (entry_title p) (stored_text _ _))
  obtain ⟨vst, hst⟩ := date_stored hp.hstart
  have gst : s.get "start_time".toList = .ok vst := (scan_get he (by decide) (by decide)).trans
      (hp.top_stored (by decide) (by decide) (by decide +kernel) (by decide) (entry_start p) hst)
  obtain ⟨ven, hen⟩ := date_stored hp.hstop
  have gen : s.get "end_time".toList = .ok ven := (scan_get he (by decide) (by decide)).trans
      (hp.top_stored (by decide) (by decide) (by decide +kernel) (by decide) (entry_stop p) hen)
  have gda : (nxGet s.entry "data".toList true).1 = _ := (scan_get he (by decide) (by decide)).trans (Made.data_attr p)
  rw [hH (by decide) (by decide) (by decide), hH (by decide) (by decide) (by decide), hx, hy] at gda
  have gy : dataAttr s "signal".toList = .ok (.leaf (.str y)) := by
    rw [dataAttr, gda, py_bind_ok, need_some, py_bind_ok]; rfl
  have gx : dataAttr s "axes".toList = .ok (.leaf (.str (nexusName x))) := by
    rw [dataAttr, gda, py_bind_ok, need_some, py_bind_ok]; rfl
  rw [← hname] at hm
  refine ⟨fun pr hpr => ⟨⟨some (.leaf (.str ds)), m, shownText (header f "scan_title".toList), .leaf (.str y),
    .leaf (.str (nexusName x)), vst, ven, pt, pr⟩, ?_, ⟨rfl, rfl, ?_, ?_, ?_, ?_, ?_⟩, rfl, rfl, rfl⟩, fun hpr => ?_⟩
  · rw [scanInfo, hpt, py_bind_ok, hpr]
    show (scanExpId s >>= _) = _
    rw [gexp, py_bind_ok, hm, py_bind_ok, gti, py_bind_ok, gy, py_bind_ok, gx, py_bind_ok, gst, py_bind_ok, gen, py_bind_ok]
    rfl
  · intro y' hy'
    rw [hy] at hy'; rw [Option.some.inj hy']
  · intro x' hx'
    rw [hx] at hx'; rw [← Option.some.inj hx', nexusName_eq]
  · intro d t hd ht
    have h1 := hp.hstart
    rw [textOrNone_some ((hH (by decide) (by decide) (by decide)).trans hd),
      textOrNone_some ((hH (by decide) (by decide) (by decide)).trans ht)] at h1
    obtain ⟨r, hr, hs⟩ := (stored_date h1).2 _ rfl (by simp)
    exact ⟨r, hr, hst.unique hs⟩
  · intro hn
    have h1 := hp.hstop
    rw [hH (by decide) (by decide) (by decide), hn] at h1
    exact hen.unique ((stored_date h1).1 rfl)
  · intro t ht hne
    have h1 := hp.hstop
    rw [hH (by decide) (by decide) (by decide), ht] at h1
    obtain ⟨r, hr, hs⟩ := (stored_date h1).2 _ rfl hne
    exact ⟨r, hr, hen.unique hs⟩
  · rw [scanInfo, hpt, py_bind_ok, hpr]
    show (scanExpId s >>= _) = _
    rw [gexp, py_bind_ok, hm, py_bind_ok, gti, py_bind_ok, gy, py_bind_ok, gx, py_bind_ok, gst, py_bind_ok, gen, py_bind_ok]
    rfl

end

/-! ## Presets -/

section
variable {iso : Str → Py Str} {logs : List (Str × LogVal)} {p : Pieces}

theorem Made.mon_member (h : Made iso logs p) {k : Str} (hp : Plain k) {v : Py (Option Dict)} (hm : (k, v) ∈ monitorFields logs p.md) :
    ∃ o, v = .ok o ∧ p.mon.get? k = o.map Val.dict :=
  member_get h.hmon (nodup_mon _ _) hp hm

theorem normal_mem {f : Field} (hn : textOf p.md "preset_type".toList = some "normal".toList) (hf : f ∈ monitorNormal logs p.md) :
    f ∈ monitorFields logs p.md := by
  rw [monitorFields, if_pos hn]; exact hf

theorem Made.normal (h : Made iso logs p) (hn : textOf p.md "preset_type".toList = some "normal".toList) :
    getItem (dropLogs p.entry) ["preset_type".toList] false = .ok (some (.leaf (.str "normal".toList))) ∧
    getItem (dropLogs p.entry) ["monitor".toList, "mode".toList] false = .ok (shownText (textOf p.md "preset_channel".toList)) ∧
    ∀ v, HeaderValue (textOf p.md "preset_value".toList) v →
      getItem (dropLogs p.entry) ["monitor".toList, "preset".toList] false = .ok v := by
  obtain ⟨o1, h1, g1⟩ := h.mon_member (k := "preset_type".toList) (by decide) (normal_mem hn List.mem_cons_self)
  obtain ⟨o2, h2, g2⟩ := h.mon_member (k := "mode".toList) (by decide)
    (normal_mem hn (List.mem_cons_of_mem _ List.mem_cons_self))
  obtain ⟨o3, h3, g3⟩ := h.mon_member (k := "preset".toList) (by decide)
    (normal_mem hn (List.mem_cons_of_mem _ (List.mem_cons_of_mem _ List.mem_cons_self)))
  obtain rfl := Except.ok.inj h1
  obtain rfl := Except.ok.inj h2
  refine ⟨h.lone_stored (i := 8) (by decide) (by decide +kernel) g1 (.inr ⟨_, _, rfl, rfl⟩),
    path_stored (entry_mon p) g2 (stored_text _ _), fun v hv => ?_⟩
  obtain ⟨o, ho, hs⟩ := stored_holds hv [required]
  rw [h3] at ho
  obtain rfl := Except.ok.inj ho
  exact path_stored (entry_mon p) g3 hs

/-- Another preset type is not stored. -/
theorem Made.other (h : Made iso logs p) (hn : textOf p.md "preset_type".toList ≠ some "normal".toList)
    (hc : textOf p.md "preset_type".toList ≠ some "countfile".toList) :
    getItem (dropLogs p.entry) ["preset_type".toList] false = .ok none := by
  refine h.lone_stored (i := 8) (o := none) (by decide) (by decide +kernel) ?_ (.inl ⟨rfl, rfl⟩)
  refine h.flat_mon.get_none ?_ (by decide)
  rw [monK, if_neg hn, if_neg hc]
  decide

theorem Made.countfile (h : Made iso logs p) (hc : Polarised p.md) :
    getItem (dropLogs p.entry) ["preset_type".toList] false = .ok (some (.leaf (.str "countfile".toList))) := by
  have hc' : textOf p.md "preset_type".toList = some "countfile".toList := hc
  obtain ⟨o1, h1, g1⟩ := h.mon_member (k := "preset_type".toList) (by decide) (v := .ok (dsText (some "countfile".toList) [])) (by
    rw [monitorFields, if_neg (by rw [hc']; decide), if_pos hc']
    exact List.mem_append_left _ List.mem_cons_self)
  obtain rfl := Except.ok.inj h1
  exact h.lone_stored (i := 8) (by decide) (by decide +kernel) g1 (.inr ⟨_, _, rfl, rfl⟩)

/-- What is stored for a channel. -/
noncomputable def Spec.channelReport (cs : List Str) (qs : List ℚ) (ls : List Str) (j : ℕ) :
    Option Val × Option Val × Option Val :=
  (shownText cs[j]?, (qs[j]?).map fun q : ℚ => .leaf (.num (q : ℝ)), shownText ls[j]?)

theorem nameAt_inv {md : List (Str × MetaVal)} {k : Str} {l : List Str} (hl : lookupKey k md = some (.strs l)) {i : ℕ}
    {o : Option Dict} (h : ((nameAt md k i).map fun s => dsText (some s) []) = .ok o) :
    (l[i]?).isSome ∧ Stored o (shownText l[i]?) := by
  obtain ⟨t, ht, rfl⟩ := map_eq_ok.1 h
  rw [nameAt, hl] at ht
  have ht' : need l[i]? .indexError = .ok t := ht
  rw [need_eq_ok] at ht'
  rw [ht']
  exact ⟨rfl, stored_text _ _⟩

theorem Made.channel (h : Made iso logs p) (hc : Polarised p.md) {cs : List Str} {qs : List ℚ} {ls : List Str}
    (h1 : lookupKey "norm_channels".toList p.md = some (.strs cs)) (h2 : lookupKey "norm_vals".toList p.md = some (.nums qs))
    (h3 : lookupKey "labels".toList p.md = some (.strs ls)) {i : ℕ} (hi : 1 ≤ i) (hn : i ≤ nDet logs) :
    (cs[i - 1]?).isSome ∧
    getItem (dropLogs p.entry) ["monitor".toList, suffixed "mode".toList i] false = .ok (channelReport cs qs ls (i - 1)).1 ∧
    getItem (dropLogs p.entry) ["monitor".toList, suffixed "preset".toList i] false = .ok (channelReport cs qs ls (i - 1)).2.1 ∧
    getItem (dropLogs p.entry) ["monitor".toList, suffixed "label".toList i] false = .ok (channelReport cs qs ls (i - 1)).2.2 := by
  obtain ⟨o1, e1, g1⟩ := h.mon_member (k := suffixed "mode".toList i) (numbered_plain (by decide) i)
    (chan_mem hc hi hn List.mem_cons_self)
  obtain ⟨o2, e2, g2⟩ := h.mon_member (k := suffixed "preset".toList i) (numbered_plain (by decide) i)
    (chan_mem hc hi hn (List.mem_cons_of_mem _ List.mem_cons_self))
  obtain ⟨o3, e3, g3⟩ := h.mon_member (k := suffixed "label".toList i) (numbered_plain (by decide) i)
    (chan_mem hc hi hn (List.mem_cons_of_mem _ (List.mem_cons_of_mem _ (List.mem_cons_of_mem _ (List.mem_cons_of_mem _
      (List.mem_cons_of_mem _ List.mem_cons_self))))))
  obtain ⟨i1, s1⟩ := nameAt_inv h1 e1
  obtain ⟨_, s3⟩ := nameAt_inv h3 e3
  obtain ⟨q, hq, rfl⟩ := map_eq_ok.1 e2
  rw [numAt, h2] at hq
  have hq' : need qs[i - 1]? .indexError = .ok q := hq
  rw [need_eq_ok] at hq'
  refine ⟨i1, path_stored (entry_mon p) g1 s1, path_stored (entry_mon p) g2 (.inr ⟨_, _, rfl, ?_⟩),
    path_stored (entry_mon p) g3 s3⟩
  show (qs[i - 1]?).map _ = _
  rw [hq']; rfl

/-- There are no more channels than detectors. -/
theorem Made.no_channel (h : Made iso logs p) (hc : Polarised p.md) {i : ℕ} (hn : nDet logs < i) :
    getItem (dropLogs p.entry) ["monitor".toList, suffixed "mode".toList i] false = .ok none := by
  have hc' : textOf p.md "preset_type".toList = some "countfile".toList := hc
  refine path_stored (o := none) (entry_mon p) (h.flat_mon.get_none (fun hk => ?_) (numbered_plain (by decide) i))
    (.inl ⟨rfl, rfl⟩)
  rw [monK, if_neg (by rw [hc']; decide), if_pos hc', List.mem_append] at hk
  rcases hk with hk | hk
  · exact numbered_not_fixed (by decide) i _ (by decide) hk
  · obtain ⟨j, hj, hk⟩ := List.mem_flatMap.1 hk
    rw [chanK_eq, List.mem_map] at hk
    obtain ⟨q, hq, e⟩ := hk
    have := (numbered_inj2 (chanNames_plain q hq) (by decide) e).2
    have := (mem_oneTo.1 hj).2
    omega

end

theorem oneTo_range' (n : ℕ) : oneTo n = List.range' 1 n := by
  rw [oneTo, List.range'_eq_map_range]
  exact List.map_congr_left fun j _ => Nat.add_comm _ _

theorem channelLoop_eq {s : ScanObj} {n : ℕ} {r : ℕ → Option Val × Option Val × Option Val}
    (hget : ∀ i, 1 ≤ i → i ≤ n → (r i).1.isSome ∧ s.get (suffixed "monitor/mode".toList i) = .ok (r i).1 ∧
      s.get (suffixed "monitor/preset".toList i) = .ok (r i).2.1 ∧ s.get (suffixed "monitor/label".toList i) = .ok (r i).2.2)
    (hstop : ∀ i, n < i → s.get (suffixed "monitor/mode".toList i) = .ok none) :
    ∀ k a : ℕ, 1 ≤ a → channelLoop s (List.range' a k) = .ok ((List.range' a (min k (n + 1 - a))).map r)
  | 0, a, _ => by simp [channelLoop]
  | k + 1, a, ha => by
    rw [List.range'_succ, channelLoop]
    by_cases h : a ≤ n
    · obtain ⟨h0, h1, h2, h3⟩ := hget a ha h
      rw [h1, py_bind_ok, if_neg (by rw [Option.isNone_iff_eq_none]; exact Option.isSome_iff_ne_none.1 h0), h2, py_bind_ok, h3,
        py_bind_ok, channelLoop_eq hget hstop k (a + 1) (by omega), py_bind_ok,
        show min (k + 1) (n + 1 - a) = min k (n + 1 - (a + 1)) + 1 by omega, List.range'_succ, List.map_cons]
    · rw [hstop a (by omega), py_bind_ok, show min (k + 1) (n + 1 - a) = 0 by omega]; rfl

/-- The path of a channel. -/
theorem channel_path {q : Str} (hq : q ∈ numNames) (i : ℕ) :
    splitChar '/' (specialKey ("monitor/".toList ++ q ++ "_".toList ++ decStr i) false) = ["monitor".toList, suffixed q i] := by
  have hsl : '/' ∉ suffixed q i := by
    rw [suffixed, List.mem_append, List.mem_append]
    have hs : ∀ q ∈ numNames, '/' ∉ q := by decide
    rintro ((h | h) | h)
    · exact hs q hq h
    · exact absurd h (by decide)
    · obtain ⟨_, h2, _⟩ := decStr_spec i
      exact absurd (List.all_eq_true.1 h2 _ h) (by decide)
  have e : "monitor/".toList ++ q ++ "_".toList ++ decStr i = joinStr ['/'] ["monitor".toList, suffixed q i] := by
    rw [joinStr, joinStr, suffixed]
    rw [show "monitor/".toList = "monitor".toList ++ ['/'] by decide]
    simp only [List.append_assoc]
  have hne : ∀ t ∈ ["detector".toList, "monitor".toList, "sample".toList],
      "monitor/".toList ++ q ++ "_".toList ++ decStr i ≠ t := by
    rintro t ht rfl
    exact (show ∀ t ∈ ["detector".toList, "monitor".toList, "sample".toList], '/' ∉ t by decide) _ ht (by
      simp only [List.mem_append]; exact .inl (.inl (.inl (by decide))))
  rw [specialKey, if_neg (by simp), if_neg (hne _ (by decide)), if_neg (hne _ (by decide)), if_neg (hne _ (by decide)), e]
  refine splitChar_join (by simp) fun t ht => ?_
  simp only [List.mem_cons, List.not_mem_nil, or_false] at ht
  rcases ht with rfl | rfl
  · decide
  · exact hsl

/-! ## C77: the measurement -/

/-- **C77**: a scan with a simple preset reports its header: data set, number, title, axes, times, the channel and the value
counted up to. -/
theorem C77_normal (iso : Str → Py Str) (xml : List Str → Option Str) (fs : FS) (dir : List Str) (file : Str) (f : SpiceFile)
    (ds : Str) (m : ℕ) (s : ScanObj) (h : Loaded iso xml fs dir file f ds (scanName m) s) (x y : Str)
    (hx : header f "def_x".toList = some x) (hy : header f "def_y".toList = some y)
    (hpre : header f "preset_type".toList = some "normal".toList) (v : Option Val)
    (hv : HeaderValue (header f "preset_value".toList) v) :
    ∃ i, scanInfo s = .ok i ∧ ReportsHeader iso f ds i ∧ i.scanNum = (m % 10000 : ℕ) ∧
      i.presetType = some (.leaf (.str "normal".toList)) ∧ i.preset = .normal (shownText (header f "preset_channel".toList)) v := by
  obtain ⟨logs, p, s', _, hp, hmd, _, _, _, hname, _, he⟩ := loaded_inv h
  have hH : ∀ {k : Str}, k ≠ "instrument".toList → k ≠ "Error Messages".toList → k ≠ "Others".toList →
      textOf p.md k = header f k := fun h0 h1 h2 => header_text h.1 hmd h0 h1 h2
  obtain ⟨g1, g2, g3⟩ := hp.normal ((hH (by decide) (by decide) (by decide)).trans hpre)
  have g3 := g3 v (by rw [hH (by decide) (by decide) (by decide)]; exact hv)
  rw [hH (by decide) (by decide) (by decide)] at g2
  have e1 : s.get "preset_type".toList = _ := (scan_get he (by decide) (by decide)).trans g1
  have e2 : s.get "monitor/mode".toList = _ := (scan_get he (by decide) (by decide)).trans g2
  have e3 : s.get "monitor/preset".toList = _ := (scan_get he (by decide) (by decide)).trans g3
  refine (info_of h hx hy (reported_mod m) e1).1 _ ?_
  rw [presetOf, e1, py_bind_ok, if_pos (by decide), e2, py_bind_ok, e3, py_bind_ok]

/-- **C77** (partial): a scan with a count file reports, for each detector, the channel, the value and the label.
Missing: detectors after the twelfth, see `C77_channels_lost`. -/
theorem C77_countfile_partial (iso : Str → Py Str) (xml : List Str → Option Str) (fs : FS) (dir : List Str) (file : Str)
    (f : SpiceFile) (ds : Str) (m : ℕ) (s : ScanObj) (h : Loaded iso xml fs dir file f ds (scanName m) s) (x y : Str)
    (hx : header f "def_x".toList = some x) (hy : header f "def_y".toList = some y) (hpre : Polarized f)
    (cs : List Str) (qs : List ℚ) (ls : List Str) (h1 : lookupKey "norm_channels".toList f.metadata = some (.strs cs))
    (h2 : lookupKey "norm_vals".toList f.metadata = some (.nums qs)) (h3 : lookupKey "labels".toList f.metadata = some (.strs ls))
    (hne : ∀ c ∈ cs, c ≠ []) (n : ℕ) (hn : Detectors ((columns f).map Prod.fst) n) :
    ∃ i, scanInfo s = .ok i ∧ ReportsHeader iso f ds i ∧ i.scanNum = (m % 10000 : ℕ) ∧
      i.presetType = some (.leaf (.str "countfile".toList)) ∧
      i.preset = .countfile ((List.range (min 12 n)).map (channelReport cs qs ls)) ∧ n ≤ cs.length := by
  obtain ⟨logs, p, s', hlogs, hp, hmd, _, _, _, hname, _, he⟩ := loaded_inv h
  have hpol : Polarised p.md := (header_text h.1 hmd (by decide) (by decide) (by decide)).trans hpre
  have hnd : nDet logs = n := (detectors_file h.1 hlogs n).1 hn
  have hL : ∀ {k : Str}, k ≠ "instrument".toList → k ≠ "Error Messages".toList → k ≠ "Others".toList →
      lookupKey k p.md = lookupKey k f.metadata := by
    intro k h0 h1 h2
    rw [hmd, lookupKey_logAttrs (nodup_file h.1).1 h1 h2, if_neg (Ne.symm h0), Option.or_none]
  rw [← hL (by decide) (by decide) (by decide)] at h1 h2 h3
  have g1 := hp.countfile hpol
  have e1 : s.get "preset_type".toList = _ := (scan_get he (by decide) (by decide)).trans g1
  have hch : ∀ i, 1 ≤ i → i ≤ n → _ := fun i hi hin => hp.channel hpol h1 h2 h3 hi (by rw [hnd]; exact hin)
  have hpath : ∀ q ∈ numNames, ∀ i, s.get ("monitor/".toList ++ q ++ "_".toList ++ decStr i) =
      getItem (dropLogs p.entry) ["monitor".toList, suffixed q i] false := fun q hq i =>
    scan_get he (channel_path hq i) (by decide)
  have hloop := channelLoop_eq (s := s) (n := n) (r := fun i => channelReport cs qs ls (i - 1)) (fun i hi hin => by
    obtain ⟨c0, c1, c2, c3⟩ := hch i hi hin
    refine ⟨?_, (hpath "mode".toList (by decide) i).trans c1, (hpath "preset".toList (by decide) i).trans c2,
      (hpath "label".toList (by decide) i).trans c3⟩
    obtain ⟨c, hc⟩ := Option.isSome_iff_exists.1 c0
    show (shownText cs[i - 1]?).isSome
    rw [hc]
    cases c with
    | nil => exact absurd rfl (hne _ (List.mem_of_getElem? hc))
    | cons a t => rfl) (fun i hi => (hpath "mode".toList (by decide) i).trans (hp.no_channel hpol (by rw [hnd]; exact hi))) 12 1
    le_rfl
  have hpr : presetOf s = .ok (.countfile ((List.range (min 12 n)).map (channelReport cs qs ls))) := by
    rw [presetOf, e1, py_bind_ok, if_neg (by decide), if_pos (by decide), oneTo_range', hloop]
    refine congrArg (fun l => Except.ok (PresetInfo.countfile l)) ?_
    rw [show n + 1 - 1 = n by omega, List.range_eq_range', List.range'_eq_map_range, List.map_map, ← List.range_eq_range']
    refine List.map_congr_left fun j _ => ?_
    show channelReport cs qs ls (1 + j - 1) = _
    rw [Nat.add_sub_cancel_left]
  obtain ⟨i, hi1, hi2, hi3, hi4, hi5⟩ := (info_of h hx hy (reported_mod m) e1).1 _ hpr
  refine ⟨i, hi1, hi2, hi3, hi4, hi5, ?_⟩
  by_contra hlt
  obtain ⟨c0, _⟩ := hch n (by omega) le_rfl
  rw [List.getElem?_eq_none (by omega)] at c0
  exact absurd c0 (by simp)

/-- **C77**, the code disagrees: of more than twelve channels only twelve are reported. -/
theorem C77_channels_lost (iso : Str → Py Str) (xml : List Str → Option Str) (fs : FS) (dir : List Str) (file : Str)
    (f : SpiceFile) (ds : Str) (m : ℕ) (s : ScanObj) (h : Loaded iso xml fs dir file f ds (scanName m) s) (x y : Str)
    (hx : header f "def_x".toList = some x) (hy : header f "def_y".toList = some y) (hpre : Polarized f)
    (cs : List Str) (qs : List ℚ) (ls : List Str) (h1 : lookupKey "norm_channels".toList f.metadata = some (.strs cs))
    (h2 : lookupKey "norm_vals".toList f.metadata = some (.nums qs)) (h3 : lookupKey "labels".toList f.metadata = some (.strs ls))
    (hne : ∀ c ∈ cs, c ≠ []) (n : ℕ) (hn : Detectors ((columns f).map Prod.fst) n) (hbig : 12 < n) :
    ∃ i l, scanInfo s = .ok i ∧ i.preset = .countfile l ∧ l.length = 12 := by
  obtain ⟨i, e, _, _, _, hp, _⟩ := C77_countfile_partial iso xml fs dir file f ds m s h x y hx hy hpre cs qs ls h1 h2 h3 hne n hn
  exact ⟨i, _, e, hp, by rw [List.length_map, List.length_range]; omega⟩

/-- **C77**, the code disagrees: with another preset type nothing is reported. -/
theorem C77_preset_fails (iso : Str → Py Str) (xml : List Str → Option Str) (fs : FS) (dir : List Str) (file : Str) (f : SpiceFile)
    (ds : Str) (m : ℕ) (s : ScanObj) (h : Loaded iso xml fs dir file f ds (scanName m) s) (x y : Str)
    (hx : header f "def_x".toList = some x) (hy : header f "def_y".toList = some y)
    (hn : header f "preset_type".toList ≠ some "normal".toList) (hc : ¬ Polarized f) :
    scanInfo s = .error .unboundLocal := by
  obtain ⟨logs, p, s', _, hp, hmd, _, _, _, hname, _, he⟩ := loaded_inv h
  have hH : textOf p.md "preset_type".toList = header f "preset_type".toList :=
    header_text h.1 hmd (by decide) (by decide) (by decide)
  have g1 := hp.other (by rw [hH]; exact hn) (by rw [hH]; exact hc)
  have e1 : s.get "preset_type".toList = _ := (scan_get he (by decide) (by decide)).trans g1
  refine (info_of h hx hy (reported_mod m) e1).2 ?_
  rw [presetOf, e1, py_bind_ok, if_neg (by decide), if_neg (by decide)]

end Tavi
