import Verif.Props.ConfData
import Verif.Props.ScanFile

/-!
# A scan read with configuration files, written to a NeXus file and loaded from there (C107)
-/

namespace Tavi

open Spec

section
variable {iso : Str → Py Str} {logs : List (Str × LogVal)} {inst : Option (List (Str × JSec))} {samp : Option (List (Str × JVal))}
  {p q : Pieces} {k : Str}

theorem Beside.fine (hp : Made iso logs p) (h : Beside inst samp p q) (hw : WritableConfig inst samp) (hn : PlainNames inst samp) : Fine q :=
  ⟨h.flats, h.neat hw hn, fun ds e => hp.fine.starts ds (h.start ▸ e), fun ds e => hp.fine.stops ds (h.stop ▸ e)⟩

/-! ## Axes -/

/-- The groups agree about what the files do not say. -/
theorem Beside.group_same (h : Beside inst samp p q) (hs : ¬ ConfSays inst samp k) (j : ℕ) (hj : j < 11) :
    (q.groups.getD j .nil).get? k = (p.groups.getD j .nil).get? k := by
  have hc := h.comps
  unfold Pieces.comps at hc
  simp only [List.forall₂_cons, List.Forall₂.nil, and_true] at hc
  obtain ⟨⟨_, c1⟩, ⟨_, c2⟩, ⟨_, c3⟩, ⟨_, c4⟩, ⟨_, c5⟩, ⟨_, c6⟩, ⟨_, c7⟩, ⟨_, c8⟩⟩ := hc
  have key : ∀ {g g' : Dict}, Differs inst samp g g' → g'.get? k = g.get? k := fun hd => (hd k).resolve_right hs
  interval_cases j
  · exact key c1
  · exact key c2
  · exact key c3
  · exact key c4
  · exact key c5
  · exact key c6
  · exact key c7
  · exact key c8
  · exact key h.mon
  · exact key h.samp
  · show q.user.get? k = p.user.get? k
    rw [h.user]

theorem Beside.sits (h : Beside inst samp p q) {i : ℕ} (hi : i < 11) {c n : Str} {int : Bool} (hs : ¬ ConfSays inst samp n)
    (hsits : Sits logs p i c n int) : Sits logs q i c n int :=
  ⟨fun hc => (h.group_same hs i hi).trans (hsits.none hc), fun qs hc => by
    obtain ⟨a, ha⟩ := hsits.some qs hc
    exact ⟨a, (h.group_same hs i hi).trans ha⟩⟩

theorem Beside.axis (hp : Made iso logs p) (h : Beside inst samp p q) (hf : Fine q) (hn : PlainNames inst samp) {c n : Str} {int : Bool}
    (hc : KnownColumn (Polarised p.md) (nDet logs) c n int) (hm : n ≠ "monitor".toList) (hs : n ≠ "sample".toList)
    (hsay : ¬ ConfSays inst samp n) :
    Plain n ∧ ∃ o, AxisOf q.entry n o ∧ ∀ r v B key, o = some r → view q.entry r = some (some v, B) → path key false = [n] →
      (nxGet q.entry key false).1 = .ok (some (.leaf v)) := by
  by_cases hd : n = "detector".toList
  · subst hd
    exact ⟨by decide, hf.axis_det (h.sits (by decide) hn.data (sits_data hp)) fun j hj =>
      (h.group_same hsay j hj).trans (hp.no_detector j hj)⟩
  · obtain ⟨i, ha, hsits⟩ := hp.alone hc hm hs hd
    have ha' : Alone q i n := ⟨ha.idx, ha.seen, ha.inst, ha.top, fun j hj hij => (h.group_same hsay j hj).trans (ha.others j hj hij), ha.slash⟩
    refine ⟨ha.seen.1, hf.axis ha' (h.sits ha.idx hsay hsits) hm hd fun qs hq => ?_⟩
    obtain ⟨ks, hpath⟩ := column_path (k := n) (logs := logs) (md := p.md) (.inl ⟨c, int, qs, hc, hq⟩)
    rw [same_get hp h hn.data hpath hsay]
    exact (hp.column hc []).2 qs hq

/-! ## The scan -/

theorem Beside.points (hp : Made iso logs p) (h : Beside inst samp p q) (hn : PlainNames inst samp) :
    (nxGet q.entry "Pt.".toList false).1 = (nxGet p.entry "Pt.".toList false).1 := by
  obtain ⟨ks, hpath⟩ := path_of_check (k := "Pt.".toList) (by decide +kernel)
  exact same_get hp h hn.data hpath hn.points

theorem Beside.ok_names (hp : Made iso logs p) (h : Beside inst samp p q) (hn : PlainNames inst samp) {L : List Str} {x : List Str × Dict}
    (hd : datasetNames L q.entry = .ok x) : NameFine p.md ∧ ∃ qs, colOf logs "Pt.".toList = some qs := by
  cases hpt : colOf logs "Pt.".toList with
  | none =>
    have hp0 : (nxGet p.entry "Pt.".toList false).1 = .ok none :=
      (hp.column (c := "Pt.".toList) (n := "Pt.".toList) .point []).1 hpt
    rw [datasetNames, h.points hp hn, hp0] at hd
    exact absurd hd (by simp [lenOf, bind, Except.bind])
  | some qs =>
    refine ⟨fun s hs => ?_, qs, rfl⟩
    by_contra hb
    rw [Bool.not_eq_false] at hb
    have hp0 : (nxGet p.entry "Pt.".toList false).1 = .ok (some (.leaf (.arr (Spec.shown true qs)))) :=
      (hp.column (c := "Pt.".toList) (n := "Pt.".toList) .point []).2 qs hpt
    have hs' : textOf q.md "instrument".toList = some s := by rw [h.md]; exact hs
    have hbad : ∀ n, namesInstrument L n q.inst = .error .typeError := by
      intro n
      obtain ⟨ds, hds⟩ : ∃ ds, dsText (textOf q.md "instrument".toList) [] = some ds := by
        rw [hs']
        cases s with
        | nil => exact absurd hb (by decide)
        | cons c s => exact ⟨_, rfl⟩
      refine namesInstrument_error (fun k v hm => ?_) ⟨"name".toList, .dict ds, ?_, name_bad hs' hb hds⟩
      · rcases inst_items' q hm with rfl | ⟨g, rfl, hg⟩ | ⟨rfl, ds', rfl, hds'⟩
        · exact .inl ⟨[], by unfold namesComponent; exact if_pos rfl⟩
        · obtain ⟨K, hf⟩ := h.flat_comp hg
          obtain ⟨b, hb, _⟩ := comp_names_flat (comps_plain q hg) hf L n
          exact .inl ⟨b, hb⟩
        · exact .inr (name_bad hs' hb hds')
      · exact mem_items_of_get? (by rw [inst_name, hds]; rfl)
    have : datasetNames L q.entry = .error .typeError := by
      rw [datasetNames, h.points hp hn, hp0, py_bind_ok, lenOf, py_bind_ok, groupOf, entry_inst, need_some, py_bind_ok]
      show (namesInstrument L _ q.inst >>= _) = _
      rw [hbad]; rfl
    rw [this] at hd
    exact absurd hd (by simp)

/-- Where a listed name leads. -/
theorem Beside.leads (hp : Made iso logs p) (h : Beside inst samp p q) (hn : PlainNames inst samp) {L : List Str} {n : ℕ}
    (hk : Somewhere q L n k) : (∀ r ∈ path k false, Plain r) ∧ (path k false).head? ≠ some kData ∧
      (k ≠ "countfile".toList → k ≠ "name".toList → (path k false).getLast? ∉ listNames.map some) ∧
      ∃ v, (nxGet q.entry k false).1 = .ok v := by
  by_cases hs : ConfSays inst samp k
  · obtain ⟨hpl, hpath⟩ := said_path hn hs
    have hpath' : path k false = [k] := by rw [← path_eq]; exact hpath
    rw [hpath']
    refine ⟨fun r hr => by rw [List.mem_singleton.1 hr]; exact hpl, fun e => hn.data ((show k = "data".toList from Option.some.inj e) ▸ hs), fun h1 h2 hm => ?_, ?_⟩
    · simp only [listNames, List.map_cons, List.map_nil, List.getLast?_singleton, List.mem_cons, Option.some.injEq,
        List.not_mem_nil, or_false] at hm
      exact hm.elim h2 h1
    · rw [nxGet, hpath]
      exact (Beside.total hp h hpl).2
  · have hnm := hp.named ((somewhere_same hp h hn.data hs).1 hk)
    obtain ⟨h1, h2, h3, _⟩ := named_path hnm
    obtain ⟨ks, hpath⟩ := column_path hnm
    exact ⟨h1, h2, fun e _ => h3 e, by rw [same_get hp h hn.data hpath hs]; exact hp.named_ok hnm⟩

theorem plain_head (hp : ∀ r ∈ path k false, Plain r) : (splitChar '/' (specialKey k false)).head? ≠ some kAttrs := by
  rw [path_eq]
  cases hc : path k false with
  | nil => exact absurd hc (path_ne_nil k)
  | cons j js =>
    rw [hc] at hp
    exact fun e => (hp j (by simp)).1 (Option.some.inj e)

/-- What is behind a scan read with configuration files. -/
theorem Beside.scan_inv (hp : Made iso logs p) (h : Beside inst samp p q) (hn : PlainNames inst samp) {L : List Str} {sn ds : Str}
    {s : ScanObj} (hs : newScan L sn (setDatasetName q.entry ds) = .ok s) :
    NameFine p.md ∧ ∃ qs, colOf logs "Pt.".toList = some qs ∧ s.name = sn ∧ s.entry = setDatasetName (dropLogs q.entry) ds ∧ ∀ k,
      (Somewhere q L qs.length k → ∃ v, (nxGet q.entry k false).1 = .ok v ∧ lookupKey k s.data = some v) ∧
      (¬ Somewhere q L qs.length k → lookupKey k s.data = none) := by
  rw [newScan, datasetNames_setDatasetName] at hs
  obtain ⟨x, hx, hs⟩ := py_bind_eq_ok.1 hs
  obtain ⟨y, hy, rfl⟩ := map_eq_ok.1 hx
  obtain ⟨hfine, qs, hpt⟩ := h.ok_names hp hn hy
  obtain ⟨l, hl, hmem⟩ := Beside.names hp h hn hfine L hpt
  obtain rfl := Except.ok.inj (hy.symm.trans hl)
  obtain ⟨data, hd, rfl⟩ := map_eq_ok.1 hs
  have heads : ∀ k ∈ l, (splitChar '/' (specialKey k false)).head? ≠ some kAttrs := fun k hk =>
    plain_head (h.leads hp hn ((hmem k).1 hk)).1
  have hd' : columnsLoop (dropLogs q.entry) l [] = .ok data := by
    rw [← columnsLoop_setDatasetName _ ds _ _ heads]; exact hd
  refine ⟨hfine, qs, hpt, rfl, ?_, fun k => ?_⟩
  · show dropLogs (setDatasetName (dropLogs q.entry) ds) = _
    rw [dropLogs_setDatasetName]
    simp only [dropLogs_eq, nexusPart_nexusPart]
  · have hc := columnsLoop_inv hd' k
    refine ⟨fun hk => ?_, fun hk => hc.2 fun hm => hk ((hmem k).1 hm)⟩
    obtain ⟨v, hv, hlk⟩ := hc.1 ((hmem k).2 hk)
    rw [nxGet_drop] at hv
    exact ⟨v, hv, hlk⟩

theorem kept_somewhere {n : ℕ} (hk : KeptSomewhere q n k) : Somewhere q [] n k := by
  rcases hk with ⟨C, g, hC, hk⟩ | hk | hk
  · refine .inl ⟨C, g, hC, ?_⟩
    unfold KeptComp at hk
    split
    · rename_i hc; rwa [if_pos hc] at hk
    · rename_i hc; rw [if_neg hc] at hk; exact kept_listed hk
  · exact .inr (.inl (kept_listed hk))
  · exact .inr (.inr (kept_listed hk))

/-- A scan of the entry that was read. -/
theorem Beside.scan_back (hp : Made iso logs p) (h : Beside inst samp p q) (hf : Fine q) (hn : PlainNames inst samp) {ds sn : Str}
    {e : Dict} (hr : ReadAs (setDatasetName q.entry ds) e) {s : ScanObj}
    (hs : newScan ["divergence_x".toList] sn (setDatasetName q.entry ds) = .ok s) :
    ∃ s', newScan [] sn e = .ok s' ∧ s'.name = s.name ∧ s'.entry = dropLogs e ∧
      ∀ k, k ∉ ["divergence_x".toList, "countfile".toList, "name".toList] → lookupKey k s'.data = lookupKey k s.data := by
  obtain ⟨hfine, qs, hpt, hname, _, hdat⟩ := h.scan_inv hp hn hs
  obtain ⟨l, hl, hmem⟩ := hf.names_back (qs := qs) (by rw [h.md]; exact hfine)
    (by rw [h.points hp hn]; exact (hp.column (c := "Pt.".toList) (n := "Pt.".toList) .point []).2 qs hpt)
    ((h.shape _ (by decide +kernel)).trans (mon_no_data hp)) hr
  obtain ⟨data, hd⟩ := columnsLoop_ok (d := dropLogs e) (names := l) (acc := []) fun k hk => by
    obtain ⟨h1, h2, _, v, hv⟩ := h.leads hp hn (kept_somewhere ((hmem k).1 hk))
    exact ⟨v.map readVal, by rw [nxGet_drop, hr.look k h1 h2, nxGet_setDatasetName _ _ _ _ (plain_head h1), hv]; rfl⟩
  refine ⟨⟨sn, dropLogs (dropLogs e), data⟩, by rw [newScan, hl, py_bind_ok, hd]; rfl, hname.symm, ?_, fun k hk' => ?_⟩
  · show dropLogs (dropLogs e) = dropLogs e
    simp only [dropLogs_eq, nexusPart_nexusPart]
  · simp only [List.mem_cons, List.not_mem_nil, or_false, not_or] at hk'
    obtain ⟨n1, n2, n3⟩ := hk'
    have hc := columnsLoop_inv hd k
    obtain ⟨g1, g2⟩ := hdat k
    have hiff : KeptSomewhere q qs.length k ↔ Somewhere q ["divergence_x".toList] qs.length k :=
      hf.kept_iff (by simp only [listNames, List.mem_cons, List.not_mem_nil, or_false, not_or]; exact ⟨n3, n2⟩)
        (by simp only [List.mem_cons, List.not_mem_nil, or_false]; exact n1)
    by_cases hk : k ∈ l
    · have hks := (hmem k).1 hk
      obtain ⟨v, hv, hlk⟩ := hc.1 hk
      obtain ⟨w, hw, hlw⟩ := g1 (hiff.1 hks)
      rw [hlk, hlw]
      obtain ⟨h1, h2, h3, _⟩ := h.leads hp hn (kept_somewhere hks)
      rw [nxGet_drop, hf.look_back hr h1 h2 (h3 n2 n3), nxGet_setDatasetName _ _ _ _ (plain_head h1), hw] at hv
      rw [Except.ok.inj hv]
    · rw [g2 fun hh => hk ((hmem k).2 (hiff.2 hh)), hc.2 hk]
      rfl

/-- The name of the sample is not changed by reading. -/
theorem Beside.sample_name (hp : Made iso logs p) (h : Beside inst samp p q) (hw : WritableConfig inst samp) (hn : PlainNames inst samp)
    {ds : Str} {e : Dict} (hr : ReadAs (setDatasetName q.entry ds) e) {s s' : ScanObj}
    (he : s.entry = setDatasetName (dropLogs q.entry) ds) (he' : s'.entry = dropLogs e) :
    s'.get "sample/name".toList = s.get "sample/name".toList := by
  have key : ∃ v, getItem (dropLogs q.entry) ["sample".toList, "name".toList] false = .ok v ∧ v.map readVal = v := by
    obtain ⟨K, hK⟩ := h.flats q.samp (by simp [Pieces.groups])
    cases hs : q.samp.get? "name".toList with
    | none => exact ⟨none, path_stored (entry_samp q) (o := none) hs (.inl ⟨rfl, rfl⟩), rfl⟩
    | some v =>
      rcases hK.sub _ v (mem_items_of_get? hs) with ⟨h1, _⟩ | ⟨_, x, a, rfl⟩
      · exact absurd h1 (by decide)
      · refine ⟨some (.leaf x), path_stored (entry_samp q) (o := some (nxDs x a)) hs (.inr ⟨x, a, rfl, rfl⟩), ?_⟩
        have hnl : ∀ l, x ≠ .strs l := by
          rintro l rfl
          rcases h.named hw hn _ hs with h1 | h1
          · have h2 := hp.samp_text (k := "name".toList) (c := "samplename".toList) (by decide)
            rw [path_stored (entry_samp p) (o := some (nxDs (.strs l) a)) h1 (.inr ⟨_, a, rfl, rfl⟩)] at h2
            have h3 := Except.ok.inj h2
            cases ht : textOf p.md "samplename".toList with
            | none => rw [ht] at h3; exact absurd h3 (by simp [shownText])
            | some t =>
              rw [ht] at h3
              cases t <;> simp [shownText] at h3
          · exact h1 l rfl
        cases x with
        | strs l => exact absurd rfl (hnl l)
        | _ => rfl
  obtain ⟨v, hv, hread⟩ := key
  have h1 : s.get "sample/name".toList = .ok v :=
    (scan_get he (show _ = ["sample".toList, "name".toList] by decide) (by decide)).trans hv
  have h2 : (nxGet (setDatasetName q.entry ds) "sample/name".toList false).1 = .ok v := by
    rw [← h1, ScanObj.get, he, nxGet_setDatasetName _ _ _ _ (by decide), nxGet_setDatasetName _ _ _ _ (by decide), nxGet_drop]
  rw [h1, ScanObj.get, he', nxGet_drop, hr.look _ (by decide) (by decide), h2]
  show Except.ok (v.map readVal) = _
  rw [hread]

end

section
variable {iso : Str → Py Str} {xml : List Str → Option Str} {inst : Option (List (Str × JSec))} {samp : Option (List (Str × JVal))}
  {fs : FS} {dir : List Str} {file : Str} {f : SpiceFile} {ds sn : Str} {s : ScanObj}

theorem file_logs (hf : readSpiceDatafile fs (dir ++ [file]) = .ok f) (ht : TidyConfig inst samp) {d : Dict}
    (h : fileToNxWith iso xml (inst.map some) (samp.map some) fs dir file = .ok d) :
    ∃ logs p q, createSpicelogs xml fs dir file = .ok logs ∧ Made iso logs p ∧ p.md = logAttrs ((splitChar '_' file).headD []) f ∧
      d = q.entry ∧ Beside inst samp p q := by
  rw [fileToNxWith, loadJson_some, py_bind_ok, loadJson_some, py_bind_ok] at h
  obtain ⟨logs, hl, h⟩ := py_bind_eq_ok.1 h
  obtain ⟨p, q, hp, e, hb⟩ := pieces_of (c := ⟨inst, samp⟩) ht h
  refine ⟨logs, p, q, hl, hp, ?_, e, hb⟩
  have h2 := hp.hmd
  rw [logs_lookup hf hl (by decide), if_pos rfl] at h2
  cases hm : lookupKey "metadata".toList (columns f) with
  | some l => rw [hm] at h2; exact absurd (Option.some.inj h2) (by simp)
  | none =>
    rw [hm] at h2
    have := Option.some.inj h2
    simpa using this.symm

/-- The scan read from the NeXus file is the scan read with configuration files, up to the columns made of lists. -/
def Spec.SameConfScan (s s' : ScanObj) : Prop :=
  s'.name = s.name ∧
  (∀ k, k ∉ ["divergence_x".toList, "countfile".toList, "name".toList] → lookupKey k s'.data = lookupKey k s.data) ∧
  (∀ key, PlainKey key → s'.get key = s.get key) ∧
  scanInfo s' = scanInfo s ∧ sampleUbInfo s' = sampleUbInfo s ∧ instrumentInfo s' = instrumentInfo s

/-- The configuration files do not speak about the axes. -/
def Spec.AxesKept (inst : Option (List (Str × JSec))) (samp : Option (List (Str × JVal))) (f : SpiceFile) : Prop :=
  ∀ x y, header f "def_x".toList = some x → header f "def_y".toList = some y →
    ¬ ConfSays inst samp ((lookupKey x renamed).getD x) ∧ ¬ ConfSays inst samp y

/-- **C107.** A scan read from a data file with configuration files, written as a NeXus entry to a new file and loaded from there: same
name and columns, the same for every key that names a place outside the plot (so also what the configuration files say), and the same
reports about the measurement, the sample and the instrument. -/
theorem C107_round_trip (hw : WritableConfig inst samp) (ht : TidyConfig inst samp) (hn : PlainNames inst samp)
    (h : LoadedWith iso xml inst samp ["divergence_x".toList] fs dir file f ds sn s) (hsn : sn ≠ "attrs".toList)
    (hpl : ∀ c ∈ (columns f).map Prod.fst, Plain c) {x y : Str} (hx : header f "def_x".toList = some x)
    (hy : header f "def_y".toList = some y) (hxy : (lookupKey x renamed).getD x ≠ y)
    (hax : PlotColumn f ((lookupKey x renamed).getD x)) (hay : PlotColumn f y) (hkept : AxesKept inst samp f) :
    ∃ d f' s', fileToNxWith iso xml (inst.map some) (samp.map some) fs dir file = .ok d ∧
      toNexusFile (setDatasetName d ds) sn .new = .ok f' ∧ scanFromNexus f' none = .ok s' ∧ SameConfScan s s' := by
  obtain ⟨hf, d, hd, hs⟩ := h
  obtain ⟨logs, p, q, hl, hp, hmd, rfl, hb⟩ := file_logs hf ht hd
  have hfine := hb.fine hp hw hn
  obtain ⟨kx, ky⟩ := hkept x y hx hy
  have hax' : ∀ {nm : Str}, PlotColumn f nm → ¬ ConfSays inst samp nm → Plain nm ∧ ∃ o, EntryAxis q.entry nm o := by
    rintro nm ⟨k1, k2, k3⟩ hno
    have hdet := (detectors_file hf hl (nDet logs)).2 rfl
    obtain ⟨c, int, hc⟩ := k3 _ hdet
    exact hb.axis hp hfine hn ((known_file hf hl hmd hdet).2 hc) k1 k2 hno
  obtain ⟨px, ox, ax⟩ := hax' hax kx
  obtain ⟨py, oy, ay⟩ := hax' hay ky
  have htidy : Tidy (setDatasetName q.entry ds) :=
    tidy_setDatasetName (hfine.tidy (hb.lg ▸ hp.tidy_lg (nodup_logs hl) (plain_logs hf hl hpl))) ds
  have tx : textOf q.md "def_x".toList = some x := by
    rw [hb.md, header_text hf hmd (by decide) (by decide) (by decide), hx]
  have ty : textOf q.md "def_y".toList = some y := by
    rw [hb.md, header_text hf hmd (by decide) (by decide) (by decide), hy]
  obtain ⟨f', e, g1, _, _, _, g4, g5⟩ := entry_written htidy hsn tx ty hxy px py ax ay [] _ .new [] .nil (.inl rfl) rfl rfl
    (by simp [NxFile.new]) ⟨clean_node.2 trivial, by simp [NxFile.new]⟩
  obtain ⟨s', k1, k2, k3, k4⟩ := hb.scan_back hp hfine hn g5 hs
  obtain ⟨_, _, _, _, he, _⟩ := hb.scan_inv hp hn hs
  have hr : fromNexusFile f' none = .ok (.cons sn (.dict e) .nil) := by rw [← g4 rfl]; rfl
  refine ⟨_, f', s', hd, g1, by rw [scanFromNexus, hr, py_bind_ok]; exact k1, k2, k4, ?_⟩
  exact back_info tx ty hfine he g5 k2 k3 (hb.sample_name hp hw hn g5 he k3)

/-! ## What cannot be written -/

/-- Everything in a group that was written could be written. -/
theorem writeDict_could : ∀ (d : Dict) (t t' : H5), writeDict d t = .ok t' → ∀ k e, d.get? k = some (.dict e) → k ≠ kAttrs →
    (e.has kDataset = true → ∃ v, formatDataset e = .ok v) ∧ (e.has kDataset = false → ∃ g g', writeDict e g = .ok g')
  | .nil, _, _, _, _, _, hk, _ => absurd hk (by simp [Dict.get?])
  | .cons j v rest, t, t', h, k, e, hk, hne => by
    rw [writeDict] at h
    obtain ⟨t1, h1, h2⟩ := py_bind_eq_ok.1 h
    rw [Dict.get?] at hk
    by_cases hj : j = k
    · rw [if_pos hj] at hk
      obtain rfl := Option.some.inj hk
      subst hj
      rw [writeItem] at h1
      rw [if_neg hne] at h1
      constructor
      · intro hd
        rw [if_pos hd] at h1
        obtain ⟨v, hv, _⟩ := py_bind_eq_ok.1 h1
        exact ⟨v, hv⟩
      · intro hd
        rw [if_neg (by rw [hd]; decide)] at h1
        obtain ⟨g, _, h1⟩ := py_bind_eq_ok.1 h1
        obtain ⟨g', hg, _⟩ := py_bind_eq_ok.1 h1
        exact ⟨g, g', hg⟩
    · rw [if_neg hj] at hk
      exact writeDict_could rest t1 t' h2 k e hk hne

/-- **C107** (finding): a parameter of the sample given as a list of texts, or its shape given as a list of numbers, is accepted when
the scan is read, but the entry cannot be written: h5py has no type for it (`TypeError`), numbers cannot be encoded (`AttributeError`). -/
theorem C107_refused (ht : TidyConfig inst samp) (hn : PlainNames inst samp) {d : Dict}
    (hd : fileToNxWith iso xml (inst.map some) (samp.map some) fs dir file = .ok d) {k : Str} {v : JVal} (hk : (k, v) ∈ samp.getD [])
    (htaken : sampleMeaning.taken k)
    (hv : (∃ l, v = .strs l ∧ k ∉ sampleMeaning.words ∧ k ∉ sampleMeaning.quantities) ∨ ∃ x l, v = .nums (x :: l) ∧ k = "shape".toList)
    (F F' : NxFile) : toNexusFile (setDatasetName d ds) sn F ≠ .ok F' := by
  intro h
  obtain ⟨d0, hd0, hsup⟩ := C104_file ht hd
  obtain ⟨logs, p, q, hp, hq0, rfl, hb⟩ := file_pieces ht hd
  obtain ⟨g0, g, _, hg, hs⟩ := hsup.sample
  have hgq : q.samp = g := by
    rw [← entry_get _ (by decide) (by decide), entry_samp] at hg
    injection hg with hg; injection hg
  have hnot : g.has kDataset = false := by
    have h1 : q.samp.get? kDataset = p.samp.get? kDataset :=
      (hb.samp kDataset).resolve_right fun hs => absurd (hn.plain _ hs).1 (by decide +kernel)
    have h2 : p.samp.get? kDataset = none := hp.fine.neat_samp.1.not_has
    rw [← hgq, Dict.has, h1, h2]; rfl
  rw [toNexusFile, toNexusIn, writeEntry] at h
  obtain ⟨f1, h, _⟩ := py_bind_eq_ok.1 h
  obtain ⟨t, h, _⟩ := py_bind_eq_ok.1 h
  rw [toNexus] at h
  obtain ⟨r, _, h⟩ := py_bind_eq_ok.1 h
  obtain ⟨r', h, _⟩ := py_bind_eq_ok.1 h
  obtain ⟨a, a', ha⟩ := (writeDict_could _ _ _ h "sample".toList g (by rw [get?_setDatasetName _ _ (by decide)]; exact hg) (by decide)).2 hnot
  have hnothing : ¬ SaysNothing v := by
    rcases hv with ⟨l, rfl, _⟩ | ⟨x, l, rfl, _⟩ <;> simp [SaysNothing]
  obtain ⟨e, at', y, he, hy, htells, hat, _, htyped⟩ := hs.found k v hk htaken hnothing
  have hname : sampleMeaning.name k ≠ kAttrs := fun e =>
    absurd (hn.plain _ (.inr (.inr (.inr (.inr ⟨k, v, hk, htaken, e, hnothing⟩))))).1 (by decide +kernel)
  obtain ⟨w, hw⟩ := (writeDict_could _ _ _ ha _ e he hname).1 (by rw [Dict.has]; show (e.get? "dataset".toList).isSome = true; rw [hy]; rfl)
  rw [formatDataset, show e.get? kDataset = _ from hy, show e.get? kAttrs = _ from hat] at hw
  rcases hv with ⟨l, rfl, h1, h2⟩ | ⟨x, l, rfl, rfl⟩
  · have hyl : y = .strs l := by
      cases htells with
      | texts _ => rfl
      | spelledAll h _ => exact absurd h h2
    subst hyl
    have hno := htyped.2.2 h1 h2
    cases at' with
    | nil => exact absurd hw (by simp [storable])
    | cons j z rest =>
      dsimp only at hw
      unfold formatAs at hw
      split at hw
      · rename_i t htt
        rw [if_neg (fun e => hno t (by rw [e]; simp) htt), if_neg (fun e => hno t (by rw [e]; simp) htt),
          if_neg (fun e => hno t (by rw [e]; simp) htt)] at hw
        exact absurd hw (by simp [storable])
      · exact absurd hw (by simp [storable])
  · have hyl : y = .fin (x :: l) := by
      cases htells with
      | numbers => rfl
    subst hyl
    have hty := htyped.1 (by decide +kernel)
    cases at' with
    | nil => exact absurd hty (by simp [Dict.get?])
    | cons j z rest =>
      dsimp only at hw
      rw [hty, formatAs] at hw
      rw [if_pos rfl] at hw
      exact absurd hw (by simp [asChar])

end

end Tavi
