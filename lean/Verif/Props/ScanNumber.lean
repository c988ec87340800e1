import Verif.Props.ScanFile

/-!
# A scan of a NeXus file asked for by its number (C82)

Reading one entry by its number leaves the attributes of the entry behind.
-/

namespace Tavi

open Spec

theorem getItem_skip (v : Val) (R : Dict) {k : Str} (hk : k ≠ kAttrs) (ks : List Str) (b : Bool) :
    getItem (.cons kAttrs v R) (k :: ks) b = getItem R (k :: ks) b := by
  have hg : (Dict.cons kAttrs v R).get? k = R.get? k := by rw [Dict.get?, if_neg (Ne.symm hk)]
  have hh : (Dict.cons kAttrs v R).has k = R.has k := by rw [Dict.has, Dict.has, hg]
  have hf : follow (.dict (.cons kAttrs v R)) (k :: ks) = follow (.dict R) (k :: ks) := by
    rw [follow, follow, Val.index, Val.index, hg]
  by_cases h : R.has k = true
  · cases hr : follow (.dict R) (k :: ks) with
    | error e => rw [item_error (hh.trans h) (hf.trans hr), item_error h hr]
    | ok w =>
      cases w with
      | leaf a => rw [item_leaf (hh.trans h) (hf.trans hr), item_leaf h hr]
      | dict e => rw [item_dict (hh.trans h) (hf.trans hr), item_dict h hr]
  · rw [item_absent (by rw [hh]; exact h), item_absent h, scan_cons, if_pos (.inl rfl)]

theorem dropLogs_skip (v : Val) (R : Dict) : dropLogs (.cons kAttrs v R) = .cons kAttrs v (dropLogs R) := by
  rw [dropLogs, dropLogs, Dict.erase, if_neg (by decide), Dict.erase, if_neg (by decide)]

theorem nxGet_skip (v : Val) (R : Dict) {key : Str} {b : Bool} (hk : (splitChar '/' (specialKey key b)).head? ≠ some kAttrs) :
    (nxGet (.cons kAttrs v R) key b).1 = (nxGet R key b).1 := by
  rw [nxGet, nxGet, dropLogs_skip]
  cases hc : splitChar '/' (specialKey key b) with
  | nil => exact absurd hc (splitChar_ne_nil _ _)
  | cons k ks =>
    rw [hc] at hk
    exact getItem_skip v _ (fun e => hk (by rw [e]; rfl)) ks b

theorem groupOf_skip (v : Val) (R : Dict) {k : Str} (hk : k ≠ kAttrs) : groupOf (.cons kAttrs v R) k = groupOf R k := by
  rw [groupOf, groupOf, Dict.get?, if_neg (Ne.symm hk)]

theorem dropMonitor_skip (v : Val) (R m : Dict) :
    dropMonitorData (.cons kAttrs v R) m = (dropMonitorData R m).map fun z => (z.1, .cons kAttrs v z.2) := by
  rw [dropMonitorData, dropMonitorData, nxGet_skip v R (by decide)]
  cases (nxGet R "monitor/data".toList false).1 with
  | error e => rfl
  | ok o =>
    rw [py_bind_ok, py_bind_ok]
    split
    · rw [Dict.set, if_neg (by decide)]; rfl
    · rfl

theorem datasetNames_skip (L : List Str) (v : Val) (R : Dict) {l : List Str} {d : Dict}
    (h : datasetNames L (.cons kAttrs v R) = .ok (l, d)) : ∃ d', datasetNames L R = .ok (l, d') ∧ d = .cons kAttrs v d' := by
  rw [datasetNames, nxGet_skip v R (by decide), dropLogs_skip, groupOf_skip _ _ (by decide), groupOf_skip _ _ (by decide)] at h
  obtain ⟨pts, h1, h⟩ := py_bind_eq_ok.1 h
  obtain ⟨n, h2, h⟩ := py_bind_eq_ok.1 h
  obtain ⟨inst, h3, h⟩ := py_bind_eq_ok.1 h
  obtain ⟨a, h4, h⟩ := py_bind_eq_ok.1 h
  obtain ⟨mon, h5, h⟩ := py_bind_eq_ok.1 h
  obtain ⟨md, h6, h⟩ := py_bind_eq_ok.1 h
  rw [dropMonitor_skip] at h6
  obtain ⟨md', h6', rfl⟩ := map_eq_ok.1 h6
  obtain ⟨b, h7, h⟩ := py_bind_eq_ok.1 h
  obtain ⟨samp, h8, h⟩ := py_bind_eq_ok.1 h
  rw [groupOf_skip _ _ (by decide)] at h8
  obtain ⟨c, h9, h⟩ := py_bind_eq_ok.1 h
  obtain ⟨rfl, rfl⟩ := Prod.mk.inj (Except.ok.inj h)
  refine ⟨md'.2, ?_, rfl⟩
  rw [datasetNames, h1, py_bind_ok, h2, py_bind_ok, h3, py_bind_ok, h4, py_bind_ok, h5, py_bind_ok, h6', py_bind_ok, h7, py_bind_ok,
    h8, py_bind_ok, h9, py_bind_ok]

theorem columnsLoop_skip (v : Val) (R : Dict) : ∀ (names : List Str) (acc : List (Str × Option Val)),
    (∀ k ∈ names, (splitChar '/' (specialKey k false)).head? ≠ some kAttrs) →
    columnsLoop (.cons kAttrs v R) names acc = columnsLoop R names acc
  | [], _, _ => rfl
  | n :: rest, acc, h => by
    rw [columnsLoop, columnsLoop, nxGet_skip v R (h n List.mem_cons_self)]
    congr 1
    funext w
    exact columnsLoop_skip v R rest _ fun k hk => h k (List.mem_cons_of_mem _ hk)

section
variable {iso : Str → Py Str} {logs : List (Str × LogVal)} {p : Pieces} {s s' : ScanObj} {ds sn : Str} {v : Val} {R : Dict}

/-- The scan without the attributes. -/
theorem Made.scan_skip (h : Made iso logs p) (hr : ReadAs (setDatasetName p.entry ds) (.cons kAttrs v R))
    (hs : newScan ["divergence_x".toList] sn p.entry = .ok s) (hs' : newScan [] sn (.cons kAttrs v R) = .ok s') :
    newScan [] sn R = .ok { s' with entry := dropLogs R } := by
  obtain ⟨qs, hpt, _⟩ := h.scan hs
  obtain ⟨l, hl, hmem⟩ := h.names_back (h.fine_of_ok hs) hpt hr
  have hat : ∀ k ∈ l, (splitChar '/' (specialKey k false)).head? ≠ some kAttrs := by
    intro k hk
    obtain ⟨h1, _⟩ := named_path (h.kept_named ((hmem k).1 hk))
    rw [path_eq]
    cases hc : path k false with
    | nil => exact absurd hc (path_ne_nil k)
    | cons j js =>
      rw [hc] at h1
      exact fun e => (h1 j (by simp)).1 (Option.some.inj e)
  obtain ⟨d', hd', e⟩ := datasetNames_skip [] v R hl
  rw [dropLogs_skip] at e
  injection e with _ _ e
  rw [newScan, hl, py_bind_ok] at hs'
  obtain ⟨data, hdat, rfl⟩ := map_eq_ok.1 hs'
  rw [newScan, hd', py_bind_ok, ← e]
  rw [dropLogs_skip] at hdat
  dsimp only at hdat ⊢
  rw [columnsLoop_skip v _ l [] hat] at hdat
  rw [hdat]
  show Except.ok _ = Except.ok _
  simp only [dropLogs_eq, nexusPart_nexusPart]

end

theorem attrs_not_members {ch : H5s} (h : ch.Clean) : (readMembers ch).get? kAttrs = none := by
  cases hg : (readMembers ch).get? kAttrs with
  | none => rfl
  | some v => exact absurd rfl (mem_readMembers (mem_items_of_get? hg) h).1

/-- The node of the only entry of a file. -/
theorem only_entry {f' : NxFile} {sn : Str} {a : List (Str × Leaf)} {ch : H5s}
    (h : fromNexusFile f' none = .ok (.cons sn (.dict (readNode (.node none a ch))) .nil)) :
    ∃ g, f'.resolved.children.get? sn = some g ∧ readMembers g.children = readMembers ch := by
  have h' : readMembers f'.resolved.children = .cons sn (.dict (readNode (.node none a ch))) .nil := Except.ok.inj h
  cases hc : f'.resolved.children with
  | nil => rw [hc, readMembers] at h'; cases h'
  | cons k m rest =>
    rw [hc, readMembers] at h'
    injection h' with e1 e2 e3
    injection e2 with e2
    refine ⟨m, by rw [H5s.get?, if_pos e1], ?_⟩
    cases m with
    | node v b c =>
      cases v with
      | none =>
        rw [readNode, readNode] at e2
        injection e2 with _ _ e2
      | some v =>
        exfalso
        cases b with
        | nil =>
          rw [readNode, readNode] at e2
          injection e2 with e2
          exact absurd e2 (by decide)
        | cons z b =>
          rw [readNode, readNode] at e2
          · injection e2 with _ _ e2
            cases ch with
            | nil => rw [readMembers] at e2; cases e2
            | cons k' n' r' =>
              rw [readMembers] at e2
              injection e2 with _ e2
              cases e2
          · simp

/-- **C82** (finding): the same scan, asked for by its number, has the same name and columns and gives the same for every
such key, but it cannot report about the measurement any more: `KeyError`, because the attributes of the entry are lost. -/
theorem C82_by_number (iso : Str → Py Str) (xml : List Str → Option Str) (fs : FS) (dir : List Str) (file : Str) (f : SpiceFile)
    (ds : Str) (n : ℕ) (s : ScanObj) (h : Loaded iso xml fs dir file f ds (scanName n) s)
    (hpl : ∀ c ∈ (columns f).map Prod.fst, Plain c) (x y : Str) (hx : header f "def_x".toList = some x)
    (hy : header f "def_y".toList = some y) (hxy : (lookupKey x renamed).getD x ≠ y)
    (hax : PlotColumn f ((lookupKey x renamed).getD x)) (hay : PlotColumn f y) :
    ∃ d f' s', fileToNx iso xml fs dir file = .ok d ∧ toNexusFile (setDatasetName d ds) (scanName n) .new = .ok f' ∧
      scanFromNexus f' (some n) = .ok s' ∧ s'.name = s.name ∧
      (∀ k, k ≠ "divergence_x".toList → k ≠ "countfile".toList → lookupKey k s'.data = lookupKey k s.data) ∧
      (∀ key, PlainKey key → s'.get key = s.get key) ∧
      ((∃ i, scanInfo s = .ok i) → scanInfo s' = .error .keyError) := by
  obtain ⟨logs, p, f', e, s', hp, hmd, hd, he, h1, h2, h3, hr, hname, he', hdat, _⟩ :=
    loaded_back h (by rw [scanName]; exact fun e => absurd (List.cons.inj e).1 (by decide)) hpl hx hy hxy hax hay
  obtain ⟨logs', p', s0, _, _, _, hd', hs0, _⟩ := loaded_inv h
  have hpp : p'.entry = p.entry := by rw [hd] at hd'; exact (Except.ok.inj hd').symm
  rw [hpp] at hs0
  have hs' : newScan [] (scanName n) e = .ok s' := by rw [scanFromNexus, h2, py_bind_ok] at h3; exact h3
  obtain ⟨a, ch, rfl, hc⟩ := hr.node
  obtain ⟨g, hg1, hg2⟩ := only_entry h2
  rw [readNode] at hs' hr he'
  have hs'' := hp.scan_skip hr hs0 hs'
  have hget : ∀ key, PlainKey key → ScanObj.get { s' with entry := dropLogs (readMembers ch) } key = s.get key := by
    intro key hk
    rw [← back_get hp.fine he hr he' hk]
    show (nxGet (dropLogs (readMembers ch)) key false).1 = (nxGet s'.entry key false).1
    rw [he']
    obtain ⟨k1, _⟩ := hk
    rw [nxGet_drop, nxGet_drop, nxGet_skip]
    rw [path_eq]
    cases hkc : path key false with
    | nil => exact absurd hkc (path_ne_nil key)
    | cons j js =>
      rw [hkc] at k1
      exact fun e => (k1 j (by simp)).1 (Option.some.inj e)
  refine ⟨p.entry, f', { s' with entry := dropLogs (readMembers ch) }, hd, h1, ?_, hname, hdat, hget, ?_⟩
  · rw [scanFromNexus, fromNexusFile, fromNexus, hg1, py_bind_ok, hg2]
    exact hs''
  · rintro ⟨i, hi⟩
    rw [scanInfo] at hi
    obtain ⟨t, i1, hi⟩ := py_bind_eq_ok.1 hi
    obtain ⟨o, i2, hi⟩ := py_bind_eq_ok.1 hi
    rw [scanInfo, hget _ (by decide), i1, py_bind_ok, back_preset hget, i2, py_bind_ok, scanExpId]
    show (need ((dropLogs (readMembers ch)).get? kAttrs) .keyError >>= _) >>= _ = _
    rw [drop_get _ (by decide) (by decide), attrs_not_members hc]
    rfl

end Tavi
