import Verif.Props.ScanColumns

/-!
# The data of a loaded scan (C76)
-/

namespace Tavi

open Spec

/-! ## The loop over the names -/

theorem columnsLoop_inv {d : Dict} : ∀ {names : List Str} {acc data : List (Str × Option Val)},
    columnsLoop d names acc = .ok data → ∀ k,
      (k ∈ names → ∃ v, (nxGet d k false).1 = .ok v ∧ lookupKey k data = some v) ∧
      (k ∉ names → lookupKey k data = lookupKey k acc)
  | [], acc, data, h, k => by
    obtain rfl := Except.ok.inj h
    exact ⟨fun h => absurd h (by simp), fun _ => rfl⟩
  | n :: rest, acc, data, h, k => by
    rw [columnsLoop] at h
    obtain ⟨v, hv, h⟩ := py_bind_eq_ok.1 h
    have ih := columnsLoop_inv h k
    by_cases hk : k ∈ rest
    · exact ⟨fun _ => ih.1 hk, fun hn => absurd (List.mem_cons_of_mem _ hk) hn⟩
    · have h2 := ih.2 hk
      rw [lookupKey_assocSet] at h2
      by_cases hkn : k = n
      · rw [if_pos hkn] at h2
        exact ⟨fun _ => ⟨v, by rw [hkn]; exact hv, h2⟩, fun hn => absurd (hkn ▸ List.mem_cons_self) hn⟩
      · rw [if_neg hkn] at h2
        exact ⟨fun hm => absurd hm (by rw [List.mem_cons]; exact not_or.2 ⟨hkn, hk⟩), fun _ => h2⟩

theorem columnsLoop_ok {d : Dict} : ∀ {names : List Str} {acc : List (Str × Option Val)},
    (∀ k ∈ names, ∃ v, (nxGet d k false).1 = .ok v) → ∃ data, columnsLoop d names acc = .ok data
  | [], acc, _ => ⟨acc, rfl⟩
  | n :: rest, acc, h => by
    obtain ⟨v, hv⟩ := h n List.mem_cons_self
    obtain ⟨data, hd⟩ := columnsLoop_ok (acc := assocSet acc n v) fun k hk => h k (List.mem_cons_of_mem _ hk)
    exact ⟨data, by rw [columnsLoop, hv, py_bind_ok, hd]⟩

section
variable {iso : Str → Py Str} {logs : List (Str × LogVal)} {p : Pieces}

/-- What can be listed, component by component. -/
def Somewhere (p : Pieces) (L : List Str) (n : ℕ) (k : Str) : Prop :=
  (∃ C g, (C, g) ∈ p.comps ∧
    if C = "detector".toList ∧ (g.get? "data".toList).isSome then k = "detector".toList else Listed L n g k) ∨
  Listed L n p.mon k ∨ Listed L n p.samp k

theorem comp_of_index (p : Pieces) {i : ℕ} (hi : i ∈ [1, 3, 5, 6, 7]) :
    ∃ C, (C, p.groups.getD i .nil) ∈ p.comps ∧ C ≠ "detector".toList := by
  simp only [List.mem_cons, List.not_mem_nil, or_false] at hi
  rcases hi with rfl | rfl | rfl | rfl | rfl
  · exact ⟨"monochromator".toList, by simp [Pieces.comps, Pieces.groups], by decide⟩
  · exact ⟨"analyser".toList, by simp [Pieces.comps, Pieces.groups], by decide⟩
  · exact ⟨"slits".toList, by simp [Pieces.comps, Pieces.groups], by decide⟩
  · exact ⟨"flipper".toList, by simp [Pieces.comps, Pieces.groups], by decide⟩
  · exact ⟨"goniometer".toList, by simp [Pieces.comps, Pieces.groups], by decide⟩

theorem listed_of_get {L : List Str} {n : ℕ} {g : Dict} {k : Str} {l : List (Option ℝ)} {a : List (Str × Str)}
    (h : g.get? k = some (.dict (nxDs (.arr l) a))) (hk : k ∉ L) (hn : l.length = n) : Listed L n g k :=
  ⟨_, a, mem_items_of_get? h, by simp [sizedArray, hk, hn]⟩

theorem somewhere_sits {L : List Str} {i : ℕ} (hi : i ∈ [1, 3, 5, 6, 7, 8, 9]) {c n : Str} {int : Bool}
    (hs : Sits logs p i c n int) {qs : List (Option ℚ)} (hq : colOf logs c = some qs) (hL : n ∉ L) :
    Somewhere p L qs.length n := by
  obtain ⟨a, ha⟩ := hs.some qs hq
  have hl := listed_of_get (L := L) ha hL (show (shown int qs).length = qs.length from List.length_map _)
  by_cases h8 : i = 8
  · subst h8; exact .inr (.inl hl)
  by_cases h9 : i = 9
  · subst h9; exact .inr (.inr hl)
  have hi' : i ∈ [1, 3, 5, 6, 7] := by
    simp only [List.mem_cons, List.not_mem_nil, or_false] at hi ⊢
    omega
  obtain ⟨C, hC, hne⟩ := comp_of_index p hi'
  exact .inl ⟨C, _, hC, by rw [if_neg fun h => hne h.1]; exact hl⟩

theorem known_name_ne {P : Prop} {n : ℕ} {c nm : Str} {int : Bool} (h : KnownColumn P n c nm int) :
    nm ≠ "divergence_x".toList := by
  have hnum : ∀ (q : Str) (_ : q ∈ numNames) (i : ℕ), withNumber q i ≠ "divergence_x".toList := by
    intro q hq i
    rw [← suffixed_eq]
    exact Ne.symm ((show NotNumbered "divergence_x".toList by decide).ne hq i)
  cases h with
  | same hc => exact (show ∀ c ∈ Spec.sameName, c ≠ "divergence_x".toList by decide) _ hc
  | renamed hc => exact (show ∀ c ∈ Spec.renamed, c.2 ≠ "divergence_x".toList by decide) _ hc
  | detector => decide
  | point => decide
  | time _ => decide
  | mcu _ => decide
  | monitor _ => decide
  | detectors _ _ => exact hnum _ (by decide) _
  | times _ _ _ => exact hnum _ (by decide) _
  | mcus _ _ _ => exact hnum _ (by decide) _
  | monitors _ _ _ => exact hnum _ (by decide) _

/-- A known column is listed. -/
theorem Made.somewhere (h : Made iso logs p) {c n : Str} {int : Bool}
    (hc : KnownColumn (Polarised p.md) (nDet logs) c n int) {qs : List (Option ℚ)} (hq : colOf logs c = some qs)
    {L : List Str} (hL : n ∉ L) (hdet : ∀ i, n = withNumber "detector".toList i → colOf logs "detector".toList = none) :
    Somewhere p L qs.length n := by
  cases hc with
  | same hc =>
    rw [sameName_eq] at hc
    simp only [List.mem_append] at hc
    rcases hc with (((((hc | hc) | hc) | hc) | hc) | hc)
    · exact somewhere_sits (i := 1) (by decide) (sits_mono h hc) hq hL
    · rw [← List.mem_append] at hc
      exact somewhere_sits (i := 3) (by decide) (sits_ana h hc) hq hL
    · exact somewhere_sits (i := 5) (by decide) (sits_slits h hc) hq hL
    · exact somewhere_sits (i := 6) (by decide) (sits_flip h hc) hq hL
    · exact somewhere_sits (i := 7) (by decide) (sits_goni h hc) hq hL
    · exact somewhere_sits (i := 9) (by decide) (sits_samp h hc) hq hL
  | renamed hc => exact somewhere_sits (i := 9) (by decide) (sits_hkle h hc) hq hL
  | detector =>
    obtain ⟨a, ha⟩ := (sits_data h).some qs hq
    refine .inl ⟨"detector".toList, p.det, by simp [Pieces.comps], ?_⟩
    rw [if_pos ⟨rfl, by rw [show p.det.get? "data".toList = _ from ha]; rfl⟩]
  | point => exact somewhere_sits (i := 9) (by decide) (sits_pt h) hq hL
  | time hpol => exact somewhere_sits (i := 8) (by decide) (sits_time h hpol) hq hL
  | mcu hpol => exact somewhere_sits (i := 8) (by decide) (sits_mcu h hpol) hq hL
  | monitor hpol => exact somewhere_sits (i := 8) (by decide) (sits_monitor h hpol) hq hL
  | @detectors i h1 hn =>
    have hno := (sits_data h).none (hdet i rfl)
    rw [← suffixed_eq] at hq hL ⊢
    obtain ⟨a, ha⟩ := (sits_dets h h1 hn).some qs hq
    refine .inl ⟨"detector".toList, p.det, by simp [Pieces.comps], ?_⟩
    rw [if_neg (by rintro ⟨_, h2⟩; rw [show p.det.get? "data".toList = none from hno] at h2; exact absurd h2 (by simp))]
    exact listed_of_get ha hL (List.length_map _)
  | @times i hpol h1 hn =>
    rw [← suffixed_eq] at hq hL ⊢
    exact somewhere_sits (i := 8) (by decide) (sits_times h hpol h1 hn) hq hL
  | @mcus i hpol h1 hn =>
    rw [← suffixed_eq] at hq hL ⊢
    exact somewhere_sits (i := 8) (by decide) (sits_mcus h hpol h1 hn) hq hL
  | @monitors i hpol h1 hn =>
    rw [← suffixed_eq] at hq hL ⊢
    exact somewhere_sits (i := 8) (by decide) (sits_monitors h hpol h1 hn) hq hL

/-- Whatever is listed is a known column or a vector of the header. -/
theorem Made.named (h : Made iso logs p) {L : List Str} {n : ℕ} {k : Str} (hk : Somewhere p L n k) : Named logs p.md k := by
  rcases hk with ⟨C, g, hC, hk⟩ | hk | hk
  · by_cases hcd : C = "detector".toList ∧ (g.get? "data".toList).isSome
    · rw [if_pos hcd] at hk
      subst hk
      have hg : g = p.det := by
        have h1 := inst_comp p hC
        rw [hcd.1, inst_comp p (show ("detector".toList, p.det) ∈ p.comps by simp [Pieces.comps])] at h1
        simpa using h1.symm
      have hdf := h.hdet
      have hmem : ("data".toList, colField true (colOf logs "detector".toList) [required, units "counts".toList]) ∈ detFields logs :=
        List.mem_cons_self
      obtain ⟨o, ho, hget⟩ := (addMembers_get hdf (nodup_det _)).2 _ _ hmem
      cases o with
      | none =>
        have : p.det.get? "data".toList = none := by
          cases hcol : colOf logs "detector".toList with
          | none => exact (sits_data h).none hcol
          | some l =>
            rw [hcol] at ho
            obtain ⟨r, hr, hs⟩ := map_eq_ok.1 ho
            exact absurd hs (by simp)
        rw [hg, this] at hcd
        exact absurd hcd.2 (by simp)
      | some ds =>
        obtain ⟨qs, hqs⟩ := colField_listed (int := true) ho
        exact .inl ⟨_, true, qs, .detector, hqs⟩
    · rw [if_neg hcd] at hk
      simp only [Pieces.comps, List.mem_cons, Prod.mk.injEq, List.not_mem_nil, or_false] at hC
      rcases hC with ⟨_, rfl⟩ | ⟨_, rfl⟩ | ⟨_, rfl⟩ | ⟨_, rfl⟩ | ⟨rfl, rfl⟩ | ⟨_, rfl⟩ | ⟨_, rfl⟩ | ⟨_, rfl⟩
      · exact listed_src h hk
      · exact listed_mono h hk
      · exact listed_coll h hk
      · exact listed_ana h hk
      · refine listed_det h ?_ hk
        cases hd : p.det.get? "data".toList with
        | none => rfl
        | some v => exact absurd ⟨rfl, by rw [hd]; rfl⟩ hcd
      · exact listed_slits h hk
      · exact listed_flip h hk
      · exact listed_goni h hk
  · exact listed_mon h hk
  · exact listed_samp h hk

theorem vector_free : ∀ k ∈ Spec.headerVectors, Free 9 k ∨ Free 8 k ∨ Free 2 k := by decide +kernel

theorem Made.free_ok (h : Made iso logs p) {i : ℕ} (hi : i < 11) {k : Str} (hf : Free i k) :
    ∃ v, (nxGet p.entry k false).1 = .ok v := by
  have e := get_free (d := p.entry) [] (n := k) (by rintro rfl; exact hf.2.1 (by decide))
    (by rintro rfl; exact hf.2.2.1 (by decide)) (by rintro rfl; exact hf.2.2.1 (by decide)) hf.2.2.2.2.2
  have e' : (nxGet p.entry k false).1 = getItem (dropLogs p.entry) [k] false := e
  rw [e']
  obtain ⟨hp, h1, h2, h3, h4, _⟩ := hf
  have hl := h.lone i hi hp h1 h2 (h.others_none hp h3 h4)
  obtain ⟨K, hfl, _⟩ := h.flats i hi
  rcases flat_item hfl hp with ⟨hn, _⟩ | ⟨x, a, hx, _⟩
  · exact ⟨_, hl.1 hn⟩
  · exact ⟨_, hl.2 x a hx⟩

theorem Made.named_ok (h : Made iso logs p) {k : Str} (hk : Named logs p.md k) : ∃ v, (nxGet p.entry k false).1 = .ok v := by
  rcases hk with ⟨c, int, qs, hc, hq⟩ | hk
  · exact ⟨_, (h.column hc []).2 qs hq⟩
  · rcases vector_free k hk with hf | hf | hf
    · exact h.free_ok (by decide) hf
    · exact h.free_ok (by decide) hf
    · exact h.free_ok (by decide) hf

theorem inst_name (p : Pieces) : p.inst.get? "name".toList = (dsText (textOf p.md "instrument".toList) []).map Val.dict := by
  rw [Pieces.inst, buildInstrument]
  exact get?_addDataset_eq _ (by rfl)

theorem namesInstrument_error {L : List Str} {n : ℕ} : ∀ {d : Dict},
    (∀ k v, (k, v) ∈ items d → (∃ b, namesComponent L n k v = .ok b) ∨ namesComponent L n k v = .error .typeError) →
    (∃ k v, (k, v) ∈ items d ∧ namesComponent L n k v = .error .typeError) →
    namesInstrument L n d = .error .typeError
  | .nil, _, ⟨k, v, hm, _⟩ => absurd hm (by simp [items])
  | .cons k v rest, h, hex => by
    rcases h k v List.mem_cons_self with ⟨b, hb⟩ | hb
    · have : namesInstrument L n rest = .error .typeError := by
        refine namesInstrument_error (fun k' v' hm => h k' v' (List.mem_cons_of_mem _ hm)) ?_
        obtain ⟨k', v', hm, he⟩ := hex
        rcases List.mem_cons.1 hm with hm | hm
        · obtain ⟨rfl, rfl⟩ := Prod.mk.inj hm
          rw [hb] at he; exact absurd he (by simp)
        · exact ⟨k', v', hm, he⟩
      rw [namesInstrument, hb, py_bind_ok, this]; rfl
    · rw [namesInstrument, hb]; rfl

theorem inst_bad (h : Made iso logs p) {s : Str} (hs : textOf p.md "instrument".toList = some s)
    (hbad : isSubstr kDataset s = true) (L : List Str) (n : ℕ) : namesInstrument L n p.inst = .error .typeError := by
  obtain ⟨ds, hds⟩ : ∃ ds, dsText (textOf p.md "instrument".toList) [] = some ds := by
    rw [hs]
    cases s with
    | nil => exact absurd hbad (by decide)
    | cons c s => exact ⟨_, rfl⟩
  refine namesInstrument_error (fun k v hm => ?_) ⟨"name".toList, .dict ds, ?_, name_bad hs hbad hds⟩
  · rcases inst_items' p hm with rfl | ⟨g, rfl, hg⟩ | ⟨rfl, ds', rfl, hds'⟩
    · exact .inl ⟨[], by unfold namesComponent; exact if_pos rfl⟩
    · obtain ⟨b, hb, _⟩ := comp_names h hg L n
      exact .inl ⟨b, hb⟩
    · exact .inr (name_bad hs hbad hds')
  · exact mem_items_of_get? (by rw [inst_name, hds]; rfl)

theorem Made.no_names (h : Made iso logs p) (hpt : colOf logs "Pt.".toList = none) (L : List Str) :
    datasetNames L p.entry = .error .typeError := by
  have hp : (nxGet p.entry "Pt.".toList false).1 = .ok none :=
    (h.column (c := "Pt.".toList) (n := "Pt.".toList) .point []).1 hpt
  rw [datasetNames, hp]; rfl

theorem Made.no_points (h : Made iso logs p) (hpt : colOf logs "Pt.".toList = none) (L : List Str) (name : Str) :
    newScan L name p.entry = .error .typeError := by
  rw [newScan, h.no_names hpt]; rfl

theorem Made.bad_names (h : Made iso logs p) {s : Str} (hs : textOf p.md "instrument".toList = some s)
    (hbad : isSubstr kDataset s = true) (L : List Str) : datasetNames L p.entry = .error .typeError := by
  cases hpt : colOf logs "Pt.".toList with
  | none => exact h.no_names hpt L
  | some qs =>
    have hp : (nxGet p.entry "Pt.".toList false).1 = .ok (some (.leaf (.arr (Spec.shown true qs)))) :=
      (h.column (c := "Pt.".toList) (n := "Pt.".toList) .point []).2 qs hpt
    rw [datasetNames, hp, py_bind_ok, lenOf, py_bind_ok, groupOf, entry_inst, need_some, py_bind_ok]
    show (namesInstrument L _ p.inst >>= _) = _
    rw [inst_bad h hs hbad]; rfl

theorem Made.bad_name (h : Made iso logs p) {s : Str} (hs : textOf p.md "instrument".toList = some s)
    (hbad : isSubstr kDataset s = true) (L : List Str) (name : Str) : newScan L name p.entry = .error .typeError := by
  rw [newScan, h.bad_names hs hbad]; rfl

theorem Made.fine_of_ok (h : Made iso logs p) {L : List Str} {name : Str} {s : ScanObj} (hs : newScan L name p.entry = .ok s) :
    NameFine p.md := by
  intro t ht
  by_contra hb
  rw [h.bad_name ht (by simpa using hb)] at hs
  exact absurd hs (by simp)

/-- What is behind a scan. -/
theorem Made.scan (h : Made iso logs p) {L : List Str} {name : Str} {s : ScanObj} (hs : newScan L name p.entry = .ok s) :
    ∃ qs : List (Option ℚ), colOf logs "Pt.".toList = some qs ∧ s.name = name ∧ s.entry = dropLogs p.entry ∧ ∀ k,
      (Somewhere p L qs.length k → ∃ v, (nxGet p.entry k false).1 = .ok v ∧ lookupKey k s.data = some v) ∧
      (¬ Somewhere p L qs.length k → lookupKey k s.data = none) := by
  have hfine := h.fine_of_ok hs
  cases hpt : colOf logs "Pt.".toList with
  | none => rw [h.no_points hpt] at hs; exact absurd hs (by simp)
  | some qs =>
    obtain ⟨l, hl, hmem⟩ := h.names hfine L hpt
    rw [newScan, hl, py_bind_ok] at hs
    obtain ⟨data, hd, hs⟩ := map_eq_ok.1 hs
    subst hs
    refine ⟨qs, rfl, rfl, ?_, fun k => ?_⟩
    · show dropLogs (dropLogs p.entry) = dropLogs p.entry
      simp only [dropLogs_eq, nexusPart_nexusPart]
    · have hc := columnsLoop_inv hd k
      refine ⟨fun hk => ?_, fun hk => hc.2 fun hm => hk ((hmem k).1 hm)⟩
      obtain ⟨v, hv, hlk⟩ := hc.1 ((hmem k).2 hk)
      rw [nxGet_drop] at hv
      exact ⟨v, hv, hlk⟩

theorem Made.scan_ok (h : Made iso logs p) (hfine : NameFine p.md) (hpt : (colOf logs "Pt.".toList).isSome) (L : List Str)
    (name : Str) : ∃ s, newScan L name p.entry = .ok s := by
  obtain ⟨qs, hl⟩ := Option.isSome_iff_exists.1 hpt
  obtain ⟨names, hn, hmem⟩ := h.names hfine L hl
  obtain ⟨data, hd⟩ := columnsLoop_ok (d := dropLogs p.entry) (names := names) (acc := []) fun k hk => by
    obtain ⟨v, hv⟩ := h.named_ok (h.named ((hmem k).1 hk))
    exact ⟨v, by rw [nxGet_drop]; exact hv⟩
  exact ⟨_, by rw [newScan, hn, py_bind_ok, hd]; rfl⟩

end

/-! ## C76 -/

/-- The name of the instrument: from the header, else the first part of the file name. -/
def Spec.instrumentName (f : SpiceFile) (file : Str) : Option Str :=
  match lookupKey "instrument".toList f.metadata with
  | some (.str s) => some s
  | some _ => none
  | none => some ((splitChar '_' file).headD [])

section
variable {iso : Str → Py Str} {xml : List Str → Option Str} {fs : FS} {dir : List Str} {file : Str} {f : SpiceFile} {d : Dict}

theorem instrument_text {p : Pieces} (hf : readSpiceDatafile fs (dir ++ [file]) = .ok f)
    (hmd : p.md = logAttrs ((splitChar '_' file).headD []) f) :
    textOf p.md "instrument".toList = instrumentName f file := by
  rw [hmd, textOf, lookupKey_logAttrs (nodup_file hf).1 (by decide) (by decide), if_pos rfl, instrumentName]
  cases lookupKey "instrument".toList f.metadata with
  | none => rfl
  | some v => cases v <;> rfl

theorem known_file {logs : List (Str × LogVal)} {p : Pieces} (hf : readSpiceDatafile fs (dir ++ [file]) = .ok f)
    (h1 : createSpicelogs xml fs dir file = .ok logs) (hmd : p.md = logAttrs ((splitChar '_' file).headD []) f) {n : ℕ}
    (hn : Detectors ((columns f).map Prod.fst) n) {c nm : Str} {int : Bool} :
    KnownColumn (Polarised p.md) (nDet logs) c nm int ↔ KnownColumn (Polarized f) n c nm int := by
  have hpol : Polarized f ↔ Polarised p.md := by
    unfold Polarized Polarised
    rw [hmd, textOf_logAttrs (nodup_file hf).1 (by decide) (by decide) (by decide)]
  rw [(detectors_file hf h1 n).1 hn, ← propext hpol]

theorem length_file (hf : readSpiceDatafile fs (dir ++ [file]) = .ok f) {c c' : Str} {l l' : List (Option ℚ)}
    (h : lookupKey c (columns f) = some l) (h' : lookupKey c' (columns f) = some l') : l.length = l'.length := by
  obtain ⟨m, hm⟩ := columns_length hf
  rw [hm _ (lookupKey_some_mem h), hm _ (lookupKey_some_mem h')]

end

/-- **C76** (partial): the data of a loaded scan hold every column with a known name, with the numbers of the file in order.
Missing: the columns `C75` misses, and numbered detectors beside a plain one (`C76_detectors_hidden`). -/
theorem C76_data_partial (iso : Str → Py Str) (xml : List Str → Option Str) (fs : FS) (dir : List Str) (file : Str)
    (f : SpiceFile) (hf : readSpiceDatafile fs (dir ++ [file]) = .ok f) (d : Dict)
    (h : fileToNx iso xml fs dir file = .ok d) (n : ℕ) (hn : Detectors ((columns f).map Prod.fst) n) (c nm : Str) (int : Bool)
    (hc : KnownColumn (Polarized f) n c nm int) (qs : List (Option ℚ)) (hq : lookupKey c (columns f) = some qs)
    (hdet : ∀ i, nm = withNumber "detector".toList i → "detector".toList ∉ (columns f).map Prod.fst)
    (L : List Str) (hL : ∀ k ∈ L, k = "divergence_x".toList) (sn : Str) (s : ScanObj) (hs : newScan L sn d = .ok s) :
    lookupKey nm s.data = some (some (.leaf (.arr (shown int qs)))) := by
  obtain ⟨logs, p, h1, hp, rfl, hmd⟩ := fileToNx_inv hf h
  have hc' := (known_file hf h1 hmd hn).2 hc
  have hcol : colOf logs c = some qs := by rw [colOf_file hf h1 (known_ne hc).1 (known_ne hc).2, hq]
  obtain ⟨pts, hpt, _, _, hk⟩ := hp.scan hs
  rw [colOf_file hf h1 (by decide) (by decide)] at hpt
  have hlen : qs.length = pts.length := by
    have := length_file hf hq hpt
    simpa using this
  have hsome := hp.somewhere hc' hcol (L := L) (fun hm => known_name_ne hc (hL _ hm)) (fun i hi => by
    rw [colOf_file hf h1 (by decide) (by decide), lookupKey_eq_none]; exact hdet i hi)
  rw [hlen] at hsome
  obtain ⟨v, hv, hl⟩ := (hk nm).1 hsome
  have := (hp.column hc' []).2 qs hcol
  rw [hl, Except.ok.inj (hv.symm.trans this)]

/-- **C76**: nothing else is in the data but vectors of the header. -/
theorem C76_only (iso : Str → Py Str) (xml : List Str → Option Str) (fs : FS) (dir : List Str) (file : Str)
    (f : SpiceFile) (hf : readSpiceDatafile fs (dir ++ [file]) = .ok f) (d : Dict)
    (h : fileToNx iso xml fs dir file = .ok d) (n : ℕ) (hn : Detectors ((columns f).map Prod.fst) n)
    (L : List Str) (sn : Str) (s : ScanObj) (hs : newScan L sn d = .ok s) (k : Str) (hk : k ∈ s.data.map Prod.fst) :
    (∃ (c : Str) (int : Bool) (qs : List (Option ℚ)), KnownColumn (Polarized f) n c k int ∧ lookupKey c (columns f) = some qs) ∨
      k ∈ headerVectors := by
  obtain ⟨logs, p, h1, hp, rfl, hmd⟩ := fileToNx_inv hf h
  obtain ⟨pts, hpt, _, _, hall⟩ := hp.scan hs
  have hsome : Somewhere p L pts.length k := by
    by_contra hno
    exact (lookupKey_eq_none _ _).1 ((hall k).2 hno) hk
  rcases hp.named hsome with ⟨c, int, qs, hc, hq⟩ | hv
  · have hc' := (known_file hf h1 hmd hn).1 hc
    exact .inl ⟨c, int, qs, hc', by rw [← colOf_file hf h1 (known_ne hc').1 (known_ne hc').2, hq]⟩
  · exact .inr hv

/-- **C76**: a loaded file becomes a scan if it has point numbers and the name of the instrument does not contain
`dataset`. -/
theorem C76_ok (iso : Str → Py Str) (xml : List Str → Option Str) (fs : FS) (dir : List Str) (file : Str)
    (f : SpiceFile) (hf : readSpiceDatafile fs (dir ++ [file]) = .ok f) (d : Dict)
    (h : fileToNx iso xml fs dir file = .ok d) (hpt : "Pt.".toList ∈ (columns f).map Prod.fst)
    (hname : ∀ t, instrumentName f file = some t → ¬ "dataset".toList <:+: t) (L : List Str) (sn : Str) :
    ∃ s, newScan L sn d = .ok s ∧ s.name = sn := by
  obtain ⟨logs, p, h1, hp, rfl, hmd⟩ := fileToNx_inv hf h
  obtain ⟨s, hs⟩ := hp.scan_ok (fun t ht => by
    rw [instrument_text hf hmd] at ht
    have := hname t ht
    rw [← isSubstr_iff] at this
    exact Bool.eq_false_iff.2 this) (by
    rw [colOf_file hf h1 (by decide) (by decide), lookup_isSome]; exact hpt) L sn
  obtain ⟨_, _, hnm, _⟩ := hp.scan hs
  exact ⟨s, hs, hnm⟩

/-- **C76**: without point numbers there is no scan. -/
theorem C76_no_points (iso : Str → Py Str) (xml : List Str → Option Str) (fs : FS) (dir : List Str) (file : Str)
    (f : SpiceFile) (hf : readSpiceDatafile fs (dir ++ [file]) = .ok f) (d : Dict)
    (h : fileToNx iso xml fs dir file = .ok d) (hpt : "Pt.".toList ∉ (columns f).map Prod.fst) (L : List Str) (sn : Str) :
    newScan L sn d = .error .typeError := by
  obtain ⟨logs, p, h1, hp, rfl, hmd⟩ := fileToNx_inv hf h
  exact hp.no_points (by rw [colOf_file hf h1 (by decide) (by decide), lookupKey_eq_none]; exact hpt) L sn

/-- **C76**, the code disagrees: an instrument whose name contains `dataset` cannot be loaded. -/
theorem C76_bad_name (iso : Str → Py Str) (xml : List Str → Option Str) (fs : FS) (dir : List Str) (file : Str)
    (f : SpiceFile) (hf : readSpiceDatafile fs (dir ++ [file]) = .ok f) (d : Dict)
    (h : fileToNx iso xml fs dir file = .ok d) (t : Str) (ht : instrumentName f file = some t) (hbad : "dataset".toList <:+: t)
    (L : List Str) (sn : Str) : newScan L sn d = .error .typeError := by
  obtain ⟨logs, p, h1, hp, rfl, hmd⟩ := fileToNx_inv hf h
  exact hp.bad_name (by rw [instrument_text hf hmd, ht]) ((isSubstr_iff _ _).2 hbad) L sn

/-- **C76**, the code disagrees: numbered detectors are left out when there is a plain one. -/
theorem C76_detectors_hidden (iso : Str → Py Str) (xml : List Str → Option Str) (fs : FS) (dir : List Str) (file : Str)
    (f : SpiceFile) (hf : readSpiceDatafile fs (dir ++ [file]) = .ok f) (d : Dict)
    (h : fileToNx iso xml fs dir file = .ok d) (qs : List (Option ℚ))
    (hdet : lookupKey "detector".toList (columns f) = some qs) (i : ℕ)
    (L : List Str) (sn : Str) (s : ScanObj) (hs : newScan L sn d = .ok s) :
    withNumber "detector".toList i ∉ s.data.map Prod.fst := by
  obtain ⟨logs, p, h1, hp, rfl, hmd⟩ := fileToNx_inv hf h
  obtain ⟨pts, hpt, _, _, hall⟩ := hp.scan hs
  rw [← suffixed_eq, ← lookupKey_eq_none]
  refine (hall _).2 ?_
  have hlisted : ∀ j < 11, j ≠ 4 → ¬ Listed L pts.length (p.groups.getD j .nil) (suffixed "detector".toList i) := by
    rintro j hj h4 ⟨x, a, hm, _⟩
    obtain ⟨K, hfl, _⟩ := hp.flats j hj
    have := get?_of_mem hfl.nodup hm
    rw [hp.num_det i j hj h4] at this
    exact absurd this (by simp)
  obtain ⟨a, ha⟩ := (sits_data hp).some qs (by rw [colOf_file hf h1 (by decide) (by decide), hdet])
  have ha' : p.det.get? "data".toList = some (.dict (nxDs (.arr (shown true qs)) a)) := ha
  rintro (⟨C, g, hC, hk⟩ | hk | hk)
  · simp only [Pieces.comps, List.mem_cons, Prod.mk.injEq, List.not_mem_nil, or_false] at hC
    rcases hC with ⟨rfl, rfl⟩ | ⟨rfl, rfl⟩ | ⟨rfl, rfl⟩ | ⟨rfl, rfl⟩ | ⟨rfl, rfl⟩ | ⟨rfl, rfl⟩ | ⟨rfl, rfl⟩ | ⟨rfl, rfl⟩
    · rw [if_neg (fun e => absurd e.1 (by decide))] at hk; exact hlisted 0 (by decide) (by decide) hk
    · rw [if_neg (fun e => absurd e.1 (by decide))] at hk; exact hlisted 1 (by decide) (by decide) hk
    · rw [if_neg (fun e => absurd e.1 (by decide))] at hk; exact hlisted 2 (by decide) (by decide) hk
    · rw [if_neg (fun e => absurd e.1 (by decide))] at hk; exact hlisted 3 (by decide) (by decide) hk
    · rw [if_pos ⟨rfl, by rw [ha']; rfl⟩] at hk
      exact (show NotNumbered "detector".toList by decide).ne (q := "detector".toList) (by decide) i hk.symm
    · rw [if_neg (fun e => absurd e.1 (by decide))] at hk; exact hlisted 5 (by decide) (by decide) hk
    · rw [if_neg (fun e => absurd e.1 (by decide))] at hk; exact hlisted 6 (by decide) (by decide) hk
    · rw [if_neg (fun e => absurd e.1 (by decide))] at hk; exact hlisted 7 (by decide) (by decide) hk
  · exact hlisted 8 (by decide) (by decide) hk
  · exact hlisted 9 (by decide) (by decide) hk

/-- **C76**, the code disagrees: a vector of the sample appears as a data column when it happens to have as many elements as
the scan has points. -/
theorem C76_vector_listed (iso : Str → Py Str) (xml : List Str → Option Str) (fs : FS) (dir : List Str) (file : Str)
    (f : SpiceFile) (hf : readSpiceDatafile fs (dir ++ [file]) = .ok f) (d : Dict)
    (h : fileToNx iso xml fs dir file = .ok d) (k : Str)
    (hk : k ∈ ["unit_cell".toList, "orientation_matrix".toList, "plane_normal".toList]) (l : List (Option ℝ))
    (hl : (nxGet d k false).1 = .ok (some (.leaf (.arr l)))) (pts : List (Option ℚ))
    (hpt : lookupKey "Pt.".toList (columns f) = some pts) (hlen : l.length = pts.length)
    (L : List Str) (hL : ∀ k ∈ L, k = "divergence_x".toList) (sn : Str) (s : ScanObj) (hs : newScan L sn d = .ok s) :
    lookupKey k s.data = some (some (.leaf (.arr l))) := by
  obtain ⟨logs, p, h1, hp, rfl, hmd⟩ := fileToNx_inv hf h
  obtain ⟨pts', hpt', _, _, hall⟩ := hp.scan hs
  rw [colOf_file hf h1 (by decide) (by decide), hpt] at hpt'
  obtain rfl := Option.some.inj hpt'
  have hf9 : Free 9 k := (show ∀ k ∈ ["unit_cell".toList, "orientation_matrix".toList, "plane_normal".toList], Free 9 k by
    decide +kernel) k hk
  have hkL : k ∉ L := fun hm =>
    (show ∀ k ∈ ["unit_cell".toList, "orientation_matrix".toList, "plane_normal".toList], k ≠ "divergence_x".toList by decide) k hk
      (hL k hm)
  have e := get_free (d := p.entry) [] (n := k) (by rintro rfl; exact hf9.2.1 (by decide))
    (by rintro rfl; exact hf9.2.2.1 (by decide)) (by rintro rfl; exact hf9.2.2.1 (by decide)) hf9.2.2.2.2.2
  have e' : (nxGet p.entry k false).1 = getItem (dropLogs p.entry) [k] false := e
  obtain ⟨hpl, h2, h3, h4, h5, _⟩ := hf9
  have hlone := hp.lone 9 (by decide) hpl h2 h3 (hp.others_none hpl h4 h5)
  obtain ⟨K, hfl, _⟩ := hp.flats 9 (by decide)
  have hget : ∃ a, p.samp.get? k = some (.dict (nxDs (.arr l) a)) := by
    rcases flat_item hfl hpl with ⟨hn, _⟩ | ⟨x, a, hx, _⟩
    · rw [e', hlone.1 hn] at hl; exact absurd (Except.ok.inj hl) (by simp)
    · have := hlone.2 x a hx
      rw [e', this] at hl
      have hxl : x = .arr l := by simpa using Except.ok.inj hl
      exact ⟨a, by rw [← hxl]; exact hx⟩
  obtain ⟨a, ha⟩ := hget
  obtain ⟨v, hv, hlk⟩ := (hall k).1 (.inr (.inr (listed_of_get ha hkL hlen)))
  rw [hlk, Except.ok.inj (hv.symm.trans hl)]

namespace Demo

/-- A name that no column has. -/
theorem not_known {k : Str} (hN : NotNumbered k)
    (h : k ∉ Spec.sameName ++ Spec.renamed.map Prod.snd ++ ["detector".toList, "Pt.".toList, "time".toList, "mcu".toList, "monitor".toList])
    {P : Prop} {n : ℕ} {c : Str} {int : Bool} : ¬ KnownColumn P n c k int := by
  intro hk
  have h' : ∀ s ∈ Spec.sameName ++ Spec.renamed.map Prod.snd ++
      ["detector".toList, "Pt.".toList, "time".toList, "mcu".toList, "monitor".toList], k ≠ s := fun s hs e => h (e ▸ hs)
  generalize hkk : k = k' at hk
  cases hk with
  | same hc => exact h' _ (List.mem_append_left _ (List.mem_append_left _ hc)) hkk
  | renamed hc => exact h' _ (List.mem_append_left _ (List.mem_append_right _ (List.mem_map_of_mem (f := Prod.snd) hc))) hkk
  | detector => exact h' _ (by decide) hkk
  | point => exact h' _ (by decide) hkk
  | time _ => exact h' _ (by decide) hkk
  | mcu _ => exact h' _ (by decide) hkk
  | monitor _ => exact h' _ (by decide) hkk
  | detectors _ _ => exact hN.ne (q := "detector".toList) (by decide) _ (hkk.trans (suffixed_eq _ _).symm)
  | times _ _ _ => exact hN.ne (q := "time".toList) (by decide) _ (hkk.trans (suffixed_eq _ _).symm)
  | mcus _ _ _ => exact hN.ne (q := "mcu".toList) (by decide) _ (hkk.trans (suffixed_eq _ _).symm)
  | monitors _ _ _ => exact hN.ne (q := "monitor".toList) (by decide) _ (hkk.trans (suffixed_eq _ _).symm)

/-- The scans become scan objects. -/
theorem demo_scan {name : Str} {f : SpiceFile} {d : Dict} (hf : readSpiceDatafile loadDisk (loadDir ++ [name]) = .ok f)
    (hm : f.metadata = normalMeta ∨ f.metadata = polarMeta)
    (hd : fileToNx plainDate (fun _ => none) loadDisk loadDir name = .ok d) (hpt : "Pt.".toList ∈ (columns f).map Prod.fst)
    (hn : (splitChar '_' name).headD [] = "HB1A".toList) (sn : Str) : ∃ s, newScan ["divergence_x".toList] sn d = .ok s := by
  obtain ⟨s, hs, _⟩ := C76_ok plainDate (fun _ => none) loadDisk loadDir name f hf d hd hpt (by
    intro t ht
    have : lookupKey "instrument".toList f.metadata = none := by
      rcases hm with hm | hm <;> rw [hm] <;> decide
    rw [instrumentName, this, hn] at ht
    obtain rfl := Option.some.inj ht
    rw [← isSubstr_iff]; decide) ["divergence_x".toList] sn
  exact ⟨s, hs⟩

/-- The loaded energy scan. -/
example : ∃ (d : Dict) (s : ScanObj), fileToNx plainDate (fun _ => none) loadDisk loadDir "HB1A_exp0266_scan0027.dat".toList = .ok d ∧
    newScan ["divergence_x".toList] "scan0027".toList d = .ok s ∧
    lookupKey "en".toList s.data = some (some (.leaf (.fin [((-30007 / 10000 : ℚ) : ℝ), ((-32501 / 10000 : ℚ) : ℝ)]))) ∧
    "tilt_x".toList ∉ s.data.map Prod.fst := by
  obtain ⟨f, hf, hc, hm, d, hd⟩ := normal_loads
  have hn : Detectors ((columns f).map Prod.fst) 0 := by
    rw [hc]; exact ⟨fun i h1 h2 => by omega, by decide +kernel⟩
  obtain ⟨s, hs⟩ := demo_scan hf (.inl hm) hd (by rw [hc]; decide +kernel) (by decide) "scan0027".toList
  refine ⟨d, s, hd, hs, ?_, fun hk => ?_⟩
  · exact C76_data_partial plainDate (fun _ => none) loadDisk loadDir _ f hf d hd 0 hn "e".toList "en".toList false
      (.renamed (by decide)) [some (-30007 / 10000), some (-32501 / 10000)] (by rw [hc]; decide +kernel)
      (fun i hi => absurd hi ((show NotNumbered "en".toList by decide).ne (q := "detector".toList) (by decide) i ∘ fun e => by
        rw [suffixed_eq]; exact e)) _ (by simp) _ s hs
  · rcases C76_only plainDate (fun _ => none) loadDisk loadDir _ f hf d hd 0 hn _ _ s hs _ hk with ⟨c, int, qs, hk', hq⟩ | hv
    · exact not_known (by decide) (by decide) hk'
    · exact absurd hv (by decide)

/-- The polarised scan: the second detector is there. -/
example : ∃ (d : Dict) (s : ScanObj), fileToNx plainDate (fun _ => none) loadDisk loadDir "HB1A_exp0266_scan0028.dat".toList = .ok d ∧
    newScan ["divergence_x".toList] "scan0028".toList d = .ok s ∧
    lookupKey "detector_2".toList s.data = some (some (.leaf (.arr (shown true [some 7, some 6])))) := by
  obtain ⟨f, hf, hc, hm, d, hd⟩ := polar_loads
  have hn : Detectors ((columns f).map Prod.fst) 2 := by
    rw [hc]
    exact ⟨fun i h1 h2 => by interval_cases i <;> decide +kernel, by decide +kernel⟩
  obtain ⟨s, hs⟩ := demo_scan hf (.inr hm) hd (by rw [hc]; decide +kernel) (by decide) "scan0028".toList
  rw [show "detector_2".toList = withNumber "detector".toList 2 by decide +kernel]
  exact ⟨d, s, hd, hs, C76_data_partial plainDate (fun _ => none) loadDisk loadDir _ f hf d hd 2 hn _ _ true
      (.detectors (i := 2) (by decide) (by decide)) [some 7, some 6] (by rw [hc]; decide +kernel)
      (fun i hi => by rw [hc]; decide +kernel) _ (by simp) _ s hs⟩

/-- Three points: the numbered detector is hidden by the plain one. -/
example : ∃ (d : Dict) (s : ScanObj), fileToNx plainDate (fun _ => none) loadDisk loadDir "HB1A_exp0266_scan0029.dat".toList = .ok d ∧
    newScan ["divergence_x".toList] "scan0029".toList d = .ok s ∧
    "detector_1".toList ∉ s.data.map Prod.fst := by
  obtain ⟨f, hf, hc, hm, d, hd⟩ := three_loads
  obtain ⟨s, hs⟩ := demo_scan hf (.inl hm) hd (by rw [hc]; decide +kernel) (by decide) "scan0029".toList
  rw [show "detector_1".toList = withNumber "detector".toList 1 by decide +kernel]
  exact ⟨d, s, hd, hs, C76_detectors_hidden plainDate (fun _ => none) loadDisk loadDir _ f hf d hd [some 22, some 36, some 37]
    (by rw [hc]; decide +kernel) 1 _ _ s hs⟩

/-- The unlucky name. -/
example : ∃ d : Dict, fileToNx plainDate (fun _ => none) loadDisk loadDir "dataset_exp0266_scan0030.dat".toList = .ok d ∧
    newScan ["divergence_x".toList] "scan0030".toList d = .error .typeError := by
  obtain ⟨f, hf, hc, hm, d, hd⟩ := dataset_loads
  exact ⟨d, hd, C76_bad_name plainDate (fun _ => none) loadDisk loadDir _ f hf d hd "dataset".toList (by
    have : lookupKey "instrument".toList f.metadata = none := by rw [hm]; decide
    rw [instrumentName, this]; decide) (List.infix_refl _) _ _⟩

/-- No point numbers. -/
example : ∃ d : Dict, fileToNx plainDate (fun _ => none) loadDisk loadDir "HB1A_exp0266_scan0031.dat".toList = .ok d ∧
    newScan ["divergence_x".toList] "scan0031".toList d = .error .typeError := by
  obtain ⟨f, hf, hc, hm, d, hd⟩ := noPoint_loads
  exact ⟨d, hd, C76_no_points plainDate (fun _ => none) loadDisk loadDir _ f hf d hd (by rw [hc]; decide +kernel) _ _⟩

end Demo

end Tavi
