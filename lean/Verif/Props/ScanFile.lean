import Verif.Props.ScanBack

/-!
# A scan that was written to a NeXus file and loaded from there (C82)
-/

namespace Tavi

open Spec

/-- The name belongs to a column that can be plotted: not one called like a group of the entry. -/
def Spec.PlotColumn (f : SpiceFile) (nm : Str) : Prop :=
  nm ≠ "monitor".toList ∧ nm ≠ "sample".toList ∧ ∀ n, Detectors ((columns f).map Prod.fst) n →
    ∃ c int, KnownColumn (Polarized f) n c nm int

/-- A key that names a place of the entry, outside the group of the default plot, where no list of texts is kept. -/
def Spec.PlainKey (key : Str) : Prop :=
  (∀ q ∈ path key false, Plain q) ∧ (path key false).head? ≠ some "data".toList ∧
    (path key false).getLast? ∉ ["name".toList, "countfile".toList].map some

instance (key : Str) : Decidable (Spec.PlainKey key) := by unfold Spec.PlainKey; infer_instance

/-! ## An entry without its logs -/

theorem view_drop (d : Dict) (p : List Str) :
    view (dropLogs d) p = if p.head? = some kSpice ∨ p.head? = some kDas then none else view d p := by
  cases p with
  | nil =>
    rw [if_neg (by simp), view, view]
    have h1 : dataOf (dropLogs d) = dataOf d := by unfold dataOf; rw [drop_get d (by decide) (by decide)]
    have h2 : attrOf (dropLogs d) = attrOf d := by funext x; unfold attrOf; rw [drop_get d (by decide) (by decide)]
    rw [h1, h2]
  | cons k p =>
    have he : ((k :: p).head? = some kSpice ∨ (k :: p).head? = some kDas) ↔ (k = kSpice ∨ k = kDas) := by
      simp only [List.head?_cons, Option.some.injEq]
    simp only [he]
    by_cases hk : k = kSpice ∨ k = kDas
    · rw [if_pos hk, view]
      have : (dropLogs d).get? k = none := by
        rw [dropLogs, get?_erase, get?_erase]
        rcases hk with rfl | rfl
        · rw [if_neg (by decide), if_pos rfl]
        · rw [if_pos rfl]
      rw [this]
      split <;> rfl
    · rw [if_neg hk, view, view]
      rw [not_or] at hk
      rw [drop_get d hk.1 hk.2]

theorem walk_drop (d : Dict) (k : Str) (p : List Str) (h1 : k ≠ kSpice) (h2 : k ≠ kDas) :
    walk (dropLogs d) (k :: p) = walk d (k :: p) := by
  rw [walk, walk, drop_get d h1 h2]

/-- Where the axes are does not depend on the logs. -/
theorem axisOf_drop {d : Dict} (hdas : d.get? kDas = none) {val : Str} {o : Option (List Str)} (h : AxisOf d val o) :
    AxisOf (dropLogs d) val o := by
  have hw : ∀ q, (∀ k ∈ q ++ [val], Seen k) → walk (dropLogs d) (q ++ [val]) = walk d (q ++ [val]) := by
    intro q hq
    obtain ⟨k, r, hkr⟩ : ∃ k r, q ++ [val] = k :: r := by
      cases q with
      | nil => exact ⟨_, _, rfl⟩
      | cons k q => exact ⟨_, _, rfl⟩
    rw [hkr] at hq ⊢
    by_cases hd : k = kDas
    · rw [hd, walk, walk, hdas, show (dropLogs d).get? kDas = none from by rw [dropLogs, get?_erase, if_pos rfl]]
    · exact walk_drop d k r (hq k (by simp)).2.1 hd
  have ho : ∀ {q}, OnlyAt d val q → OnlyAt (dropLogs d) val q := fun {q} h =>
    ⟨by rw [hw q h.seen]; exact h.there, h.seen, fun q' e hq' he => h.only q' e hq' (by rw [← hw q' hq']; exact he)⟩
  have hv : ∀ {q}, OnlyAt d val q → view (dropLogs d) (q ++ place val) = view d (q ++ place val) := by
    intro q h
    rw [view_drop, if_neg]
    obtain ⟨r, hr⟩ := place_cons val
    obtain ⟨e, he⟩ := h.there
    cases q with
    | nil =>
      rw [List.nil_append] at he ⊢
      rw [hr]
      rintro (hc | hc)
      · exact (h.seen val (by simp)).2.1 (Option.some.inj hc)
      · rw [walk, Option.some.inj hc, hdas] at he; exact absurd he (by simp)
    | cons k q =>
      rintro (hc | hc)
      · exact (h.seen k (by simp)).2.1 (Option.some.inj hc)
      · rw [List.cons_append, walk, Option.some.inj hc, hdas] at he; exact absurd he (by simp)
  cases h with
  | found h1 h2 => exact .found (ho h1) (by rw [hv h1]; exact h2)
  | nowhere h =>
    refine .nowhere fun q hq => ?_
    rw [view_drop, h q hq]
    split <;> rfl
  | gone h1 h2 => exact .gone (ho h1) (by rw [hv h1]; exact h2)

/-- An entry that was read as the entry without the logs. -/
theorem ReadAs.undrop {d e : Dict} (h : ReadAs (dropLogs d) e) : ReadAs d e := by
  refine ⟨h.node, fun G hG hd => ?_, fun q hq => ?_, fun key hp hk => ?_⟩
  · simp only [List.mem_cons, List.not_mem_nil, or_false, not_or] at hd
    rw [h.same G hG (by simpa using hd), get?_norm _ hG.1, get?_norm _ hG.1, drop_get d hd.2.1 hd.2.2]
  · have := h.views q hq
    rw [view_drop, if_neg] at this
    · exact this
    · rcases hq with hq | rfl
      · exact not_or.2 ⟨hq _ (by simp), hq _ (by simp)⟩
      · decide
  · rw [h.look key hp hk, nxGet_drop]

/-- Writing an entry into a file, with its logs or without, and reading the file. -/
theorem readAs_either (pre : Str) {d D : Dict} (hD : D = d ∨ D = dropLogs d) (hdas : d.get? kDas = none) (ht : Tidy d) {name : Str}
    (hn : name ≠ kAttrs) {f : NxFile} {a : List (Str × Leaf)} {ch : H5s}
    (hf : f.tree = .node none a ch) (hnew : ch.get? name = none) (hl : ∀ l ∈ f.links, l.entry ≠ name) (hc : f.Clean) {x y : Str}
    {ox oy : Option (List Str)} {A : Str → Option Leaf} (hdata : view d ["data".toList] = some (none, A))
    (hy : A "signal".toList = some (.str y)) (hx : A "axes".toList = some (.str x)) (hxy : x ≠ y)
    (hax : AxisOf d x ox) (hay : AxisOf d y oy) (hxp : x ≠ kAttrs) (hyp : y ≠ kAttrs)
    (hempty : ∀ k, view d ["data".toList, k] = none)
    (hone : ∀ k p v B key, (k = x ∧ ox = some p) ∨ (k = y ∧ oy = some p) → view d p = some (some v, B) →
      path key false = [k] → (nxGet d key false).1 = .ok (some (.leaf v))) :
    ∃ f' e, toNexusIn pre D name f = .ok f' ∧ NewEntry name f f' ∧ f'.Clean ∧
      (readMembers f'.resolved.children).get? name = some (.dict e) ∧
      (ch = .nil → readMembers f'.resolved.children = .cons name (.dict e) .nil) ∧ ReadAs d e := by
  rcases hD with rfl | rfl
  · exact readAs_in pre ht hn hf hnew hl hc hdata hy hx hxy hax hay hxp hyp hempty hone
  · obtain ⟨f', e, h1, h2, h3, h4, h5, h6⟩ := readAs_in pre (tidy_erase (tidy_erase ht kSpice) kDas) hn hf hnew hl hc
      (by rw [← hdata]; exact (view_drop d _).trans (if_neg (by decide))) hy hx hxy (axisOf_drop hdas hax) (axisOf_drop hdas hay) hxp hyp
      (fun k => by
        have := view_drop d [kData, k]
        rw [List.head?_cons, if_neg (by decide), hempty k] at this
        exact this)
      (fun k p v B key hk hv hkey => by
        have hv' : view (dropLogs d) p = some (some v, B) := hv
        have : (nxGet (dropLogs d) key false).1 = .ok (some (.leaf v)) := by
          rw [nxGet_drop]
          refine hone k p v B key hk ?_ hkey
          rw [view_drop] at hv'
          split at hv'
          · exact absurd hv' (by simp)
          · exact hv'
        exact this)
    exact ⟨f', e, h1, h2, h3, h4, h5, ReadAs.undrop h6⟩

section
variable {iso : Str → Py Str} {xml : List Str → Option Str} {fs : FS} {dir : List Str} {file : Str} {f : SpiceFile}
  {ds sn : Str} {s : ScanObj}

theorem entry_data' (p : Pieces) (ds : Str) : (setDatasetName p.entry ds).get? "data".toList = some (.dict (buildData p.md)) :=
  (named_get p ds (by decide) (by decide) (by decide)).trans (entry_data p)

theorem entry_no_das (p : Pieces) : p.entry.get? kDas = none := by
  rw [Pieces.entry, assemble]
  have hadd : ∀ (d : Dict) (k : Str) (o : Option Dict), k ≠ kDas → (addDataset d k o).get? kDas = d.get? kDas := by
    intro d k o hk
    cases o with
    | none => rfl
    | some v => rw [addDataset, get?_set, if_neg hk]
  rw [get?_set, if_neg (by decide), get?_set, if_neg (by decide), get?_set, if_neg (by decide), get?_set, if_neg (by decide),
    hadd _ _ _ (by decide), hadd _ _ _ (by decide), hadd _ _ _ (by decide)]
  rfl

/-- An axis of the entry: where it is, and what a look-up of it gives. -/
def EntryAxis (d : Dict) (nm : Str) (o : Option (List Str)) : Prop :=
  AxisOf d nm o ∧ ∀ q v B key, o = some q → view d q = some (some v, B) → path key false = [nm] →
    (nxGet d key false).1 = .ok (some (.leaf v))

theorem plot_attrs (md : List (Str × MetaVal)) (k : Str) : attrOf (buildData md) k = attrIn (strDict ([("NX_class".toList,
    "NXdata".toList), required] ++ optAttr "signal".toList (textOf md "def_y".toList)
      ++ optAttr "axes".toList ((textOf md "def_x".toList).map nexusName))) k := rfl

/-- Writing an entry, with its logs or without, and reading the file. -/
theorem entry_written {p : Pieces} (ht : Tidy (setDatasetName p.entry ds)) (hsn : sn ≠ "attrs".toList) {x y : Str}
    (hx : textOf p.md "def_x".toList = some x) (hy : textOf p.md "def_y".toList = some y) (hxy : (lookupKey x renamed).getD x ≠ y)
    (px : Plain ((lookupKey x renamed).getD x)) (py : Plain y) {ox oy : Option (List Str)}
    (hax : EntryAxis p.entry ((lookupKey x renamed).getD x) ox) (hay : EntryAxis p.entry y oy) (pre : Str) (D : Dict) (F : NxFile)
    (a : List (Str × Leaf)) (ch : H5s) (hD : D = setDatasetName p.entry ds ∨ D = dropLogs (setDatasetName p.entry ds))
    (hF : F.tree = .node none a ch) (hnew : ch.get? sn = none) (hl : ∀ l ∈ F.links, l.entry ≠ sn) (hc : F.Clean) :
    ∃ f' e, toNexusIn pre D sn F = .ok f' ∧ NewEntry sn F f' ∧ f'.Clean ∧
      (readMembers f'.resolved.children).get? sn = some (.dict e) ∧
      (ch = .nil → readMembers f'.resolved.children = .cons sn (.dict e) .nil) ∧ ReadAs (setDatasetName p.entry ds) e := by
  obtain ⟨ax, lx⟩ := hax
  obtain ⟨ay, ly⟩ := hay
  have hview : view (setDatasetName p.entry ds) ["data".toList] = some (dataOf (buildData p.md), attrOf (buildData p.md)) := by
    rw [view, if_neg (by decide), entry_data']; rfl
  have hnd : dataOf (buildData p.md) = none := rfl
  have hat := plot_attrs p.md
  rw [hx, hy] at hat
  rw [hnd] at hview
  exact readAs_either pre hD (by rw [get?_setDatasetName _ _ (by decide), entry_no_das]) ht hsn hF hnew hl hc hview (y := y) (x := (lookupKey x renamed).getD x) (ox := ox) (oy := oy)
    (by rw [hat]; rfl) (by rw [hat, ← nexusName_eq]; rfl) hxy (axisOf_named ax ds) (axisOf_named ay ds) px.1 py.1
    (fun k => by
      rw [view, if_neg (by decide), entry_data']
      show view (buildData p.md) [k] = none
      rw [view]
      split
      · rfl
      · rename_i hk
        rw [not_or] at hk
        rw [show (buildData p.md).get? k = none from by
          rw [buildData, nxEntry, Dict.get?, if_neg (Ne.symm hk.1)]; rfl])
    (fun k q v B key hko hv hkey => by
      have hkp : Plain k := by rcases hko with ⟨rfl, _⟩ | ⟨rfl, _⟩ <;> assumption
      rw [nxGet_setDatasetName _ _ _ _ (by rw [path_eq, hkey]; exact fun e => hkp.1 (Option.some.inj e))]
      have hv' : view p.entry q = some (some v, B) := by
        cases q with
        | nil =>
          exfalso
          rw [view, dataOf, show (setDatasetName p.entry ds).get? "dataset".toList = none from ht.not_has] at hv
          exact absurd (Prod.mk.inj (Option.some.inj hv)).1 (by simp)
        | cons j js => rw [← view_named p.entry ds]; exact hv
      rcases hko with ⟨rfl, ho⟩ | ⟨rfl, ho⟩
      · exact lx q v B key ho hv' hkey
      · exact ly q v B key ho hv' hkey)

/-- What is behind a scan that was written into a file and loaded. -/
theorem loaded_in (h : Loaded iso xml fs dir file f ds sn s) (hsn : sn ≠ "attrs".toList)
    (hpl : ∀ c ∈ (columns f).map Prod.fst, Plain c) {x y : Str} (hx : header f "def_x".toList = some x)
    (hy : header f "def_y".toList = some y) (hxy : (lookupKey x renamed).getD x ≠ y)
    (hax : PlotColumn f ((lookupKey x renamed).getD x)) (hay : PlotColumn f y) :
    ∃ logs p, Made iso logs p ∧ p.md = logAttrs ((splitChar '_' file).headD []) f ∧
      fileToNx iso xml fs dir file = .ok p.entry ∧ s.entry = setDatasetName (dropLogs p.entry) ds ∧
      ∀ (pre : Str) (D : Dict) (F : NxFile) (a : List (Str × Leaf)) (ch : H5s),
      D = setDatasetName p.entry ds ∨ D = dropLogs (setDatasetName p.entry ds) → F.tree = .node none a ch → ch.get? sn = none →
      (∀ l ∈ F.links, l.entry ≠ sn) → F.Clean →
      ∃ f' e s', toNexusIn pre D sn F = .ok f' ∧ NewEntry sn F f' ∧ f'.Clean ∧
      (readMembers f'.resolved.children).get? sn = some (.dict e) ∧
      (ch = .nil → readMembers f'.resolved.children = .cons sn (.dict e) .nil) ∧
      newScan [] sn e = .ok s' ∧ ReadAs (setDatasetName p.entry ds) e ∧ s'.name = s.name ∧ s'.entry = dropLogs e ∧
      (∀ k, k ≠ "divergence_x".toList → k ≠ "countfile".toList → lookupKey k s'.data = lookupKey k s.data) ∧
      lookupKey "countfile".toList s'.data = none ∧ lookupKey "divergence_x".toList s.data = none ∧
      ∀ l, s'.get "divergence_x".toList = .ok (some (.leaf (.fin l))) →
        ∀ pts, lookupKey "Pt.".toList (columns f) = some pts → pts.length = l.length →
          lookupKey "divergence_x".toList s'.data = some (some (.leaf (.fin l))) := by
  obtain ⟨logs, p, s0, h1, hp, hmd, hd, hs0, _, hname, hdat, he⟩ := loaded_inv h
  have hH : ∀ {k : Str}, k ≠ "instrument".toList → k ≠ "Error Messages".toList → k ≠ "Others".toList →
      textOf p.md k = header f k := fun h0 h1 h2 => header_text h.1 hmd h0 h1 h2
  have hax' : ∀ {nm : Str}, PlotColumn f nm → Plain nm ∧ ∃ o, EntryAxis p.entry nm o := by
    rintro nm ⟨k1, k2, k3⟩
    have hn := (detectors_file h.1 h1 (nDet logs)).2 rfl
    obtain ⟨c, int, hc⟩ := k3 _ hn
    exact hp.axis ((known_file h.1 h1 hmd hn).2 hc) k1 k2
  obtain ⟨px, ox, ax⟩ := hax' hax
  obtain ⟨py, oy, ay⟩ := hax' hay
  have ht : Tidy (setDatasetName p.entry ds) := tidy_setDatasetName (hp.tidy (nodup_logs h1) (plain_logs h.1 h1 hpl)) ds
  refine ⟨logs, p, hp, hmd, hd, he, fun pre D F a ch hD hF hnew hl hc => ?_⟩
  obtain ⟨f', e, g1, g0, gc, g2, gn, g3⟩ := entry_written ht hsn ((hH (by decide) (by decide) (by decide)).trans hx)
    ((hH (by decide) (by decide) (by decide)).trans hy) hxy px py ax ay pre D F a ch hD hF hnew hl hc
  obtain ⟨s', k1, k2, k3, k4, qs, hpt, k5⟩ := hp.scan_back g3 hs0
  refine ⟨f', e, s', g1, g0, gc, g2, gn, k1, g3, k2.trans hname.symm, k3, fun k n1 n2 => ?_,
    (k5 _).2 (hp.no_countfile _), ?_, ?_⟩
  · rw [k4 k n1 n2, hdat]
  · obtain ⟨qs', _, _, _, k6⟩ := hp.scan hs0
    rw [hdat]
    refine (k6 _).2 ?_
    have hno : ∀ {n : ℕ} {g : Dict}, ¬ Listed ["divergence_x".toList] n g "divergence_x".toList := by
      rintro n g ⟨x, a, _, hx⟩
      cases x <;> simp [sizedArray] at hx
    rintro (⟨C, g, _, hk⟩ | hk | hk)
    · split at hk
      · exact absurd hk (by decide)
      · exact hno hk
    · exact hno hk
    · exact hno hk
  · intro l hl pts hpts hlen
    rw [colOf_file h.1 h1 (by decide) (by decide), hpts] at hpt
    have hr := hp.fine.look_back g3 (key := "divergence_x".toList) (by decide) (by decide) (by decide)
    rw [ScanObj.get, k3, nxGet_drop, hr, nxGet_setDatasetName _ _ _ _ (by decide)] at hl
    obtain ⟨l', e1, hk⟩ := hp.keeps_collimation hl
    have e2 : l.length = l'.length := by
      have := Option.some.inj e1
      injection this with this
      injection this with this
      simpa using congrArg List.length this
    have hlen' : l'.length = qs.length := by
      have := Option.some.inj hpt
      rw [this, e2] at hlen
      simpa using hlen.symm
    rw [hlen'] at hk
    obtain ⟨v, hv, hlk⟩ := (k5 _).1 hk
    rw [hlk]
    rw [hr, nxGet_setDatasetName _ _ _ _ (by decide), hl] at hv
    rw [Except.ok.inj hv]

/-- What is behind a scan that was written and loaded. -/
theorem loaded_back (h : Loaded iso xml fs dir file f ds sn s) (hsn : sn ≠ "attrs".toList)
    (hpl : ∀ c ∈ (columns f).map Prod.fst, Plain c) {x y : Str} (hx : header f "def_x".toList = some x)
    (hy : header f "def_y".toList = some y) (hxy : (lookupKey x renamed).getD x ≠ y)
    (hax : PlotColumn f ((lookupKey x renamed).getD x)) (hay : PlotColumn f y) :
    ∃ logs p f' e s', Made iso logs p ∧ p.md = logAttrs ((splitChar '_' file).headD []) f ∧
      fileToNx iso xml fs dir file = .ok p.entry ∧ s.entry = setDatasetName (dropLogs p.entry) ds ∧
      toNexusFile (setDatasetName p.entry ds) sn .new = .ok f' ∧ fromNexusFile f' none = .ok (.cons sn (.dict e) .nil) ∧
      scanFromNexus f' none = .ok s' ∧ ReadAs (setDatasetName p.entry ds) e ∧ s'.name = s.name ∧ s'.entry = dropLogs e ∧
      (∀ k, k ≠ "divergence_x".toList → k ≠ "countfile".toList → lookupKey k s'.data = lookupKey k s.data) ∧
      lookupKey "countfile".toList s'.data = none ∧ lookupKey "divergence_x".toList s.data = none ∧
      ∀ l, s'.get "divergence_x".toList = .ok (some (.leaf (.fin l))) →
        ∀ pts, lookupKey "Pt.".toList (columns f) = some pts → pts.length = l.length →
          lookupKey "divergence_x".toList s'.data = some (some (.leaf (.fin l))) := by
  obtain ⟨logs, p, h1, h2, h3, h4, h5⟩ := loaded_in h hsn hpl hx hy hxy hax hay
  obtain ⟨f', e, s', g1, _, _, _, g4, g5, g6⟩ := h5 [] _ .new [] .nil (.inl rfl) rfl rfl (by simp [NxFile.new])
    ⟨clean_node.2 trivial, by simp [NxFile.new]⟩
  have hr : fromNexusFile f' none = .ok (.cons sn (.dict e) .nil) := by rw [← g4 rfl]; rfl
  exact ⟨logs, p, f', e, s', h1, h2, h3, h4, g1, hr, by rw [scanFromNexus, hr, py_bind_ok]; exact g5, g6⟩

/-! ## What such a scan gives -/

theorem attrOf_some {d : Dict} {x : Str} {v : Leaf} (h : attrOf d x = some v) :
    ∃ m, d.get? kAttrs = some (.dict m) ∧ m.get? x = some (.leaf v) := by
  unfold attrOf at h
  cases hg : d.get? "attrs".toList with
  | none => rw [hg] at h; exact absurd h (by simp)
  | some w =>
    rw [hg] at h
    cases w with
    | leaf w => exact absurd h (by simp)
    | dict m =>
      refine ⟨m, rfl, ?_⟩
      dsimp only at h
      unfold attrIn at h
      cases hm : m.get? x with
      | none => rw [hm] at h; exact absurd h (by simp)
      | some w =>
        rw [hm] at h
        cases w with
        | leaf w => rw [Option.some.inj h]
        | dict m => exact absurd h (by simp)

variable {logs : List (Str × LogVal)} {p : Pieces} {e : Dict} {s' : ScanObj}

/-- A lookup in the scan. -/
theorem back_get (hp : Fine p) (he : s.entry = setDatasetName (dropLogs p.entry) ds)
    (hr : ReadAs (setDatasetName p.entry ds) e) (he' : s'.entry = dropLogs e) {key : Str} (hk : PlainKey key) :
    s'.get key = s.get key := by
  obtain ⟨h1, h2, h3⟩ := hk
  rw [ScanObj.get, ScanObj.get, he, he', nxGet_drop, hp.look_back hr h1 h2 h3]
  have hne : (splitChar '/' (specialKey key false)).head? ≠ some kAttrs := by
    rw [path_eq]
    cases hc : path key false with
    | nil => exact absurd hc (path_ne_nil key)
    | cons k ks =>
      rw [hc] at h1
      exact fun e => (h1 k (by simp)).1 (Option.some.inj e)
  rw [nxGet_setDatasetName _ _ _ _ hne, nxGet_setDatasetName _ _ _ _ hne, nxGet_drop]

theorem back_name (hp : Made iso logs p) (he : s.entry = setDatasetName (dropLogs p.entry) ds)
    (hr : ReadAs (setDatasetName p.entry ds) e) (he' : s'.entry = dropLogs e) :
    s'.get "sample/name".toList = s.get "sample/name".toList := by
  have h1 : s.get "sample/name".toList = .ok (shownText (textOf p.md "samplename".toList)) :=
    (scan_get he (show _ = ["sample".toList, "name".toList] by decide) (by decide)).trans (hp.samp_text (by decide))
  have h2 : (nxGet (setDatasetName p.entry ds) "sample/name".toList false).1 = .ok (shownText (textOf p.md "samplename".toList)) := by
    rw [← h1, ScanObj.get, he, nxGet_setDatasetName _ _ _ _ (by decide), nxGet_setDatasetName _ _ _ _ (by decide), nxGet_drop]
  rw [h1, ScanObj.get, he', nxGet_drop, hr.look _ (by decide) (by decide), h2]
  cases textOf p.md "samplename".toList with
  | none => rfl
  | some t => cases t <;> rfl

theorem channel_key {q : Str} (hq : q ∈ ["mode".toList, "preset".toList, "label".toList]) (i : ℕ) :
    PlainKey ("monitor/".toList ++ q ++ "_".toList ++ decStr i) := by
  have hn : q ∈ numNames := (show ∀ q ∈ ["mode".toList, "preset".toList, "label".toList], q ∈ numNames by decide) q hq
  unfold PlainKey
  rw [← path_eq, channel_path hn]
  refine ⟨?_, by simp only [List.head?_cons]; exact fun e => absurd (Option.some.inj e) (by decide), ?_⟩
  · intro r hr
    simp only [List.mem_cons, List.not_mem_nil, or_false] at hr
    rcases hr with rfl | rfl
    · decide
    · exact numbered_plain hn i
  · have hne : ∀ t ∈ ["name".toList, "countfile".toList], suffixed q i ≠ t := by
      intro t ht e
      exact ((show ∀ t ∈ ["name".toList, "countfile".toList], NotNumbered t by decide) t ht).ne hn i e.symm
    intro hm
    simp only [List.map_cons, List.map_nil, List.getLast?_cons_cons, List.getLast?_singleton, List.mem_cons, Option.some.injEq,
      List.not_mem_nil, or_false] at hm
    rcases hm with hm | hm
    · exact hne _ (by decide) hm
    · exact hne _ (by decide) hm

theorem back_channels (hg : ∀ key, PlainKey key → s'.get key = s.get key) (l : List ℕ) : channelLoop s' l = channelLoop s l := by
  induction l with
  | nil => rfl
  | cons i l ih =>
    have k : ∀ q ∈ ["mode".toList, "preset".toList, "label".toList],
        s'.get ("monitor/".toList ++ q ++ "_".toList ++ decStr i) = s.get ("monitor/".toList ++ q ++ "_".toList ++ decStr i) :=
      fun q hq => hg _ (channel_key hq i)
    have k1 : s'.get (suffixed "monitor/mode".toList i) = s.get (suffixed "monitor/mode".toList i) := k "mode".toList (by decide)
    have k2 : s'.get (suffixed "monitor/preset".toList i) = s.get (suffixed "monitor/preset".toList i) := k "preset".toList (by decide)
    have k3 : s'.get (suffixed "monitor/label".toList i) = s.get (suffixed "monitor/label".toList i) := k "label".toList (by decide)
    rw [channelLoop, channelLoop, k1, k2, k3, ih]

theorem back_preset (hg : ∀ key, PlainKey key → s'.get key = s.get key) : presetOf s' = presetOf s := by
  rw [presetOf, presetOf, hg _ (by decide), hg _ (by decide), hg _ (by decide), back_channels hg]

theorem back_attr (he : s.entry = setDatasetName (dropLogs p.entry) ds)
    (hr : ReadAs (setDatasetName p.entry ds) e) (he' : s'.entry = dropLogs e) {x : Str} (hx : x ≠ "target".toList) {v : Leaf}
    (hv : attrOf (buildData p.md) x = some v) : dataAttr s' x = .ok (.leaf v) ∧ dataAttr s x = .ok (.leaf v) := by
  have hview : view (setDatasetName p.entry ds) ["data".toList] = some (dataOf (buildData p.md), attrOf (buildData p.md)) := by
    rw [view, if_neg (by decide), entry_data']; rfl
  constructor
  · have hs := hr.views ["data".toList] (.inr rfl)
    rw [hview] at hs
    obtain ⟨hs1, hs2⟩ := hs
    cases hve : view e ["data".toList] with
    | none => rw [hve] at hs1; exact absurd hs1 (by simp [shown])
    | some z =>
      have h3 := hs2 z _ hve rfl x hx
      rw [view, if_neg (by decide)] at hve
      cases hg : e.get? "data".toList with
      | none => rw [hg] at hve; exact absurd hve (by simp)
      | some w =>
        rw [hg] at hve
        cases w with
        | leaf w => exact absurd hve (by simp)
        | dict g =>
          obtain rfl := Option.some.inj hve
          obtain ⟨m, hm1, hm2⟩ := attrOf_some (h3.trans hv)
          have : (nxGet s'.entry "data".toList true).1 = .ok (some (.dict m)) := by
            rw [he', nxGet_drop, nxGet, show splitChar '/' (specialKey "data".toList true) = ["data".toList] by decide]
            exact getItem_hit (f := g) (by rw [walk, drop_get _ (by decide) (by decide), hg]; rfl) hm1
          rw [dataAttr, this, py_bind_ok, need_some, py_bind_ok, Val.index, hm2, need_some]
  · obtain ⟨m, hm1, hm2⟩ := attrOf_some hv
    have : (nxGet s.entry "data".toList true).1 = .ok (some (.dict m)) := by
      refine (scan_get (p := p) he (show splitChar '/' (specialKey "data".toList true) = ["data".toList] by decide) (by decide)).trans ?_
      exact getItem_hit (f := buildData p.md) (by rw [walk, entry_data]; rfl) hm1
    rw [dataAttr, this, py_bind_ok, need_some, py_bind_ok, Val.index, hm2, need_some]

theorem back_exp (he : s.entry = setDatasetName (dropLogs p.entry) ds)
    (hr : ReadAs (setDatasetName p.entry ds) e) (he' : s'.entry = dropLogs e) : scanExpId s' = scanExpId s := by
  have h1 : s.entry.get? kAttrs = some (.dict ((strDict [("NX_class".toList, "NXentry".toList), required]).set "dataset_name".toList
      (.leaf (.str ds)))) := by rw [he, get?_setDatasetName_attrs (entry_attrs p)]
  have h2 : (setDatasetName p.entry ds).get? kAttrs = some (.dict ((strDict [("NX_class".toList, "NXentry".toList), required]).set
      "dataset_name".toList (.leaf (.str ds)))) :=
    get?_setDatasetName_attrs (by rw [← entry_attrs p, entry_get _ (by decide) (by decide)]) ds
  have h3 : attrOf e "dataset_name".toList = attrOf (setDatasetName p.entry ds) "dataset_name".toList :=
    hr.attr (q := []) (by decide) (by decide) (w := dataOf e) (v := dataOf (setDatasetName p.entry ds)) rfl rfl
  have h4 : attrOf (setDatasetName p.entry ds) "dataset_name".toList = some (.str ds) := by
    unfold attrOf
    rw [show (setDatasetName p.entry ds).get? "attrs".toList = _ from h2]
    show attrIn _ _ = _
    unfold attrIn
    rw [get?_set, if_pos rfl]
  obtain ⟨m, hm1, hm2⟩ := attrOf_some (h3.trans h4)
  rw [scanExpId, scanExpId, h1, he', drop_get _ (by decide) (by decide), hm1, need_some, need_some, py_bind_ok, py_bind_ok]
  show Except.ok (m.get? _) = .ok (Dict.get? _ _)
  rw [hm2, get?_set, if_pos rfl]

/-- What a scan that was read gives, if the name of its sample is what it was. -/
theorem back_info {x y : Str} (hx : textOf p.md "def_x".toList = some x) (hy : textOf p.md "def_y".toList = some y) (hp : Fine p)
    (he : s.entry = setDatasetName (dropLogs p.entry) ds) (hr : ReadAs (setDatasetName p.entry ds) e) (hname : s'.name = s.name)
    (he' : s'.entry = dropLogs e) (hsamp : s'.get "sample/name".toList = s.get "sample/name".toList) :
    (∀ key, PlainKey key → s'.get key = s.get key) ∧
      scanInfo s' = scanInfo s ∧ sampleUbInfo s' = sampleUbInfo s ∧ instrumentInfo s' = instrumentInfo s := by
  have hg : ∀ key, PlainKey key → s'.get key = s.get key := fun key hk => back_get hp he hr he' hk
  have hat := plot_attrs p.md
  rw [hx, hy] at hat
  obtain ⟨a1, a2⟩ := back_attr (s := s) (s' := s') (x := "signal".toList) (v := .str y) he hr he' (by decide) (by rw [hat]; rfl)
  obtain ⟨a3, a4⟩ := back_attr (s := s) (s' := s') (x := "axes".toList) (v := .str (nexusName x)) he hr he' (by decide)
    (by rw [hat]; rfl)
  refine ⟨hg, ?_, ?_, ?_⟩
  · rw [scanInfo, scanInfo, hg _ (by decide), hg _ (by decide), hg _ (by decide), hg _ (by decide), back_preset hg, back_exp he hr he',
      hname, a1, a2, a3, a4]
  · rw [sampleUbInfo, sampleUbInfo, hg _ (by decide), hg _ (by decide), hg _ (by decide), hg _ (by decide), hsamp, hg _ (by decide)]
  · rw [instrumentInfo, instrumentInfo, hg _ (by decide), hg _ (by decide), hg _ (by decide), hg _ (by decide), hg _ (by decide),
      hg _ (by decide)]

/-- What a scan that was read gives. -/
theorem back_same (h : Loaded iso xml fs dir file f ds sn s) {x y : Str} (hx : header f "def_x".toList = some x)
    (hy : header f "def_y".toList = some y) (hp : Made iso logs p) (hmd : p.md = logAttrs ((splitChar '_' file).headD []) f)
    (he : s.entry = setDatasetName (dropLogs p.entry) ds) (hr : ReadAs (setDatasetName p.entry ds) e) (hname : s'.name = s.name)
    (he' : s'.entry = dropLogs e)
    (hdat : ∀ k, k ≠ "divergence_x".toList → k ≠ "countfile".toList → lookupKey k s'.data = lookupKey k s.data) :
    s'.name = s.name ∧ (∀ k, k ≠ "divergence_x".toList → k ≠ "countfile".toList → lookupKey k s'.data = lookupKey k s.data) ∧
      (∀ key, PlainKey key → s'.get key = s.get key) ∧
      scanInfo s' = scanInfo s ∧ sampleUbInfo s' = sampleUbInfo s ∧ instrumentInfo s' = instrumentInfo s :=
  ⟨hname, hdat, back_info ((header_text h.1 hmd (by decide) (by decide) (by decide)).trans hx)
    ((header_text h.1 hmd (by decide) (by decide) (by decide)).trans hy) hp.fine he hr hname he' (back_name hp he hr he')⟩

end

/-- **C82**: a scan loaded from a data file, written as a NeXus entry to a new file and loaded from there, has the same name
and columns, gives the same for every key that names a place outside the plot (where no list of texts is kept), and reports
the same about the measurement, the sample and the instrument. -/
theorem C82_round_trip (iso : Str → Py Str) (xml : List Str → Option Str) (fs : FS) (dir : List Str) (file : Str) (f : SpiceFile)
    (ds sn : Str) (s : ScanObj) (h : Loaded iso xml fs dir file f ds sn s) (hsn : sn ≠ "attrs".toList)
    (hpl : ∀ c ∈ (columns f).map Prod.fst, Plain c) (x y : Str) (hx : header f "def_x".toList = some x)
    (hy : header f "def_y".toList = some y) (hxy : (lookupKey x renamed).getD x ≠ y)
    (hax : PlotColumn f ((lookupKey x renamed).getD x)) (hay : PlotColumn f y) :
    ∃ d f' s', fileToNx iso xml fs dir file = .ok d ∧ toNexusFile (setDatasetName d ds) sn .new = .ok f' ∧
      scanFromNexus f' none = .ok s' ∧ s'.name = s.name ∧
      (∀ k, k ≠ "divergence_x".toList → k ≠ "countfile".toList → lookupKey k s'.data = lookupKey k s.data) ∧
      (∀ key, PlainKey key → s'.get key = s.get key) ∧
      scanInfo s' = scanInfo s ∧ sampleUbInfo s' = sampleUbInfo s ∧ instrumentInfo s' = instrumentInfo s := by
  obtain ⟨logs, p, f', e, s', hp, hmd, hd, he, h1, _, h3, hr, hname, he', hdat, _⟩ := loaded_back h hsn hpl hx hy hxy hax hay
  exact ⟨p.entry, f', s', hd, h1, h3, back_same h hx hy hp hmd he hr hname he' hdat⟩

/-- **C82** (finding): two lists of the header are counted as columns differently before and after. The count file is never
a column of the scan read back. The collimation is never a column of the scan loaded from the data file, but it is one of the
scan read back if it has as many numbers as the scan has points. -/
theorem C82_extra_column (iso : Str → Py Str) (xml : List Str → Option Str) (fs : FS) (dir : List Str) (file : Str) (f : SpiceFile)
    (ds sn : Str) (s : ScanObj) (h : Loaded iso xml fs dir file f ds sn s) (hsn : sn ≠ "attrs".toList)
    (hpl : ∀ c ∈ (columns f).map Prod.fst, Plain c) (x y : Str) (hx : header f "def_x".toList = some x)
    (hy : header f "def_y".toList = some y) (hxy : (lookupKey x renamed).getD x ≠ y)
    (hax : PlotColumn f ((lookupKey x renamed).getD x)) (hay : PlotColumn f y) :
    ∃ d f' s', fileToNx iso xml fs dir file = .ok d ∧ toNexusFile (setDatasetName d ds) sn .new = .ok f' ∧
      scanFromNexus f' none = .ok s' ∧ lookupKey "countfile".toList s'.data = none ∧
      lookupKey "divergence_x".toList s.data = none ∧
      ∀ l, s.get "divergence_x".toList = .ok (some (.leaf (.fin l))) →
        ∀ pts, lookupKey "Pt.".toList (columns f) = some pts → pts.length = l.length →
          lookupKey "divergence_x".toList s'.data = some (some (.leaf (.fin l))) := by
  obtain ⟨logs, p, f', e, s', hp, hmd, hd, he, h1, _, h3, hr, hname, he', _, k1, k2, k3⟩ := loaded_back h hsn hpl hx hy hxy hax hay
  refine ⟨p.entry, f', s', hd, h1, h3, k1, k2, fun l hl => k3 l ?_⟩
  rw [back_get hp.fine he hr he' (by decide), hl]

end Tavi
