import Verif.Props.ConfBack
import Verif.Props.Reports

/-!
# What a scan read with configuration files reports about the instrument (C108)
-/

namespace Tavi

namespace Spec

/-- A text of a section, or the one of the header when the section says nothing. -/
inductive WordFrom (params : List (Str × JVal)) (p : Str) (hd : Option Val) : Option Val → Prop
  | said {w : Str} (hne : w ≠ []) (h : (p, .str w) ∈ params) : WordFrom params p hd (some (.leaf (.str w)))
  | header (h : ∀ v, (p, v) ∈ params → SaysNothing v) : WordFrom params p hd hd

/-- The four horizontal collimations of the section, or those of the header when one of them is missing. -/
inductive CollimationFrom (params : List (Str × JVal)) (hd : List ℝ) : List ℝ → Prop
  | said (vals : List (ℝ × Str)) (h : beamH.map (lookupKey · params) = vals.map fun x => some (.num x.1 x.2)) :
      CollimationFrom params hd (vals.map Prod.fst)
  | header (h : ∃ n ∈ beamH, lookupKey n params = none) : CollimationFrom params hd hd

/-- No parameter has the name of a group that is asked for, or of the collimation. -/
structure OwnNames (inst : Option (List (Str × JSec))) (samp : Option (List (Str × JVal))) : Prop where
  groups : ∀ k ∈ ["monochromator".toList, "analyser".toList, "goniometer".toList], ¬ ConfSays inst samp k
  parts : ∀ x ∈ instrumentParts, ¬ Said x.2.2 (sectionOf inst x.2.1) "divergence_x".toList
  sample : ¬ Said sampleMeaning (samp.getD []) "divergence_x".toList

/-- The collimation of the header: numbers with `-` between them. -/
def HeaderCollimation (f : SpiceFile) (l : List ℝ) : Prop :=
  ∃ (ns : List Numeral) (ss : List Str), ns ≠ [] ∧ (∀ n ∈ ns, n.Valid ∧ n.sign = none ∧ n.exp = none) ∧
    List.Forall₂ (fun s (n : Numeral) => Trim s n.text) ss ns ∧ header f "collimation".toList = some (joinStr "-".toList ss) ∧
    l = ns.map fun n => (n.value : ℝ)

end Spec

open Spec

section
variable {q : Pieces}

/-- An entry made of groups of datasets. -/
structure Flats (q : Pieces) : Prop where
  flats : ∀ g ∈ q.groups, ∃ K, Flat g K
  starts : ∀ ds, q.start = some ds → ∃ x a, ds = nxDs x a
  stops : ∀ ds, q.stop = some ds → ∃ x a, ds = nxDs x a

theorem Flats.nothing (h : Flats q) {g : Dict} (hg : g ∈ q.groups) {k : Str} (hp : Plain k) (hk : g.get? k = none) (ks : List Str)
    (b : Bool) : getItem g (k :: ks) b = .ok none := by
  obtain ⟨K, hf⟩ := h.flats g hg
  exact hf.item_none hp hk ks b

/-- What is found along a path into a component of the instrument. -/
theorem Flats.comp (h : Flats q) {C k : Str} (hp : Plain C)
    (htop : (dropLogs q.entry).get? C = none) (hmon : q.mon.get? C = none) (hsamp : q.samp.get? C = none)
    (huser : q.user.get? C = none) {v : Option Val} (hg : getItem q.inst [C, k] false = .ok v) :
    getItem (dropLogs q.entry) [C, k] false = .ok v := by
  have hrest : ∀ k' e, (k', Val.dict e) ∈ items (dropLogs q.entry) → Plain k' → e = q.inst ∨
      getItem e [C, k] false = .ok none := by
    intro k' e hmem hp'
    rcases top_values h.starts h.stops hmem with h' | h' | ⟨y, a, h'⟩ | h' | h' | h' | h'
    · exact absurd h' hp'.1
    · obtain rfl : e = buildData q.md := by simpa using h'
      exact .inr (getItem_data _ hp _ _)
    · obtain rfl : e = nxDs y a := by simpa using h'
      exact .inr (getItem_nxDs y a hp _ _)
    · exact .inl (by simpa using h')
    · obtain rfl : e = q.mon := by simpa using h'
      exact .inr (h.nothing (mon_group q) hp hmon _ _)
    · obtain rfl : e = q.samp := by simpa using h'
      exact .inr (h.nothing (samp_group q) hp hsamp _ _)
    · obtain rfl : e = q.user := by simpa using h'
      exact .inr (h.nothing (by simp [Pieces.groups]) hp huser _ _)
  rw [getItem_scan _ _ htop]
  cases v with
  | none =>
    refine scanItems_none fun k' e hmem hp' => ?_
    rcases hrest k' e hmem hp' with rfl | h'
    · exact hg
    · exact h'
  | some x =>
    refine scanItems_found (fun k' e hmem hp' => ?_) ⟨_, _, mem_items_of_get? (entry_inst q), by decide, hg⟩
    rcases hrest k' e hmem hp' with rfl | h'
    · exact .inr hg
    · exact .inl h'

/-- What is found for a name of one component only. -/
theorem Flats.lone (h : Flats q) {C k : Str} {g : Dict} (hC : (C, g) ∈ q.comps) (hp : Plain k) (hi : k ∉ instK)
    (htop : (dropLogs q.entry).get? k = none) (hno : ∀ g' ∈ q.groups, g' = g ∨ g'.get? k = none) {x : Val}
    (hg : getItem g [k] false = .ok (some x)) : getItem (dropLogs q.entry) [k] false = .ok (some x) := by
  have hall : ∀ g' ∈ q.groups, getItem g' [k] false = .ok none ∨ getItem g' [k] false = .ok (some x) := by
    intro g' hg'
    rcases hno g' hg' with rfl | h'
    · exact .inr hg
    · exact .inl (h.nothing hg' hp h' _ _)
  rw [getItem_scan _ _ htop]
  rcases inst_search q hp hi hall with h' | h'
  · have := h'.2 _ hC
    rw [hg] at this
    exact absurd (Except.ok.inj this) (by simp)
  · refine scanItems_found (fun k' e hmem hp' => ?_) ⟨_, _, mem_items_of_get? (entry_inst q), by decide, h'⟩
    rcases top_values h.starts h.stops hmem with h1 | h1 | ⟨y, a, h1⟩ | h1 | h1 | h1 | h1
    · exact absurd h1 hp'.1
    · obtain rfl : e = buildData q.md := by simpa using h1
      exact .inl (getItem_data _ hp _ _)
    · obtain rfl : e = nxDs y a := by simpa using h1
      exact .inl (getItem_nxDs y a hp _ _)
    · obtain rfl : e = q.inst := by simpa using h1
      exact .inr h'
    · obtain rfl : e = q.mon := by simpa using h1
      exact hall _ (mon_group q)
    · obtain rfl : e = q.samp := by simpa using h1
      exact hall _ (samp_group q)
    · obtain rfl : e = q.user := by simpa using h1
      exact hall _ (by simp [Pieces.groups])

end

section
variable {iso : Str → Py Str} {xml : List Str → Option Str} {inst : Option (List (Str × JSec))} {samp : Option (List (Str × JVal))}
  {lists : List Str} {fs : FS} {dir : List Str} {file : Str} {f : SpiceFile} {ds sn : Str} {s : ScanObj} {p q : Pieces}
  {logs : List (Str × LogVal)}

/-- The entry of a scan read with configuration files, beside the one without. -/
theorem reports_inv (ht : TidyConfig inst samp) (hn : PlainNames inst samp)
    (h : LoadedWith iso xml inst samp lists fs dir file f ds sn s) :
    ∃ logs p q, Made iso logs p ∧ p.md = logAttrs ((splitChar '_' file).headD []) f ∧ Flats q ∧
      s.entry = setDatasetName (dropLogs q.entry) ds ∧ ConfSupplemented inst samp p.entry q.entry := by
  obtain ⟨hf, d, hd, hs⟩ := h
  obtain ⟨logs0, p0, q, _, hp0, _, rfl, hb⟩ := file_logs hf ht hd
  obtain ⟨_, _, _, _, he, _⟩ := hb.scan_inv hp0 hn hs
  obtain ⟨d0, hd0, hsup⟩ := C104_file ht hd
  obtain ⟨logs, p, _, hp, rfl, hmd⟩ := fileToNx_inv hf hd0
  exact ⟨logs, p, q, hp, hmd, ⟨hb.flats,
    fun ds e => (hp0.fine.starts ds (hb.start ▸ e)).1, fun ds e => (hp0.fine.stops ds (hb.stop ▸ e)).1⟩, he, hsup⟩

/-- A group agrees about a name the section does not say anything about. -/
theorem supplied_none {m : ConfMeaning} {ps : List (Str × JVal)} {g g' : Dict} (h : ConfSupplied m ps g g') {k : Str}
    (hs : ¬ Said m ps k) : g'.get? k = g.get? k :=
  h.kept k fun p v hm ht hk => by
    by_contra hv
    exact hs ⟨p, v, hm, ht, hk, hv⟩

/-- The top of the entry agrees about the names of the instrument. -/
theorem top_same (hp : Made iso logs p) (hsup : ConfSupplemented inst samp p.entry q.entry) {k : Str} (hk : k ∉ topK)
    (h1 : k ≠ "instrument".toList) (h2 : k ≠ "monitor".toList) (h3 : k ≠ "sample".toList) : (dropLogs q.entry).get? k = none := by
  have h0 := hp.top_none hk
  rw [dropLogs, get?_erase, get?_erase] at h0 ⊢
  rw [hsup.rest k h1 h2 h3]
  exact h0

theorem top_group (hsup : ConfSupplemented inst samp p.entry q.entry) : ConfSupplied (onlyMeaning "shape".toList)
      (sectionOf inst "monitor".toList) p.mon q.mon ∧ ConfSupplied sampleMeaning (samp.getD []) p.samp q.samp ∧
    q.user = p.user := by
  obtain ⟨g0, g, e0, e, hm⟩ := hsup.monitor
  obtain ⟨g0', g', e0', e', hs⟩ := hsup.sample
  have m0 := (entry_get p (k := "monitor".toList) (by decide) (by decide)).symm.trans (entry_mon p)
  have m1 := (entry_get q (k := "monitor".toList) (by decide) (by decide)).symm.trans (entry_mon q)
  have s0 := (entry_get p (k := "sample".toList) (by decide) (by decide)).symm.trans (entry_samp p)
  have s1 := (entry_get q (k := "sample".toList) (by decide) (by decide)).symm.trans (entry_samp q)
  have u0 := (entry_get p (k := "user".toList) (by decide) (by decide)).symm.trans (entry_user p)
  have u1 := (entry_get q (k := "user".toList) (by decide) (by decide)).symm.trans (entry_user q)
  have hu := hsup.rest "user".toList (by decide) (by decide) (by decide)
  obtain rfl := Val.dict.inj (Option.some.inj (m0.symm.trans e0))
  obtain rfl := Val.dict.inj (Option.some.inj (m1.symm.trans e))
  obtain rfl := Val.dict.inj (Option.some.inj (s0.symm.trans e0'))
  obtain rfl := Val.dict.inj (Option.some.inj (s1.symm.trans e'))
  rw [u0, u1] at hu
  exact ⟨hm, hs, Val.dict.inj (Option.some.inj hu)⟩

theorem inst_group (hsup : ConfSupplemented inst samp p.entry q.entry) :
    ConfSupplied boxMeaning (sectionOf inst "source".toList) p.src q.src ∧
    ConfSupplied monoMeaning (sectionOf inst "monochromator".toList) p.mono q.mono ∧
    ConfSupplied anaMeaning (sectionOf inst "analyzer".toList) p.ana q.ana ∧
    ConfSupplied boxMeaning (sectionOf inst "detector".toList) p.det q.det ∧
    ConfSupplied (onlyMeaning "type".toList) (sectionOf inst "goniometer".toList) p.goni q.goni ∧
    ConfDivergence "divergence_x".toList beamH (sectionOf inst "collimators".toList) p.coll q.coll ∧
    q.slits = p.slits ∧ q.flip = p.flip := by
  obtain ⟨i0, i, e0, e, hrest, hparts, g0, g, c0, c1, hx, _, _⟩ := hsup.instrument
  have m0 := (entry_get p (k := "instrument".toList) (by decide) (by decide)).symm.trans (entry_inst p)
  have m1 := (entry_get q (k := "instrument".toList) (by decide) (by decide)).symm.trans (entry_inst q)
  obtain rfl := Val.dict.inj (Option.some.inj (m0.symm.trans e0))
  obtain rfl := Val.dict.inj (Option.some.inj (m1.symm.trans e))
  have part : ∀ x ∈ instrumentParts, ∀ g0 g, (x.1, g0) ∈ p.comps → (x.1, g) ∈ q.comps →
      ConfSupplied x.2.2 (sectionOf inst x.2.1) g0 g := by
    intro x hx g0 g h0 h1
    obtain ⟨g0', g', e0, e1, hs⟩ := hparts x hx
    obtain rfl := Val.dict.inj (Option.some.inj ((inst_comp p h0).symm.trans e0))
    obtain rfl := Val.dict.inj (Option.some.inj ((inst_comp q h1).symm.trans e1))
    exact hs
  have kept : ∀ C g0 g, (C, g0) ∈ p.comps → (C, g) ∈ q.comps → C ≠ "collimator".toList → C ∉ instrumentParts.map Prod.fst →
      g = g0 := by
    intro C g0 g h0 h1 hc hi
    have := hrest C hc hi
    rw [inst_comp p h0, inst_comp q h1] at this
    exact Val.dict.inj (Option.some.inj this)
  refine ⟨part ("source".toList, "source".toList, boxMeaning) (by simp [instrumentParts]) _ _ (by simp [Pieces.comps]) (by simp [Pieces.comps]),
    part ("monochromator".toList, "monochromator".toList, monoMeaning) (by simp [instrumentParts]) _ _ (by simp [Pieces.comps])
      (by simp [Pieces.comps]),
    part ("analyser".toList, "analyzer".toList, anaMeaning) (by simp [instrumentParts]) _ _ (by simp [Pieces.comps])
      (by simp [Pieces.comps]),
    part ("detector".toList, "detector".toList, boxMeaning) (by simp [instrumentParts]) _ _ (by simp [Pieces.comps])
      (by simp [Pieces.comps]),
    part ("goniometer".toList, "goniometer".toList, onlyMeaning "type".toList) (by simp [instrumentParts]) _ _ (by simp [Pieces.comps])
      (by simp [Pieces.comps]), ?_,
    kept "slits".toList _ _ (by simp [Pieces.comps]) (by simp [Pieces.comps]) (by decide) (by decide +kernel),
    kept "flipper".toList _ _ (by simp [Pieces.comps]) (by simp [Pieces.comps]) (by decide) (by decide +kernel)⟩
  obtain rfl := Val.dict.inj (Option.some.inj ((inst_comp p (k := "collimator".toList) (g := p.coll) (by simp [Pieces.comps])).symm.trans c0))
  obtain rfl := Val.dict.inj (Option.some.inj ((inst_comp q (k := "collimator".toList) (g := q.coll) (by simp [Pieces.comps])).symm.trans c1))
  exact hx

/-- Types and senses as they are stored. -/
theorem Made.crystal_members (h : Made iso logs p) :
    (∃ o, p.mono.get? "type".toList = o.map Val.dict ∧ Stored o (shownText (textOf p.md "monochromator".toList))) ∧
    (∃ o, p.ana.get? "type".toList = o.map Val.dict ∧ Stored o (shownText (textOf p.md "analyzer".toList))) ∧
    ∃ t c0 c1 c2, textOf p.md "sense".toList = some t ∧ t[0]? = some c0 ∧ t[1]? = some c1 ∧ t[2]? = some c2 ∧
      (∃ o, p.mono.get? "sense".toList = o.map Val.dict ∧ Stored o (some (.leaf (.str [c0])))) ∧
      (∃ o, p.goni.get? "sense".toList = o.map Val.dict ∧ Stored o (some (.leaf (.str [c1])))) ∧
      (∃ o, p.ana.get? "sense".toList = o.map Val.dict ∧ Stored o (some (.leaf (.str [c2])))) := by
  obtain ⟨o1, h1, g1⟩ := h.mono_member (k := "type".toList) (by decide)
    (v := .ok (dsText (textOf p.md "monochromator".toList) [])) (by
      unfold monoFields; repeat (first | exact List.mem_cons_self | apply List.mem_cons_of_mem))
  obtain ⟨o2, h2, g2⟩ := h.ana_member (k := "type".toList) (by decide)
    (v := .ok (dsText (textOf p.md "analyzer".toList) [])) (by
      unfold anaFields; apply List.mem_append_left
      repeat (first | exact List.mem_cons_self | apply List.mem_cons_of_mem))
  obtain ⟨o3, h3, g3⟩ := h.mono_member (k := "sense".toList) (by decide) (v := senseAt p.md 0) (by
      unfold monoFields; repeat (first | exact List.mem_cons_self | apply List.mem_cons_of_mem))
  obtain ⟨o4, h4, g4⟩ := h.ana_member (k := "sense".toList) (by decide) (v := senseAt p.md 2) (by
      unfold anaFields; apply List.mem_append_left
      repeat (first | exact List.mem_cons_self | apply List.mem_cons_of_mem))
  obtain ⟨o5, h5, g5⟩ := member_get (k := "sense".toList) (v := senseAt p.md 1) h.hgoni
    (by rw [List.map_cons, map_fst_cols]; show goniK.Nodup; decide +kernel) (by decide) List.mem_cons_self
  obtain rfl := Except.ok.inj h1
  obtain rfl := Except.ok.inj h2
  obtain ⟨t0, c0, ht0, hc0, s0⟩ := sense_inv h3
  obtain ⟨t2, c2, ht2, hc2, s2⟩ := sense_inv h4
  obtain ⟨t1, c1, ht1, hc1, s1⟩ := sense_inv h5
  obtain rfl : t0 = t1 := Option.some.inj (ht0.symm.trans ht1)
  obtain rfl : t0 = t2 := Option.some.inj (ht0.symm.trans ht2)
  exact ⟨⟨_, g1, stored_text _ _⟩, ⟨_, g2, stored_text _ _⟩, t0, c0, c1, c2, ht0, hc0, hc1, hc2, ⟨_, g3, s0⟩, ⟨_, g5, s1⟩, ⟨_, g4, s2⟩⟩

/-- The collimation as it is stored. -/
theorem Made.collimation_member (h : Made iso logs p) {t : Str} {l : List ℚ} (ht : textOf p.md "collimation".toList = some t)
    (hl : (splitChar '-' t).mapM pyFloat = .ok l) :
    ∃ o, p.coll.get? "divergence_x".toList = o.map Val.dict ∧ Stored o (some (.leaf (reals l))) := by
  have hc := h.hcoll
  rw [buildColl] at hc
  obtain ⟨t', ht', hc⟩ := py_bind_eq_ok.1 hc
  obtain rfl : t' = t := Option.some.inj ((textOf_metaText ht').symm.trans ht)
  rw [hl, py_bind_ok] at hc
  obtain ⟨o, ho, hg⟩ := member_get (k := "divergence_x".toList) hc (by show collK.Nodup; decide) (by decide)
    (List.mem_cons_of_mem _ List.mem_cons_self)
  obtain rfl := Except.ok.inj ho
  exact ⟨_, hg, .inr ⟨_, _, rfl, rfl⟩⟩

theorem header_collimation {l : List ℝ} (h : HeaderCollimation f l) : ∃ t qs, header f "collimation".toList = some t ∧
    (splitChar '-' t).mapM pyFloat = .ok qs ∧ reals qs = .fin l := by
  obtain ⟨ns, ss, hne, hv, hss, hcol, rfl⟩ := h
  have hm : ss.mapM pyFloat = .ok (ns.map Numeral.value) ∧ ∀ q ∈ ss, '-' ∉ q := by
    clear hcol hne
    induction hss with
    | nil => exact ⟨rfl, by simp⟩
    | @cons q n ss ns h1 _ ih =>
      obtain ⟨i1, i2⟩ := ih fun n hn => hv n (List.mem_cons_of_mem _ hn)
      obtain ⟨v1, v2, v3⟩ := hv n List.mem_cons_self
      refine ⟨by rw [List.mapM_cons, pyFloat_ok v1 h1, i1]; rfl, fun q' hq' => ?_⟩
      rcases List.mem_cons.1 hq' with rfl | hq'
      · obtain ⟨a, b, rfl, ha, hb, _⟩ := h1
        simp only [List.mem_append, not_or]
        refine ⟨⟨not_mem_blank (by decide) ha, ?_⟩, not_mem_blank (by decide) hb⟩
        rw [plain_text v2 v3]
        intro hd
        rcases mantText_chars v1 hd with hd | hd
        · exact absurd hd (by decide)
        · exact absurd hd (by decide)
      · exact i2 q' hq'
  have hne' : ss ≠ [] := by rintro rfl; cases hss; exact hne rfl
  refine ⟨_, ns.map Numeral.value, hcol, ?_, by rw [reals, List.map_map]; rfl⟩
  rw [show splitChar '-' (joinStr "-".toList ss) = ss from splitChar_join hne' hm.2]
  exact hm.1

/-- What is found in a component: what its section says, or what the header says. -/
theorem comp_word {m : ConfMeaning} {ps : List (Str × JVal)} {g0 g : Dict} (hs : ConfSupplied m ps g0 g) {C k : Str}
    (hC : (C, g) ∈ q.comps) (hname : m.name = id) (ht : m.taken k) (hq : k ∉ m.quantities) {o : Option Dict} {hd v : Option Val}
    (hk : g0.get? k = o.map Val.dict) (hst : Stored o hd) (hw : WordFrom ps k hd v) : getItem q.inst [C, k] false = .ok v := by
  cases hw with
  | said hne hm =>
    obtain ⟨dd, a, x, h1, h2, h3, _, _⟩ := hs.found _ _ hm ht (by rintro (h | h) <;> cases h; exact hne rfl)
    rw [hname] at h1
    refine getItem_hit (f := dd) ?_ ?_
    · rw [walk, inst_comp q hC]
      show walk g [k] = _
      rw [walk, show g.get? k = some (.dict dd) from h1]
      rfl
    · cases h3 with
      | text => exact h2
      | spelled h => exact absurd h hq
      | spelledMany h => exact absurd h hq
  | header hno =>
    refine path_stored (inst_comp q hC) ((hs.kept k fun p v hm _ hn => ?_).trans hk) hst
    rw [hname] at hn
    obtain rfl : p = k := hn
    exact hno v hm

/-- **C108.** The instrument a scan read with configuration files reports: type and sense of the crystals and the collimation are
those of the instrument file, or of the header where the file says nothing; the sense of the sample table is that of the header. -/
theorem C108_instrument (ht : TidyConfig inst samp) (hn : PlainNames inst samp) (ho : OwnNames inst samp)
    (h : LoadedWith iso xml inst samp lists fs dir file f ds sn s) {t : Str} (hsense : header f "sense".toList = some t)
    {m a : Option Val} {s0 s2 : Str} {col c : List ℝ}
    (hm : WordFrom (sectionOf inst "monochromator".toList) "type".toList (shownText (header f "monochromator".toList)) m)
    (ha : WordFrom (sectionOf inst "analyzer".toList) "type".toList (shownText (header f "analyzer".toList)) a)
    (h0 : WordFrom (sectionOf inst "monochromator".toList) "sense".toList (t[0]?.map fun x => .leaf (.str [x])) (some (.leaf (.str s0))))
    (h2 : WordFrom (sectionOf inst "analyzer".toList) "sense".toList (t[2]?.map fun x => .leaf (.str [x])) (some (.leaf (.str s2))))
    (hcol : HeaderCollimation f col) (hc : CollimationFrom (sectionOf inst "collimators".toList) col c) :
    ∃ i t1, t[1]? = some t1 ∧ instrumentInfo s = .ok i ∧ i.mono = m ∧ i.ana = a ∧ i.sense = s0 ++ [t1] ++ s2 ∧
      i.collimation = some (.leaf (.fin c)) := by
  obtain ⟨logs, p, q, hp, hmd, hflat, he, hsup⟩ := reports_inv ht hn h
  obtain ⟨gsrc, gmono, gana, gdet, ggoni, gcoll, gslits, gflip⟩ := inst_group hsup
  obtain ⟨gmon, gsamp, guser⟩ := top_group hsup
  obtain ⟨⟨o1, k1, w1⟩, ⟨o2, k2, w2⟩, t', c0, c1, c2, ht', hc0, hc1, hc2, ⟨o3, k3, w3⟩, ⟨o4, k4, w4⟩, ⟨o5, k5, w5⟩⟩ :=
    hp.crystal_members
  rw [header_text h.1 hmd (by decide) (by decide) (by decide)] at w1 w2 ht'
  obtain rfl : t' = t := Option.some.inj (ht'.symm.trans hsense)
  rw [hc0] at h0
  rw [hc2] at h2
  have others : ∀ C ∈ ["monochromator".toList, "analyser".toList, "goniometer".toList], Plain C ∧ (dropLogs q.entry).get? C = none ∧
      q.mon.get? C = none ∧ q.samp.get? C = none ∧ q.user.get? C = none := by
    intro C hC
    obtain ⟨x1, x2, x3, x4, x5, x6, x7, x8, x9⟩ := (show ∀ C ∈ ["monochromator".toList, "analyser".toList, "goniometer".toList],
      Plain C ∧ C ∉ topK ∧ C ≠ "instrument".toList ∧ C ≠ "monitor".toList ∧ C ≠ "sample".toList ∧ C ∉ sampK ∧ C ∉ userK ∧
        C ∉ fixedK.getD 8 [] ∧ NotNumbered C by decide +kernel) C hC
    have hsay := ho.groups C hC
    refine ⟨x1, top_same hp hsup x2 x3 x4 x5, ?_, ?_, ?_⟩
    · rw [supplied_none gmon fun h' => hsay (.inr (.inr (.inr (.inl h'))))]
      refine hp.flat_mon.get_none (fun hk => ?_) x1
      rcases monK_sub _ _ _ hk with h' | ⟨q, hq, i, h'⟩
      · exact x8 h'
      · exact x9.ne hq i h'
    · rw [supplied_none gsamp fun h' => hsay (.inr (.inr (.inr (.inr h'))))]
      exact hp.flat_samp.get_none x6 x1
    · rw [guser]
      exact hp.flat_user.get_none x7 x1
  have cm : ("monochromator".toList, q.mono) ∈ q.comps := by simp [Pieces.comps]
  have ca : ("analyser".toList, q.ana) ∈ q.comps := by simp [Pieces.comps]
  have cg : ("goniometer".toList, q.goni) ∈ q.comps := by simp [Pieces.comps]
  have cc : ("collimator".toList, q.coll) ∈ q.comps := by simp [Pieces.comps]
  have find : ∀ {C k : Str} {v : Option Val}, C ∈ ["monochromator".toList, "analyser".toList, "goniometer".toList] →
      getItem q.inst [C, k] false = .ok v → getItem (dropLogs q.entry) [C, k] false = .ok v := fun hC hv => by
    obtain ⟨y1, y2, y3, y4, y5⟩ := others _ hC
    exact hflat.comp y1 y2 y3 y4 y5 hv
  have g1 := find (by simp) (comp_word gmono cm rfl trivial (by decide +kernel) k1 w1 hm)
  have g2 := find (by simp) (comp_word gana ca rfl trivial (by decide +kernel) k2 w2 ha)
  have g3 := find (by simp) (comp_word gmono cm rfl trivial (by decide +kernel) k3 w3 h0)
  have g5 := find (by simp) (comp_word gana ca rfl trivial (by decide +kernel) k5 w5 h2)
  have g4 : getItem (dropLogs q.entry) ["goniometer".toList, "sense".toList] false = .ok (some (.leaf (.str [c1]))) :=
    find (by simp) (path_stored (inst_comp q cg) ((ggoni.kept "sense".toList fun p v _ htk hk =>
      absurd (htk.symm.trans hk : "type".toList = "sense".toList) (by decide)).trans k4) w4)
  have g6 : getItem (dropLogs q.entry) ["divergence_x".toList] false = .ok (some (.leaf (.fin c))) := by
    obtain ⟨x1, x2, x3, x4, x5, x6, x7, x8⟩ := (show Plain "divergence_x".toList ∧ "divergence_x".toList ∉ topK ∧
      "divergence_x".toList ≠ "instrument".toList ∧ "divergence_x".toList ≠ "monitor".toList ∧
      "divergence_x".toList ≠ "sample".toList ∧ "divergence_x".toList ∉ instK ∧ Lone 2 "divergence_x".toList ∧
      NotNumbered "divergence_x".toList by decide +kernel)
    have hno0 := hp.others_none (k := "divergence_x".toList) (i := 2) x1 x7 x8
    refine hflat.lone cc x1 x6 (top_same hp hsup x2 x3 x4 x5) ?_ ?_
    · have hpart : ∀ x ∈ instrumentParts, ¬ Said x.2.2 (sectionOf inst x.2.1) "divergence_x".toList := ho.parts
      have e : q.groups = [q.src, q.mono, q.coll, q.ana, q.det, q.slits, q.flip, q.goni, q.mon, q.samp, q.user] := rfl
      rw [e]
      simp only [List.forall_mem_cons, List.not_mem_nil, false_imp_iff, implies_true, and_true]
      refine ⟨.inr ?_, .inr ?_, .inl trivial, .inr ?_, .inr ?_, .inr ?_, .inr ?_, .inr ?_, .inr ?_, .inr ?_, .inr ?_⟩
      · rw [supplied_none gsrc (hpart ("source".toList, "source".toList, boxMeaning) (by simp [instrumentParts]))]
        exact hno0 0 (by decide) (by decide)
      · rw [supplied_none gmono (hpart ("monochromator".toList, "monochromator".toList, monoMeaning) (by simp [instrumentParts]))]
        exact hno0 1 (by decide) (by decide)
      · rw [supplied_none gana (hpart ("analyser".toList, "analyzer".toList, anaMeaning) (by simp [instrumentParts]))]
        exact hno0 3 (by decide) (by decide)
      · rw [supplied_none gdet (hpart ("detector".toList, "detector".toList, boxMeaning) (by simp [instrumentParts]))]
        exact hno0 4 (by decide) (by decide)
      · rw [gslits]; exact hno0 5 (by decide) (by decide)
      · rw [gflip]; exact hno0 6 (by decide) (by decide)
      · rw [supplied_none ggoni (hpart ("goniometer".toList, "goniometer".toList, onlyMeaning "type".toList) (by simp [instrumentParts]))]
        exact hno0 7 (by decide) (by decide)
      · rw [supplied_none gmon (by rintro ⟨p, v, _, htk, hk, _⟩; exact absurd (htk.symm.trans hk : "shape".toList = _) (by decide))]
        exact hno0 8 (by decide) (by decide)
      · rw [supplied_none gsamp ho.sample]
        exact hno0 9 (by decide) (by decide)
      · rw [guser]; exact hno0 10 (by decide) (by decide)
    · cases hc with
      | said vals hvals =>
        obtain ⟨dd, _, e1, e2, _, _⟩ := gcoll.found vals hvals
        refine getItem_hit (f := dd) ?_ e2
        rw [walk, e1]
        rfl
      | header hmiss =>
        obtain ⟨tt, qs, hh, hqs, hr⟩ := header_collimation hcol
        obtain ⟨o, ko, wo⟩ := hp.collimation_member
          ((header_text h.1 hmd (by decide) (by decide) (by decide)).trans hh) hqs
        rw [hr] at wo
        rcases wo with ⟨_, wo⟩ | ⟨x, aa, rfl, hx⟩
        · exact absurd wo (by simp)
        · obtain rfl : x = .fin col := by simpa using hx.symm
          exact item_found ((gcoll.kept hmiss).trans ko)
  have e1 : s.get "monochromator/type".toList = _ := (scan_get he (by decide) (by decide)).trans g1
  have e2 : s.get "analyser/type".toList = _ := (scan_get he (by decide) (by decide)).trans g2
  have e3 : s.get "monochromator/sense".toList = _ := (scan_get he (by decide) (by decide)).trans g3
  have e4 : s.get "goniometer/sense".toList = _ := (scan_get he (by decide) (by decide)).trans g4
  have e5 : s.get "analyser/sense".toList = _ := (scan_get he (by decide) (by decide)).trans g5
  have e6 : s.get "divergence_x".toList = _ := (scan_get he (by decide) (by decide)).trans g6
  refine ⟨⟨[], m, a, s0 ++ [c1] ++ s2, _⟩, c1, hc1, ?_, rfl, rfl, rfl, rfl⟩
  rw [instrumentInfo, e1, py_bind_ok, e2, py_bind_ok, e3, py_bind_ok, e4, py_bind_ok, e5, py_bind_ok, addend, py_bind_ok,
    addend, py_bind_ok, addend, py_bind_ok, e6, py_bind_ok]

/-- **C108**, the code disagrees: the sense the instrument file gives for the sample table is not reported. -/
theorem C108_table_ignored (ht : TidyConfig inst samp) (hn : PlainNames inst samp) (ho : OwnNames inst samp)
    (h : LoadedWith iso xml inst samp lists fs dir file f ds sn s) {t : Str} (hsense : header f "sense".toList = some t)
    {m a : Option Val} {s0 s2 : Str} {col c : List ℝ}
    (hm : WordFrom (sectionOf inst "monochromator".toList) "type".toList (shownText (header f "monochromator".toList)) m)
    (ha : WordFrom (sectionOf inst "analyzer".toList) "type".toList (shownText (header f "analyzer".toList)) a)
    (h0 : WordFrom (sectionOf inst "monochromator".toList) "sense".toList (t[0]?.map fun x => .leaf (.str [x])) (some (.leaf (.str s0))))
    (h2 : WordFrom (sectionOf inst "analyzer".toList) "sense".toList (t[2]?.map fun x => .leaf (.str [x])) (some (.leaf (.str s2))))
    (hcol : HeaderCollimation f col) (hc : CollimationFrom (sectionOf inst "collimators".toList) col c)
    {x : Char} (_ : ("sense".toList, .str [x]) ∈ sectionOf inst "goniometer".toList) (hx : t[1]? ≠ some x)
    {i : InstrumentInfo} (hi : instrumentInfo s = .ok i) : i.sense ≠ s0 ++ [x] ++ s2 := by
  obtain ⟨i', t1, h1, hi', _, _, hs, _⟩ := C108_instrument ht hn ho h hsense hm ha h0 h2 hcol hc
  obtain rfl := Except.ok.inj (hi.symm.trans hi')
  rw [hs]
  intro e
  simp only [List.append_assoc, List.append_cancel_left_eq, List.singleton_append, List.cons.injEq, and_true] at e
  exact hx (e ▸ h1)

end

end Tavi
