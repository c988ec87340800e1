import Verif.Props.SampleConf
import Verif.Props.ConfWrite
import Verif.Props.Lookup
import Verif.Props.DatasetName

/-!
# C106: configuration files do not touch what was measured
-/

namespace Tavi

namespace Spec

/-- A parameter about which a list of parameters says something, under the name it is found by. -/
def Said (m : ConfMeaning) (params : List (Str × JVal)) (k : Str) : Prop :=
  ∃ p v, (p, v) ∈ params ∧ m.taken p ∧ m.name p = k ∧ ¬ SaysNothing v

/-- One of the configuration files says something about `k`. -/
def ConfSays (inst : Option (List (Str × JSec))) (samp : Option (List (Str × JVal))) (k : Str) : Prop :=
  (∃ x ∈ instrumentParts, Said x.2.2 (sectionOf inst x.2.1) k) ∨ k = "divergence_x".toList ∨ k = "divergence_y".toList ∨
  Said (onlyMeaning "shape".toList) (sectionOf inst "monitor".toList) k ∨ Said sampleMeaning (samp.getD []) k

/-- The names in the files are names: no paths, and not those of the entry itself. They speak neither about the number of the
point nor about the data. -/
structure PlainNames (inst : Option (List (Str × JSec))) (samp : Option (List (Str × JVal))) : Prop where
  plain : ∀ k, ConfSays inst samp k → k ∉ ["attrs", "dataset", "detector", "monitor", "sample"].map String.toList ∧ '/' ∉ k
  points : ¬ ConfSays inst samp "Pt.".toList
  data : ¬ ConfSays inst samp "data".toList

end Spec

open Spec

/-! ## Entries that are alike for a path -/

/-- Two values are alike for the path `k :: ks`, under the key `q`. -/
def AlikeV (k : Str) (ks : List Str) (q : Str) (v w : Val) : Prop :=
  v = w ∨ ∃ e f, v = .dict e ∧ w = .dict f ∧ getItem f (k :: ks) false = getItem e (k :: ks) false ∧
    (q = k → follow w ks = follow v ks)

/-- Two dicts are alike for the path `k :: ks`: the same keys in the same order. -/
inductive Alike (k : Str) (ks : List Str) : Dict → Dict → Prop
  | nil : Alike k ks .nil .nil
  | cons {q : Str} {v w : Val} {d e : Dict} : AlikeV k ks q v w → Alike k ks d e → Alike k ks (.cons q v d) (.cons q w e)

section
variable {k : Str} {ks : List Str}

theorem Alike.refl : ∀ d : Dict, Alike k ks d d
  | .nil => .nil
  | .cons _ _ d => .cons (.inl rfl) (Alike.refl d)

theorem Alike.set {d e : Dict} (h : Alike k ks d e) {q : Str} {v w : Val} (hv : AlikeV k ks q v w) :
    Alike k ks (d.set q v) (e.set q w) := by
  induction h with
  | nil => exact .cons hv .nil
  | @cons q' v' w' d e hv' hd ih =>
    rw [Dict.set, Dict.set]
    by_cases hq : q' = q
    · rw [if_pos hq, if_pos hq]; exact .cons (hq ▸ hv) hd
    · rw [if_neg hq, if_neg hq]; exact .cons hv' ih

theorem Alike.addDataset {d e : Dict} (h : Alike k ks d e) (q : Str) (o : Option Dict) :
    Alike k ks (Tavi.addDataset d q o) (Tavi.addDataset e q o) := by
  cases o with
  | none => exact h
  | some ds => exact h.set (.inl rfl)

theorem Alike.erase {d e : Dict} (h : Alike k ks d e) (q : Str) : Alike k ks (d.erase q) (e.erase q) := by
  induction h with
  | nil => exact .nil
  | @cons q' v w d e hv hd ih =>
    rw [Dict.erase, Dict.erase]
    by_cases hq : q' = q
    · rw [if_pos hq, if_pos hq]; exact ih
    · rw [if_neg hq, if_neg hq]; exact .cons hv ih

theorem Alike.scan {d e : Dict} (h : Alike k ks d e) : scanItems e (k :: ks) false = scanItems d (k :: ks) false := by
  induction h with
  | nil => rfl
  | @cons q v w d e hv hd ih =>
    rw [scan_cons, scan_cons]
    rcases hv with rfl | ⟨a, b, rfl, rfl, hab, _⟩
    · split_ifs
      · exact ih
      · cases v with
        | leaf x => exact ih
        | dict x =>
          dsimp only
          rw [ih]
    · split_ifs
      · exact ih
      · dsimp only
        rw [hab, ih]

theorem Alike.get {d e : Dict} (h : Alike k ks d e) :
    (d.get? k = none ∧ e.get? k = none) ∨ ∃ v w, d.get? k = some v ∧ e.get? k = some w ∧ follow w ks = follow v ks := by
  induction h with
  | nil => exact .inl ⟨rfl, rfl⟩
  | @cons q v w d e hv hd ih =>
    rw [Dict.get?, Dict.get?]
    by_cases hq : q = k
    · rw [if_pos hq, if_pos hq]
      refine .inr ⟨v, w, rfl, rfl, ?_⟩
      rcases hv with rfl | ⟨_, _, _, _, _, hf⟩
      · rfl
      · exact hf hq
    · rw [if_neg hq, if_neg hq]; exact ih

/-- What is found depends on the end of the path only. -/
theorem getItem_same {d e : Dict} (hg : (d.get? k = none ∧ e.get? k = none) ∨
      ∃ v w, d.get? k = some v ∧ e.get? k = some w ∧ follow w ks = follow v ks)
    (hs : d.get? k = none → e.get? k = none → scanItems e (k :: ks) false = scanItems d (k :: ks) false) :
    getItem e (k :: ks) false = getItem d (k :: ks) false := by
  rcases hg with ⟨h1, h2⟩ | ⟨v, w, h1, h2, h3⟩
  · rw [item_absent (has_eq_false h1), item_absent (has_eq_false h2), hs h1 h2]
  · have k1 : d.has k = true := by rw [Dict.has, h1]; rfl
    have k2 : e.has k = true := by rw [Dict.has, h2]; rfl
    have f1 : follow (.dict d) (k :: ks) = follow v ks := by rw [follow, Val.index, h1, need_some, py_bind_ok]
    have f2 : follow (.dict e) (k :: ks) = follow v ks := by rw [follow, Val.index, h2, need_some, py_bind_ok, h3]
    cases hf : follow v ks with
    | error x => rw [item_error k1 (f1.trans hf), item_error k2 (f2.trans hf)]
    | ok x => cases x with
      | leaf a => rw [item_leaf k1 (f1.trans hf), item_leaf k2 (f2.trans hf)]
      | dict a => rw [item_dict k1 (f1.trans hf), item_dict k2 (f2.trans hf)]

theorem Alike.item {d e : Dict} (h : Alike k ks d e) : getItem e (k :: ks) false = getItem d (k :: ks) false :=
  getItem_same h.get fun _ _ => h.scan

/-- Two groups of datasets with the same dataset of that name. -/
theorem alike_flat {q : Str} {g g' : Dict} {K K' : List Str} (h : Flat g K) (h' : Flat g' K') (hk : Plain k)
    (hg : g'.get? k = g.get? k) (hq : q = k → ∃ a as, ks = a :: as ∧ g'.get? a = g.get? a) : AlikeV k ks q (.dict g) (.dict g') := by
  refine .inr ⟨g, g', rfl, rfl, getItem_same ?_ fun h1 h2 => ?_, fun e => ?_⟩
  · cases hv : g.get? k with
    | none => exact .inl ⟨rfl, hg.trans hv⟩
    | some v => exact .inr ⟨v, v, rfl, hg.trans hv, rfl⟩
  · rw [← item_absent (has_eq_false h1), ← item_absent (has_eq_false h2), h.item_none hk h1, h'.item_none hk h2]
  · obtain ⟨a, as, rfl, ha⟩ := hq e
    rw [follow, follow, Val.index, Val.index, ha]

end

/-! ## The pieces of an entry made with configuration files -/

/-- Two groups agree but for what the files speak about. -/
def Differs (inst : Option (List (Str × JSec))) (samp : Option (List (Str × JVal))) (g g' : Dict) : Prop :=
  ∀ k, g'.get? k = g.get? k ∨ ConfSays inst samp k

/-- The pieces of an entry made with configuration files, beside those without. -/
structure Beside (inst : Option (List (Str × JSec))) (samp : Option (List (Str × JVal))) (p q : Pieces) : Prop where
  flats : ∀ g ∈ q.groups, ∃ K, Flat g K
  /-- the groups can be written -/
  neat : WritableConfig inst samp → PlainNames inst samp → ∀ g ∈ q.groups, Neat g
  /-- the name of the sample is no list -/
  named : WritableConfig inst samp → PlainNames inst samp → ∀ f, q.samp.get? "name".toList = some (.dict f) →
    p.samp.get? "name".toList = some (.dict f) ∨ ∀ l, f.get? kDataset ≠ some (.leaf (.strs l))
  md : q.md = p.md
  user : q.user = p.user
  start : q.start = p.start
  stop : q.stop = p.stop
  lg : q.lg = p.lg
  comps : List.Forall₂ (fun a b : Str × Dict => a.1 = b.1 ∧ Differs inst samp a.2 b.2) p.comps q.comps
  mon : Differs inst samp p.mon q.mon
  samp : Differs inst samp p.samp q.samp
  /-- in the monitor nothing is added but its shape -/
  shape : ∀ k, k ≠ "shape".toList → q.mon.get? k = p.mon.get? k

theorem flat_more {fs : List Field} {g g' : Dict} {K : List Str} (h : Flat g K) (ha : addMembers fs g = .ok g')
    (hg : ∀ f ∈ fs, Field.Good f) : Flat g' (K ++ fs.map Prod.fst) := by
  refine ⟨addMembers_nodup ha h.nodup, fun k v hm => ?_⟩
  rcases addMembers_items ha k v hm with hm | ⟨ds, rfl, hds⟩
  · rcases h.sub k v hm with h1 | ⟨h1, h2⟩
    · exact .inl h1
    · exact .inr ⟨List.mem_append_left _ h1, h2⟩
  · obtain ⟨x, a, rfl⟩ := hg _ hds ds rfl
    exact .inr ⟨List.mem_append_right _ (List.mem_map_of_mem (f := Prod.fst) hds), x, a, rfl⟩

theorem jsonDs_good (n : Str) (kd : JKind) (v : JVal) : Field.Good (n, jsonDs kd v) := by
  intro ds h
  have key : ∀ {y : Py Leaf} {a : List (Str × Str)}, y.map (fun x => some (nxDs x a)) = .ok (some ds) → ∃ x a, ds = nxDs x a := by
    intro y a hy
    obtain ⟨x, _, hx⟩ := map_eq_ok.1 hy
    exact ⟨x, a, (Option.some.inj hx).symm⟩
  have key2 : ∀ {y : Py Leaf} {a : List (Str × Str)}, (if v.empty = true then Except.ok none else y.map fun x => some (nxDs x a)) =
      (Except.ok (some ds) : Py (Option Dict)) → ∃ x a, ds = nxDs x a := by
    intro y a hy
    split_ifs at hy
    · exact absurd hy (by simp)
    · exact key hy
  cases kd with
  | matrix => exact key h
  | skip => exact absurd h (by simp [jsonDs])
  | char => exact key2 h
  | float a => exact key2 h
  | angle a => exact key2 h
  | raw => exact key2 h

theorem secFields_good (kind : Str → JKind) (s : JSec) : ∀ f ∈ secFields kind s, Field.Good f := by
  intro f hf
  cases s with
  | null => exact absurd hf List.not_mem_nil
  | dict l =>
    obtain ⟨kv, _, rfl⟩ := List.mem_map.1 hf
    exact jsonDs_good _ _ _
  | other =>
    obtain rfl := List.mem_singleton.1 hf
    intro ds h
    exact absurd h (by simp)

theorem divField_good (key pre : Str) (l : List (Str × JVal)) : ∀ f ∈ divField key pre l, Field.Good f := by
  intro f hf
  unfold divField at hf
  split at hf
  · exact absurd hf List.not_mem_nil
  · obtain rfl := List.mem_singleton.1 hf
    intro ds h
    obtain ⟨x, _, hx⟩ := map_eq_ok.1 h
    exact ⟨x, _, (Option.some.inj hx).symm⟩

theorem collJson_good (s : JSec) : ∀ f ∈ collJson s, Field.Good f := by
  cases s with
  | null => exact fun f hf => absurd hf List.not_mem_nil
  | dict l => exact forall_mem_append' (divField_good _ _ _) (divField_good _ _ _)
  | other =>
    intro f hf
    obtain rfl := List.mem_singleton.1 hf
    intro ds h
    exact absurd h (by simp)

theorem sampleJson_good (o : Option (List (Str × JVal))) : ∀ f ∈ sampleJson o, Field.Good f := by
  intro f hf
  cases o with
  | none => exact absurd hf List.not_mem_nil
  | some l =>
    obtain ⟨kv, _, rfl⟩ := List.mem_map.1 hf
    exact jsonDs_good _ _ _

theorem said_same {m : ConfMeaning} {ps : List (Str × JVal)} {g g' : Dict} (h : ConfSupplied m ps g g') (k : Str) :
    g'.get? k = g.get? k ∨ Said m ps k := by
  by_cases hs : Said m ps k
  · exact .inr hs
  · refine .inl (h.kept k fun p v hp ht hn => ?_)
    by_contra hv
    exact hs ⟨p, v, hp, ht, hn, hv⟩

theorem pieces_of {iso : Str → Py Str} {c : NxConfig} {logs : List (Str × LogVal)} {d : Dict}
    (ht : TidyConfig c.inst c.samp) (h : scanToNxWith iso c logs = .ok d) :
    ∃ p q, Made iso logs p ∧ d = q.entry ∧ Beside c.inst c.samp p q := by
  rw [scanToNxWith] at h
  obtain ⟨md, hmd, h⟩ := py_bind_eq_ok.1 h
  obtain ⟨user, h1, h⟩ := py_bind_eq_ok.1 h
  obtain ⟨src, h2, h⟩ := py_bind_eq_ok.1 h
  obtain ⟨mono, h3, h⟩ := py_bind_eq_ok.1 h
  obtain ⟨ana, h4, h⟩ := py_bind_eq_ok.1 h
  obtain ⟨det, h5, h⟩ := py_bind_eq_ok.1 h
  obtain ⟨coll, h6, h⟩ := py_bind_eq_ok.1 h
  obtain ⟨slits, h7, h⟩ := py_bind_eq_ok.1 h
  obtain ⟨flip, h8, h⟩ := py_bind_eq_ok.1 h
  obtain ⟨goni, h9, h⟩ := py_bind_eq_ok.1 h
  obtain ⟨mon, h10, h⟩ := py_bind_eq_ok.1 h
  obtain ⟨samp, h11, h⟩ := py_bind_eq_ok.1 h
  obtain ⟨lg, h12, h⟩ := py_bind_eq_ok.1 h
  obtain ⟨start, h13, h⟩ := py_bind_eq_ok.1 h
  obtain ⟨stop, h14, h⟩ := py_bind_eq_ok.1 h
  have hmd' : lookupKey "metadata".toList logs = some (.meta_ md) := by
    split at hmd
    · rename_i m hm; obtain rfl := Except.ok.inj hmd; exact hm
    · exact absurd hmd (by simp)
  obtain ⟨src0, a2, b2⟩ := py_bind_eq_ok.1 h2
  obtain ⟨mono0, a3, b3⟩ := py_bind_eq_ok.1 h3
  obtain ⟨ana0, a4, b4⟩ := py_bind_eq_ok.1 h4
  obtain ⟨det0, a5, b5⟩ := supplied_det (ht.sections _) ht.detector h5
  obtain ⟨coll0, a6, b6⟩ := py_bind_eq_ok.1 h6
  obtain ⟨goni0, a9, b9⟩ := py_bind_eq_ok.1 h9
  obtain ⟨mon0, a10, b10⟩ := py_bind_eq_ok.1 h10
  obtain ⟨samp0, a11, b11⟩ := py_bind_eq_ok.1 h11
  let p0 : Pieces := ⟨md, user, src0, mono0, ana0, det0, coll0, slits, flip, goni0, mon0, samp0, lg, start, stop⟩
  let p1 : Pieces := ⟨md, user, src, mono, ana, det, coll, slits, flip, goni, mon, samp, lg, start, stop⟩
  have hp0 : Made iso logs p0 := ⟨hmd', h1, a2, a3, a4, a5, a6, h7, h8, a9, a10, a11, h12, h13, h14⟩
  obtain rfl : p1.entry = d := Except.ok.inj h
  have part : ∀ x ∈ instrumentParts, ∀ {g g' : Dict}, ConfSupplied x.2.2 (sectionOf c.inst x.2.1) g g' →
      Differs c.inst c.samp g g' := fun x hx g g' hs k => (said_same hs k).imp id fun hk => .inl ⟨x, hx, hk⟩
  have hmon := supplied_sec (c := c) rfl (only_fits _) (ht.sections _) b10
  have flatDet : ∃ K, Flat det K := by
    rw [buildDetWith] at h5
    obtain ⟨d1, e1, h5⟩ := py_bind_eq_ok.1 h5
    obtain ⟨d2, e2, h5⟩ := py_bind_eq_ok.1 h5
    have hg : ∀ f ∈ detFields logs, Field.Good f := det_good _
    exact ⟨_, flat_more (flat_more (flat_addMembers e1 fun f hf => hg f (List.mem_of_mem_take hf)) e2 (secFields_good _ _)) h5
      fun f hf => hg f (List.mem_of_mem_drop hf)⟩
  refine ⟨p0, p1, hp0, rfl, ?_, ?neat, ?named, rfl, rfl, rfl, rfl, rfl, ?_, ?_, ?_, ?_⟩
  case named =>
    intro hw hn f hf
    rcases addMembers_items b11 _ _ (mem_items_of_get? hf) with hm | ⟨ds, e, hds⟩
    · exact .inl (get?_of_mem hp0.flat_samp.nodup hm)
    · obtain rfl : f = ds := by injection e
      obtain ⟨_, x, hx, hl⟩ := sampleJson_stored hw.sample (fun p v hp ht' hv => by
        have := (hn.plain _ (.inr (.inr (.inr (.inr ⟨p, v, hp, ht', rfl, hv⟩))))).1
        simp only [List.map_cons, List.map_nil, List.mem_cons, List.not_mem_nil, or_false, not_or] at this
        exact ⟨this.1, this.2.1⟩) _ hds f rfl
      refine .inr fun l h' => hl l ?_
      rw [ds_get hx] at h'
      injection h' with h'; injection h'
  case neat =>
    intro hw hn
    have hpl : ∀ {k : Str}, ConfSays c.inst c.samp k → Plain k := fun {k} hk => by
      have := (hn.plain k hk).1
      simp only [List.map_cons, List.map_nil, List.mem_cons, List.not_mem_nil, or_false, not_or] at this
      exact ⟨this.1, this.2.1⟩
    have stored : ∀ x ∈ instrumentParts, ∀ {kind : Str → JKind}, x.2.2.name = id → (∀ p, KindFits x.2.2 p (kind p)) →
        (∀ p, KindNames (kind p)) → ∀ f ∈ secFields kind (c.sec x.2.1), Field.Stored f := fun x hx kind h1 h2 h3 =>
      secFields_stored h1 h2 h3 (hw.parts x hx) fun p v hp ht' hv => hpl (.inl ⟨x, hx, p, v, hp, ht', rfl, hv⟩)
    have neatDet : Neat det := by
      rw [buildDetWith] at h5
      obtain ⟨d1, e1, h5⟩ := py_bind_eq_ok.1 h5
      obtain ⟨d2, e2, h5⟩ := py_bind_eq_ok.1 h5
      have hk : ∀ k ∈ (detFields logs).map Prod.fst, Plain k := by
        rw [det_fst, detK]
        intro k hk
        rcases List.mem_cons.1 hk with rfl | hk
        · decide
        · obtain ⟨i, _, rfl⟩ := List.mem_map.1 hk
          exact plain_suffixed _ _
      have hs := det_sound logs
      refine neat_more (neat_more (neat_members e1 (by decide) (fun k hk' => hk k ?_) fun f hf => hs f (List.mem_of_mem_take hf)) e2
        (stored ("detector".toList, "detector".toList, boxMeaning) (by simp [instrumentParts]) rfl boxKind_fits boxKind_names)) h5
        fun f hf ds hd => ⟨hk _ (List.mem_map_of_mem (f := Prod.fst) (List.mem_of_mem_drop hf)), ?_⟩
      · obtain ⟨f, hf, e⟩ := List.mem_map.1 hk'
        rw [← e]
        exact List.mem_map_of_mem (f := Prod.fst) (List.mem_of_mem_take hf)
      · obtain ⟨x, hx, h'⟩ := hs f (List.mem_of_mem_drop hf) ds hd
        refine ⟨x, hx, h'.resolve_right fun hl => ?_⟩
        have hf' := List.mem_of_mem_drop hf
        have hm : f.1 ∈ (detFields logs).map Prod.fst := List.mem_map_of_mem (f := Prod.fst) hf'
        rw [det_fst, detK] at hm
        rcases List.mem_cons.1 hm with e | hm
        · rw [e] at hl; exact absurd hl (by decide)
        · obtain ⟨i, _, e⟩ := List.mem_map.1 hm
          rw [← e] at hl
          have h2 : '_' ∈ suffixed "detector".toList i := List.mem_append_left _ (List.mem_append_right _ (by decide))
          exact absurd ((show ∀ s ∈ listNames, '_' ∉ s by decide) _ hl) (by simpa using h2)
    simp only [Pieces.groups, List.forall_mem_cons, List.not_mem_nil, false_imp_iff, implies_true, and_true]
    refine ⟨?_, ?_, ?_, ?_, neatDet, hp0.neat_slits, hp0.neat_flip, ?_, ?_, ?_, hp0.neat_user⟩
    · exact neat_more hp0.neat_src b2 (stored ("source".toList, "source".toList, boxMeaning) (by simp [instrumentParts]) rfl
        boxKind_fits boxKind_names)
    · exact neat_more hp0.neat_mono b3 (stored ("monochromator".toList, "monochromator".toList, monoMeaning)
        (by simp [instrumentParts]) rfl mono_fits (crystalKind_names (by show AttrNames _; decide)))
    · exact neat_more hp0.neat_coll b6 (collJson_stored _)
    · exact neat_more hp0.neat_ana b4 (stored ("analyser".toList, "analyzer".toList, anaMeaning) (by simp [instrumentParts]) rfl
        ana_fits (crystalKind_names (by show AttrNames _; decide)))
    · exact neat_more hp0.neat_goni b9 (stored ("goniometer".toList, "goniometer".toList, onlyMeaning "type".toList)
        (by simp [instrumentParts]) rfl (only_fits _) (onlyKind_names _))
    · exact neat_more hp0.neat_mon b10 (secFields_stored rfl (only_fits _) (onlyKind_names _) hw.monitor
        fun p v hp ht' hv => hpl (.inr (.inr (.inr (.inl ⟨p, v, hp, ht', rfl, hv⟩)))))
    · exact neat_more hp0.neat_samp b11 (sampleJson_stored hw.sample
        fun p v hp ht' hv => hpl (.inr (.inr (.inr (.inr ⟨p, v, hp, ht', rfl, hv⟩)))))
  · simp only [Pieces.groups, List.forall_mem_cons, List.not_mem_nil, false_imp_iff, implies_true, and_true]
    exact ⟨⟨_, flat_more hp0.flat_src b2 (secFields_good _ _)⟩, ⟨_, flat_more hp0.flat_mono b3 (secFields_good _ _)⟩,
      ⟨_, flat_more hp0.flat_coll b6 (collJson_good _)⟩, ⟨_, flat_more hp0.flat_ana b4 (secFields_good _ _)⟩, flatDet,
      ⟨_, hp0.flat_slits⟩, ⟨_, hp0.flat_flip⟩, ⟨_, flat_more hp0.flat_goni b9 (secFields_good _ _)⟩,
      ⟨_, flat_more hp0.flat_mon b10 (secFields_good _ _)⟩, ⟨_, flat_more hp0.flat_samp b11 (sampleJson_good _)⟩,
      ⟨_, hp0.flat_user⟩⟩
  · refine .cons ⟨rfl, ?_⟩ (.cons ⟨rfl, ?_⟩ (.cons ⟨rfl, ?_⟩ (.cons ⟨rfl, ?_⟩ (.cons ⟨rfl, ?_⟩ (.cons ⟨rfl, fun _ => .inl rfl⟩
      (.cons ⟨rfl, fun _ => .inl rfl⟩ (.cons ⟨rfl, ?_⟩ .nil)))))))
    · exact part ("source".toList, "source".toList, boxMeaning) (by simp [instrumentParts])
        (supplied_sec (c := c) rfl boxKind_fits (ht.sections _) b2)
    · exact part ("monochromator".toList, "monochromator".toList, monoMeaning) (by simp [instrumentParts])
        (supplied_sec (c := c) rfl mono_fits (ht.sections _) b3)
    · intro k
      by_cases hx : k = "divergence_x".toList
      · exact .inr (.inr (.inl hx))
      by_cases hy : k = "divergence_y".toList
      · exact .inr (.inr (.inr (.inl hy)))
      exact .inl ((supplied_coll b6).2.2 k hx hy)
    · exact part ("analyser".toList, "analyzer".toList, anaMeaning) (by simp [instrumentParts])
        (supplied_sec (c := c) rfl ana_fits (ht.sections _) b4)
    · exact part ("detector".toList, "detector".toList, boxMeaning) (by simp [instrumentParts]) b5
    · exact part ("goniometer".toList, "goniometer".toList, onlyMeaning "type".toList) (by simp [instrumentParts])
        (supplied_sec (c := c) rfl (only_fits _) (ht.sections _) b9)
  · exact fun k => (said_same hmon k).imp id fun hk => .inr (.inr (.inr (.inl hk)))
  · have hs := ht.sample
    cases hc : c.samp with
    | none =>
      rw [hc] at b11
      obtain rfl := Except.ok.inj b11
      exact fun k => .inl rfl
    | some l =>
      rw [hc] at b11 hs
      have := supplied_of sample_fits hs b11
      exact fun k => (said_same this k).imp id fun hk => .inr (.inr (.inr (.inr hk)))
  · intro k hk
    refine hmon.kept k fun p v _ hp hn => absurd ?_ hk
    have hp' : p = "shape".toList := hp
    rw [← hp']; exact hn.symm

/-! ## Look-ups -/

/-- Names that no column has. -/
def groupWords : List Str := ["instrument".toList, "source".toList, "monochromator".toList, "collimator".toList,
  "analyser".toList, "slits".toList, "flipper".toList, "goniometer".toList]

section
variable {iso : Str → Py Str} {logs : List (Str × LogVal)} {inst : Option (List (Str × JSec))} {samp : Option (List (Str × JVal))}
  {p q : Pieces} {k : Str} {ks : List Str}

theorem alike_inst (hp : Made iso logs p) (h : Beside inst samp p q) (hk : Plain k) (hs : ¬ ConfSays inst samp k) (hn : k ∉ groupWords)
    (hd : k = "detector".toList → ks = ["data".toList]) (hdata : ¬ ConfSays inst samp "data".toList) : Alike k ks p.inst q.inst := by
  have hc : List.Forall₂ (fun a b : Str × Dict => a.1 = b.1 ∧ AlikeV k ks a.1 (.dict a.2) (.dict b.2)) p.comps q.comps := by
    have h2 := h.comps
    have hf : ∀ b ∈ q.comps, ∃ K, Flat b.2 K := by
      intro b hb
      refine h.flats b.2 ?_
      have e : q.groups = q.comps.map Prod.snd ++ [q.mon, q.samp, q.user] := rfl
      rw [e]
      exact List.mem_append_left _ (List.mem_map_of_mem (f := Prod.snd) hb)
    have hf0 : ∀ a ∈ p.comps, (∃ K, Flat a.2 K) ∧ (a.1 = k → k = "detector".toList) := by
      intro a ha
      refine ⟨hp.flat_comp ha, fun e => ?_⟩
      have hm : a.1 ∈ p.comps.map Prod.fst := List.mem_map_of_mem (f := Prod.fst) ha
      have : ∀ s ∈ instK.take 8, s = "detector".toList ∨ s ∈ groupWords := by decide +kernel
      rcases this _ hm with h1 | h1
      · rw [← e]; exact h1
      · exact absurd (e ▸ h1) hn
    generalize p.comps = l at h2 hf0 ⊢
    generalize q.comps = l' at h2 hf ⊢
    clear hp h
    induction h2 with
    | nil => exact .nil
    | @cons a b l l' hab _ ih =>
      refine .cons ⟨hab.1, ?_⟩ (ih (fun a ha => hf0 a (List.mem_cons_of_mem _ ha)) fun b hb => hf b (List.mem_cons_of_mem _ hb))
      obtain ⟨⟨K, h1⟩, h3⟩ := hf0 a List.mem_cons_self
      obtain ⟨K', h2⟩ := hf b List.mem_cons_self
      refine alike_flat h1 h2 hk ((hab.2 k).resolve_right hs) fun e => ?_
      rw [hd (h3 e)]
      exact ⟨_, _, rfl, (hab.2 _).resolve_right hdata⟩
  rw [Pieces.inst, Pieces.inst, buildInstrument, buildInstrument, h.md]
  refine Alike.addDataset (.cons (.inl rfl) ?_) _ _
  unfold Pieces.comps at hc
  simp only [List.forall₂_cons, List.Forall₂.nil, and_true] at hc
  obtain ⟨⟨_, c1⟩, ⟨_, c2⟩, ⟨_, c3⟩, ⟨_, c4⟩, ⟨_, c5⟩, ⟨_, c6⟩, ⟨_, c7⟩, ⟨_, c8⟩⟩ := hc
  exact .cons c1 (.cons c2 (.cons c3 (.cons c4 (.cons c5 (.cons c6 (.cons c7 (.cons c8 .nil)))))))

theorem alike_entry (hp : Made iso logs p) (h : Beside inst samp p q) (hk : Plain k) (hs : ¬ ConfSays inst samp k) (hn : k ∉ groupWords)
    (hd : k = "detector".toList → ks = ["data".toList]) (hm : k = "monitor".toList → ks = ["monitor".toList])
    (hsamp : k = "sample".toList → ks = ["sample".toList]) (hdata : ¬ ConfSays inst samp "data".toList) : Alike k ks p.entry q.entry := by
  have hi := alike_inst hp h hk hs hn hd hdata
  have hg : q.groups = [q.src, q.mono, q.coll, q.ana, q.det, q.slits, q.flip, q.goni, q.mon, q.samp, q.user] := rfl
  obtain ⟨K1, f1⟩ := h.flats q.mon (by rw [hg]; simp)
  obtain ⟨K2, f2⟩ := h.flats q.samp (by rw [hg]; simp)
  rw [Pieces.entry, Pieces.entry, assemble, assemble, h.md, h.user, h.start, h.stop, h.lg]
  refine Alike.set (Alike.set (Alike.set (Alike.set (Alike.refl _) ?_) ?_) ?_) (.inl rfl)
  · refine .inr ⟨_, _, rfl, rfl, hi.item, fun e => absurd ?_ hn⟩
    rw [← e]; decide +kernel
  · refine alike_flat hp.flat_mon f1 hk ((h.mon k).resolve_right hs) fun e => ?_
    rw [hm e.symm]
    exact ⟨_, _, rfl, h.shape _ (by decide +kernel)⟩
  · refine alike_flat hp.flat_samp f2 hk ((h.samp k).resolve_right hs) fun e => ?_
    rw [hsamp e.symm]
    exact ⟨_, _, rfl, by rw [e]; exact (h.samp k).resolve_right hs⟩

/-- The path of a name of a column. -/
structure ColumnPath (k : Str) (ks : List Str) : Prop where
  path : splitChar '/' (specialKey k false) = k :: ks
  plain : Plain k
  group : k ∉ groupWords
  detector : k = "detector".toList → ks = ["data".toList]
  monitor : k = "monitor".toList → ks = ["monitor".toList]
  sample : k = "sample".toList → ks = ["sample".toList]

theorem same_get (hp : Made iso logs p) (h : Beside inst samp p q) (hdata : ¬ ConfSays inst samp "data".toList)
    (hk : ColumnPath k ks) (hs : ¬ ConfSays inst samp k) : (nxGet q.entry k false).1 = (nxGet p.entry k false).1 := by
  show getItem (dropLogs q.entry) _ false = getItem (dropLogs p.entry) _ false
  rw [hk.path]
  exact (((alike_entry hp h hk.plain hs hk.group hk.detector hk.monitor hk.sample hdata).erase _).erase _).item

/-- The check of the path. -/
def pathB (k : Str) : Bool :=
  decide (k ≠ "attrs".toList) && decide (k ≠ "dataset".toList) && decide (k ∉ groupWords) &&
  (if k = "detector".toList then decide (splitChar '/' (specialKey k false) = [k, "data".toList])
  else if k = "monitor".toList then decide (splitChar '/' (specialKey k false) = [k, "monitor".toList])
  else if k = "sample".toList then decide (splitChar '/' (specialKey k false) = [k, "sample".toList])
  else decide (splitChar '/' (specialKey k false) = [k]))

theorem path_of_check (h : pathB k = true) : ∃ ks, ColumnPath k ks := by
  simp only [pathB, Bool.and_eq_true, decide_eq_true_eq] at h
  obtain ⟨⟨⟨h1, h2⟩, h3⟩, h4⟩ := h
  split_ifs at h4 with e1 e2 e3
  · exact ⟨_, of_decide_eq_true h4, ⟨h1, h2⟩, h3, fun _ => rfl, fun e => absurd (e1.symm.trans e) (by decide),
      fun e => absurd (e1.symm.trans e) (by decide)⟩
  · exact ⟨_, of_decide_eq_true h4, ⟨h1, h2⟩, h3, fun e => absurd e e1, fun _ => rfl, fun e => absurd (e2.symm.trans e) (by decide)⟩
  · exact ⟨_, of_decide_eq_true h4, ⟨h1, h2⟩, h3, fun e => absurd e e1, fun e => absurd e e2, fun _ => rfl⟩
  · exact ⟨_, of_decide_eq_true h4, ⟨h1, h2⟩, h3, fun e => absurd e e1, fun e => absurd e e2, fun e => absurd e e3⟩

theorem path_word (h1 : Plain k) (h2 : k ∉ groupWords) (h3 : '/' ∉ k) (h4 : k ≠ "detector".toList) (h5 : k ≠ "monitor".toList)
    (h6 : k ≠ "sample".toList) : ColumnPath k [] :=
  ⟨by rw [specialKey, if_neg (by simp), if_neg h4, if_neg h5, if_neg h6, splitChar_plain h3],
    h1, h2, fun e => absurd e h4, fun e => absurd e h5, fun e => absurd e h6⟩

theorem column_path {md : List (Str × MetaVal)} (hk : Named logs md k) : ∃ ks, ColumnPath k ks := by
  have hnum : ∀ (q : Str) (_ : q ∈ numNames) (i : ℕ), ∃ ks, ColumnPath (withNumber q i) ks := by
    intro q hq i
    rw [← suffixed_eq]
    have hn : ∀ s ∈ "detector".toList :: "monitor".toList :: "sample".toList :: groupWords, suffixed q i ≠ s := by
      intro s hs e
      exact ((show ∀ s ∈ "detector".toList :: "monitor".toList :: "sample".toList :: groupWords, NotNumbered s by decide) s hs).ne hq i e.symm
    have hsl : '/' ∉ suffixed q i := by
      rw [suffixed, List.mem_append, List.mem_append]
      have hs : ∀ q ∈ numNames, '/' ∉ q := by decide
      rintro ((h | h) | h)
      · exact hs q hq h
      · exact absurd h (by decide)
      · obtain ⟨_, h2, _⟩ := decStr_spec i
        exact absurd (List.all_eq_true.1 h2 _ h) (by decide)
    exact ⟨_, path_word (numbered_plain hq i) (fun hm => hn _ (List.mem_cons_of_mem _ (List.mem_cons_of_mem _ (List.mem_cons_of_mem _ hm))) rfl)
      hsl (hn _ List.mem_cons_self) (hn _ (List.mem_cons_of_mem _ List.mem_cons_self))
      (hn _ (List.mem_cons_of_mem _ (List.mem_cons_of_mem _ List.mem_cons_self)))⟩
  rcases hk with ⟨c, int, qs, hc, _⟩ | hk
  · cases hc with
    | same hc => exact path_of_check ((show ∀ c ∈ Spec.sameName, pathB c = true by decide +kernel) _ hc)
    | renamed hc => exact path_of_check ((show ∀ c ∈ Spec.renamed, pathB c.2 = true by decide +kernel) _ hc)
    | detector => exact path_of_check (by decide +kernel)
    | point => exact path_of_check (by decide +kernel)
    | time _ => exact path_of_check (by decide +kernel)
    | mcu _ => exact path_of_check (by decide +kernel)
    | monitor _ => exact path_of_check (by decide +kernel)
    | detectors _ _ => exact hnum _ (by decide) _
    | times _ _ _ => exact hnum _ (by decide) _
    | mcus _ _ _ => exact hnum _ (by decide) _
    | monitors _ _ _ => exact hnum _ (by decide) _
  · exact path_of_check ((show ∀ k ∈ headerVectors, pathB k = true by decide +kernel) _ hk)

/-! ## Names -/

theorem listed_same {L : List Str} {n : ℕ} {g g' : Dict} {K K' : List Str} (h : Flat g K) (h' : Flat g' K')
    (hg : g'.get? k = g.get? k) : Listed L n g' k ↔ Listed L n g k := by
  constructor
  · rintro ⟨x, a, hm, hx⟩
    exact ⟨x, a, mem_items_of_get? (hg.symm.trans (get?_of_mem h'.nodup hm)), hx⟩
  · rintro ⟨x, a, hm, hx⟩
    exact ⟨x, a, mem_items_of_get? (hg.trans (get?_of_mem h.nodup hm)), hx⟩

theorem comp_names_flat {C : Str} {g : Dict} {K : List Str} (hne : C ≠ kAttrs) (hf : Flat g K) (L : List Str) (n : ℕ) :
    ∃ b, namesComponent L n C (.dict g) = .ok b ∧ ∀ k, k ∈ b ↔
      if C = "detector".toList ∧ (g.get? "data".toList).isSome then k = "detector".toList else Listed L n g k := by
  obtain ⟨l, hl, hmem⟩ := flat_names hf L n
  rw [namesComponent, if_neg hne]
  by_cases hd : C = "detector".toList
  · rw [if_pos hd]
    by_cases hdat : (g.get? "data".toList).isSome = true
    · rw [if_pos (show g.has "data".toList = true from hdat)]
      exact ⟨_, rfl, fun k => by rw [if_pos ⟨hd, hdat⟩, List.mem_singleton]⟩
    · rw [if_neg (show ¬ g.has "data".toList = true from hdat), hl]
      refine ⟨_, rfl, fun k => ?_⟩
      rw [if_neg (fun e => hdat e.2), List.mem_append, or_self, hmem]; rfl
  · rw [if_neg hd, hl]
    exact ⟨_, rfl, fun k => by rw [if_neg (fun e => hd e.1), hmem]; rfl⟩

theorem comps_plain (p : Pieces) {C : Str} {g : Dict} (hC : (C, g) ∈ p.comps) : C ≠ kAttrs := by
  have : ∀ s ∈ instK.take 8, s ≠ kAttrs := by decide
  exact this C (List.mem_map_of_mem (f := Prod.fst) hC)

theorem Beside.flat_comp (h : Beside inst samp p q) {C : Str} {g : Dict} (hC : (C, g) ∈ q.comps) : ∃ K, Flat g K := by
  refine h.flats g ?_
  have e : q.groups = q.comps.map Prod.snd ++ [q.mon, q.samp, q.user] := rfl
  rw [e]
  exact List.mem_append_left _ (List.mem_map_of_mem (f := Prod.snd) hC)

theorem Beside.inst_names (h : Beside inst samp p q) (hfine : NameFine p.md) (L : List Str) (n : ℕ) :
    ∃ l, namesInstrument L n q.inst = .ok l ∧ ∀ k, k ∈ l ↔ ∃ C g, (C, g) ∈ q.comps ∧
      if C = "detector".toList ∧ (g.get? "data".toList).isSome then k = "detector".toList else Listed L n g k := by
  rw [← h.md] at hfine
  have comp : ∀ {C : Str} {g : Dict}, (C, g) ∈ q.comps → ∃ b, namesComponent L n C (.dict g) = .ok b ∧ ∀ k, k ∈ b ↔
      if C = "detector".toList ∧ (g.get? "data".toList).isSome then k = "detector".toList else Listed L n g k := by
    intro C g hC
    obtain ⟨K, hf⟩ := h.flat_comp hC
    exact comp_names_flat (comps_plain q hC) hf L n
  have hall : ∀ k v, (k, v) ∈ items q.inst → ∃ b, namesComponent L n k v = .ok b ∧ ((∀ g, v = .dict g → (k, g) ∉ q.comps) → b = []) := by
    intro k v hm
    rcases inst_items' q hm with rfl | ⟨g, rfl, hg⟩ | ⟨rfl, ds, rfl, hds⟩
    · exact ⟨[], by unfold namesComponent; exact if_pos rfl, fun _ => rfl⟩
    · obtain ⟨b, hb, _⟩ := comp hg
      exact ⟨b, hb, fun hno => absurd hg (hno g rfl)⟩
    · exact ⟨[], name_names hds hfine, fun _ => rfl⟩
  obtain ⟨l, hl⟩ := namesInstrument_ok (L := L) (n := n) (d := q.inst) fun k v hm => by
    obtain ⟨b, hb, _⟩ := hall k v hm; exact ⟨b, hb⟩
  refine ⟨l, hl, fun k => ?_⟩
  rw [namesInstrument_mem hl]
  constructor
  · rintro ⟨C, v, b, hm, hb, hk⟩
    obtain ⟨b', hb', hno⟩ := hall C v hm
    obtain rfl := Except.ok.inj (hb.symm.trans hb')
    by_cases hg : ∃ g, v = .dict g ∧ (C, g) ∈ q.comps
    · obtain ⟨g, rfl, hg⟩ := hg
      obtain ⟨b', hb', hmem⟩ := comp hg
      obtain rfl := Except.ok.inj (hb.symm.trans hb')
      exact ⟨C, g, hg, (hmem k).1 hk⟩
    · rw [hno fun g e hg' => hg ⟨g, e, hg'⟩] at hk
      exact absurd hk (by simp)
  · rintro ⟨C, g, hg, hk⟩
    obtain ⟨b, hb, hmem⟩ := comp hg
    exact ⟨C, _, b, comp_mem_inst q hg, hb, (hmem k).2 hk⟩

theorem Beside.names (hp : Made iso logs p) (h : Beside inst samp p q) (hn : PlainNames inst samp) (hfine : NameFine p.md) (L : List Str)
    {qs : List (Option ℚ)} (hpt : colOf logs "Pt.".toList = some qs) :
    ∃ l, datasetNames L q.entry = .ok (l, dropLogs q.entry) ∧ ∀ k, k ∈ l ↔ Somewhere q L qs.length k := by
  have hg : q.groups = [q.src, q.mono, q.coll, q.ana, q.det, q.slits, q.flip, q.goni, q.mon, q.samp, q.user] := rfl
  obtain ⟨K1, f1⟩ := h.flats q.mon (by rw [hg]; simp)
  obtain ⟨K2, f2⟩ := h.flats q.samp (by rw [hg]; simp)
  obtain ⟨la, ha, hma⟩ := h.inst_names hfine L qs.length
  obtain ⟨lb, hb, hmb⟩ := flat_names f1 L qs.length
  obtain ⟨lc, hc, hmc⟩ := flat_names f2 L qs.length
  obtain ⟨ks, hpath⟩ := path_of_check (k := "Pt.".toList) (by decide +kernel)
  have hpt' : (nxGet q.entry "Pt.".toList false).1 = .ok (some (.leaf (.arr (Spec.shown true qs)))) := by
    rw [same_get hp h hn.data hpath hn.points]
    exact (hp.column (c := "Pt.".toList) (n := "Pt.".toList) .point []).2 qs hpt
  have hmd : (nxGet (dropLogs q.entry) "monitor/data".toList false).1 = .ok none := by
    rw [nxGet_drop, nxGet]
    show getItem (dropLogs q.entry) (splitChar '/' (specialKey "monitor/data".toList false)) false = _
    rw [show splitChar '/' (specialKey "monitor/data".toList false) = ["monitor".toList, "data".toList] by decide]
    exact getItem_miss (entry_mon q) ((h.shape _ (by decide +kernel)).trans (mon_no_data hp))
  refine ⟨la ++ lb ++ lc, ?_, fun k => ?_⟩
  · rw [datasetNames, hpt', py_bind_ok, lenOf, py_bind_ok]
    rw [show (Spec.shown true qs).length = qs.length from List.length_map _]
    rw [groupOf, entry_inst, need_some, py_bind_ok]
    show (namesInstrument L qs.length q.inst >>= _) = _
    rw [ha, py_bind_ok, groupOf, entry_mon, need_some, py_bind_ok]
    show (dropMonitorData (dropLogs q.entry) q.mon >>= _) = _
    rw [dropMonitorData, hmd, py_bind_ok, if_neg (by simp), py_bind_ok]
    show (namesIn L qs.length q.mon >>= _) = _
    rw [hb, py_bind_ok, groupOf, entry_samp, need_some, py_bind_ok]
    show (namesIn L qs.length q.samp >>= _) = _
    rw [hc]; rfl
  · rw [List.mem_append, List.mem_append, hma, hmb, hmc, or_assoc]; rfl

theorem forall2_mem_right {α β : Type} {R : α → β → Prop} {l : List α} {l' : List β} (h : List.Forall₂ R l l') :
    ∀ b ∈ l', ∃ a ∈ l, R a b := by
  induction h with
  | nil => intro b hb; exact absurd hb List.not_mem_nil
  | cons hab _ ih =>
    intro b hb
    rcases List.mem_cons.1 hb with rfl | hb
    · exact ⟨_, List.mem_cons_self, hab⟩
    · obtain ⟨a, ha, hr⟩ := ih b hb
      exact ⟨a, List.mem_cons_of_mem _ ha, hr⟩

theorem somewhere_same (hp : Made iso logs p) (h : Beside inst samp p q) (hdata : ¬ ConfSays inst samp "data".toList)
    (hs : ¬ ConfSays inst samp k) {L : List Str} {n : ℕ} : Somewhere q L n k ↔ Somewhere p L n k := by
  have hg : q.groups = [q.src, q.mono, q.coll, q.ana, q.det, q.slits, q.flip, q.goni, q.mon, q.samp, q.user] := rfl
  obtain ⟨K1, f1⟩ := h.flats q.mon (by rw [hg]; simp)
  obtain ⟨K2, f2⟩ := h.flats q.samp (by rw [hg]; simp)
  have one : ∀ a ∈ p.comps, ∀ b ∈ q.comps, a.1 = b.1 ∧ Differs inst samp a.2 b.2 →
      ((if b.1 = "detector".toList ∧ (b.2.get? "data".toList).isSome then k = "detector".toList else Listed L n b.2 k) ↔
      if a.1 = "detector".toList ∧ (a.2.get? "data".toList).isSome then k = "detector".toList else Listed L n a.2 k) := by
    intro a ha b hb hab
    obtain ⟨K, fa⟩ := hp.flat_comp (C := a.1) (g := a.2) ha
    obtain ⟨K', fb⟩ := h.flat_comp (C := b.1) (g := b.2) hb
    rw [(hab.2 _).resolve_right hdata, hab.1]
    split_ifs
    · exact Iff.rfl
    · exact listed_same fa fb ((hab.2 k).resolve_right hs)
  refine or_congr ⟨?_, ?_⟩ (or_congr (listed_same hp.flat_mon f1 ((h.mon k).resolve_right hs))
    (listed_same hp.flat_samp f2 ((h.samp k).resolve_right hs)))
  · rintro ⟨C, g, hC, hk⟩
    obtain ⟨a, ha, hab⟩ := forall2_mem_right h.comps (C, g) hC
    exact ⟨a.1, a.2, ha, (one a ha _ hC hab).1 hk⟩
  · rintro ⟨C, g, hC, hk⟩
    obtain ⟨b, hb, hab⟩ := forall2_mem_right h.comps.flip (C, g) hC
    exact ⟨b.1, b.2, hb, (one _ hC b hb hab).2 hk⟩

/-! ## Look-ups that do not fail -/

/-- Looking for one name gives something or nothing. -/
def Total (k : Str) (d : Dict) : Prop := (∃ o, scanItems d [k] false = .ok o) ∧ ∃ o, getItem d [k] false = .ok o

theorem total_scan : ∀ {d : Dict}, (∀ q v, (q, v) ∈ items d → Plain q → ∃ e, v = .dict e ∧ Total k e) →
    ∃ o, scanItems d [k] false = .ok o
  | .nil, _ => ⟨none, by rw [scanItems.eq_def]⟩
  | .cons q v d, h => by
    obtain ⟨o, ho⟩ := total_scan (d := d) fun q' v' hm => h q' v' (List.mem_cons_of_mem _ hm)
    rw [scan_cons]
    by_cases hq : q = kAttrs ∨ q = kDataset
    · rw [if_pos hq]; exact ⟨o, ho⟩
    · rw [if_neg hq]
      obtain ⟨e, rfl, _, ⟨o', ho'⟩⟩ := h q v List.mem_cons_self ⟨fun e => hq (.inl e), fun e => hq (.inr e)⟩
      dsimp only
      rw [ho']
      cases o' with
      | none => exact ⟨o, ho⟩
      | some x => exact ⟨_, rfl⟩

theorem total_of {d : Dict} (hk : Plain k) (h : ∀ q v, (q, v) ∈ items d → Plain q → ∃ e, v = .dict e ∧ Total k e) : Total k d := by
  refine ⟨total_scan h, ?_⟩
  cases hg : d.get? k with
  | none => rw [item_absent (has_eq_false hg)]; exact total_scan h
  | some v =>
    obtain ⟨e, rfl, he⟩ := h k v (mem_items_of_get? hg) hk
    rw [item_dict (e := e) (by rw [Dict.has, hg]; rfl) (by rw [follow, Val.index, hg, need_some, py_bind_ok, follow])]
    cases e.get? (wanted false) with
    | some x => exact ⟨_, rfl⟩
    | none => exact he.1

theorem total_ds (hk : Plain k) (x : Leaf) (a : List (Str × Str)) : Total k (nxDs x a) := by
  refine total_of hk fun q v hm hq => ?_
  simp only [nxDs, items, List.mem_cons, Prod.mk.injEq, List.not_mem_nil, or_false] at hm
  rcases hm with ⟨h, _⟩ | ⟨h, _⟩
  · exact absurd h hq.2
  · exact absurd h hq.1

theorem Flat.total {g : Dict} {K : List Str} (h : Flat g K) (hk : Plain k) : Total k g := by
  refine total_of hk fun q v hm hq => ?_
  rcases h.sub q v hm with ⟨h1, _⟩ | ⟨_, x, a, rfl⟩
  · exact absurd h1 hq.1
  · exact ⟨_, rfl, total_ds hk x a⟩

/-- What is at the top of an entry. -/
theorem top_values (h1 : ∀ ds, q.start = some ds → ∃ x a, ds = nxDs x a) (h2 : ∀ ds, q.stop = some ds → ∃ x a, ds = nxDs x a)
    {v : Val} (hm : (k, v) ∈ items (dropLogs q.entry)) :
    k = kAttrs ∨ v = .dict (buildData q.md) ∨ (∃ x a, v = .dict (nxDs x a)) ∨ v = .dict q.inst ∨
      v = .dict q.mon ∨ v = .dict q.samp ∨ v = .dict q.user := by
  rw [dropLogs, items_erase, items_erase, List.mem_filter, List.mem_filter] at hm
  obtain ⟨⟨hm, h3⟩, _⟩ := hm
  replace h3 : k ≠ kSpice := by simpa using h3
  rw [Pieces.entry, assemble] at hm
  rcases mem_items_set hm with hm | ⟨rfl, rfl⟩
  swap
  · simp
  rcases mem_items_set hm with hm | ⟨rfl, rfl⟩
  swap
  · simp
  rcases mem_items_set hm with hm | ⟨rfl, rfl⟩
  swap
  · simp
  rcases mem_items_set hm with hm | ⟨rfl, rfl⟩
  swap
  · simp
  rcases mem_items_addDataset hm with hm | ⟨rfl, ds, ho, rfl⟩
  swap
  · obtain ⟨x, a, rfl⟩ := h2 _ ho
    exact .inr (.inr (.inl ⟨x, a, rfl⟩))
  rcases mem_items_addDataset hm with hm | ⟨rfl, ds, ho, rfl⟩
  swap
  · obtain ⟨x, a, rfl⟩ := h1 _ ho
    exact .inr (.inr (.inl ⟨x, a, rfl⟩))
  rcases mem_items_addDataset hm with hm | ⟨rfl, ds, ho, rfl⟩
  swap
  · obtain ⟨x, a, rfl⟩ := dsText_some ho
    exact .inr (.inr (.inl ⟨x, a, rfl⟩))
  simp only [Spec.items, List.mem_cons, Prod.mk.injEq, List.not_mem_nil, or_false] at hm
  rcases hm with ⟨rfl, rfl⟩ | ⟨rfl, rfl⟩ | ⟨rfl, rfl⟩ | ⟨rfl, rfl⟩
  · exact .inl rfl
  · exact absurd rfl h3
  · simp
  · exact .inr (.inr (.inl ⟨_, _, rfl⟩))

theorem Beside.total (hp : Made iso logs p) (h : Beside inst samp p q) (hk : Plain k) : Total k (dropLogs q.entry) := by
  have flat : ∀ g ∈ q.groups, Total k g := fun g hg => by
    obtain ⟨K, hf⟩ := h.flats g hg
    exact hf.total hk
  have hg : q.groups = [q.src, q.mono, q.coll, q.ana, q.det, q.slits, q.flip, q.goni, q.mon, q.samp, q.user] := rfl
  have hi : Total k q.inst := by
    refine total_of hk fun n v hm hn => ?_
    rcases inst_items q hm with h1 | ⟨_, h1⟩
    · exact absurd h1 hn.1
    · rcases h1 with ⟨x, a, rfl⟩ | rfl | rfl | rfl | rfl | rfl | rfl | rfl | rfl
      · exact ⟨_, rfl, total_ds hk x a⟩
      all_goals exact ⟨_, rfl, flat _ (by rw [hg]; simp)⟩
  refine total_of hk fun n v hm hn => ?_
  rcases top_values (fun ds e => by rw [h.start] at e; have := hp.hstart; rw [e] at this; exact dsDate_some this)
    (fun ds e => by rw [h.stop] at e; have := hp.hstop; rw [e] at this; exact dsDate_some this) hm with
    h1 | rfl | ⟨x, a, rfl⟩ | rfl | rfl | rfl | rfl
  · exact absurd h1 hn.1
  · refine ⟨_, rfl, total_of hk fun n' v' hm' hn' => ?_⟩
    simp only [buildData, nxEntry, items, List.mem_singleton, Prod.mk.injEq] at hm'
    exact absurd hm'.1 hn'.1
  · exact ⟨_, rfl, total_ds hk x a⟩
  · exact ⟨_, rfl, hi⟩
  all_goals exact ⟨_, rfl, flat _ (by rw [hg]; simp)⟩

/-! ## Scans -/

theorem said_path (hn : PlainNames inst samp) (hs : ConfSays inst samp k) :
    Plain k ∧ splitChar '/' (specialKey k false) = [k] := by
  obtain ⟨h1, h2⟩ := hn.plain k hs
  have h : k ≠ "attrs".toList ∧ k ≠ "dataset".toList ∧ k ≠ "detector".toList ∧ k ≠ "monitor".toList ∧ k ≠ "sample".toList := by
    simp only [List.map_cons, List.map_nil, List.mem_cons, List.not_mem_nil, or_false, not_or] at h1
    exact h1
  exact ⟨⟨h.1, h.2.1⟩, by
    rw [specialKey, if_neg (by simp), if_neg h.2.2.1, if_neg h.2.2.2.1, if_neg h.2.2.2.2, splitChar_plain h2]⟩

theorem Beside.scan (hp : Made iso logs p) (h : Beside inst samp p q) (hn : PlainNames inst samp) {lists : List Str} {sn ds : Str}
    {s0 : ScanObj} (h0 : newScan lists sn (setDatasetName p.entry ds) = .ok s0) :
    ∃ s, newScan lists sn (setDatasetName q.entry ds) = .ok s ∧
      ∀ k, ¬ ConfSays inst samp k → lookupKey k s.data = lookupKey k s0.data := by
  rw [hp.newScan_named] at h0
  obtain ⟨t, ht, rfl⟩ := map_eq_ok.1 h0
  rw [newScan] at ht
  obtain ⟨nd, hd, ht⟩ := py_bind_eq_ok.1 ht
  obtain ⟨data, hdata, rfl⟩ := map_eq_ok.1 ht
  have hfine : NameFine p.md := by
    intro t ht
    by_contra hb
    rw [hp.bad_names ht (by simpa using hb)] at hd
    exact absurd hd (by simp)
  obtain ⟨qs, hpt⟩ : ∃ l, colOf logs "Pt.".toList = some l := by
    cases hpt : colOf logs "Pt.".toList with
    | none => rw [hp.no_names hpt] at hd; exact absurd hd (by simp)
    | some l => exact ⟨l, rfl⟩
  obtain ⟨l0, hl0, hmem0⟩ := hp.names hfine lists hpt
  obtain ⟨l1, hl1, hmem1⟩ := Beside.names hp h hn hfine lists hpt
  rw [hl0] at hd
  obtain rfl := Except.ok.inj hd
  have named : ∀ k, ¬ ConfSays inst samp k → (k ∈ l1 ↔ k ∈ l0) := fun k hk =>
    (hmem1 k).trans ((somewhere_same hp h hn.data hk).trans (hmem0 k).symm)
  have known : ∀ k ∈ l0, Named logs p.md k := fun k hk => hp.named ((hmem0 k).1 hk)
  have same : ∀ k ∈ l0, ¬ ConfSays inst samp k → (nxGet (dropLogs q.entry) k false).1 = (nxGet (dropLogs p.entry) k false).1 := by
    intro k hk hs
    obtain ⟨ks, hpath⟩ := column_path (known k hk)
    rw [nxGet_drop, nxGet_drop, same_get hp h hn.data hpath hs]
  have ok : ∀ k ∈ l1, ∃ v, (nxGet (dropLogs q.entry) k false).1 = .ok v := by
    intro k hk
    by_cases hs : ConfSays inst samp k
    · obtain ⟨hpl, hpath⟩ := said_path hn hs
      rw [nxGet_drop]
      show ∃ v, getItem (dropLogs q.entry) (splitChar '/' (specialKey k false)) false = _
      rw [hpath]
      exact (Beside.total hp h hpl).2
    · have hk0 := (named k hs).1 hk
      rw [same k hk0 hs, nxGet_drop]
      exact hp.named_ok (known k hk0)
  obtain ⟨data1, hdata1⟩ := columnsLoop_ok (acc := []) ok
  have heads : ∀ k ∈ l1, (splitChar '/' (specialKey k false)).head? ≠ some kAttrs := by
    intro k hk e
    by_cases hs : ConfSays inst samp k
    · obtain ⟨hpl, hpath⟩ := said_path hn hs
      rw [hpath] at e
      exact hpl.1 (Option.some.inj e)
    · obtain ⟨ks, hpath⟩ := column_path (known k ((named k hs).1 hk))
      rw [hpath.path] at e
      exact hpath.plain.1 (Option.some.inj e)
  refine ⟨_, by rw [newScan, datasetNames_setDatasetName, hl1]
                show (columnsLoop (setDatasetName (dropLogs q.entry) ds) l1 []).map _ = _
                rw [columnsLoop_setDatasetName _ _ _ _ heads, hdata1]; rfl, fun k hs => ?_⟩
  have i1 := columnsLoop_inv hdata1 k
  have i0 := columnsLoop_inv hdata k
  show lookupKey k data1 = lookupKey k data
  by_cases hk : k ∈ l0
  · obtain ⟨v, hv, e⟩ := i1.1 ((named k hs).2 hk)
    obtain ⟨v', hv', e'⟩ := i0.1 hk
    rw [same k hk hs] at hv
    rw [e, e', Except.ok.inj (hv.symm.trans hv')]
  · rw [i1.2 fun hm => hk ((named k hs).1 hm), i0.2 hk]

end

/-! ## Theorems -/

section
variable {iso : Str → Py Str} {xml : List Str → Option Str} {inst : Option (List (Str × JSec))} {samp : Option (List (Str × JVal))}
  {lists : List Str} {fs : FS} {dir : List Str} {file : Str} {f : SpiceFile} {ds sn : Str} {s s0 : ScanObj}

theorem file_pieces (ht : TidyConfig inst samp) {d : Dict}
    (h : fileToNxWith iso xml (inst.map some) (samp.map some) fs dir file = .ok d) :
    ∃ logs p q, Made iso logs p ∧ fileToNx iso xml fs dir file = .ok p.entry ∧ d = q.entry ∧ Beside inst samp p q := by
  rw [fileToNxWith, loadJson_some, py_bind_ok, loadJson_some, py_bind_ok] at h
  obtain ⟨logs, hl, h⟩ := py_bind_eq_ok.1 h
  obtain ⟨p, q, hp, e, hb⟩ := pieces_of (c := ⟨inst, samp⟩) ht h
  exact ⟨logs, p, q, hp, by rw [fileToNx, hl, py_bind_ok]; exact entry_of_made hp, e, hb⟩

theorem without_is (h : LoadedWith iso xml none none lists fs dir file f ds sn s0) :
    ∃ d, fileToNx iso xml fs dir file = .ok d ∧ newScan lists sn (setDatasetName d ds) = .ok s0 := by
  obtain ⟨_, d, hd, hs⟩ := h
  exact ⟨d, by rw [← file_without]; exact hd, hs⟩

/-- **C106.** Configuration files do not touch what was measured: a scan read with them has the same data, column by column, as the
scan read without, for every name the files do not speak about. -/
theorem C106_columns (ht : TidyConfig inst samp) (hn : PlainNames inst samp) (h0 : LoadedWith iso xml none none lists fs dir file f ds sn s0)
    (h : LoadedWith iso xml inst samp lists fs dir file f ds sn s) {k : Str} (hk : ¬ ConfSays inst samp k) :
    lookupKey k s.data = lookupKey k s0.data := by
  obtain ⟨d0, hd0, hs0⟩ := without_is h0
  obtain ⟨_, d, hd, hs⟩ := h
  obtain ⟨logs, p, q, hp, e0, rfl, hb⟩ := file_pieces ht hd
  obtain rfl := Except.ok.inj (hd0.symm.trans e0)
  obtain ⟨s', hs', hall⟩ := Beside.scan hp hb hn hs0
  obtain rfl := Except.ok.inj (hs.symm.trans hs')
  exact hall k hk

/-- **C106.** A scan that can be read without configuration files can be read with them, if their values can be stored. -/
theorem C106_loads (hc : StorableConfig inst samp) (ht : TidyConfig inst samp) (hn : PlainNames inst samp)
    (h0 : LoadedWith iso xml none none lists fs dir file f ds sn s0) :
    ∃ s, LoadedWith iso xml inst samp lists fs dir file f ds sn s := by
  obtain ⟨d0, hd0, hs0⟩ := without_is h0
  obtain ⟨d, hd⟩ := C104_loads hc hd0
  obtain ⟨logs, p, q, hp, e0, rfl, hb⟩ := file_pieces ht hd
  obtain rfl := Except.ok.inj (hd0.symm.trans e0)
  obtain ⟨s, hs, _⟩ := Beside.scan hp hb hn hs0
  exact ⟨s, h0.1, _, hd, hs⟩

end

end Tavi
